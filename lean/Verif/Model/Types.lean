import Verif.Model.De
import Verif.Model.Ser
import Verif.Model.Extract
/-!
# Types that serialise and deserialise

The crate is generic in the type that is extracted. This module is a universe of such types: the types for which
serde (with derive) has `Serialize` and `Deserialize` implementations, plus the crate's `Value`, `Tag`,
`RelativePathBuf` and `Tagged`. The visitors here are serde's (crate `serde` 1, not part of /repo); they are
written from its documented behaviour and are part of the trusted base (see DESIGN.md).
-/
namespace Figment

/-- The integer types. As the type `T` of figment.rs:483. -/
inductive IntTy where
  | u8 | u16 | u32 | u64 | u128 | usize | i8 | i16 | i32 | i64 | i128 | isize
deriving DecidableEq, Repr

namespace IntTy
/-- The smallest number of the type. Rust, for figment.rs:483. -/
def min : IntTy → Int
  | u8 | u16 | u32 | u64 | u128 | usize => 0
  | i8 => -2 ^ 7 | i16 => -2 ^ 15 | i32 => -2 ^ 31 | i64 | isize => -2 ^ 63 | i128 => -2 ^ 127
/-- The largest number of the type. Rust, for figment.rs:483. -/
def max : IntTy → Int
  | u8 => 2 ^ 8 - 1 | u16 => 2 ^ 16 - 1 | u32 => 2 ^ 32 - 1 | u64 | usize => 2 ^ 64 - 1 | u128 => 2 ^ 128 - 1
  | i8 => 2 ^ 7 - 1 | i16 => 2 ^ 15 - 1 | i32 => 2 ^ 31 - 1 | i64 | isize => 2 ^ 63 - 1 | i128 => 2 ^ 127 - 1
/-- The number is one of the type. Rust, for figment.rs:483. -/
def has (t : IntTy) (n : Int) : Bool := t.min ≤ n && n ≤ t.max
/-- The name of the type. Rust; in the messages of error.rs:373-388. -/
def name : IntTy → Str
  | u8 => str "u8" | u16 => str "u16" | u32 => str "u32" | u64 => str "u64" | u128 => str "u128"
  | usize => str "usize"
  | i8 => str "i8" | i16 => str "i16" | i32 => str "i32" | i64 => str "i64" | i128 => str "i128"
  | isize => str "isize"
/-- What `Serialize` for the integer type calls (serde): `serialize_u8` and so on; `usize` calls `serialize_u64`,
`isize` `serialize_i64`. The calls arrive at value/ser.rs:103-116. -/
def num : IntTy → Int → Num
  | u8, n => .u8 (BitVec.ofInt 8 n) | u16, n => .u16 (BitVec.ofInt 16 n) | u32, n => .u32 (BitVec.ofInt 32 n)
  | u64, n | usize, n => .u64 (BitVec.ofInt 64 n) | u128, n => .u128 (BitVec.ofInt 128 n)
  | i8, n => .i8 (BitVec.ofInt 8 n) | i16, n => .i16 (BitVec.ofInt 16 n) | i32, n => .i32 (BitVec.ofInt 32 n)
  | i64, n | isize, n => .i64 (BitVec.ofInt 64 n) | i128, n => .i128 (BitVec.ofInt 128 n)
end IntTy

/-- Values of the types. The results of figment.rs:483-607. -/
inductive Val where
  | bool (b : Bool) | int (n : Int) | f32 (x : F32) | f64 (x : F64) | char (c : Char) | str (s : Str) | unit
  | none | some (x : Val)
  | newtype (x : Val)
  /-- the elements of a sequence, tuple or tuple struct -/
  | seq (l : List Val)
  /-- the entries of a map, or a list of pairs -/
  | map (l : List (Str × Val))
  /-- the entries of a map with keys of another type -/
  | entries (l : List (Val × Val))
  /-- the fields in the order the type declares them -/
  | struct (l : List Val)
  /-- the variant and what it carries: `unit`, the value, `seq` or `struct` -/
  | variant (name : Str) (x : Val)
  | value (v : Value)
  | tag (t : Tag)

mutual
/-- The types. The type `T` of figment.rs:483-607. -/
inductive Ty where
  | bool | int (t : IntTy) | f32 | f64 | char | string
  /-- `PathBuf`; a path is its text -/
  | pathBuf
  | unit
  | unitStruct (name : Str)
  | option (t : Ty)
  | newtype (name : Str) (t : Ty)
  | seq (t : Ty)
  | tuple (ts : List Ty)
  | tupleStruct (name : Str) (ts : List Ty)
  /-- maps with string keys -/
  | map (t : Ty)
  /-- maps with keys of another type, or `Vec<(K, T)>` with `vec_tuple_map` (util.rs:199-241): the entries that they are
  made of, in order. What a map does with a key it is given twice, which can happen if two texts are the same `K`, is up
  to it -/
  | keyed (key t : Ty)
  /-- `text` is the Rust name, used in messages; `name` what is passed to `deserialize_struct`; `deny` is
  `#[serde(deny_unknown_fields)]`; a field is its key, its `#[serde(default)]` if any, and its type -/
  | struct (text name : Str) (deny : Bool) (fields : List (Str × Option Val × Ty))
  | enum (name : Str) (variants : List (Str × VTy))
  | value
  | tag
  /-- `bool` with `bool_from_str_or_int` (util.rs:136) as `deserialize_with` -/
  | flag
  /-- `Vec<(String, T)>` with `vec_tuple_map` (util.rs:199-241) -/
  | pairs (t : Ty)
  /-- a type read from text and written as text, like `IpAddr`, `SocketAddr` and others with `FromStr` and `Display`
  (also with `deserialize_with`): `expecting` is what its visitor says it expects, `parse` gives the value or the text of
  the error, `text` is how a value is written -/
  | parsed (expecting : Str) (parse : Str → Except Str Val) (text : Val → Str)
  /-- a type with `#[serde(try_from = "T", into = "T")]`: `conv` gives the value or the text of the error. `T` is not an
  `Option` itself: a field that is not there would then be `None`, converted; simplification: here it is missing -/
  | via (t : Ty) (conv : Val → Except Str Val) (back : Val → Val)
  /-- whatever there is, taken as it is: the buffer (serde's `Content`) that `#[serde(untagged)]` enums are read into
  first, so that such an enum is a conversion (`via`) of it; or another library's type of any data. `expecting` is what
  its visitor says it expects. Its values are those of the types above, but for the numbers, which keep their Rust
  types: they are `value`s. It takes no 128-bit integers -/
  | any (expecting : Str)
  /-- a struct with `#[serde(flatten)]` fields: `fields` are the others. The entries that are no fields are buffered, and
  `conv` makes the value, or the error, of the fields' values and these entries; `back` gives the fields' values and the
  entries that a value is written as. Which flattened field takes which entry, and how, is up to `conv` (serde,
  `FlatMapDeserializer`; so is `deny_unknown_fields`) -/
  | flat (text : Str) (fields : List (Str × Option Val × Ty)) (conv : List Val → List (Str × Val) → Except Kind Val)
    (back : Val → List Val × List (Str × Val))
/-- The kinds of enum variants. For the type `T` of figment.rs:483-607. -/
inductive VTy where
  | unit
  | newtype (t : Ty)
  | tuple (ts : List Ty)
  | struct (deny : Bool) (fields : List (Str × Option Val × Ty))
end

/-- `RelativePathBuf` (value/magic.rs:153-158; serde implementations value/magic.rs:713-969). -/
def Ty.relPath : Ty :=
  .struct (str "RelativePathBuf") RelPath.NAME false
    [(RelPath.FIELD0, none, .option .pathBuf), (RelPath.FIELD1, none, .pathBuf)]

/-- `Tagged<T>` (value/magic.rs:557-562; serde implementations value/magic.rs:1063-1360). -/
def Ty.tagged (t : Ty) : Ty :=
  .struct (str "Tagged") Tagged.NAME false [(Tagged.FIELD0, none, .tag), (Tagged.FIELD1, none, t)]

/-! ## Serialisation -/
mutual
/-- What `Serialize` does for a value of the type `any`. Run by value/value.rs:87-89. -/
def Val.anySer : Val → Ser
  | .bool b => .bool b
  | .char c => .char c
  | .str s => .str s
  | .none => .none
  | .seq l => .seq (Val.anySerSeq l)
  | .map l => .map (Val.anySerMap l)
  | .value v => v.ser
  | _ => .unit
/-- The elements. The calls arrive at value/ser.rs:165-191. -/
def Val.anySerSeq : List Val → List Ser
  | [] => []
  | x :: l => x.anySer :: Val.anySerSeq l
/-- The entries. The calls arrive at value/ser.rs:193-228. -/
def Val.anySerMap : List (Str × Val) → List (Ser × Ser)
  | [] => []
  | (k, x) :: l => (.str k, x.anySer) :: Val.anySerMap l
end

mutual
/-- What `Serialize` does for a value of the type (serde and its derive). A value that is not of the type gives an
arbitrary result. Run by value/value.rs:87-89. The crate's own: `Tag` (value/tag.rs:157-161), `RelativePathBuf`
(value/magic.rs:975-1022), `vec_tuple_map::serialize` (util.rs:205-209). -/
def Ty.ser : Ty → Val → Ser
  | .bool, .bool b => .bool b
  | .int t, .int n => .num (t.num n)
  | .f32, .f32 x => .num (.f32 x)
  | .f64, .f64 x => .num (.f64 x)
  | .char, .char c => .char c
  | .string, .str s => .str s
  | .pathBuf, .str s => .str s
  | .unit, .unit => .unit
  | .unitStruct _, .unit => .unitStruct
  | .option _, .none => .none
  | .option t, .some x => .some (t.ser x)
  | .newtype _ t, .newtype x => .newtypeStruct (t.ser x)
  | .seq t, .seq l => .seq (l.map fun x => t.ser x)
  | .tuple ts, .seq l => .tuple (Ty.serEach ts l)
  | .tupleStruct _ ts, .seq l => .tupleStruct (Ty.serEach ts l)
  | .map t, .map l => .map (l.map fun e => (.str e.1, t.ser e.2))
  | .keyed k t, .entries l => .map (l.map fun e => (k.ser e.1, t.ser e.2))
  | .struct _ _ _ fs, .struct l => .struct (Ty.serFields fs l)
  | .enum _ vs, .variant name x => Ty.serVariant name vs x
  | .value, .value v => v.ser
  | .tag, .tag t => .num (.u64 t.raw)
  | .flag, .bool b => .bool b
  | .pairs t, .map l => .map (l.map fun e => (.str e.1, t.ser e.2))
  | .parsed _ _ text, x => .str (text x)
  | .via t _ back, x => t.ser (back x)
  | .any _, x => x.anySer
  | .flat _ fs _ back, x =>
    .map ((Ty.serFields fs (back x).1).map (fun e => (.str e.1, e.2)) ++ Val.anySerMap (back x).2)
  | _, _ => .unit
termination_by structural t => t
/-- The elements of a tuple. The calls arrive at value/ser.rs:165-191. -/
def Ty.serEach : List Ty → List Val → List Ser
  | t :: ts, x :: l => t.ser x :: Ty.serEach ts l
  | _, _ => []
termination_by structural ts => ts
/-- The fields of a struct. The calls arrive at value/ser.rs:193-228. -/
def Ty.serFields : List (Str × Option Val × Ty) → List Val → List (Str × Ser)
  | (name, _, t) :: fs, x :: l => (name, t.ser x) :: Ty.serFields fs l
  | _, _ => []
termination_by structural fs => fs
/-- The variant `name` of an enum. The calls arrive at value/ser.rs:139-228. -/
def Ty.serVariant (name : Str) : List (Str × VTy) → Val → Ser
  | [], _ => .unit
  | (n, v) :: vs, x => if n = name then v.ser n x else Ty.serVariant name vs x
termination_by structural vs => vs
/-- A variant. The calls arrive at value/ser.rs:139-228. -/
def VTy.ser (name : Str) : VTy → Val → Ser
  | .unit, _ => .unitVariant name
  | .newtype t, x => .newtypeVariant name (t.ser x)
  | .tuple ts, .seq l => .tupleVariant name (Ty.serEach ts l)
  | .struct _ fs, .struct l => .structVariant name (Ty.serFields fs l)
  | _, _ => .unit
termination_by structural v => v
end

/-! ## serde's visitors -/

/-- `T::deserialize`, run on a deserialiser with settings `De` that holds the value.
Called at value/de.rs:206, value/de.rs:222, value/de.rs:250. -/
abbrev Seed := De → Value → R Val

/-- The integers `visit_u8` ... `visit_i64` are called with. Called at value/de.rs:338-375. -/
def Num.small? : Num → Option Int
  | .u8 v => some v.toNat | .u16 v => some v.toNat | .u32 v => some v.toNat | .u64 v => some v.toNat
  | .i8 v => some v.toInt | .i16 v => some v.toInt | .i32 v => some v.toInt | .i64 v => some v.toInt
  | _ => none

/-- `bool` (serde). Driven by value/de.rs:166-168. -/
def boolVisitor : Visitor Val where
  expecting := str "a boolean"
  visitBool b := .ok (.bool b)

/-- The integer types (serde): every integer of at most 64 bits is accepted if it is in range.
Driven by value/de.rs:169-173. -/
def intVisitor (t : IntTy) : Visitor Val where
  expecting := t.name
  visitNum n :=
    match n.small? with
    | some i => if t.has i then .ok (.int i) else invalidValue n.toActual t.name
    | none => invalidType n.unexpected t.name

/-- `f32` (serde). Driven by value/de.rs:169-173. -/
def f32Visitor [FloatOps] : Visitor Val where
  expecting := str "f32"
  visitNum
    | .f32 x => .ok (.f32 x)
    | .f64 x => .ok (.f32 (FloatOps.narrow x))
    | n =>
      match n.small? with
      | some i => .ok (.f32 (FloatOps.ofInt32 i))
      | none => invalidType n.unexpected (str "f32")

/-- `f64` (serde). Driven by value/de.rs:169-173. -/
def f64Visitor [FloatOps] : Visitor Val where
  expecting := str "f64"
  visitNum
    | .f32 x => .ok (.f64 x.toF64)
    | .f64 x => .ok (.f64 x)
    | n =>
      match n.small? with
      | some i => .ok (.f64 (FloatOps.ofInt64 i))
      | none => invalidType n.unexpected (str "f64")

/-- `char` (serde). Driven by value/de.rs:76-91. -/
def charVisitor : Visitor Val where
  expecting := str "a character"
  visitChar c := .ok (.char c)
  visitStr s :=
    match s with
    | [c] => .ok (.char c)
    | _ => invalidValue (.str s) (str "a character")

/-- `String` (serde). Driven by value/de.rs:76-91. -/
def stringVisitor : Visitor Val where
  expecting := str "a string"
  visitStr s := .ok (.str s)

/-- `PathBuf` (serde). Driven by value/de.rs:76-91. -/
def pathVisitor : Visitor Val where
  expecting := str "path string"
  visitStr s := .ok (.str s)

/-- `()` and unit structs (serde). Driven by value/de.rs:76-91. -/
def unitVisitor (expecting : Str) : Visitor Val where
  expecting := expecting
  visitUnit := .ok .unit

/-- `Option<T>` (serde). Driven by value/de.rs:93-103. -/
def optionVisitor (run : Seed) : Visitor Val where
  expecting := str "option"
  visitNone := .ok .none
  visitUnit := .ok .none
  visitSome de v :=
    match run de v with
    | .ok x => .ok (.some x)
    | .error e => .error e

/-- Newtype structs (serde derive). (Their `visit_seq` is never called by figment's deserialisers.).
Driven by value/de.rs:151-157. -/
def newtypeVisitor (name : Str) (run : Seed) : Visitor Val where
  expecting := str "tuple struct " ++ name
  visitNewtype de v :=
    match run de v with
    | .ok x => .ok (.newtype x)
    | .error e => .error e

/-- The loop of `visit_seq` of `Vec` (serde): all elements, from index `i`. Calls value/de.rs:244-256. -/
def seqLoop (run : Seed) (de : De) (i : Nat) : List Value → R (List Val)
  | [] => .ok []
  | v :: r =>
    match SeqDe.nextElement run de i v with
    | .error e => .error e
    | .ok x =>
      match seqLoop run de (i + 1) r with
      | .error e => .error e
      | .ok xs => .ok (x :: xs)

/-- `Vec<T>` (serde). Driven by value/de.rs:76-91. -/
def seqVisitor (run : Seed) : Visitor Val where
  expecting := str "a sequence"
  visitSeq de a :=
    match seqLoop run de 0 a with
    | .ok l => .ok (.seq l)
    | .error e => .error e

/-- `visit_seq` of tuples, tuple structs and structs (serde): one element after the other, from index `i`; a missing
one is the default if there is one, else an error. Further elements are not read. Calls value/de.rs:244-256. -/
def tupleLoop (expected : Str) (de : De) (i : Nat) : List (Option Val × Seed) → List Value → R (List Val)
  | [], _ => .ok []
  | (some x, _) :: fs, [] =>
    match tupleLoop expected de (i + 1) fs [] with
    | .error e => .error e
    | .ok xs => .ok (x :: xs)
  | (none, _) :: _, [] => invalidLength i expected
  | (_, run) :: fs, v :: r =>
    match SeqDe.nextElement run de i v with
    | .error e => .error e
    | .ok x =>
      match tupleLoop expected de (i + 1) fs r with
      | .error e => .error e
      | .ok xs => .ok (x :: xs)

/-- Tuples, tuple structs, tuple variants (serde and its derive); `short` is what a sequence that is too short is
said to be expected to be. Driven by value/de.rs:76-91. -/
def tupleVisitor (expecting short : Str) (runs : List Seed) : Visitor Val where
  expecting := expecting
  visitSeq de a :=
    match tupleLoop short de 0 (runs.map fun run => (none, run)) a with
    | .ok l => .ok (.seq l)
    | .error e => .error e

/-- The loop of `visit_map` of maps with string keys (serde). Calls value/de.rs:202-224. -/
def mapLoop (run : Seed) (de : De) : List (Str × Value) → R (List (Str × Val))
  | [] => .ok []
  | (k, v) :: r =>
    match MapDe.nextValue run de k v with
    | .error e => .error e
    | .ok x =>
      match mapLoop run de r with
      | .error e => .error e
      | .ok xs => .ok ((k, x) :: xs)

/-- `BTreeMap<String, T>` (serde): the entries are inserted one by one. (For the value of a `HashMap` the order has no
meaning.). Driven by value/de.rs:76-91. -/
def mapVisitor (run : Seed) : Visitor Val where
  expecting := str "a map"
  visitMap de d :=
    match mapLoop run de d with
    | .ok l => .ok (.map (Map.ofList l))
    | .error e => .error e

/-- The loop of `visit_map` of maps (serde) and of `vec_tuple_map` (util.rs:225-236): `MapDe::next_key_seed`
(value/de.rs:202-214), then `MapDe::next_value_seed` (value/de.rs:216-224). -/
def keyedLoop (key : Str → R Val) (run : Seed) (de : De) : List (Str × Value) → R (List (Val × Val))
  | [] => .ok []
  | (s, v) :: r =>
    match (key s).mapErr (MapDe.err s v) with
    | .error e => .error e
    | .ok k =>
      match MapDe.nextValue run de s v with
      | .error e => .error e
      | .ok x =>
        match keyedLoop key run de r with
        | .error e => .error e
        | .ok xs => .ok ((k, x) :: xs)

/-- `BTreeMap<K, T>`, `HashMap<K, T>` (serde) and `vec_tuple_map` (util.rs:215-237). Driven by value/de.rs:76-91. -/
def keyedVisitor (key : Str → R Val) (run : Seed) : Visitor Val where
  expecting := str "a map"
  visitMap de d :=
    match keyedLoop key run de d with
    | .ok l => .ok (.entries l)
    | .error e => .error e

/-- The visitor of `bool_from_str_or_int` (util.rs:137-171). serde's default `visit_u8`, `visit_u16` and `visit_u32`
call `visit_u64`, and those of signed integers `visit_i64`. -/
def flagVisitor : Visitor Val where
  expecting := str "a boolean"
  visitStr s :=
    if Str.uncasedEq s (str "true") then .ok (.bool true)
    else if Str.uncasedEq s (str "false") then .ok (.bool false)
    else invalidValue (.str s) (str "true or false")
  visitNum n :=
    match n.small? with
    | some i => if i = 0 ∨ i = 1 then .ok (.bool (i ≠ 0)) else invalidValue n.toActual (str "0 or 1")
    | none => invalidType n.unexpected (str "a boolean")
  visitBool b := .ok (.bool b)

/-- The visitor of `vec_tuple_map::deserialize` (util.rs:215-237) for pairs of a string and something: the entries in
the order of the map. -/
def pairsVisitor (run : Seed) : Visitor Val where
  expecting := str "a map"
  visitMap de d :=
    match mapLoop run de d with
    | .ok l => .ok (.map l)
    | .error e => .error e

/-- The visitor of a type that is parsed (serde, for `IpAddr` and others): the error is `Error::custom` (error.rs:374-376).
Driven by value/de.rs:76-91. -/
def parsedVisitor (expecting : Str) (parse : Str → Except Str Val) : Visitor Val where
  expecting := expecting
  visitStr s :=
    match parse s with
    | .ok x => .ok x
    | .error m => .error (Error.ofKind (.message m))

/-- The conversion of `#[serde(try_from)]` (serde derive), once the other type is read: the error is `Error::custom`
(error.rs:374-376). Runs after value/de.rs:73-181. -/
def converted (conv : Val → Except Str Val) : R Val → R Val
  | .error e => .error e
  | .ok x =>
    match conv x with
    | .ok y => .ok y
    | .error m => .error (Error.ofKind (.message m))

/-- The visitor of a buffer (serde, `ContentVisitor`), which `run` fills with what is inside. serde's default
`visit_u128` and `visit_i128` fail. Driven by value/de.rs:76-91. -/
def anyVisitor (expecting : Str) (run : Seed) : Visitor Val where
  expecting := expecting
  visitBool b := .ok (.bool b)
  visitNum
    | .u128 n => invalidType (Num.u128 n).unexpected expecting
    | .i128 n => invalidType (Num.i128 n).unexpected expecting
    | n => .ok (.value (.ofNum n))
  visitStr s := .ok (.str s)
  visitChar c := .ok (.char c)
  visitNone := .ok .none
  visitUnit := .ok .unit
  visitSeq de a :=
    match seqLoop run de 0 a with
    | .ok l => .ok (.seq l)
    | .error e => .error e
  visitMap de d :=
    match mapLoop run de d with
    | .ok l => .ok (.map l)
    | .error e => .error e

mutual
/-- How deep the value is nested. Not in the code; for `anyN`. Of value/value.rs:27-42. -/
def Value.depth : Value → Nat
  | .dict _ d => Value.depthD d + 1
  | .array _ a => Value.depthA a + 1
  | _ => 1
/-- See `depth`. Of value/value.rs:27-42. -/
def Value.depthD : List (Str × Value) → Nat
  | [] => 0
  | (_, v) :: d => max v.depth (Value.depthD d)
/-- See `depth`. Of value/value.rs:27-42. -/
def Value.depthA : List Value → Nat
  | [] => 0
  | v :: a => max v.depth (Value.depthA a)
end

/-- Buffering (serde): `deserialize_any` with `anyVisitor`. The number bounds how deep the value is nested; that its depth
is enough is `Ty.any_eq` (`Verif.Lemmas.De`). Driven by value/de.rs:76-91. -/
def anyN (expecting : Str) : Nat → Seed
  | 0 => fun _ _ => .error (Error.ofKind (.message []))
  | n + 1 => fun de v => de.deserializeAny (anyVisitor expecting (anyN expecting n)) v

/-- A field of a struct. For value/de.rs:105-123. -/
structure FieldSeed where
  name : Str
  dflt : Option Val
  /-- is the type `Option<_>`? -/
  opt : Bool
  run : Seed

/-- A field that is not there (serde derive): its default, else `None` for an `Option`, else an error.
The error is made by error.rs:398-400; the same for the crate's own types, value/magic.rs:671-702. -/
def FieldSeed.missing (f : FieldSeed) : R Val :=
  match f.dflt with
  | some x => .ok x
  | none => if f.opt then .ok .none else .error (Error.ofKind (.missingField f.name))

/-- The loop of a derived `visit_map` (serde derive): the fields found so far and the rest of the entries. Entries that
are not fields are skipped (`IgnoredAny`, which accepts everything) unless unknown fields are denied. (A dictionary
has no key twice, so `duplicate_field` does not occur.). Calls value/de.rs:202-224; the error is made by
`unknown_field` (error.rs:394-396). -/
def fieldLoop (de : De) (deny : Bool) (fs : List FieldSeed) :
    List (Str × Value) → List (Str × Val) → R (List (Str × Val))
  | [], acc => .ok acc
  | (k, v) :: r, acc =>
    match fs.find? (fun f => f.name = k) with
    | some f =>
      match MapDe.nextValue f.run de k v with
      | .error e => .error e
      | .ok x => fieldLoop de deny fs r ((k, x) :: acc)
    | none =>
      if deny then .error (MapDe.err k v (Error.ofKind (.unknownField k (fs.map (·.name)))))
      else fieldLoop de deny fs r acc

/-- What a field is once all entries have been read (serde derive). For value/de.rs:105-123. -/
def FieldSeed.get (acc : List (Str × Val)) (f : FieldSeed) : R Val :=
  match acc.lookup f.name with
  | some x => .ok x
  | none => f.missing

/-- The end of a derived `visit_map` (serde derive): the fields in order, the first missing one an error.
For value/de.rs:105-123. -/
def fieldFinish (acc : List (Str × Val)) : List FieldSeed → R (List Val)
  | [] => .ok []
  | f :: fs =>
    match f.get acc with
    | .error e => .error e
    | .ok x =>
      match fieldFinish acc fs with
      | .error e => .error e
      | .ok xs => .ok (x :: xs)

/-- Structs and struct variants (serde derive). Driven by value/de.rs:105-123. -/
def structVisitor (expecting short : Str) (deny : Bool) (fs : List FieldSeed) : Visitor Val where
  expecting := expecting
  visitSeq de a :=
    match tupleLoop short de 0 (fs.map fun f => (f.dflt, f.run)) a with
    | .ok l => .ok (.struct l)
    | .error e => .error e
  visitMap de d :=
    match fieldLoop de deny fs d [] with
    | .error e => .error e
    | .ok acc =>
      match fieldFinish acc fs with
      | .ok l => .ok (.struct l)
      | .error e => .error e

/-- How the value at a key is read by a struct with flattened fields (serde derive): as the field, or into a buffer.
Run at value/de.rs:222. -/
def flatSeed (fs : List FieldSeed) (k : Str) : Seed :=
  match fs.find? (fun f => f.name = k) with
  | some f => f.run
  | none => fun de v => anyN (str "any value") v.depth de v

/-- The loop of a derived `visit_map` with flattened fields (serde derive). The code keeps the fields and the other
entries apart while it reads them; here `flatVisitor` takes them apart afterwards. Calls value/de.rs:202-224. -/
def flatLoop (fs : List FieldSeed) (de : De) : List (Str × Value) → R (List (Str × Val))
  | [] => .ok []
  | (k, v) :: r =>
    match MapDe.nextValue (flatSeed fs k) de k v with
    | .error e => .error e
    | .ok x =>
      match flatLoop fs de r with
      | .error e => .error e
      | .ok xs => .ok ((k, x) :: xs)

/-- Structs with flattened fields (serde derive): there is no `visit_seq`; the fields come before the flattened ones.
Driven by value/de.rs:76-91. -/
def flatVisitor (expecting : Str) (fs : List FieldSeed) (conv : List Val → List (Str × Val) → Except Kind Val) :
    Visitor Val where
  expecting := expecting
  visitMap de d :=
    match flatLoop fs de d with
    | .error e => .error e
    | .ok l =>
      match fieldFinish l fs with
      | .error e => .error e
      | .ok xs =>
        match conv xs (l.filter fun e => (fs.find? (fun f => f.name = e.1)).isNone) with
        | .ok x => .ok x
        | .error k => .error (Error.ofKind k)

/-- A variant of an enum: how its content is deserialised. For value/de.rs:125-149. -/
inductive VariantSeed where
  | unit
  | newtype (run : Seed)
  | tuple (v : Visitor Val)
  | struct (v : Visitor Val)

/-- The variant without content (serde, `unit_only`). Driven by value/de.rs:135, value/de.rs:143. -/
def VariantSeed.alone : VariantSeed → R Val
  | .unit => .ok .unit
  | .newtype _ => invalidType .unitVariant (str "newtype variant")
  | .tuple _ => invalidType .unitVariant (str "tuple variant")
  | .struct _ => invalidType .unitVariant (str "struct variant")

/-- The variant with the value at its key as content (serde, `MapAsEnum`). Driven by value/de.rs:136-140. -/
def VariantSeed.with (de : De) (key : Str) (value : Value) : VariantSeed → R Val
  | .unit => MapDe.nextValue (fun de v => de.deserializeAny (unitVisitor (str "unit")) v) de key value
  | .newtype run => MapDe.nextValue run de key value
  | .tuple vis => MapDe.nextValue (fun de v => de.deserializeAny vis v) de key value
  | .struct vis => MapDe.nextValue (fun de v => de.deserializeAny vis v) de key value

/-- `Ok(E::Variant(content))`. For value/de.rs:125-149. -/
def asVariant (name : Str) : R Val → R Val
  | .ok x => .ok (.variant name x)
  | .error e => .error e

/-- Enums (serde derive; `StrDeserializer`, `U32Deserializer`, `MapAccessDeserializer` of serde).
Driven by value/de.rs:125-149. The error of an unknown name is `unknown_variant` (error.rs:390-392). -/
def enumVisitor (name : Str) (vs : List (Str × VariantSeed)) : Visitor Val where
  expecting := str "enum " ++ name
  visitEnum
    | .str s =>
      match vs.lookup s with
      | some v => asVariant s v.alone
      | none => .error (Error.ofKind (.unknownVariant s (vs.map (·.1))))
    | .u32 n =>
      match vs[n.toNat]? with
      | some (s, v) => asVariant s v.alone
      | none =>
        invalidValue (.unsigned (n.setWidth 128)) (str "variant index 0 <= i < " ++ Dec.ofNat vs.length)
    | .map _ [] => invalidType .map (str "enum")
    | .map de ((k, x) :: _) =>
      match vs.lookup k with
      | some v => asVariant k (v.with de k x)
      | none => .error (MapDe.err k x (Error.ofKind (.unknownVariant k (vs.map (·.1)))))

/-- `N element(s)` (serde derive). In the messages of error.rs:386-388. -/
def elements (n : Nat) : Str := Dec.ofNat n ++ (if n = 1 then str " element" else str " elements")

/-! ## Deserialisation -/

/-- Is the type `Option<_>`?. For the missing fields of value/de.rs:105-123. -/
def Ty.isOption : Ty → Bool
  | .option _ => true
  | _ => false

/-- The result of `Value::deserialize` as a value of type `Value`. value/de.rs:430-441. -/
def asValue : R Value → R Val
  | .ok v => .ok (.value v)
  | .error e => .error e

/-- The result of `Tag::deserialize` as a value of type `Tag`. value/tag.rs:135-155. -/
def asTag : R Tag → R Val
  | .ok t => .ok (.tag t)
  | .error e => .error e

variable [FloatOps]

mutual
/-- `T::deserialize` (serde and its derive). Run by figment.rs:483-607, through value/de.rs:73-181. -/
def Ty.de : Ty → Seed
  | .bool => fun de v => de.deserializeBool boolVisitor v
  | .int .u128 => fun _ _ => De.unsupported (str "u128")
  | .int .i128 => fun _ _ => De.unsupported (str "i128")
  | .int t => fun de v => de.deserializeNum (intVisitor t) v
  | .f32 => fun de v => de.deserializeNum f32Visitor v
  | .f64 => fun de v => de.deserializeNum f64Visitor v
  | .char => fun de v => de.deserializeAny charVisitor v
  | .string => fun de v => de.deserializeAny stringVisitor v
  | .pathBuf => fun de v => de.deserializeAny pathVisitor v
  | .unit => fun de v => de.deserializeAny (unitVisitor (str "unit")) v
  | .unitStruct n => fun de v => de.deserializeAny (unitVisitor (str "unit struct " ++ n)) v
  | .option t => fun de v => de.deserializeOption (optionVisitor t.de) v
  | .newtype n t => fun de v => de.deserializeNewtype (newtypeVisitor n t.de) v
  | .seq t => fun de v => de.deserializeAny (seqVisitor t.de) v
  | .tuple ts => fun de v =>
    let text := str "a tuple of size " ++ Dec.ofNat ts.length
    de.deserializeAny (tupleVisitor text text (Ty.deEach ts)) v
  | .tupleStruct n ts => fun de v =>
    let text := str "tuple struct " ++ n
    de.deserializeAny (tupleVisitor text (text ++ str " with " ++ elements ts.length) (Ty.deEach ts)) v
  | .map t => fun de v => de.deserializeAny (mapVisitor t.de) v
  | .keyed k t => fun de v => de.deserializeAny (keyedVisitor k.deKey t.de) v
  | .struct n name deny fs => fun de v =>
    let text := str "struct " ++ n
    de.deserializeStruct name
      (structVisitor text (text ++ str " with " ++ elements fs.length) deny (Ty.deFields fs)) v
  | .enum n vs => fun de v => de.deserializeEnum (enumVisitor n (Ty.deVariants n vs)) v
  | .value => fun de v => asValue (Value.de de v)
  | .tag => fun de v => asTag (Tag.de de v)
  | .flag => fun de v => de.deserializeAny flagVisitor v
  | .pairs t => fun de v => de.deserializeAny (pairsVisitor t.de) v
  | .parsed expecting parse _ => fun de v => de.deserializeAny (parsedVisitor expecting parse) v
  | .via t conv _ => fun de v => converted conv (t.de de v)
  | .any expecting => fun de v => anyN expecting v.depth de v
  | .flat n fs conv _ => fun de v => de.deserializeAny (flatVisitor (str "struct " ++ n) (Ty.deFields fs) conv) v
/-- `K::deserialize` on the text of a key: at value/de.rs:206, on serde's `StrDeserializer`, each of whose methods calls
`visit_str`, but for `deserialize_enum`, which calls `visit_enum`. -/
def Ty.deKey : Ty → Str → R Val
  | .bool, s => boolVisitor.visitStr s
  | .int t, s => (intVisitor t).visitStr s
  | .f32, s => f32Visitor.visitStr s
  | .f64, s => f64Visitor.visitStr s
  | .char, s => charVisitor.visitStr s
  | .string, s => stringVisitor.visitStr s
  | .pathBuf, s => pathVisitor.visitStr s
  | .unit, s => (unitVisitor (str "unit")).visitStr s
  | .unitStruct n, s => (unitVisitor (str "unit struct " ++ n)).visitStr s
  | .option t, s => (optionVisitor t.de).visitStr s
  | .newtype n t, s => (newtypeVisitor n t.de).visitStr s
  | .seq t, s => (seqVisitor t.de).visitStr s
  | .tuple ts, s =>
    let text := str "a tuple of size " ++ Dec.ofNat ts.length
    (tupleVisitor text text (Ty.deEach ts)).visitStr s
  | .tupleStruct n ts, s =>
    let text := str "tuple struct " ++ n
    (tupleVisitor text (text ++ str " with " ++ elements ts.length) (Ty.deEach ts)).visitStr s
  | .map t, s => (mapVisitor t.de).visitStr s
  | .keyed k t, s => (keyedVisitor k.deKey t.de).visitStr s
  | .struct n _ deny fs, s =>
    let text := str "struct " ++ n
    (structVisitor text (text ++ str " with " ++ elements fs.length) deny (Ty.deFields fs)).visitStr s
  | .enum n vs, s => (enumVisitor n (Ty.deVariants n vs)).visitEnum (.str s)
  | .value, s => asValue (Value.visitor.visitStr s)
  | .tag, s => asTag (tagVisitor.visitStr s)
  | .flag, s => flagVisitor.visitStr s
  | .pairs t, s => (pairsVisitor t.de).visitStr s
  | .parsed expecting parse _, s => (parsedVisitor expecting parse).visitStr s
  | .via t conv _, s => converted conv (t.deKey s)
  | .any expecting, s => (anyVisitor expecting (anyN expecting 0)).visitStr s
  | .flat n fs conv _, s => (flatVisitor (str "struct " ++ n) (Ty.deFields fs) conv).visitStr s
/-- The elements of a tuple. Run at value/de.rs:250. -/
def Ty.deEach : List Ty → List Seed
  | [] => []
  | t :: ts => t.de :: Ty.deEach ts
/-- The fields of a struct. Run at value/de.rs:222. -/
def Ty.deFields : List (Str × Option Val × Ty) → List FieldSeed
  | [] => []
  | (name, dflt, t) :: fs => ⟨name, dflt, t.isOption, t.de⟩ :: Ty.deFields fs
/-- The variants of an enum. Run by value/de.rs:125-149. -/
def Ty.deVariants (enum : Str) : List (Str × VTy) → List (Str × VariantSeed)
  | [] => []
  | (name, v) :: vs => (name, v.de (enum ++ str "::" ++ name)) :: Ty.deVariants enum vs
/-- A variant, called `name` in messages. Run by value/de.rs:125-149. -/
def VTy.de (name : Str) : VTy → VariantSeed
  | .unit => .unit
  | .newtype t => .newtype t.de
  | .tuple ts =>
    let text := str "tuple variant " ++ name
    .tuple (tupleVisitor text (text ++ str " with " ++ elements ts.length) (Ty.deEach ts))
  | .struct deny fs =>
    let text := str "struct variant " ++ name
    .struct (structVisitor text (text ++ str " with " ++ elements fs.length) deny (Ty.deFields fs))
end

/-- `Value::deserialize::<T>` (value/value.rs:100-102). -/
def Value.deserialize (v : Value) (t : Ty) : R Val := t.de De.plain v

namespace Fig
/-- `Figment::extract::<T>` (figment.rs:483-486). -/
def extract (f : Fig) (t : Ty) : R Val := f.extractWith (fun f v => t.de (De.strict f) v)
/-- `Figment::extract_lossy::<T>` (figment.rs:539-542). -/
def extractLossy (f : Fig) (t : Ty) : R Val := f.extractWith (fun f v => t.de (De.lossyOf f) v)
/-- `Figment::extract_inner::<T>` (figment.rs:569-573). -/
def extractInner (f : Fig) (path : Str) (t : Ty) : R Val := f.extractInnerWith (fun f v => t.de (De.strict f) v) path
/-- `Figment::extract_inner_lossy::<T>` (figment.rs:603-607). -/
def extractInnerLossy (f : Fig) (path : Str) (t : Ty) : R Val :=
  f.extractInnerWith (fun f v => t.de (De.lossyOf f) v) path
end Fig
end Figment
