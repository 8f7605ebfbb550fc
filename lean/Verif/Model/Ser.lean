import Verif.Model.Figment
/-!
# Serialisation (src/value/ser.rs) and the `Serialized` provider (src/providers/serialized.rs)
-/
namespace Figment

/-- What a `Serialize` implementation does with a serializer: one call of serde's data model, with what the
calls inside do. `fail` is an implementation that gives up with an error of its own.
The calls value/ser.rs:87-225 answers. -/
inductive Ser where
  | bool (b : Bool)
  /-- `serialize_u8` ... `serialize_f64`. (`usize` and `isize` do not occur in serde's data model; the
  constructors are harmless here.) -/
  | num (n : Num)
  | char (c : Char)
  | str (s : Str)
  | bytes (b : List (BitVec 8))
  | none
  | some (x : Ser)
  | unit
  | unitStruct
  | unitVariant (variant : Str)
  | newtypeStruct (x : Ser)
  | newtypeVariant (variant : Str) (x : Ser)
  | seq (l : List Ser)
  | tuple (l : List Ser)
  | tupleStruct (l : List Ser)
  | tupleVariant (variant : Str) (l : List Ser)
  | map (l : List (Ser × Ser))
  | struct (l : List (Str × Ser))
  | structVariant (variant : Str) (l : List (Str × Ser))
  | fail (e : Error)

namespace Ser

/-- `util::map![tag => value].into()` (value/ser.rs:170, 246, 343). -/
def wrap (tag : Str) (v : Value) : Value := .ofDict [(tag, v)]

mutual
/-- `Serializer for ValueSerializer` (value/ser.rs:89-223): `x.serialize(ValueSerializer)`. -/
def serialize : Ser → Except Error Value
  | .bool b => .ok (.ofBool b)
  | .num n => .ok (.ofNum n)
  | .char c => .ok (.ofChar c)
  | .str s => .ok (.ofStr s)
  | .bytes b => .ok (.ofArray (b.map fun x => .ofNum (.u8 x)))
  | .none => .ok (.ofEmpty .none)
  | .some x => serialize x
  | .unit => .ok (.ofEmpty .unit)
  | .unitStruct => .ok (.ofEmpty .unit)
  | .unitVariant v => .ok (.ofStr v)
  | .newtypeStruct x => serialize x
  | .newtypeVariant v x =>
    match serialize x with
    | .ok y => .ok (wrap v y)
    | .error e => .error e
  | .seq l | .tuple l | .tupleStruct l =>
    match serializeSeq l with
    | .ok vs => .ok (.ofArray vs)
    | .error e => .error e
  | .tupleVariant v l =>
    match serializeSeq l with
    | .ok vs => .ok (wrap v (.ofArray vs))
    | .error e => .error e
  | .map l =>
    match serializeMap l with
    | .ok es => .ok (.ofDict (Map.ofList es))
    | .error e => .error e
  | .struct l =>
    match serializeFields l with
    | .ok es => .ok (.ofDict (Map.ofList es))
    | .error e => .error e
  | .structVariant v l =>
    match serializeFields l with
    | .ok es => .ok (wrap v (.ofDict (Map.ofList es)))
    | .error e => .error e
  | .fail e => .error e
/-- `SeqSerializer` (value/ser.rs:225-298): the elements pushed one by one. -/
def serializeSeq : List Ser → Except Error (List Value)
  | [] => .ok []
  | x :: r =>
    match serialize x with
    | .error e => .error e
    | .ok v =>
      match serializeSeq r with
      | .error e => .error e
      | .ok vs => .ok (v :: vs)
/-- `SerializeMap for MapSerializer` (value/ser.rs:300-347): the keys and values pushed one by one; a key
that is not a string is an error. -/
def serializeMap : List (Ser × Ser) → Except Error (List (Str × Value))
  | [] => .ok []
  | (k, x) :: r =>
    match serialize k with
    | .error e => .error e
    | .ok (.string _ s) =>
      match serialize x with
      | .error e => .error e
      | .ok v =>
        match serializeMap r with
        | .error e => .error e
        | .ok vs => .ok ((s, v) :: vs)
    | .ok k => .error (Error.ofKind (.unsupportedKey k.toActual (Figment.str "string")))
/-- `SerializeStruct`, `SerializeStructVariant` for `MapSerializer` (value/ser.rs:349-372). -/
def serializeFields : List (Str × Ser) → Except Error (List (Str × Value))
  | [] => .ok []
  | (k, x) :: r =>
    match serialize x with
    | .error e => .error e
    | .ok v =>
      match serializeFields r with
      | .error e => .error e
      | .ok vs => .ok ((k, v) :: vs)
end

end Ser

/-- `Serialize for Num` (value/ser.rs:38-57). -/
def Num.ser : Num → Ser
  | .usize v => .num (.u64 v)
  | .isize v => .num (.i64 v)
  | n => .num n

/-- `Serialize for Empty` (value/ser.rs:59-66). -/
def Empty.ser : Empty → Ser
  | .none => .none
  | .unit => .unit

namespace Value
mutual
/-- `Serialize for Value` (value/ser.rs:8-36). -/
def ser : Value → Ser
  | .string _ v => .str v
  | .char _ v => .char v
  | .bool _ v => .bool v
  | .num _ v => v.ser
  | .empty _ v => v.ser
  | .dict _ d => .map (serD d)
  | .array _ a => .seq (serA a)
/-- The loop at value/ser.rs:21-23. -/
def serD : List (Str × Value) → List (Ser × Ser)
  | [] => []
  | (k, v) :: r => (.str k, v.ser) :: serD r
/-- The loop at value/ser.rs:29-31. -/
def serA : List Value → List Ser
  | [] => []
  | v :: r => v.ser :: serA r
end
end Value

/-- `Serialized<T>` (providers/serialized.rs:45-58): the value to serialise, the key, the profile, where it
was made; and the name of the type `T`. -/
structure Serialized where
  value : Ser
  key : Option Str
  profile : Profile
  loc : Location
  typeName : Str

namespace Serialized

/-- `Serialized::from` (providers/serialized.rs:77-84). -/
def «from» (value : Ser) (profile : Profile) (loc : Location) (typeName : Str) : Serialized :=
  { value, key := none, profile, loc, typeName }

/-- `Serialized::key` (providers/serialized.rs:181-184). -/
def withKey (s : Serialized) (key : Str) : Serialized := { s with key := some key }

/-- `Serialized::profile` (providers/serialized.rs:154-157). -/
def withProfile (s : Serialized) (p : Profile) : Serialized := { s with profile := p }

/-- `Serialized::defaults` (providers/serialized.rs:93-95). -/
def defaults (value : Ser) (loc : Location) (typeName : Str) := Serialized.from value Profile.Default loc typeName
/-- `Serialized::globals` (providers/serialized.rs:104-106). -/
def globals (value : Ser) (loc : Location) (typeName : Str) := Serialized.from value Profile.Global loc typeName
/-- `Serialized::default` (providers/serialized.rs:117-119). -/
def default (key : Str) (value : Ser) (loc : Location) (typeName : Str) :=
  (defaults value loc typeName).withKey key
/-- `Serialized::global` (providers/serialized.rs:130-132). -/
def global (key : Str) (value : Ser) (loc : Location) (typeName : Str) :=
  (globals value loc typeName).withKey key

/-- `Provider::metadata for Serialized` (providers/serialized.rs:188-190). -/
def metadata (s : Serialized) : Metadata := Metadata.from s.typeName (.code s.loc)

/-- `Provider::data for Serialized` (providers/serialized.rs:192-201). -/
def data (s : Serialized) : Except Error Data :=
  match s.value.serialize with
  | .error e => .error e
  | .ok value =>
    let error := Error.ofKind (.invalidType value.toActual (str "map"))
    let dict := match s.key with
      | some key => (nest key value).asDict?
      | none => value.asDict?
    match dict with
    | some d => .ok (s.profile.collect d)
    | none => .error error

/-- `impl Provider for Serialized` (providers/serialized.rs:187-202). -/
def toProvider (s : Serialized) : Provider := Provider.plain s.metadata s.data

end Serialized

/-- `impl Provider for (K, V)` (provider.rs:123-133). -/
def pairProvider (key : Str) (value : Ser) (loc : Location) (typeNames : Str × Str) : Provider :=
  Provider.plain (Metadata.named (str "(" ++ typeNames.1 ++ str ", " ++ typeNames.2 ++ str ")"))
    (Serialized.global key value loc typeNames.2).data

end Figment
