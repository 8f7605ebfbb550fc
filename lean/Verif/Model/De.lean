import Verif.Base.Dec
import Verif.Model.Figment
import Verif.Model.NumParse
/-!
# Deserialisers (src/value/de.rs, and the `deserialize_from` functions of src/value/magic.rs)

serde's `Visitor` is a record of functions. A visitor is handed sub-deserialisers (a value together with how to
deserialise it), so `visitMap`, `visitSeq`, `visitSome`, ... get the deserialiser's settings (`De`) and the values.
-/
namespace Figment

/-- `Result<T>` (error.rs:11). -/
abbrev R := Except Error

/-- `result.map_err(f)` (std). Called at value/de.rs:66, value/de.rs:90 and in the other methods there. -/
def R.mapErr {α : Type _} (f : Error → Error) : R α → R α
  | .ok x => .ok x
  | .error e => .error (f e)

/-- The settings of a deserialiser. `config = some figment`: `ConfiguredValueDe` (value/de.rs:43-54), with
`lossy` telling `LossyInterpreter` from `DefaultInterpreter` (value/de.rs:25-41). `config = none`: `&Value`
(value/de.rs:263-330). The cell `readable` is not a field: it only tells the two apart (value/de.rs:432-439). -/
structure De where
  config : Option Fig
  lossy : Bool

/-- `&Value` as a deserialiser (value/de.rs:263). -/
def De.plain : De := ⟨none, false⟩
/-- `ConfiguredValueDe<DefaultInterpreter>` (figment.rs:484, 571). -/
def De.strict (f : Fig) : De := ⟨some f, false⟩
/-- `ConfiguredValueDe<LossyInterpreter>` (figment.rs:540, 605). -/
def De.lossyOf (f : Fig) : De := ⟨some f, true⟩

/-- serde's `EnumAccess` as this crate makes it: from a string (value/de.rs:135, 302), from a dictionary's
entries (value/de.rs:139, 305), from a `u32` (value/de.rs:143, 309). -/
inductive EnumAccess where
  | str (s : Str)
  | map (de : De) (d : Dict)
  | u32 (n : BitVec 32)

/-- The `Unexpected` serde's default `visit_u8` ... `visit_f64` report, through error.rs:348-371. -/
def Num.unexpected : Num → Actual
  | .u128 v => .other (str "integer `" ++ Dec.ofNat v.toNat ++ str "` as u128")
  | .i128 v => .other (str "integer `" ++ Dec.ofInt v.toInt ++ str "` as i128")
  | n => n.toActual

/-- `de::Error::invalid_type` (error.rs:378-380). -/
def invalidType {α : Type _} (a : Actual) (expected : Str) : R α := .error (Error.ofKind (.invalidType a expected))
/-- `de::Error::invalid_value` (error.rs:382-384). -/
def invalidValue {α : Type _} (a : Actual) (expected : Str) : R α := .error (Error.ofKind (.invalidValue a expected))
/-- `de::Error::invalid_length` (error.rs:386-388). -/
def invalidLength {α : Type _} (n : Nat) (expected : Str) : R α := .error (Error.ofKind (.invalidLength n expected))

/-- serde's `Visitor` with its default methods. `visitNum` is the fourteen `visit_u8` ... `visit_f64` methods (on
numbers other than `usize` and `isize`). serde's default `visit_char` is `visit_str` on the one-character string.
Byte strings do not occur. Its methods are called at value/de.rs:76-181 and value/de.rs:263-331. -/
structure Visitor (α : Type) where
  /-- the text `expecting` writes -/
  expecting : Str
  visitBool : Bool → R α := fun b => invalidType (.bool b) expecting
  visitNum : Num → R α := fun n => invalidType n.unexpected expecting
  visitStr : Str → R α := fun s => invalidType (.str s) expecting
  visitChar : Char → R α := fun c => visitStr [c]
  visitNone : R α := invalidType .option expecting
  visitUnit : R α := invalidType .unit expecting
  visitSome : De → Value → R α := fun _ _ => invalidType .option expecting
  visitNewtype : De → Value → R α := fun _ _ => invalidType .newtypeStruct expecting
  visitSeq : De → List Value → R α := fun _ _ => invalidType .seq expecting
  visitMap : De → Dict → R α := fun _ _ => invalidType .map expecting
  visitEnum : EnumAccess → R α := fun _ => invalidType .enum expecting

/-- `int_try!` (value/de.rs:332-336) for `usize`: the number that is visited (value/de.rs:365-372). On a 64-bit
target the fourth attempt always succeeds. -/
def Num.tryUsize (n : BitVec 64) : Num :=
  if (n.setWidth 8).setWidth 64 = n then .u8 (n.setWidth 8)
  else if (n.setWidth 16).setWidth 64 = n then .u16 (n.setWidth 16)
  else if (n.setWidth 32).setWidth 64 = n then .u32 (n.setWidth 32)
  else .u64 n

/-- `int_try!` (value/de.rs:332-336) for `isize` (value/de.rs:357-364). -/
def Num.tryIsize (n : BitVec 64) : Num :=
  if (n.setWidth 8).signExtend 64 = n then .i8 (n.setWidth 8)
  else if (n.setWidth 16).signExtend 64 = n then .i16 (n.setWidth 16)
  else if (n.setWidth 32).signExtend 64 = n then .i32 (n.setWidth 32)
  else .i64 n

/-- `Num::deserialize_any` (value/de.rs:341-374). -/
def Num.deserializeAny {α : Type} (v : Visitor α) : Num → R α
  | .usize n => v.visitNum (Num.tryUsize n)
  | .isize n => v.visitNum (Num.tryIsize n)
  | n => v.visitNum n

/-- `Empty::deserialize_any` (value/de.rs:386-393). -/
def Empty.deserializeAny {α : Type} (v : Visitor α) : Empty → R α
  | .unit => v.visitUnit
  | .none => v.visitNone

/-! ## `MapAccess` and `SeqAccess` -/

/-- The error of `MapDe::next_key_seed` (value/de.rs:205-208) and `MapDe::next_value_seed` (value/de.rs:220-223)
at the entry `(key, value)`. -/
def MapDe.err (key : Str) (value : Value) (e : Error) : Error := (e.prefixed key).retagged value.tag

/-- `MapDe::next_value_seed` (value/de.rs:217-224) at the entry `(key, value)`. -/
def MapDe.nextValue {α : Type _} (seed : De → Value → R α) (de : De) (key : Str) (value : Value) : R α :=
  (seed de value).mapErr (MapDe.err key value)

/-- `SeqDe::next_element_seed` (value/de.rs:244-256) at the element `item` of index `i`. -/
def SeqDe.nextElement {α : Type _} (seed : De → Value → R α) (de : De) (i : Nat) (item : Value) : R α :=
  (seed de item).mapErr (Error.prefixed (Dec.ofNat i))

/-! ## The names of the magic structs -/

/-- `Value::NAME` (value/de.rs:404). -/
def Value.NAME : Str := str "___figment_value"
/-- `Value::FIELDS[0]` (value/de.rs:407). -/
def Value.FIELD0 : Str := str "___figment_value_id"
/-- `Value::FIELDS[1]` (value/de.rs:407). -/
def Value.FIELD1 : Str := str "___figment_value_value"
/-- `RelativePathBuf::NAME` (value/magic.rs:173). -/
def RelPath.NAME : Str := str "___figment_relative_path_buf"
/-- `RelativePathBuf::FIELDS[0]` (value/magic.rs:176). -/
def RelPath.FIELD0 : Str := str "___figment_relative_metadata_path"
/-- `RelativePathBuf::FIELDS[1]` (value/magic.rs:177). -/
def RelPath.FIELD1 : Str := str "___figment_relative_path"
/-- `Tagged::NAME` (value/magic.rs:570). -/
def Tagged.NAME : Str := str "___figment_tagged_item"
/-- `Tagged::FIELDS[0]` (value/magic.rs:573). -/
def Tagged.FIELD0 : Str := str "___figment_tagged_tag"
/-- `Tagged::FIELDS[1]` (value/magic.rs:573). -/
def Tagged.FIELD1 : Str := str "___figment_tagged_value"

/-! ## The deserialiser's methods -/
namespace De
variable {α : Type}

/-- What the deserialiser does to an error at a value with tag `tag`: `e.retagged(tag).resolved(config)`
(value/de.rs:90, 102, 122, 148, 168, 173) or `e.retagged(tag)` (value/de.rs:280, 314). -/
def err (de : De) (tag : Tag) (e : Error) : Error :=
  match de.config with
  | some f => (e.retagged tag).resolved f.metadata f.profile
  | none => e.retagged tag

/-- `deserialize_any` (value/de.rs:76-91, 266-281). -/
def deserializeAny (de : De) (v : Visitor α) (value : Value) : R α :=
  R.mapErr (de.err value.tag) <|
    match value with
    | .string _ s => v.visitStr s
    | .char _ c => v.visitChar c
    | .bool _ b => v.visitBool b
    | .num _ n => n.deserializeAny v
    | .empty _ e => e.deserializeAny v
    | .dict _ map => v.visitMap de map
    | .array _ seq => v.visitSeq de seq

/-- `deserialize_option` (value/de.rs:93-103, 283-291). -/
def deserializeOption (de : De) (v : Visitor α) (value : Value) : R α :=
  match de.config with
  | some _ =>
    R.mapErr (de.err value.tag) <|
      match value with
      | .empty _ e => e.deserializeAny v
      | _ => v.visitSome de value
  | none =>
    match value with
    | .empty t e => R.mapErr (de.err t) (e.deserializeAny v)
    | _ => v.visitSome de value

/-- `Value::deserialize_from` (value/de.rs:410-418). -/
def valueFrom (de : De) (v : Visitor α) (value : Value) : R α :=
  v.visitMap de (Map.insert Value.FIELD1 value (Map.insert Value.FIELD0 (Value.ofTag value.tag) []))

/-- `RelativePathBuf::deserialize_from` (value/magic.rs:180-209). `path.display().to_string()` is the path's text. -/
def relPathFrom (de : De) (f : Fig) (v : Visitor α) (value : Value) : R α :=
  let fresh : R α :=
    let metadataPath := (Map.get value.tag f.metadata).bind fun m => m.source.bind Source.filePath
    let map : Dict := match metadataPath with
      | some path => Map.insert RelPath.FIELD0 (.ofStr path) []
      | none => []
    let inner := (value.find RelPath.FIELD1).getD value
    v.visitMap de (Map.insert RelPath.FIELD1 inner map)
  match value.asDict? with
  | some d =>
    match Map.get RelPath.FIELD0 d with
    | some mpv => if mpv.toEmpty?.isNone then v.visitMap de d else fresh
    | none => fresh
  | none => fresh

end De

/-- The visitor of `Deserialize for Tag` (value/tag.rs:139-151): `visit_u64`, which serde's default `visit_u8`,
`visit_u16` and `visit_u32` call. -/
def tagVisitor : Visitor Tag where
  expecting := str "a 64-bit metadata id integer"
  visitNum
    | .u8 v => .ok ⟨v.setWidth 64⟩
    | .u16 v => .ok ⟨v.setWidth 64⟩
    | .u32 v => .ok ⟨v.setWidth 64⟩
    | .u64 v => .ok ⟨v⟩
    | n => invalidType n.unexpected (str "a 64-bit metadata id integer")

/-- `Deserialize for Tag` (value/tag.rs:135-155). -/
def Tag.de (de : De) (value : Value) : R Tag := de.deserializeAny tagVisitor value

namespace De
variable {α : Type}

/-- `Tagged::deserialize_from` (value/magic.rs:576-599). -/
def taggedFrom (de : De) (v : Visitor α) (value : Value) : R α :=
  let fresh : R α :=
    let inner := (value.find Tagged.FIELD1).getD value
    v.visitMap de (Map.insert Tagged.FIELD1 inner (Map.insert Tagged.FIELD0 (Value.ofTag value.tag) []))
  match value.asDict? with
  | some dict =>
    match Map.get Tagged.FIELD0 dict with
    | some tagv =>
      match Tag.de De.plain tagv with
      | .ok t => if t.isDefault then fresh else v.visitMap de dict
      | .error _ => fresh
    | none => fresh
  | none => fresh

/-- `deserialize_struct` (value/de.rs:105-123; forwarded to `deserialize_any` at value/de.rs:327). -/
def deserializeStruct (de : De) (name : Str) (v : Visitor α) (value : Value) : R α :=
  match de.config with
  | some f =>
    R.mapErr (de.err value.tag) <|
      if name = Value.NAME then de.valueFrom v value
      else if name = RelPath.NAME then de.relPathFrom f v value
      else if name = Tagged.NAME then de.taggedFrom v value
      else de.deserializeAny v value
  | none => de.deserializeAny v value

/-- `deserialize_enum` (value/de.rs:125-149, 293-315). -/
def deserializeEnum (de : De) (v : Visitor α) (value : Value) : R α :=
  R.mapErr (de.err value.tag) <|
    match value with
    | .string _ s => v.visitEnum (.str s)
    | .dict _ map => v.visitEnum (.map de map)
    | .num _ n =>
      match n.toU32 with
      | some tag => v.visitEnum (.u32 tag)
      | none => de.deserializeAny v value
    | _ => de.deserializeAny v value

/-- `deserialize_newtype_struct` (value/de.rs:151-157, 317-323). -/
def deserializeNewtype (de : De) (v : Visitor α) (value : Value) : R α := v.visitNewtype de value

/-- `interpret_as_bool` (value/de.rs:16-18, 30-34). -/
def interpretAsBool (de : De) (value : Value) : Value :=
  if de.lossy then
    match value.toBoolLossy with
    | some b => .bool value.tag b
    | none => value
  else value

/-- `interpret_as_num` (value/de.rs:20-22, 36-40). -/
def interpretAsNum [FloatOps] (de : De) (value : Value) : Value :=
  if de.lossy then
    match value.toNumLossy with
    | some n => .num value.tag n
    | none => value
  else value

/-- `deserialize_bool` (value/de.rs:166-168; forwarded at value/de.rs:326). -/
def deserializeBool (de : De) (v : Visitor α) (value : Value) : R α :=
  match de.config with
  | some _ => R.mapErr (de.err value.tag) (De.plain.deserializeAny v (de.interpretAsBool value))
  | none => de.deserializeAny v value

/-- `deserialize_u8` ... `deserialize_f64` (value/de.rs:169-173; forwarded at value/de.rs:326). -/
def deserializeNum [FloatOps] (de : De) (v : Visitor α) (value : Value) : R α :=
  match de.config with
  | some _ => R.mapErr (de.err value.tag) (De.plain.deserializeAny v (de.interpretAsNum value))
  | none => de.deserializeAny v value

/-- `deserialize_u128`, `deserialize_i128`: not implemented by figment, so serde's default, which fails with
`de::Error::custom` (error.rs:374-376). -/
def unsupported (name : Str) : R α := .error (Error.ofKind (.message (name ++ str " is not supported")))

end De

/-! ## Extracting a `Value` (value/de.rs:421-537) -/
namespace Value

/-- The locals of `ValueVisitor::visit_map` (value/de.rs:495-497): `dict`, `id`, `raw_val`. -/
structure MapState where
  dict : Dict
  id : Option Tag
  raw : Option Value

/-- The end of `ValueVisitor::visit_map` (value/de.rs:508-516). -/
def MapState.finish (st : MapState) : Value :=
  match st.raw with
  | some value =>
    match st.id with
    | some id => value.mapTag fun _ => id
    | none => value
  | none => .ofDict st.dict

/-- One round of the loop of `ValueVisitor::visit_map` (value/de.rs:498-506) at the entry `(key, v)`, given how
`Value` and `RawValue` deserialise `v`. -/
def visitEntry (de : De) (key : Str) (v : Value) (asValue asRaw : R Value) (st : MapState) : R MapState :=
  if key = FIELD0 then
    match MapDe.nextValue Tag.de de key v with
    | .ok t => .ok { st with id := some t }
    | .error e => .error e
  else if key = FIELD1 then
    match asRaw.mapErr (MapDe.err key v) with
    | .ok x => .ok { st with raw := some x }
    | .error e => .error e
  else
    match asValue.mapErr (MapDe.err key v) with
    | .ok x => .ok { st with dict := Map.insert key x st.dict }
    | .error e => .error e

/-- `ValueVisitor::visit_map` on the dictionary `Value::deserialize_from` makes (value/de.rs:414-417), given how
`RawValue` deserialises the value: what `Value::deserialize` (value/de.rs:431-440) does under a
`ConfiguredValueDe`; under `&Value` it is the same as `RawValue::deserialize`. -/
def deOfRaw (de : De) (v : Value) (asRaw : R Value) : R Value :=
  match de.config with
  | none => asRaw
  | some _ =>
    R.mapErr (de.err v.tag) <|
      match MapDe.nextValue Tag.de de FIELD0 (ofTag v.tag) with
      | .error e => .error e
      | .ok id =>
        match asRaw.mapErr (MapDe.err FIELD1 v) with
        | .error e => .error e
        | .ok x => .ok (MapState.finish ⟨[], some id, some x⟩)

mutual
/-- `RawValue::deserialize` (value/de.rs:425-427): `deserialize_any` with `ValueVisitor` (value/de.rs:454-537).
Written out by recursion on the value; that it is `deserialize_any` with the visitor is
`Value.rawDe_eq` (`Verif.Lemmas.De`). -/
def rawDe (de : De) : Value → R Value
  | .string _ s => .ok (.ofStr s)
  | .char _ c => .ok (.ofChar c)
  | .bool _ b => .ok (.ofBool b)
  | .num _ (.usize n) => .ok (.ofNum (Num.tryUsize n))
  | .num _ (.isize n) => .ok (.ofNum (Num.tryIsize n))
  | .num _ n => .ok (.ofNum n)
  | .empty _ e => .ok (.ofEmpty e)
  | .dict t d =>
    match rawDeMap de d ⟨[], none, none⟩ with
    | .ok st => .ok st.finish
    | .error e => .error (de.err t e)
  | .array t a =>
    match rawDeSeq de 0 a with
    | .ok l => .ok (.ofArray l)
    | .error e => .error (de.err t e)
/-- The loop of `ValueVisitor::visit_map` (value/de.rs:498-506). -/
def rawDeMap (de : De) : List (Str × Value) → MapState → R MapState
  | [], st => .ok st
  | (k, v) :: r, st =>
    match visitEntry de k v (deOfRaw de v (rawDe de v)) (rawDe de v) st with
    | .ok st => rawDeMap de r st
    | .error e => .error e
/-- The loop of `ValueVisitor::visit_seq` (value/de.rs:485-487). -/
def rawDeSeq (de : De) (i : Nat) : List Value → R (List Value)
  | [] => .ok []
  | v :: r =>
    match (deOfRaw de v (rawDe de v)).mapErr (Error.prefixed (Dec.ofNat i)) with
    | .error e => .error e
    | .ok x =>
      match rawDeSeq de (i + 1) r with
      | .error e => .error e
      | .ok xs => .ok (x :: xs)
end

/-- `Deserialize for Value` (value/de.rs:430-441). That under a `ConfiguredValueDe` it is `deserialize_struct` with
`ValueVisitor` is `Value.de_eq` (`Verif.Lemmas.De`). -/
def de (de : De) (v : Value) : R Value := deOfRaw de v (rawDe de v)

/-- `ValueVisitor` (value/de.rs:454-537). (`visit_enum` and `visit_newtype_struct` are never called by figment's
deserialisers with this visitor.) -/
def visitor : Visitor Value where
  expecting := str "any valid figment value"
  visitBool b := .ok (.ofBool b)
  visitChar c := .ok (.ofChar c)
  visitStr s := .ok (.ofStr s)
  visitNum n := .ok (.ofNum n)
  visitNone := .ok (.ofEmpty .none)
  visitUnit := .ok (.ofEmpty .unit)
  visitSome de v := rawDe de v
  visitSeq de a :=
    match rawDeSeq de 0 a with
    | .ok l => .ok (.ofArray l)
    | .error e => .error e
  visitMap de d :=
    match rawDeMap de d ⟨[], none, none⟩ with
    | .ok st => .ok st.finish
    | .error e => .error e

end Value
end Figment
