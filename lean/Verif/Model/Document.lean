import Verif.Model.DataProvider
import Verif.Model.De
import Verif.Model.Find
/-!
# Reading documents (src/value/de.rs with the deserialiser of a format, src/providers/data.rs)

The parser of a format (TOML, JSON, YAML, or any other) is not modelled. What it hands to serde's visitors is: a `Doc`.
-/
namespace Figment

/-- What a format's deserialiser hands to the visitor it is given: which of the visitor's methods it calls, with what, when
asked for anything (value/de.rs:425-427, 436) or for a map (providers/data.rs:376, 378, 381, 385). A key that is not text is
`none`; `other` is a byte string or newtype, on which the visitors here fail. (No format calls a visitor with a `usize` or
`isize`; these numbers are harmless here. Simplification: a format hands over the same whether asked for anything or for a
map.) -/
inductive Doc where
  | bool (b : Bool)
  | char (c : Char)
  | str (s : Str)
  | num (n : Num)
  | none
  | unit
  | some (d : Doc)
  | seq (l : List Doc)
  | map (l : List (Option Str × Doc))
  | variant (name : Str) (d : Doc)
  | other

namespace Doc

/-- `Tag::deserialize` (value/tag.rs:135-155) from a document. Fails: `none`. -/
def tag : Doc → Option Tag
  | .num (.u8 v) => .some ⟨v.setWidth 64⟩
  | .num (.u16 v) => .some ⟨v.setWidth 64⟩
  | .num (.u32 v) => .some ⟨v.setWidth 64⟩
  | .num (.u64 v) => .some ⟨v⟩
  | _ => .none

mutual
/-- `Value::deserialize` (value/de.rs:430-441) and `RawValue::deserialize` (value/de.rs:424-428) from a document: the
deserialiser of a format answers `is_human_readable` the same twice, so both are `deserialize_any` with `ValueVisitor`
(value/de.rs:454-537). `none`: it fails, with a message of the format's. -/
def value : Doc → Option Value
  | .bool b => .some (.ofBool b)
  | .char c => .some (.ofChar c)
  | .str s => .some (.ofStr s)
  | .num n => .some (.ofNum n)
  | .none => .some (.ofEmpty .none)
  | .unit => .some (.ofEmpty .unit)
  | .some d => d.value
  | .seq l => (values l).map .ofArray
  | .map l => (entries l ⟨[], .none, .none⟩).map Value.MapState.finish
  | .variant name d => d.value.map (nest name)
  | .other => .none
/-- The loop of `ValueVisitor::visit_seq` (value/de.rs:485-487). -/
def values : List Doc → Option (List Value)
  | [] => .some []
  | d :: r =>
    match d.value with
    | .none => .none
    | .some v => (values r).map (v :: ·)
/-- The loop of `ValueVisitor::visit_map` (value/de.rs:498-506). -/
def entries : List (Option Str × Doc) → Value.MapState → Option Value.MapState
  | [], st => .some st
  | (.none, _) :: _, _ => .none
  | (.some k, d) :: r, st =>
    if k = Value.FIELD0 then
      match d.tag with
      | .none => .none
      | .some t => entries r { st with id := .some t }
    else if k = Value.FIELD1 then
      match d.value with
      | .none => .none
      | .some v => entries r { st with raw := .some v }
    else
      match d.value with
      | .none => .none
      | .some v => entries r { st with dict := Map.insert k v st.dict }
end

/-- The loop of serde's visitor for `BTreeMap<String, Value>`, which is `Dict` (value/value.rs:14), read at
providers/data.rs:376 and 385. -/
def dictLoop : List (Option Str × Doc) → Dict → Option Dict
  | [], m => .some m
  | (.none, _) :: _, _ => .none
  | (.some k, d) :: r, m =>
    match d.value with
    | .none => .none
    | .some v => dictLoop r (Map.insert k v m)

/-- `Dict::deserialize` from a document (providers/data.rs:376, 385). -/
def dict : Doc → Option Dict
  | .map l => dictLoop l []
  | _ => .none

/-- The loop of serde's visitor for `BTreeMap<Profile, Dict>`, read at providers/data.rs:378 and 381. Keys are read by
`Profile::deserialize` (profile.rs:276-296). -/
def sectionLoop : List (Option Str × Doc) → Data → Option Data
  | [], m => .some m
  | (.none, _) :: _, _ => .none
  | (.some k, d) :: r, m =>
    match d.dict with
    | .none => .none
    | .some v => sectionLoop r (Map.insert (Profile.ofText k) v m)

/-- `Map::<Profile, Dict>::deserialize` from a document (providers/data.rs:378, 381). -/
def sections : Doc → Option Data
  | .map l => sectionLoop l []
  | _ => .none

end Doc

/-- A format (providers/data.rs:438-485, 487-504) with a parser that makes a document of a text or refuses it. `refuse` is
the message if the document cannot be read as asked. -/
def Format.ofDocs (name : Str) (parse : Str → Except Str Doc) (refuse custom : Str → Str) : Format where
  name := name
  custom := custom
  dict text :=
    match parse text with
    | .error e => .error e
    | .ok d => match d.dict with
      | some m => .ok m
      | none => .error (refuse text)
  profiles text :=
    match parse text with
    | .error e => .error e
    | .ok d => match d.sections with
      | some m => .ok m
      | none => .error (refuse text)

end Figment
