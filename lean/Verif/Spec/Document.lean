import Verif.Model.Document
import Verif.Spec.Path
/-!
# Specification: what a document says
-/
namespace Figment.Doc

/-- The last entry with the key. -/
def last (k : Str) (l : List (Option Str × Doc)) : Option Doc :=
  (l.reverse.find? fun e => e.1 = Option.some k).map (·.2)

/-- The value in dictionaries of one key each, outermost first. -/
def within : List Str → Value → Value
  | [], v => v
  | k :: ks, v => .dict Tag.Default [(k, within ks v)]

/-- The value is the document: each scalar as it is, arrays element by element, dictionaries key by key, where the last of
entries with one key counts; the content of a variant is under the variant's name, which is a path. Nothing is tagged. -/
inductive Is : Doc → Value → Prop
  | bool (b : Bool) : Is (.bool b) (.bool Tag.Default b)
  | char (c : Char) : Is (.char c) (.char Tag.Default c)
  | str (s : Str) : Is (.str s) (.string Tag.Default s)
  | num (n : Num) : Is (.num n) (.num Tag.Default n)
  | none : Is .none (.empty Tag.Default .none)
  | unit : Is .unit (.empty Tag.Default .unit)
  | some {d : Doc} {v : Value} : Is d v → Is (.some d) v
  | seq {l : List Doc} {vs : List Value} : vs.length = l.length →
      (∀ (i : Nat) d v, l[i]? = Option.some d → vs[i]? = Option.some v → Is d v) → Is (.seq l) (.array Tag.Default vs)
  | map {l : List (Option Str × Doc)} {m : Dict} : Map.Sorted m →
      (∀ k, (Map.get k m).isSome = (last k l).isSome) →
      (∀ k d v, last k l = Option.some d → Map.get k m = Option.some v → Is d v) → Is (.map l) (.dict Tag.Default m)
  | variant {name : Str} {d : Doc} {v : Value} : Is d v → Is (.variant name d) (within (pathKeys name) v)

mutual
/-- Every key, at any depth, satisfies `P`, and nothing is `other`, unless that is allowed. -/
def check (P : Option Str → Bool) (allowed : Bool) : Doc → Bool
  | .other => allowed
  | .some d => d.check P allowed
  | .variant _ d => d.check P allowed
  | .seq l => checkSeq P allowed l
  | .map l => checkMap P allowed l
  | _ => true
/-- See `check`. -/
def checkSeq (P : Option Str → Bool) (allowed : Bool) : List Doc → Bool
  | [] => true
  | d :: r => d.check P allowed && checkSeq P allowed r
/-- See `check`. -/
def checkMap (P : Option Str → Bool) (allowed : Bool) : List (Option Str × Doc) → Bool
  | [] => true
  | (k, d) :: r => P k && d.check P allowed && checkMap P allowed r
end

/-- All keys are text and there are no byte strings or newtypes. -/
def readable (d : Doc) : Bool := d.check Option.isSome false

/-- No key is one of the two that the crate reserves for values. -/
def free (d : Doc) : Bool :=
  d.check (fun k => k != Option.some (Figment.str "___figment_value_id") && k != Option.some (Figment.str "___figment_value_value")) true

/-- The document is a number a tag can be: unsigned, of at most 64 bits. -/
inductive IsId : Doc → Tag → Prop
  | u8 (x : BitVec 8) (t : Tag) : x.toNat = t.raw.toNat → IsId (.num (.u8 x)) t
  | u16 (x : BitVec 16) (t : Tag) : x.toNat = t.raw.toNat → IsId (.num (.u16 x)) t
  | u32 (x : BitVec 32) (t : Tag) : x.toNat = t.raw.toNat → IsId (.num (.u32 x)) t
  | u64 (x : BitVec 64) (t : Tag) : x.toNat = t.raw.toNat → IsId (.num (.u64 x)) t

/-- `Is`, for documents with the reserved keys too. A map with the key `___figment_value_value` is the value there, and
nothing else in it counts but `___figment_value_id`, which everything in the value is tagged with. Without the former
the latter does not count. -/
inductive Says : Doc → Value → Prop
  | bool (b : Bool) : Says (.bool b) (.bool Tag.Default b)
  | char (c : Char) : Says (.char c) (.char Tag.Default c)
  | str (s : Str) : Says (.str s) (.string Tag.Default s)
  | num (n : Num) : Says (.num n) (.num Tag.Default n)
  | none : Says .none (.empty Tag.Default .none)
  | unit : Says .unit (.empty Tag.Default .unit)
  | some {d : Doc} {v : Value} : Says d v → Says (.some d) v
  | seq {l : List Doc} {vs : List Value} : vs.length = l.length →
      (∀ (i : Nat) d v, l[i]? = Option.some d → vs[i]? = Option.some v → Says d v) → Says (.seq l) (.array Tag.Default vs)
  | map {l : List (Option Str × Doc)} {m : Dict} : last (Figment.str "___figment_value_value") l = Option.none → Map.Sorted m →
      (∀ k, (Map.get k m).isSome = (k != Figment.str "___figment_value_id" && (last k l).isSome)) →
      (∀ k d v, last k l = Option.some d → Map.get k m = Option.some v → Says d v) → Says (.map l) (.dict Tag.Default m)
  | inner {l : List (Option Str × Doc)} {d : Doc} {v : Value} :
      last (Figment.str "___figment_value_value") l = Option.some d → Says d v →
      last (Figment.str "___figment_value_id") l = Option.none → Says (.map l) v
  | tagged {l : List (Option Str × Doc)} {d i : Doc} {v : Value} {t : Tag} :
      last (Figment.str "___figment_value_value") l = Option.some d → Says d v →
      last (Figment.str "___figment_value_id") l = Option.some i → IsId i t → Says (.map l) (v.mapTag fun _ => t)
  | variant {name : Str} {d : Doc} {v : Value} : Says d v → Says (.variant name d) (within (pathKeys name) v)

/-- The document is a number a tag can be. -/
def isId : Doc → Bool
  | .num (.u8 _) => true
  | .num (.u16 _) => true
  | .num (.u32 _) => true
  | .num (.u64 _) => true
  | _ => false

mutual
/-- All keys are text, what is under `___figment_value_id` is a number a tag can be, and elsewhere there are no byte strings
or newtypes. -/
def accepted : Doc → Bool
  | .other => false
  | .some d => d.accepted
  | .variant _ d => d.accepted
  | .seq l => acceptedSeq l
  | .map l => acceptedMap l
  | _ => true
/-- See `accepted`. -/
def acceptedSeq : List Doc → Bool
  | [] => true
  | d :: r => d.accepted && acceptedSeq r
/-- See `accepted`. -/
def acceptedMap : List (Option Str × Doc) → Bool
  | [] => true
  | (Option.none, _) :: _ => false
  | (Option.some k, d) :: r =>
    (if k = Figment.str "___figment_value_id" then d.isId else d.accepted) && acceptedMap r
end

/-- The document is a map, whose entries, reserved keys among them, are those of the dictionary; its keys are text, and
its entries can be read. -/
def SaysDict (d : Doc) (m : Dict) : Prop :=
  ∃ l, d = .map l ∧ (∀ e ∈ l, e.1.isSome = true ∧ e.2.accepted = true) ∧ Map.Sorted m ∧
    (∀ k, (Map.get k m).isSome = (last k l).isSome) ∧
    ∀ k d v, last k l = Option.some d → Map.get k m = Option.some v → Says d v

/-- The path leads to this part of the document. -/
inductive Leads : Doc → List Str → Doc → Prop
  | here (d : Doc) : Leads d [] d
  | key {l : List (Option Str × Doc)} {k : Str} {d e : Doc} {ks : List Str} :
      last k l = Option.some d → Leads d ks e → Leads (.map l) (k :: ks) e
  | some {d e : Doc} {ks : List Str} : Leads d ks e → Leads (.some d) ks e
  | variant {name : Str} {d e : Doc} {ks : List Str} : Leads d ks e → Leads (.variant name d) (pathKeys name ++ ks) e

/-- The last section for the profile: names are the same up to case. -/
def lastSection (p : Profile) (l : List (Option Str × Doc)) : Option Doc :=
  (l.reverse.find? fun e => e.1.any fun k => Str.lower k == Str.lower p.name).map (·.2)

/-- The document is this dictionary. -/
def IsDict (d : Doc) (m : Dict) : Prop := ∃ l, d = .map l ∧ d.Is (.dict Tag.Default m)

end Figment.Doc
