import Verif.Model.Tag
import Verif.Model.Num
/-!
# Values (src/value/value.rs)
-/
namespace Figment

/-- `Value` (value/value.rs:26-42). `Dict = Map<String, Value>` (value/value.rs:14) is the association
list of `Verif.Base.Map`; its invariant is `Value.WF`. -/
inductive Value where
  | string (t : Tag) (v : Str)
  | char (t : Tag) (v : Char)
  | bool (t : Tag) (v : Bool)
  | num (t : Tag) (v : Num)
  | empty (t : Tag) (v : Empty)
  | dict (t : Tag) (v : List (Str × Value))
  | array (t : Tag) (v : List Value)
deriving Repr

/-- `Dict` (value/value.rs:14). -/
abbrev Dict := Map Str Value

namespace Value

mutual
/-- Decidable equality of values, tags included (not Rust's `==`, see `Value.same`).
Not in the code; of the type at value/value.rs:26-42. -/
def decEq : (a b : Value) → Decidable (a = b)
  | .string t v, .string t' v' => decidable_of_iff (t = t' ∧ v = v') (by simp)
  | .char t v, .char t' v' => decidable_of_iff (t = t' ∧ v = v') (by simp)
  | .bool t v, .bool t' v' => decidable_of_iff (t = t' ∧ v = v') (by simp)
  | .num t v, .num t' v' => decidable_of_iff (t = t' ∧ v = v') (by simp)
  | .empty t v, .empty t' v' => decidable_of_iff (t = t' ∧ v = v') (by simp)
  | .dict t v, .dict t' v' =>
    match decEqD v v' with
    | .isTrue h => if ht : t = t' then .isTrue (by rw [h, ht]) else .isFalse (by simp [ht])
    | .isFalse h => .isFalse (by simp [h])
  | .array t v, .array t' v' =>
    match decEqA v v' with
    | .isTrue h => if ht : t = t' then .isTrue (by rw [h, ht]) else .isFalse (by simp [ht])
    | .isFalse h => .isFalse (by simp [h])
  | .string .., .char .. | .string .., .bool .. | .string .., .num .. | .string .., .empty ..
  | .string .., .dict .. | .string .., .array ..
  | .char .., .string .. | .char .., .bool .. | .char .., .num .. | .char .., .empty ..
  | .char .., .dict .. | .char .., .array ..
  | .bool .., .char .. | .bool .., .string .. | .bool .., .num .. | .bool .., .empty ..
  | .bool .., .dict .. | .bool .., .array ..
  | .num .., .char .. | .num .., .bool .. | .num .., .string .. | .num .., .empty ..
  | .num .., .dict .. | .num .., .array ..
  | .empty .., .char .. | .empty .., .bool .. | .empty .., .num .. | .empty .., .string ..
  | .empty .., .dict .. | .empty .., .array ..
  | .dict .., .char .. | .dict .., .bool .. | .dict .., .num .. | .dict .., .empty ..
  | .dict .., .string .. | .dict .., .array ..
  | .array .., .char .. | .array .., .bool .. | .array .., .num .. | .array .., .empty ..
  | .array .., .dict .. | .array .., .string .. => .isFalse (by simp)
/-- Decidable equality of dictionaries. Not in the code; of the type at value/value.rs:14. -/
def decEqD : (a b : List (Str × Value)) → Decidable (a = b)
  | [], [] => .isTrue rfl
  | [], _ :: _ => .isFalse (by simp)
  | _ :: _, [] => .isFalse (by simp)
  | (k, v) :: r, (k', v') :: r' =>
    match decEq v v', decEqD r r' with
    | .isTrue h, .isTrue h' =>
      if hk : k = k' then .isTrue (by rw [h, h', hk]) else .isFalse (by simp [hk])
    | .isFalse h, _ => .isFalse (by simp [h])
    | _, .isFalse h => .isFalse (by simp [h])
/-- Decidable equality of arrays. Not in the code; of the type at value/value.rs:26-42. -/
def decEqA : (a b : List Value) → Decidable (a = b)
  | [], [] => .isTrue rfl
  | [], _ :: _ => .isFalse (by simp)
  | _ :: _, [] => .isFalse (by simp)
  | v :: r, v' :: r' =>
    match decEq v v', decEqA r r' with
    | .isTrue h, .isTrue h' => .isTrue (by rw [h, h'])
    | .isFalse h, _ => .isFalse (by simp [h])
    | _, .isFalse h => .isFalse (by simp [h])
end

instance : DecidableEq Value := decEq

/-- `Value::tag` (value/value.rs:207-217). -/
def tag : Value → Tag
  | .string t _ | .char t _ | .bool t _ | .num t _ | .empty t _ | .dict t _ | .array t _ => t

/-- `*value.tag_mut() = tag` (value/value.rs:397-407). -/
def setTag (t : Tag) : Value → Value
  | .string _ v => .string t v
  | .char _ v => .char t v
  | .bool _ v => .bool t v
  | .num _ v => .num t v
  | .empty _ v => .empty t v
  | .dict _ v => .dict t v
  | .array _ v => .array t v

/-- `Value::as_dict` / `Value::into_dict` (value/value.rs:225-226). -/
def asDict? : Value → Option Dict
  | .dict _ d => some d
  | _ => none

/-- `Value::as_array` / `Value::into_array` (value/value.rs:227-228). -/
def asArray? : Value → Option (List Value)
  | .array _ a => some a
  | _ => none

/-- `Value::as_str` / `Value::into_string` (value/value.rs:219-220). -/
def asStr? : Value → Option Str
  | .string _ s => some s
  | _ => none

/-- `Value::to_char` (value/value.rs:221). -/
def toChar? : Value → Option Char
  | .char _ c => some c
  | _ => none

/-- `Value::to_bool` (value/value.rs:222). -/
def toBool? : Value → Option Bool
  | .bool _ b => some b
  | _ => none

/-- `Value::to_num` (value/value.rs:223). -/
def toNum? : Value → Option Num
  | .num _ n => some n
  | _ => none

/-- `Value::to_empty` (value/value.rs:224). -/
def toEmpty? : Value → Option Empty
  | .empty _ n => some n
  | _ => none

/-- `Value::to_u128` (value/value.rs:242-244). -/
def toU128 (v : Value) : Option (BitVec 128) := v.toNum?.bind Num.toU128
/-- `Value::to_i128` (value/value.rs:261-263). -/
def toI128 (v : Value) : Option (BitVec 128) := v.toNum?.bind Num.toI128
/-- `Value::to_f64` (value/value.rs:280-282). -/
def toF64 (v : Value) : Option F64 := v.toNum?.bind Num.toF64

/-- `Value::to_actual` (value/value.rs:385-395). -/
def toActual : Value → Actual
  | .string _ s => .str s
  | .char _ c => .char c
  | .bool _ b => .bool b
  | .num _ n => n.toActual
  | .empty _ e => e.toActual
  | .dict _ _ => .map
  | .array _ _ => .seq

mutual
/-- `Value::map_tag` (value/value.rs:409-421) with the closure given as the new tag's function of the
old tag: applied where the tag `==` (metadata id) the default tag, in depth. -/
def mapTag (f : Tag → Tag) : Value → Value
  | .dict t d => .dict (if t.same Tag.Default then f t else t) (mapTagD f d)
  | .array t a => .array (if t.same Tag.Default then f t else t) (mapTagA f a)
  | .string t v => .string (if t.same Tag.Default then f t else t) v
  | .char t v => .char (if t.same Tag.Default then f t else t) v
  | .bool t v => .bool (if t.same Tag.Default then f t else t) v
  | .num t v => .num (if t.same Tag.Default then f t else t) v
  | .empty t v => .empty (if t.same Tag.Default then f t else t) v
/-- The loop of value/value.rs:417. -/
def mapTagD (f : Tag → Tag) : List (Str × Value) → List (Str × Value)
  | [] => []
  | (k, v) :: r => (k, mapTag f v) :: mapTagD f r
/-- The loop of value/value.rs:418. -/
def mapTagA (f : Tag → Tag) : List Value → List Value
  | [] => []
  | v :: r => mapTag f v :: mapTagA f r
end

mutual
/-- `PartialEq for Value` (value/value.rs:438-451): tags are ignored, numbers compare as `Num`s,
dictionaries as `BTreeMap`s (same length and pairwise equal entries in order), arrays elementwise. -/
def same : Value → Value → Bool
  | .string _ a, .string _ b => a == b
  | .char _ a, .char _ b => a == b
  | .bool _ a, .bool _ b => a == b
  | .num _ a, .num _ b => a.same b
  | .empty _ a, .empty _ b => a == b
  | .dict _ a, .dict _ b => sameD a b
  | .array _ a, .array _ b => sameA a b
  | _, _ => false
/-- `PartialEq for BTreeMap` (std), used at value/value.rs:446. -/
def sameD : List (Str × Value) → List (Str × Value) → Bool
  | [], [] => true
  | (k, v) :: r, (k', v') :: r' => k == k' && same v v' && sameD r r'
  | _, _ => false
/-- `PartialEq for Vec` (std), used at value/value.rs:447. -/
def sameA : List Value → List Value → Bool
  | [], [] => true
  | v :: r, v' :: r' => same v v' && sameA r r'
  | _, _ => false
end

mutual
/-- Representation invariant: every dictionary inside is sorted by key (holds of every `BTreeMap`).
The type is value/value.rs:26-42. -/
def wf : Value → Bool
  | .dict _ d => decide (Map.Sorted d) && wfD d
  | .array _ a => wfA a
  | _ => true
/-- All values of a dictionary are well-formed. The type is value/value.rs:14. -/
def wfD : List (Str × Value) → Bool
  | [] => true
  | (_, v) :: r => wf v && wfD r
/-- All values of an array are well-formed. The type is value/value.rs:26-42. -/
def wfA : List Value → Bool
  | [] => true
  | v :: r => wf v && wfA r
end

/-- See `Value.wf`. The type is value/value.rs:26-42. -/
def WF (v : Value) : Prop := v.wf = true
instance (v : Value) : Decidable v.WF := inferInstanceAs (Decidable (_ = true))

/-! ## Conversions into `Value` (value/value.rs:467-502, 535-540): all with the default tag. -/

/-- `From<&str> for Value`, `From<String> for Value` (value/value.rs:467-471, 536). -/
def ofStr (s : Str) : Value := .string Tag.Default s
/-- `From<Dict> for Value` (value/value.rs:486-494). -/
def ofDict (d : Dict) : Value := .dict Tag.Default d
/-- `From<Vec<Value>> for Value` (value/value.rs:479-484). -/
def ofArray (a : List Value) : Value := .array Tag.Default a
/-- `From<Num> for Value` (value/value.rs:539). -/
def ofNum (n : Num) : Value := .num Tag.Default n
/-- `From<bool> for Value` (value/value.rs:536). -/
def ofBool (b : Bool) : Value := .bool Tag.Default b
/-- `From<char> for Value` (value/value.rs:536). -/
def ofChar (c : Char) : Value := .char Tag.Default c
/-- `From<Empty> for Value` (value/value.rs:539). -/
def ofEmpty (e : Empty) : Value := .empty Tag.Default e
/-- `From<Tag> for Value` (value/tag.rs:129-133). -/
def ofTag (t : Tag) : Value := .num Tag.Default (.u64 t.raw)

end Value

/-- A dictionary is a `BTreeMap` of `BTreeMap`s. The type is value/value.rs:14. -/
def Dict.WF (d : Dict) : Prop := (Value.dict Tag.Default d).WF
instance (d : Dict) : Decidable d.WF := inferInstanceAs (Decidable (_ = true))

end Figment
