import Verif.Model.Types
import Verif.Spec.Data
import Verif.Spec.Num
import Verif.Spec.Keys
/-!
# Specification: which values a type has, and for which types data round-trips
-/
namespace Figment

/-- A value of a struct of this name and with these fields can be told apart from plain data: the tag of a `Tagged` is
not the default one, a `RelativePathBuf` has the path of a file. Any other struct's can. -/
def portable (name : Str) (l : List Val) : Prop :=
  (name = Tagged.NAME → ∀ t, l.head? = some (.tag t) → t.isDefault = false) ∧
  (name = RelPath.NAME → l.head? ≠ some .none)

/-- `x` is what plain data of any kind is taken as: its numbers are of fixed widths but not of 128 bits, and its maps are
sorted by keys, without a key twice. -/
inductive Val.Content : Val → Prop
  | bool (b : Bool) : Content (.bool b)
  | num (n : Num) (h : n.width ≠ Option.some 128) (h1 : ∀ k, n ≠ .usize k) (h2 : ∀ k, n ≠ .isize k) : Content (.value (.ofNum n))
  | char (c : Char) : Content (.char c)
  | str (s : Str) : Content (.str s)
  | unit : Content .unit
  | none : Content .none
  | seq (l : List Val) (h : ∀ y ∈ l, Content y) : Content (.seq l)
  | map (l : List (Str × Val)) (h : Map.Sorted l) (h1 : ∀ e ∈ l, Content e.2) : Content (.map l)

mutual
/-- `x` is a value of the type, every `Tagged` and `RelativePathBuf` in it is `portable`, every `vec_tuple_map` in it is
sorted by keys, without a key twice, and what is parsed or converted in it comes back from what it is written as. The
keys of maps in it are text, and the entries in the order of that. -/
def Ty.Has : Ty → Val → Prop
  | .bool, x => ∃ b, x = .bool b
  | .int t, x => ∃ n, x = .int n ∧ t.min ≤ n ∧ n ≤ t.max
  | .f32, x => ∃ y, x = .f32 y
  | .f64, x => ∃ y, x = .f64 y
  | .char, x => ∃ c, x = .char c
  | .string, x => ∃ s, x = .str s
  | .pathBuf, x => ∃ s, x = .str s
  | .unit, x => x = .unit
  | .unitStruct _, x => x = .unit
  | .option t, x => x = .none ∨ ∃ y, x = .some y ∧ t.Has y
  | .newtype _ t, x => ∃ y, x = .newtype y ∧ t.Has y
  | .seq t, x => ∃ l, x = .seq l ∧ ∀ y ∈ l, t.Has y
  | .tuple ts, x => ∃ l, x = .seq l ∧ Ty.HasEach ts l
  | .tupleStruct _ ts, x => ∃ l, x = .seq l ∧ Ty.HasEach ts l
  | .map t, x => ∃ l, x = .map l ∧ Map.Sorted l ∧ ∀ e ∈ l, t.Has e.2
  | .keyed kt t, x => ∃ l, x = .entries l ∧ KeySorted kt l ∧
    ∀ e ∈ l, kt.Has e.1 ∧ t.Has e.2 ∧ (kt.KeyText e.1).isSome = true
  | .struct _ name _ fs, x => ∃ l, x = .struct l ∧ Ty.HasFields fs l ∧ portable name l
  | .enum _ vs, x => ∃ name y, x = .variant name y ∧ Ty.HasVariant name vs y
  | .value, x => ∃ v : Value, x = .value v ∧ v.WF
  | .tag, x => ∃ t, x = .tag t
  | .flag, x => ∃ b, x = .bool b
  | .pairs t, x => ∃ l, x = .map l ∧ Map.Sorted l ∧ ∀ e ∈ l, t.Has e.2
  | .parsed _ parse text, x => parse (text x) = .ok x
  | .via t conv back, x => t.Has (back x) ∧ conv (back x) = .ok x
  | .any _, x => x.Content
  | .flat _ fs conv back, x => Ty.HasFields fs (back x).1 ∧ Map.Sorted (back x).2 ∧
    (∀ e ∈ (back x).2, e.2.Content ∧ e.1 ∉ fs.map (·.1)) ∧ conv (back x).1 (back x).2 = .ok x
/-- One value for each type. -/
def Ty.HasEach : List Ty → List Val → Prop
  | [], l => l = []
  | t :: ts, l => ∃ x r, l = x :: r ∧ t.Has x ∧ Ty.HasEach ts r
/-- One value for each field. -/
def Ty.HasFields : List (Str × Option Val × Ty) → List Val → Prop
  | [], l => l = []
  | (_, _, t) :: fs, l => ∃ x r, l = x :: r ∧ t.Has x ∧ Ty.HasFields fs r
/-- The variant is one of the enum and has the content. -/
def Ty.HasVariant (name : Str) : List (Str × VTy) → Val → Prop
  | [], _ => False
  | (n, v) :: vs, x => (n = name ∧ v.Has x) ∨ (n ≠ name ∧ Ty.HasVariant name vs x)
/-- `x` is the content of the variant. -/
def VTy.Has : VTy → Val → Prop
  | .unit, x => x = .unit
  | .newtype t, x => t.Has x
  | .tuple ts, x => ∃ l, x = .seq l ∧ Ty.HasEach ts l
  | .struct _ fs, x => ∃ l, x = .struct l ∧ Ty.HasFields fs l
end

/-- Some value of the type is written as figment's empty value: units, options, whatever there is, and newtypes and
conversions of them. -/
def Ty.nullable : Ty → Bool
  | .unit | .unitStruct _ | .option _ | .value | .any _ => true
  | .newtype _ t => t.nullable
  | .via t _ _ => t.nullable
  | _ => false

/-- The value of the type is written as figment's empty value: units, `None`, and whatever is written as they are. -/
def Ty.blank : Ty → Val → Bool
  | .unit, _ => true
  | .unitStruct _, _ => true
  | .option t, .some x => t.blank x
  | .option _, _ => true
  | .newtype _ t, .newtype x => t.blank x
  | .via t _ back, x => t.blank (back x)
  | .any _, .unit => true
  | .any _, .none => true
  | _, _ => false

mutual
/-- There is no 128-bit integer in the value of the type, and no `Some` of what is written as the empty value; and each
key of a map in it is what the text that it is written as is. -/
def Ty.Kept : Ty → Val → Prop
  | .int t, _ => t ≠ .u128 ∧ t ≠ .i128
  | .option t, x => ∀ y, x = .some y → t.blank y = false ∧ t.Kept y
  | .newtype _ t, x => ∀ y, x = .newtype y → t.Kept y
  | .seq t, x => ∀ l, x = .seq l → ∀ y ∈ l, t.Kept y
  | .map t, x => ∀ l, x = .map l → ∀ e ∈ l, t.Kept e.2
  | .pairs t, x => ∀ l, x = .map l → ∀ e ∈ l, t.Kept e.2
  | .keyed kt t, x => ∀ l, x = .entries l → ∀ e ∈ l, (∀ s, kt.KeyText e.1 = some s → kt.KeyIs s e.1) ∧ t.Kept e.2
  | .via t _ back, x => t.Kept (back x)
  | .tuple ts, x => ∀ l, x = .seq l → Ty.KeptEach ts l
  | .tupleStruct _ ts, x => ∀ l, x = .seq l → Ty.KeptEach ts l
  | .struct _ _ _ fs, x => ∀ l, x = .struct l → Ty.KeptFields fs l
  | .flat _ fs _ back, x => Ty.KeptFields fs (back x).1
  | .enum _ vs, x => ∀ name y, x = .variant name y → Ty.KeptVariant name vs y
  | _, _ => True
/-- See `Kept`. -/
def Ty.KeptEach : List Ty → List Val → Prop
  | t :: ts, x :: l => t.Kept x ∧ Ty.KeptEach ts l
  | _, _ => True
/-- See `Kept`. -/
def Ty.KeptFields : List (Str × Option Val × Ty) → List Val → Prop
  | (_, _, t) :: fs, x :: l => t.Kept x ∧ Ty.KeptFields fs l
  | _, _ => True
/-- See `Kept`. -/
def Ty.KeptVariant (name : Str) : List (Str × VTy) → Val → Prop
  | [], _ => True
  | (n, v) :: vs, x => (n = name → v.Kept x) ∧ (n ≠ name → Ty.KeptVariant name vs x)
/-- See `Kept`. -/
def VTy.Kept : VTy → Val → Prop
  | .unit, _ => True
  | .newtype t, x => t.Kept x
  | .tuple ts, x => ∀ l, x = .seq l → Ty.KeptEach ts l
  | .struct _ fs, x => ∀ l, x = .struct l → Ty.KeptFields fs l
end

/-- The names the crate reserves for its magic structs. -/
def magicNames : List Str := [Value.NAME, RelPath.NAME, Tagged.NAME]

/-- The keys the crate reserves for the fields of its magic structs. -/
def reservedFields : List Str :=
  [Value.FIELD0, Value.FIELD1, RelPath.FIELD0, RelPath.FIELD1, Tagged.FIELD0, Tagged.FIELD1]

/-- The fields are those of `Tagged` or `RelativePathBuf`, according to the name. -/
def Ty.magicShape (name : Str) : List (Str × Option Val × Ty) → Bool
  | [(k0, none, .tag), (k1, none, _)] => name == Tagged.NAME && k0 == Tagged.FIELD0 && k1 == Tagged.FIELD1
  | [(k0, none, .option .pathBuf), (k1, none, .pathBuf)] =>
    name == RelPath.NAME && k0 == RelPath.FIELD0 && k1 == RelPath.FIELD1
  | _ => false

mutual
/-- The types that round-trip: no 128-bit integers, no option of a type that may itself be empty, no two fields of the
same name, no `Value`, no struct that has the name of a magic struct but is none, and no keys but those that come back
from text. -/
def Ty.faithful : Ty → Bool
  | .int t => t != .u128 && t != .i128
  | .option t => !t.nullable && t.faithful
  | .newtype _ t => t.faithful
  | .seq t => t.faithful
  | .map t => t.faithful
  | .pairs t => t.faithful
  | .keyed kt t => kt.returns && t.faithful
  | .via t _ _ => !t.isOption && t.faithful
  | .tuple ts => Ty.faithfulEach ts
  | .tupleStruct _ ts => Ty.faithfulEach ts
  | .struct _ name _ fs =>
    (!magicNames.contains name || Ty.magicShape name fs) && decide ((fs.map (·.1)).Nodup) && Ty.faithfulFields fs
  | .flat _ fs _ _ => decide ((fs.map (·.1)).Nodup) && Ty.faithfulFields fs
  | .enum _ vs => Ty.faithfulVariants vs
  | .value => false
  | _ => true
/-- See `faithful`. -/
def Ty.faithfulEach : List Ty → Bool
  | [] => true
  | t :: ts => t.faithful && Ty.faithfulEach ts
/-- See `faithful`. -/
def Ty.faithfulFields : List (Str × Option Val × Ty) → Bool
  | [] => true
  | (_, _, t) :: fs => t.faithful && Ty.faithfulFields fs
/-- See `faithful`. -/
def Ty.faithfulVariants : List (Str × VTy) → Bool
  | [] => true
  | (_, v) :: vs => v.faithful && Ty.faithfulVariants vs
/-- See `faithful`. -/
def VTy.faithful : VTy → Bool
  | .unit => true
  | .newtype t => t.faithful
  | .tuple ts => Ty.faithfulEach ts
  | .struct _ fs => decide ((fs.map (·.1)).Nodup) && Ty.faithfulFields fs
end

mutual
/-- No two fields of a struct have the same name, there is no `Value`, and no struct that has the name of a magic struct
but is none. -/
def Ty.sound : Ty → Bool
  | .option t => t.sound
  | .newtype _ t => t.sound
  | .seq t => t.sound
  | .map t => t.sound
  | .pairs t => t.sound
  | .keyed _ t => t.sound
  | .via t _ _ => t.sound
  | .tuple ts => Ty.soundEach ts
  | .tupleStruct _ ts => Ty.soundEach ts
  | .struct _ name _ fs =>
    (!magicNames.contains name || Ty.magicShape name fs) && decide ((fs.map (·.1)).Nodup) && Ty.soundFields fs
  | .flat _ fs _ _ => decide ((fs.map (·.1)).Nodup) && Ty.soundFields fs
  | .enum _ vs => Ty.soundVariants vs
  | .value => false
  | _ => true
/-- See `sound`. -/
def Ty.soundEach : List Ty → Bool
  | [] => true
  | t :: ts => t.sound && Ty.soundEach ts
/-- See `sound`. -/
def Ty.soundFields : List (Str × Option Val × Ty) → Bool
  | [] => true
  | (_, _, t) :: fs => t.sound && Ty.soundFields fs
/-- See `sound`. -/
def Ty.soundVariants : List (Str × VTy) → Bool
  | [] => true
  | (_, v) :: vs => v.sound && Ty.soundVariants vs
/-- See `sound`. -/
def VTy.sound : VTy → Bool
  | .unit => true
  | .newtype t => t.sound
  | .tuple ts => Ty.soundEach ts
  | .struct _ fs => decide ((fs.map (·.1)).Nodup) && Ty.soundFields fs
end

mutual
/-- What is converted in it, or has flattened fields, is of faithful types. -/
def Ty.direct : Ty → Bool
  | .option t => t.direct
  | .newtype _ t => t.direct
  | .seq t => t.direct
  | .map t => t.direct
  | .pairs t => t.direct
  | .keyed _ t => t.direct
  | .via t _ _ => t.faithful
  | .tuple ts => Ty.directEach ts
  | .tupleStruct _ ts => Ty.directEach ts
  | .struct _ _ _ fs => Ty.directFields fs
  | .flat _ fs _ _ => Ty.faithfulFields fs
  | .enum _ vs => Ty.directVariants vs
  | _ => true
/-- See `direct`. -/
def Ty.directEach : List Ty → Bool
  | [] => true
  | t :: ts => t.direct && Ty.directEach ts
/-- See `direct`. -/
def Ty.directFields : List (Str × Option Val × Ty) → Bool
  | [] => true
  | (_, _, t) :: fs => t.direct && Ty.directFields fs
/-- See `direct`. -/
def Ty.directVariants : List (Str × VTy) → Bool
  | [] => true
  | (_, v) :: vs => v.direct && Ty.directVariants vs
/-- See `direct`. -/
def VTy.direct : VTy → Bool
  | .unit => true
  | .newtype t => t.direct
  | .tuple ts => Ty.directEach ts
  | .struct _ fs => Ty.directFields fs
end

namespace Value
mutual
/-- The value with every number in it replaced. -/
def mapNum (g : Num → Num) : Value → Value
  | .num t n => .num t (g n)
  | .dict t d => .dict t (mapNumD g d)
  | .array t a => .array t (mapNumA g a)
  | v => v
/-- See `mapNum`. -/
def mapNumD (g : Num → Num) : List (Str × Value) → List (Str × Value)
  | [] => []
  | (k, v) :: r => (k, v.mapNum g) :: mapNumD g r
/-- See `mapNum`. -/
def mapNumA (g : Num → Num) : List Value → List Value
  | [] => []
  | v :: r => v.mapNum g :: mapNumA g r
end

mutual
/-- No dictionary in the value, at any depth, has one of the two keys the crate reserves for `Value`. -/
def noReserved : Value → Bool
  | .dict _ d => noReservedD d
  | .array _ a => noReservedA a
  | _ => true
/-- See `noReserved`. -/
def noReservedD : List (Str × Value) → Bool
  | [] => true
  | (k, v) :: r => k != FIELD0 && k != FIELD1 && v.noReserved && noReservedD r
/-- See `noReserved`. -/
def noReservedA : List Value → Bool
  | [] => true
  | v :: r => v.noReserved && noReservedA r
end

mutual
/-- Every key of every dictionary in the value, at any depth, satisfies `P`. -/
def keysAll (P : Str → Bool) : Value → Bool
  | .dict _ d => keysAllD P d
  | .array _ a => keysAllA P a
  | _ => true
/-- See `keysAll`. -/
def keysAllD (P : Str → Bool) : List (Str × Value) → Bool
  | [] => true
  | (k, v) :: r => P k && v.keysAll P && keysAllD P r
/-- See `keysAll`. -/
def keysAllA (P : Str → Bool) : List Value → Bool
  | [] => true
  | v :: r => v.keysAll P && keysAllA P r
end

/-- No dictionary in the value has a key the crate reserves for the fields of its magic structs. -/
def unreserved (v : Value) : Bool := v.keysAll fun k => !reservedFields.contains k

mutual
/-- Every tag that names no provider is replaced by that of the value around it; `t` is that of the value around the
whole. -/
def inherit (t : Tag) : Value → Value
  | .string s v => .string (if s.named then s else t) v
  | .char s v => .char (if s.named then s else t) v
  | .bool s v => .bool (if s.named then s else t) v
  | .num s v => .num (if s.named then s else t) v
  | .empty s v => .empty (if s.named then s else t) v
  | .dict s d => .dict (if s.named then s else t) (inheritD (if s.named then s else t) d)
  | .array s a => .array (if s.named then s else t) (inheritA (if s.named then s else t) a)
/-- See `inherit`. -/
def inheritD (t : Tag) : List (Str × Value) → List (Str × Value)
  | [] => []
  | (k, v) :: r => (k, v.inherit t) :: inheritD t r
/-- See `inherit`. -/
def inheritA (t : Tag) : List Value → List Value
  | [] => []
  | v :: r => v.inherit t :: inheritA t r
end
end Value

/-- The text of a value: that of a string; a character's. -/
def Value.text? : Value → Option Str
  | .string _ s => some s
  | .char _ c => some [c]
  | _ => none

/-- The forms of a boolean that the documentation of `bool_from_str_or_int` lists. -/
inductive Value.IsFlag : Value → Bool → Prop
  | bool (t : Tag) (b : Bool) : IsFlag (.bool t b) b
  | yes (v : Value) (s : Str) : v.text? = some s → s.lower = str "true" → IsFlag v true
  | no (v : Value) (s : Str) : v.text? = some s → s.lower = str "false" → IsFlag v false
  | one (t : Tag) (n : Num) : n.intVal = some 1 → IsFlag (.num t n) true
  | zero (t : Tag) (n : Num) : n.intVal = some 0 → IsFlag (.num t n) false

/-- Is the value a 128-bit integer? -/
def Value.is128 : Value → Bool
  | .num _ (.u128 _) | .num _ (.i128 _) => true
  | _ => false

end Figment
