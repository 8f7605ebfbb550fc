import Verif.Spec.Types
/-!
# Specification: what a value means, read as a type

`t.Means lossy file v x`: read as the type `t`, the value `v` is `x`. This says for each type which values are accepted
and what they are, without saying how they are read. `lossy` is for the lossy extractions, which also accept text for
numbers and numbers and words for booleans; `file` is the file that the provider with a tag has read, if it has.
-/
namespace Figment

/-- The value is the truth value `b`; if `lossy`, also the integers 0 and 1 and the eight words are. -/
def Value.IsBool (lossy : Bool) (v : Value) (b : Bool) : Prop :=
  (∃ t, v = .bool t b) ∨ (lossy = true ∧
    ((∃ t n, v = .num t n ∧ n.intVal = some (if b then 1 else 0)) ∨ ∃ t s, v = .string t s ∧ Str.lower s ∈ boolWords b))

/-- The value is the number `n`; if `lossy`, also text that parses as the number is. -/
def Value.IsNum [FloatOps] (lossy : Bool) (v : Value) (n : Num) : Prop :=
  (∃ t, v = .num t n) ∨ (lossy = true ∧ ∃ t s, v = .string t s ∧ Num.parse s = some n)

/-- The number is the integer `i`, and not of a 128-bit type: serde's own types take no 128-bit integers. -/
def Num.IsInt (n : Num) (i : Int) : Prop := n.intVal = some i ∧ n.width ≠ some 128

/-- What is read for a field that is not there: its default, or `None` if it has none and is an `Option`. -/
def Ty.Absent (dflt : Option Val) (t : Ty) (x : Val) : Prop :=
  dflt = some x ∨ (dflt = none ∧ t.isOption = true ∧ x = .none)

/-- `Some(path)` or `None`. -/
def Val.ofPath? : Option Str → Val
  | Option.some p => .some (.str p)
  | Option.none => .none

/-- `g` leaves all numbers alone but `usize` and `isize`, which become the narrowest fixed-width numbers of the same
signedness and with the same value. -/
structure Num.Narrowing (g : Num → Num) : Prop where
  other : ∀ n, (∀ k, n ≠ .usize k) → (∀ k, n ≠ .isize k) → g n = n
  value : ∀ n, (g n).intVal = n.intVal ∧ (g n).isSigned = n.isSigned
  narrow : ∀ k, (g (.usize k)).Narrowest ∧ (g (.isize k)).Narrowest

/-- The file read by the provider of the tag: that of its metadata's source. -/
def Fig.fileAt (f : Fig) (t : Tag) : Option Str := (Map.get t f.metadata).bind fun m => m.source.bind Source.filePath

mutual
/-- Taken as it is, without its provenance, the value is `x`; it has no 128-bit integers in it. -/
def Value.Buffers : Value → Val → Prop
  | .string _ s, x => x = .str s
  | .char _ c, x => x = .char c
  | .bool _ b, x => x = .bool b
  | .num _ n, x => n.width ≠ some 128 ∧ ∃ g, Num.Narrowing g ∧ x = .value (.ofNum (g n))
  | .empty _ .unit, x => x = .unit
  | .empty _ .none, x => x = .none
  | .dict _ d, x => ∃ l, x = .map l ∧ Value.BuffersD d l
  | .array _ a, x => ∃ l, x = .seq l ∧ Value.BuffersA a l
/-- The same for the entries of a dictionary. -/
def Value.BuffersD : List (Str × Value) → List (Str × Val) → Prop
  | [], l => l = []
  | (k, v) :: d, l => ∃ y l', l = (k, y) :: l' ∧ v.Buffers y ∧ Value.BuffersD d l'
/-- The same for the elements of an array. -/
def Value.BuffersA : List Value → List Val → Prop
  | [], l => l = []
  | v :: a, l => ∃ y l', l = y :: l' ∧ v.Buffers y ∧ Value.BuffersA a l'
end

variable [FloatOps]

mutual
/-- Read as the type, the value is `x`. -/
def Ty.Means (lossy : Bool) (file : Tag → Option Str) : Ty → Value → Val → Prop
  | .bool, v, x => ∃ b, x = .bool b ∧ v.IsBool lossy b
  | .int t, v, x => t ≠ .u128 ∧ t ≠ .i128 ∧ ∃ n i, v.IsNum lossy n ∧ n.IsInt i ∧ t.min ≤ i ∧ i ≤ t.max ∧ x = .int i
  | .f32, v, x => ∃ n y, v.IsNum lossy n ∧ x = .f32 y ∧
    (n = .f32 y ∨ (∃ z, n = .f64 z ∧ y = FloatOps.narrow z) ∨ ∃ i, n.IsInt i ∧ y = FloatOps.ofInt32 i)
  | .f64, v, x => ∃ n y, v.IsNum lossy n ∧ x = .f64 y ∧
    (n = .f64 y ∨ (∃ z, n = .f32 z ∧ y = z.toF64) ∨ ∃ i, n.IsInt i ∧ y = FloatOps.ofInt64 i)
  | .char, v, x => ∃ c, x = .char c ∧ v.text? = some [c]
  | .string, v, x => ∃ s, x = .str s ∧ v.text? = some s
  | .pathBuf, v, x => ∃ s, x = .str s ∧ v.text? = some s
  | .unit, v, x => x = .unit ∧ ∃ tag, v = .empty tag .unit
  | .unitStruct _, v, x => x = .unit ∧ ∃ tag, v = .empty tag .unit
  | .option t, v, x =>
    (x = .none ∧ ∃ tag e, v = .empty tag e) ∨ ((∀ tag e, v ≠ .empty tag e) ∧ ∃ y, x = .some y ∧ t.Means lossy file v y)
  | .newtype _ t, v, x => ∃ y, x = .newtype y ∧ t.Means lossy file v y
  | .seq t, v, x => ∃ tag a l, v = .array tag a ∧ x = .seq l ∧ a.length = l.length ∧
    ∀ (i : Nat) w y, a[i]? = some w → l[i]? = some y → t.Means lossy file w y
  | .tuple ts, v, x => ∃ tag a l, v = .array tag a ∧ x = .seq l ∧ Ty.MeansEach lossy file ts a l
  | .tupleStruct _ ts, v, x => ∃ tag a l, v = .array tag a ∧ x = .seq l ∧ Ty.MeansEach lossy file ts a l
  | .map t, v, x => ∃ tag d l, v = .dict tag d ∧ x = .map l ∧ d.map (·.1) = l.map (·.1) ∧
    ∀ (i : Nat) k w y, d[i]? = some (k, w) → l[i]? = some (k, y) → t.Means lossy file w y
  | .struct _ name deny fs, v, x =>
    if name = Tagged.NAME then ∃ y, x = .struct [.tag v.tag, y] ∧ Ty.MeansLast lossy file fs v y
    else if name = RelPath.NAME then ∃ s, x = .struct [.ofPath? (file v.tag), .str s] ∧ v.text? = some s
    else ∃ l, x = .struct l ∧
      ((∃ tag d, v = .dict tag d ∧ Ty.MeansFields lossy file fs d l ∧
          (deny = true → ∀ e ∈ d, e.1 ∈ fs.map (·.1))) ∨
        ∃ tag a, v = .array tag a ∧ Ty.MeansElems lossy file fs a l)
  | .enum _ vs, v, x =>
    (∃ tag s, v = .string tag s ∧ x = .variant s .unit ∧ vs.lookup s = some .unit) ∨
    (∃ tag n, ∃ i : Nat, ∃ s, v = .num tag n ∧ n.isSigned = false ∧ (∃ w, n.width = some w ∧ w ≤ 32) ∧ n.intVal = some (i : Int) ∧
      vs[i]? = some (s, .unit) ∧ x = .variant s .unit) ∨
    (∃ tag k w r y, v = .dict tag ((k, w) :: r) ∧ x = .variant k y ∧ Ty.MeansVariant lossy file k vs w y)
  | .value, v, x => ∃ g, Num.Narrowing g ∧ x = .value ((v.mapNum g).inherit v.tag)
  | .tag, v, x => ∃ t tag n, x = .tag t ∧ v = .num tag n ∧ n.isSigned = false ∧ n.IsInt t.raw.toNat
  | .flag, v, x => ∃ b, x = .bool b ∧ v.IsFlag b ∧ v.is128 = false
  | .pairs t, v, x => ∃ tag d l, v = .dict tag d ∧ x = .map l ∧ d.map (·.1) = l.map (·.1) ∧
    ∀ (i : Nat) k w y, d[i]? = some (k, w) → l[i]? = some (k, y) → t.Means lossy file w y
  | .keyed kt t, v, x => ∃ tag d l, v = .dict tag d ∧ x = .entries l ∧ d.length = l.length ∧
    ∀ (i : Nat) s w a y, d[i]? = some (s, w) → l[i]? = some (a, y) → kt.KeyIs s a ∧ t.Means lossy file w y
  | .parsed _ parse _, v, x => ∃ s, v.text? = some s ∧ parse s = .ok x
  | .via t conv _, v, x => ∃ y, t.Means lossy file v y ∧ conv y = .ok x
  | .any _, v, x => v.Buffers x
  | .flat _ fs conv _, v, x => ∃ tag d xs l, v = .dict tag d ∧ Ty.MeansFields lossy file fs d xs ∧
    Value.BuffersD (d.filter fun e => !(fs.map (·.1)).contains e.1) l ∧ conv xs l = .ok x
/-- Read as a tuple, the array is `l`; elements beyond those of the tuple are ignored. -/
def Ty.MeansEach (lossy : Bool) (file : Tag → Option Str) : List Ty → List Value → List Val → Prop
  | [], _, l => l = []
  | t :: ts, a, l => ∃ w a' y l', a = w :: a' ∧ l = y :: l' ∧ t.Means lossy file w y ∧ Ty.MeansEach lossy file ts a' l'
/-- Read as a struct with the fields, the dictionary is `l`. -/
def Ty.MeansFields (lossy : Bool) (file : Tag → Option Str) : List (Str × Option Val × Ty) → Dict → List Val → Prop
  | [], _, l => l = []
  | (name, dflt, t) :: fs, d, l => ∃ y l', l = y :: l' ∧ Ty.MeansFields lossy file fs d l' ∧
    ((∃ w, Map.get name d = some w ∧ t.Means lossy file w y) ∨ (Map.get name d = none ∧ t.Absent dflt y))
/-- Read as a struct with the fields, the array is `l`; elements beyond the fields are ignored, and fields beyond the
elements must have defaults. -/
def Ty.MeansElems (lossy : Bool) (file : Tag → Option Str) :
    List (Str × Option Val × Ty) → List Value → List Val → Prop
  | [], _, l => l = []
  | (_, dflt, t) :: fs, a, l => ∃ y l', l = y :: l' ∧
    ((∃ w a', a = w :: a' ∧ t.Means lossy file w y ∧ Ty.MeansElems lossy file fs a' l') ∨
      (a = [] ∧ dflt = some y ∧ Ty.MeansElems lossy file fs [] l'))
/-- Read as the last of the fields, the value is `x`. -/
def Ty.MeansLast (lossy : Bool) (file : Tag → Option Str) : List (Str × Option Val × Ty) → Value → Val → Prop
  | [], _, _ => False
  | (_, _, t) :: fs, v, x => (fs = [] ∧ t.Means lossy file v x) ∨ Ty.MeansLast lossy file fs v x
/-- Read as the content of the variant of the name, the value is `x`. -/
def Ty.MeansVariant (lossy : Bool) (file : Tag → Option Str) (name : Str) : List (Str × VTy) → Value → Val → Prop
  | [], _, _ => False
  | (n, t) :: vs, v, x => (n = name ∧ t.Means lossy file v x) ∨ (n ≠ name ∧ Ty.MeansVariant lossy file name vs v x)
/-- Read as the content of the variant, the value is `x`. -/
def VTy.Means (lossy : Bool) (file : Tag → Option Str) : VTy → Value → Val → Prop
  | .unit, v, x => x = .unit ∧ ∃ tag, v = .empty tag .unit
  | .newtype t, v, x => t.Means lossy file v x
  | .tuple ts, v, x => ∃ tag a l, v = .array tag a ∧ x = .seq l ∧ Ty.MeansEach lossy file ts a l
  | .struct deny fs, v, x => ∃ l, x = .struct l ∧
      ((∃ tag d, v = .dict tag d ∧ Ty.MeansFields lossy file fs d l ∧
          (deny = true → ∀ e ∈ d, e.1 ∈ fs.map (·.1))) ∨
        ∃ tag a, v = .array tag a ∧ Ty.MeansElems lossy file fs a l)
end

mutual
/-- No two fields of a struct have the same name (Rust sees to it), no conversion is from an `Option`, and no struct but
the crate's own has a name the crate reserves; these, and `Value`, occur only if `b`. -/
def Ty.proper (b : Bool) : Ty → Bool
  | .option t => t.proper b
  | .newtype _ t => t.proper b
  | .seq t => t.proper b
  | .map t => t.proper b
  | .pairs t => t.proper b
  | .keyed _ t => t.proper b
  | .via t _ _ => !t.isOption && t.proper b
  | .tuple ts => Ty.properEach b ts
  | .tupleStruct _ ts => Ty.properEach b ts
  | .struct _ name _ fs =>
    (!magicNames.contains name || (b && Ty.magicShape name fs)) && decide ((fs.map (·.1)).Nodup) && Ty.properFields b fs
  | .flat _ fs _ _ => decide ((fs.map (·.1)).Nodup) && Ty.properFields b fs
  | .enum _ vs => Ty.properVariants b vs
  | .value => b
  | _ => true
/-- See `proper`. -/
def Ty.properEach (b : Bool) : List Ty → Bool
  | [] => true
  | t :: ts => t.proper b && Ty.properEach b ts
/-- See `proper`. -/
def Ty.properFields (b : Bool) : List (Str × Option Val × Ty) → Bool
  | [] => true
  | (_, _, t) :: fs => t.proper b && Ty.properFields b fs
/-- See `proper`. -/
def Ty.properVariants (b : Bool) : List (Str × VTy) → Bool
  | [] => true
  | (_, v) :: vs => v.proper b && Ty.properVariants b vs
/-- See `proper`. -/
def VTy.proper (b : Bool) : VTy → Bool
  | .unit => true
  | .newtype t => t.proper b
  | .tuple ts => Ty.properEach b ts
  | .struct _ fs => decide ((fs.map (·.1)).Nodup) && Ty.properFields b fs
end

end Figment
