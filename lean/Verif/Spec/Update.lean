import Verif.Spec.Means
import Verif.Spec.Result
/-!
# Specification: a value of a type, changed where something says so

`t.Updates lossy x v y`: the value `x` of the type `t`, changed to what `v` says where `v` says something, is `y`. This
goes by the type alone: the fields of a struct that `v` has not are kept, those that it has are changed in turn; so are
the entries of a map, which moreover gets those that only `v` has; what is converted from a type is changed as it is in
that type; whatever else there is, is replaced by what `v` means.
Only for the variants of enums that have data this says what is so, not what one would expect: they are written as a
dictionary with the variant for its only key, and of several keys the first counts.
-/
namespace Figment

variable [FloatOps]

omit [FloatOps] in
/-- The entries, with text for the keys. -/
def Ty.Spelled (kt : Ty) (l : List (Val × Val)) (l' : List (Str × Val)) : Prop :=
  l.length = l'.length ∧ ∀ (i : Nat) a x s y, l[i]? = some (a, x) → l'[i]? = some (s, y) → kt.KeyIs s a ∧ x = y

omit [FloatOps] in
/-- The entries of the dictionary that are not of the names. -/
def Dict.others (names : List Str) (d : Dict) : Dict := d.filter fun e => !names.contains e.1

mutual
/-- What was taken as it is, `x`, changed where the value says so, is `y`. -/
def Value.Alters : Value → Val → Val → Prop
  | .dict tag d, x, y =>
    (∃ l m, x = .map l ∧ y = .map m ∧ Map.Sorted m ∧ (∀ k, Map.get k d = none → Map.get k m = Map.get k l) ∧
      Value.AltersD d l m) ∨
    ((∀ l, x ≠ .map l) ∧ (Value.dict tag d).Buffers y)
  | v, _, y => v.Buffers y
/-- The same for the entries of a dictionary. -/
def Value.AltersD : List (Str × Value) → List (Str × Val) → List (Str × Val) → Prop
  | [], _, _ => True
  | (k, w) :: d, l, m => (∃ z, Map.get k m = some z ∧ (Map.get k l = none → w.Buffers z) ∧
    ∀ u, Map.get k l = some u → w.Alters u z) ∧ Value.AltersD d l m
end

omit [FloatOps] in
/-- The variants are all unit variants. -/
def unitVariants (vs : List (Str × VTy)) : Bool := vs.all fun e => match e.2 with | .unit => true | _ => false

omit [FloatOps] in
/-- Values of the type are not written as dictionaries. -/
def Ty.atom : Ty → Bool
  | .option t => t.atom
  | .newtype _ t => t.atom
  | .via t _ _ => t.atom
  | .enum _ vs => unitVariants vs
  | .map _ | .pairs _ | .keyed _ _ | .struct _ _ _ _ | .value | .any _ | .flat _ _ _ _ => false
  | _ => true

mutual
/-- `x`, changed where `v` says so, is `y`. -/
def Ty.Updates (lossy : Bool) : Ty → Val → Value → Val → Prop
  | .option t, x, v, y =>
    (y = .none ∧ ∃ tag e, v = .empty tag e) ∨
    ((∀ tag e, v ≠ .empty tag e) ∧ ∃ z, y = .some z ∧
      ((x = .none ∧ t.Means lossy (fun _ => none) v z) ∨ ∃ u, x = .some u ∧ t.Updates lossy u v z))
  | .newtype _ t, x, v, y => ∃ u z, x = .newtype u ∧ y = .newtype z ∧ t.Updates lossy u v z
  | .map t, x, v, y => ∃ l tag d m, x = .map l ∧ v = .dict tag d ∧ y = .map m ∧ Map.Sorted m ∧
    ∀ k, (Map.get k d = none → Map.get k m = Map.get k l) ∧
      ∀ w, Map.get k d = some w → ∃ z, Map.get k m = some z ∧
        (Map.get k l = none → t.Means lossy (fun _ => none) w z) ∧ ∀ u, Map.get k l = some u → t.Updates lossy u w z
  | .keyed kt t, x, v, y => ∃ l l' tag d m m', x = .entries l ∧ kt.Spelled l l' ∧ v = .dict tag d ∧ y = .entries m ∧
    kt.Spelled m m' ∧ Map.Sorted m' ∧
    ∀ k, (Map.get k d = none → Map.get k m' = Map.get k l') ∧
      ∀ w, Map.get k d = some w → ∃ z, Map.get k m' = some z ∧
        (Map.get k l' = none → t.Means lossy (fun _ => none) w z) ∧ ∀ u, Map.get k l' = some u → t.Updates lossy u w z
  | .pairs t, x, v, y => ∃ l tag d m, x = .map l ∧ v = .dict tag d ∧ y = .map m ∧ Map.Sorted m ∧
    ∀ k, (Map.get k d = none → Map.get k m = Map.get k l) ∧
      ∀ w, Map.get k d = some w → ∃ z, Map.get k m = some z ∧
        (Map.get k l = none → t.Means lossy (fun _ => none) w z) ∧ ∀ u, Map.get k l = some u → t.Updates lossy u w z
  | .struct r name deny fs, x, v, y =>
    (∃ tag d l m, v = .dict tag d ∧ x = .struct l ∧ y = .struct m ∧ Ty.UpdatesFields lossy fs l d m ∧
      (deny = true → ∀ e ∈ d, e.1 ∈ fs.map (·.1))) ∨
    ((∀ tag d, v ≠ .dict tag d) ∧ Ty.Means lossy (fun _ => none) (.struct r name deny fs) v y)
  | .enum n vs, x, v, y =>
    ((∀ tag d, v ≠ .dict tag d) ∧ Ty.Means lossy (fun _ => none) (.enum n vs) v y) ∨
    ∃ tag d a u, v = .dict tag d ∧ x = .variant a u ∧
      ((vs.lookup a = some .unit ∧ Ty.Means lossy (fun _ => none) (.enum n vs) v y) ∨
      (vs.lookup a ≠ some .unit ∧ ((d = [] ∧ y = x) ∨ ∃ k e r, d = (k, e) :: r ∧
        ((compare k a = .lt ∧ ∃ z, y = .variant k z ∧ Ty.MeansVariant lossy (fun _ => none) k vs e z) ∨
        (k = a ∧ ∃ z, y = .variant a z ∧ Ty.UpdatesVariant lossy a vs u e z) ∨
        (compare a k = .lt ∧ y = x)))))
  | .via t conv back, x, v, y =>
    (t.atom = true ∧ Ty.Means lossy (fun _ => none) (.via t conv back) v y) ∨
    (t.atom = false ∧ ∃ z, t.Updates lossy (back x) v z ∧ conv z = .ok y)
  | .any _, x, v, y => v.Alters x y
  | .flat _ fs conv back, x, v, y => ∃ tag d xs m, v = .dict tag d ∧ Ty.UpdatesFields lossy fs (back x).1 d xs ∧
    Map.Sorted m ∧ (∀ k, Map.get k (Dict.others (fs.map (·.1)) d) = none → Map.get k m = Map.get k (back x).2) ∧
    Value.AltersD (Dict.others (fs.map (·.1)) d) (back x).2 m ∧ conv xs m = .ok y
  | t, _, v, y => t.Means lossy (fun _ => none) v y
/-- The content `x` of the variant of the name, changed where `v` says so, is `y`. -/
def Ty.UpdatesVariant (lossy : Bool) (name : Str) : List (Str × VTy) → Val → Value → Val → Prop
  | [], _, _, _ => False
  | (n, t) :: vs, x, v, y => (n = name ∧ t.Updates lossy x v y) ∨ (n ≠ name ∧ Ty.UpdatesVariant lossy name vs x v y)
/-- The content `x` of the variant, changed where `v` says so, is `y`. -/
def VTy.Updates (lossy : Bool) : VTy → Val → Value → Val → Prop
  | .newtype t, x, v, y => t.Updates lossy x v y
  | .struct deny fs, x, v, y =>
    (∃ tag d l m, v = .dict tag d ∧ x = .struct l ∧ y = .struct m ∧ Ty.UpdatesFields lossy fs l d m ∧
      (deny = true → ∀ e ∈ d, e.1 ∈ fs.map (·.1))) ∨
    ((∀ tag d, v ≠ .dict tag d) ∧ VTy.Means lossy (fun _ => none) (.struct deny fs) v y)
  | t, _, v, y => t.Means lossy (fun _ => none) v y
/-- The values `l` of the fields, changed where the dictionary has something for them, are `m`. -/
def Ty.UpdatesFields (lossy : Bool) : List (Str × Option Val × Ty) → List Val → Dict → List Val → Prop
  | [], l, _, m => l = [] ∧ m = []
  | (name, _, t) :: fs, l, d, m => ∃ x l' y m', l = x :: l' ∧ m = y :: m' ∧ (Map.get name d = none → y = x) ∧
    (∀ w, Map.get name d = some w → t.Updates lossy x w y) ∧ Ty.UpdatesFields lossy fs l' d m'
end

/-- Changed by one after the other. -/
def Ty.UpdatesAll (lossy : Bool) (t : Ty) : Val → List Value → Val → Prop
  | x, [], y => y = x
  | x, v :: vs, y => ∃ z, t.Updates lossy x v z ∧ Ty.UpdatesAll lossy t z vs y

mutual
/-- Values of the type that are written as dictionaries are structs, maps, enums, what is taken as it is, or converted from
such; the crate's own `Value` is not included. Two texts are not the same key, and what is converted back is what was
converted. -/
def Ty.Layered : Ty → Prop
  | .option t => t.Layered
  | .newtype _ t => t.Layered
  | .map t => t.Layered
  | .pairs t => t.Layered
  | .keyed kt t => (∀ s s' a, kt.KeyIs s a → kt.KeyIs s' a → s = s') ∧ t.Layered
  | .struct _ _ _ fs => Ty.LayeredFields fs
  | .via t conv back => t.atom = true ∨ ((∀ u x, conv u = .ok x → back x = u) ∧ t.Layered)
  | .enum _ vs => (vs.map (·.1)).Nodup ∧ Ty.LayeredVariants vs
  | .flat _ fs conv back => (∀ xs l x, conv xs l = .ok x → back x = (xs, l)) ∧ Ty.LayeredFields fs
  | .value => False
  | _ => True
/-- See `Layered`. -/
def Ty.LayeredVariants : List (Str × VTy) → Prop
  | [] => True
  | (_, v) :: vs => v.Layered ∧ Ty.LayeredVariants vs
/-- See `Layered`. -/
def VTy.Layered : VTy → Prop
  | .newtype t => t.Layered
  | .struct _ fs => Ty.LayeredFields fs
  | _ => True
/-- See `Layered`. -/
def Ty.LayeredFields : List (Str × Option Val × Ty) → Prop
  | [] => True
  | (_, _, t) :: fs => t.Layered ∧ Ty.LayeredFields fs
end

mutual
/-- As a value of the type is written: with a dictionary for a struct, in which no field is left out that has a default,
and other dictionaries for maps, for variants with data, and where anything may be, only. -/
def Ty.Shaped : Ty → Value → Prop
  | .option t, v => (∃ tag e, v = .empty tag e) ∨ t.Shaped v
  | .newtype _ t, v => t.Shaped v
  | .map t, v => ∃ tag d, v = .dict tag d ∧ ∀ k w, Map.get k d = some w → t.Shaped w
  | .pairs t, v => ∃ tag d, v = .dict tag d ∧ ∀ k w, Map.get k d = some w → t.Shaped w
  | .keyed _ t, v => ∃ tag d, v = .dict tag d ∧ ∀ k w, Map.get k d = some w → t.Shaped w
  | .via t _ _, v => t.Shaped v
  | .any _, _ => True
  | .flat _ fs _ _, v => ∃ tag d, v = .dict tag d ∧ Ty.ShapedFields fs d
  | .struct _ _ _ fs, v => ∃ tag d, v = .dict tag d ∧ Ty.ShapedFields fs d
  | .enum _ vs, v => (∀ tag d, v ≠ .dict tag d) ∨ ∃ tag k e r, v = .dict tag ((k, e) :: r) ∧ Ty.ShapedVariant k vs e
  | _, v => ∀ tag d, v ≠ .dict tag d
/-- See `Shaped`. -/
def Ty.ShapedVariant (name : Str) : List (Str × VTy) → Value → Prop
  | [], _ => False
  | (n, t) :: vs, v => (n = name ∧ t.Shaped v) ∨ (n ≠ name ∧ Ty.ShapedVariant name vs v)
/-- See `Shaped`. -/
def VTy.Shaped : VTy → Value → Prop
  | .unit, _ => False
  | .newtype t, v => t.Shaped v
  | .tuple _, v => ∀ tag d, v ≠ .dict tag d
  | .struct _ fs, v => ∃ tag d, v = .dict tag d ∧ Ty.ShapedFields fs d
/-- See `Shaped`. -/
def Ty.ShapedFields : List (Str × Option Val × Ty) → Dict → Prop
  | [], _ => True
  | (name, dflt, t) :: fs, d => (Map.get name d = none → dflt = none) ∧
    (∀ w, Map.get name d = some w → t.Shaped w) ∧ Ty.ShapedFields fs d
end

/-- What the operations have for the profile: nothing, or one value, without provenance, with at each path what is there
after the operations. -/
def Layer (ops : List Op) (pr : Profile) : List Value → Prop
  | [] => ∀ p, historyView ops pr p = if p = [] then some (.dict Tag.Default) else none
  | [v] => v.WF ∧ v.strip = v ∧ ∀ p, v.view p = historyView ops pr p
  | _ => False

/-- The dictionaries that the operations, one after the other, bring to the profile. -/
def opDicts (pr : Profile) (ops : List Op) : List Value := ops.filterMap fun
  | .add c =>
    match c.provider.data with
    | .ok n => (Map.get pr n).map (Value.dict Tag.Default)
    | .error _ => none
  | .select _ => none

/-- What `extract`, or if `lossy` `extract_lossy`, gives. -/
def Fig.gives (f : Fig) (lossy : Bool) (t : Ty) : R Val := if lossy then f.extractLossy t else f.extract t

/-- Extraction gives the value changed by one after the other: the value itself if there are none, and if all but the last
are of the shape of a value and change it to `z`, exactly what the last changes `z` to. -/
def Fig.GivesUpdated (f : Fig) (t : Ty) (x : Val) (vs : List Value) : Prop :=
  ∀ lossy : Bool, (vs = [] → f.gives lossy t = .ok x) ∧
    ∀ us v, vs = us ++ [v] → (∀ u ∈ us, t.Shaped u) → ∀ z, t.UpdatesAll lossy x us z →
      ∀ y, f.gives lossy t = .ok y ↔ t.Updates lossy z v y

end Figment
