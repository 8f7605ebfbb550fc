import Verif.Spec.Means
import Verif.Spec.Blame
import Verif.Spec.Keys
/-!
# Specification: what is wrong with a value, read as a type

`t.Complains lossy file v p k`: read as the type `t`, the value `v` has the fault `k` at the path `p` below it, and
nothing before it is at fault. This is the counterpart of `Ty.Means` for the values that are not accepted. "Before" is
the order of the elements of an array, or of the entries of a dictionary, with missing fields last and in the order the
type declares them.
-/
namespace Figment

/-- The value is told as `a` when a number is expected: the number it is, or is read as, else what it is. -/
def Value.ToldNum [FloatOps] (lossy : Bool) (v : Value) (a : Actual) : Prop :=
  (∃ n, v.IsNum lossy n ∧ a = (Value.num v.tag n).shown) ∨ ((∀ n, ¬ v.IsNum lossy n) ∧ a = v.shown)

/-- `N element` or `N elements`. -/
def counted (n : Nat) : Str := Dec.ofNat n ++ (if n = 1 then str " element" else str " elements")

/-- The fault is that the value is not what is expected at all. -/
def Kind.IsMismatch (k : Kind) (v : Value) (expected : String) : Prop := k = .invalidType v.shown (str expected)

/-- The names of the fields. -/
def fieldNames (fs : List (Str × Option Val × Ty)) : List Str := fs.map (·.1)

/-- The field may be left out. -/
def mayLack (f : Str × Option Val × Ty) : Prop := f.2.1 ≠ none ∨ f.2.2.isOption = true

/-- `name` is the first field that is not in the dictionary although it may not be left out. -/
def FirstLacking (fs : List (Str × Option Val × Ty)) (d : Dict) (name : Str) : Prop :=
  ∃ (i : Nat) (f : Str × Option Val × Ty), fs[i]? = some f ∧ f.1 = name ∧ Map.get name d = none ∧ ¬ mayLack f ∧
    ∀ j, j < i → ∀ g, fs[j]? = some g → Map.get g.1 d ≠ none ∨ mayLack g

mutual
/-- The first 128-bit integer in the value is at the path, and the fault is that it is one. -/
def Value.Refuses (expecting : Str) : Value → List Str → Kind → Prop
  | .num t n, p, k => n.width = some 128 ∧ p = [] ∧ k = .invalidType (Value.num t n).shown expecting
  | .dict _ d, p, k => Value.RefusesD expecting d p k
  | .array _ a, p, k => Value.RefusesA expecting 0 a p k
  | _, _, _ => False
/-- The same for the entries of a dictionary. -/
def Value.RefusesD (expecting : Str) : List (Str × Value) → List Str → Kind → Prop
  | [], _, _ => False
  | (key, v) :: d, p, k => (∃ p', p = key :: p' ∧ v.Refuses expecting p' k) ∨
    ((∃ y, v.Buffers y) ∧ Value.RefusesD expecting d p k)
/-- The same for the elements of an array, the first of which is the `i`-th. -/
def Value.RefusesA (expecting : Str) : Nat → List Value → List Str → Kind → Prop
  | _, [], _, _ => False
  | i, v :: a, p, k => (∃ p', p = Dec.ofNat i :: p' ∧ v.Refuses expecting p' k) ∨
    ((∃ y, v.Buffers y) ∧ Value.RefusesA expecting (i + 1) a p k)
end

variable [FloatOps]

/-- The value is fine, read as the field of the name; or there is no such field and there need not be. -/
def Ty.GoodField (lossy : Bool) (file : Tag → Option Str) (deny : Bool) (name : Str) :
    List (Str × Option Val × Ty) → Value → Prop
  | [], _ => deny = false
  | (n, _, t) :: fs, v => (n = name ∧ ∃ y, t.Means lossy file v y) ∨ (n ≠ name ∧ Ty.GoodField lossy file deny name fs v)

/-- The entries of a dictionary have the fault, read as the fields of a struct: an entry has, as the field of its key;
or there is an entry that is no field and may not be; or a field is not there. `fault` tells the faults of a value read
as the field of a name, `good` whether it has none. -/
def DictFault (deny : Bool) (fs : List (Str × Option Val × Ty)) (fault : Str → Value → List Str → Kind → Prop)
    (good : Str → Value → Prop) (d : Dict) (p : List Str) (k : Kind) : Prop :=
  (∃ (i : Nat) (key : Str) (w : Value), d[i]? = some (key, w) ∧
    ((∃ p', p = key :: p' ∧ fault key w p' k) ∨
      (deny = true ∧ key ∉ fieldNames fs ∧ p = [key] ∧ k = .unknownField key (fieldNames fs))) ∧
    ∀ j, j < i → ∀ e, d[j]? = some e → good e.1 e.2) ∨
  ((∀ e ∈ d, good e.1 e.2) ∧ p = [] ∧ ∃ name, FirstLacking fs d name ∧ k = .missingField name)

mutual
/-- Read as the type, the value has the fault at the path, and it is the first. -/
def Ty.Complains (lossy : Bool) (file : Tag → Option Str) : Ty → Value → List Str → Kind → Prop
  | .bool, v, p, k => p = [] ∧ (∀ b, ¬ v.IsBool lossy b) ∧ k.IsMismatch v "a boolean"
  | .int t, v, p, k => p = [] ∧
    if t = .u128 ∨ t = .i128 then k = .message (t.name ++ str " is not supported")
    else ∃ a, v.ToldNum lossy a ∧
      ((∃ n i, v.IsNum lossy n ∧ n.IsInt i ∧ (i < t.min ∨ t.max < i) ∧ k = .invalidValue a t.name) ∨
        ((∀ n i, v.IsNum lossy n → ¬ n.IsInt i) ∧ k = .invalidType a t.name))
  | .f32, v, p, k => p = [] ∧ ∃ a, v.ToldNum lossy a ∧ (∀ n, v.IsNum lossy n → n.width = some 128) ∧
    k = .invalidType a (str "f32")
  | .f64, v, p, k => p = [] ∧ ∃ a, v.ToldNum lossy a ∧ (∀ n, v.IsNum lossy n → n.width = some 128) ∧
    k = .invalidType a (str "f64")
  | .char, v, p, k => p = [] ∧
    ((∃ tag s, v = .string tag s ∧ s.length ≠ 1 ∧ k = .invalidValue (.str s) (str "a character")) ∨
      (v.text? = none ∧ k.IsMismatch v "a character"))
  | .string, v, p, k => p = [] ∧ v.text? = none ∧ k.IsMismatch v "a string"
  | .pathBuf, v, p, k => p = [] ∧ v.text? = none ∧ k.IsMismatch v "path string"
  | .unit, v, p, k => p = [] ∧ (∀ tag, v ≠ .empty tag .unit) ∧ k.IsMismatch v "unit"
  | .unitStruct n, v, p, k => p = [] ∧ (∀ tag, v ≠ .empty tag .unit) ∧ k = .invalidType v.shown (str "unit struct " ++ n)
  | .option t, v, p, k => (∀ tag e, v ≠ .empty tag e) ∧ t.Complains lossy file v p k
  | .newtype _ t, v, p, k => t.Complains lossy file v p k
  | .seq t, v, p, k =>
    ((∀ tag a, v ≠ .array tag a) ∧ p = [] ∧ k.IsMismatch v "a sequence") ∨
    ∃ tag a, v = .array tag a ∧ ∃ (i : Nat) (w : Value) (p' : List Str), a[i]? = some w ∧ p = Dec.ofNat i :: p' ∧
      t.Complains lossy file w p' k ∧ ∀ j, j < i → ∀ u, a[j]? = some u → ∃ y, t.Means lossy file u y
  | .tuple ts, v, p, k =>
    ((∀ tag a, v ≠ .array tag a) ∧ p = [] ∧ k = .invalidType v.shown (str "a tuple of size " ++ Dec.ofNat ts.length)) ∨
    ∃ tag a, v = .array tag a ∧
      Ty.ComplainsEach lossy file (str "a tuple of size " ++ Dec.ofNat ts.length) 0 ts a p k
  | .tupleStruct n ts, v, p, k =>
    ((∀ tag a, v ≠ .array tag a) ∧ p = [] ∧ k = .invalidType v.shown (str "tuple struct " ++ n)) ∨
    ∃ tag a, v = .array tag a ∧
      Ty.ComplainsEach lossy file (str "tuple struct " ++ n ++ str " with " ++ counted ts.length) 0 ts a p k
  | .map t, v, p, k =>
    ((∀ tag d, v ≠ .dict tag d) ∧ p = [] ∧ k.IsMismatch v "a map") ∨
    ∃ tag d, v = .dict tag d ∧ ∃ (i : Nat) (key : Str) (w : Value) (p' : List Str), d[i]? = some (key, w) ∧
      p = key :: p' ∧ t.Complains lossy file w p' k ∧ ∀ j, j < i → ∀ e, d[j]? = some e → ∃ y, t.Means lossy file e.2 y
  | .pairs t, v, p, k =>
    ((∀ tag d, v ≠ .dict tag d) ∧ p = [] ∧ k.IsMismatch v "a map") ∨
    ∃ tag d, v = .dict tag d ∧ ∃ (i : Nat) (key : Str) (w : Value) (p' : List Str), d[i]? = some (key, w) ∧
      p = key :: p' ∧ t.Complains lossy file w p' k ∧ ∀ j, j < i → ∀ e, d[j]? = some e → ∃ y, t.Means lossy file e.2 y
  | .keyed kt t, v, p, k =>
    ((∀ tag d, v ≠ .dict tag d) ∧ p = [] ∧ k.IsMismatch v "a map") ∨
    ∃ tag d, v = .dict tag d ∧ ∃ (i : Nat) (s : Str) (w : Value), d[i]? = some (s, w) ∧
      ((p = [s] ∧ kt.KeyFault s k) ∨ ((∃ x, kt.KeyIs s x) ∧ ∃ p', p = s :: p' ∧ t.Complains lossy file w p' k)) ∧
      ∀ j, j < i → ∀ e, d[j]? = some e → (∃ x, kt.KeyIs e.1 x) ∧ ∃ y, t.Means lossy file e.2 y
  | .struct n name deny fs, v, p, k =>
    if name = Tagged.NAME then ∃ p', p = Tagged.FIELD1 :: p' ∧ Ty.ComplainsLast lossy file fs v p' k
    else if name = RelPath.NAME then p = [RelPath.FIELD1] ∧ v.text? = none ∧ k.IsMismatch v "path string"
    else ((∀ tag d, v ≠ .dict tag d) ∧ (∀ tag a, v ≠ .array tag a) ∧
        p = [] ∧ k = .invalidType v.shown (str "struct " ++ n)) ∨
      (∃ tag d, v = .dict tag d ∧ DictFault deny fs (fun key w p' k => Ty.ComplainsField lossy file key fs w p' k)
        (fun key w => Ty.GoodField lossy file deny key fs w) d p k) ∨
      ∃ tag a, v = .array tag a ∧
        Ty.ComplainsElems lossy file (str "struct " ++ n ++ str " with " ++ counted fs.length) 0 fs a p k
  | .enum n vs, v, p, k =>
    (∃ tag s, v = .string tag s ∧ p = [] ∧
      ((s ∉ vs.map (·.1) ∧ k = .unknownVariant s (vs.map (·.1))) ∨
        ∃ t text, vs.lookup s = some t ∧ t.needs = some text ∧ k = .invalidType .unitVariant text)) ∨
    (∃ tag m, ∃ i : Nat, v = .num tag m ∧ m.isSigned = false ∧ (∃ w, m.width = some w ∧ w ≤ 32) ∧
      m.intVal = some (i : Int) ∧ p = [] ∧ ((vs.length ≤ i ∧ k = .invalidValue v.shown (str "variant index 0 <= i < " ++ Dec.ofNat vs.length)) ∨
        ∃ s t text, vs[i]? = some (s, t) ∧ t.needs = some text ∧ k = .invalidType .unitVariant text)) ∨
    (∃ tag, v = .dict tag [] ∧ p = [] ∧ k = .invalidType .map (str "enum")) ∨
    (∃ tag key w r, v = .dict tag ((key, w) :: r) ∧
      ((key ∉ vs.map (·.1) ∧ p = [key] ∧ k = .unknownVariant key (vs.map (·.1))) ∨
        ∃ p', p = key :: p' ∧ Ty.ComplainsVariant lossy file n key vs w p' k)) ∨
    ((∀ tag s, v ≠ .string tag s) ∧ (∀ tag d, v ≠ .dict tag d) ∧
      (∀ tag m, v = .num tag m → m.isSigned = true ∨ ∀ w, m.width = some w → 32 < w) ∧
      p = [] ∧ k = .invalidType v.shown (str "enum " ++ n))
  | .value, _, _, _ => False
  | .tag, v, p, k => p = [] ∧ k.IsMismatch v "a 64-bit metadata id integer" ∧
    ∀ tag m i, v = .num tag m → m.isSigned = false → ¬ m.IsInt i
  | .flag, v, p, k => p = [] ∧
    ((∃ s, v.text? = some s ∧ s.lower ≠ str "true" ∧ s.lower ≠ str "false" ∧
        k = .invalidValue (.str s) (str "true or false")) ∨
      (∃ tag m i, v = .num tag m ∧ m.IsInt i ∧ i ≠ 0 ∧ i ≠ 1 ∧ k = .invalidValue v.shown (str "0 or 1")) ∨
      ((∀ tag b, v ≠ .bool tag b) ∧ v.text? = none ∧ (∀ tag m i, v = .num tag m → ¬ m.IsInt i) ∧
        k.IsMismatch v "a boolean"))
  | .parsed expecting parse _, v, p, k => p = [] ∧
    ((∃ s m, v.text? = some s ∧ parse s = .error m ∧ k = .message m) ∨
      (v.text? = none ∧ k = .invalidType v.shown expecting))
  | .via t conv _, v, p, k => t.Complains lossy file v p k ∨
    (p = [] ∧ ∃ y m, t.Means lossy file v y ∧ conv y = .error m ∧ k = .message m)
  | .any expecting, v, p, k => v.Refuses expecting p k
  | .flat n fs conv _, v, p, k =>
    ((∀ tag d, v ≠ .dict tag d) ∧ p = [] ∧ k = .invalidType v.shown (str "struct " ++ n)) ∨
    (∃ tag d, v = .dict tag d ∧ DictFault false fs
      (fun key w p' k => Ty.ComplainsField lossy file key fs w p' k ∨
        (key ∉ fieldNames fs ∧ w.Refuses (str "any value") p' k))
      (fun key w => Ty.GoodField lossy file false key fs w ∧ (key ∉ fieldNames fs → ∃ y, w.Buffers y)) d p k) ∨
    ∃ tag d xs l, v = .dict tag d ∧ Ty.MeansFields lossy file fs d xs ∧
      Value.BuffersD (d.filter fun e => !(fieldNames fs).contains e.1) l ∧ conv xs l = .error k ∧ p = []
/-- The elements of an array, the first of which is the `i`-th, have the fault, read as the types. `short` is what is
expected of an array that is too short. -/
def Ty.ComplainsEach (lossy : Bool) (file : Tag → Option Str) (short : Str) :
    Nat → List Ty → List Value → List Str → Kind → Prop
  | _, [], _, _, _ => False
  | i, _ :: _, [], p, k => p = [] ∧ k = .invalidLength i short
  | i, t :: ts, w :: a, p, k => (∃ p', p = Dec.ofNat i :: p' ∧ t.Complains lossy file w p' k) ∨
    ((∃ y, t.Means lossy file w y) ∧ Ty.ComplainsEach lossy file short (i + 1) ts a p k)
/-- The elements of an array, the first of which is the `i`-th, have the fault, read as the fields of a struct. -/
def Ty.ComplainsElems (lossy : Bool) (file : Tag → Option Str) (short : Str) :
    Nat → List (Str × Option Val × Ty) → List Value → List Str → Kind → Prop
  | _, [], _, _, _ => False
  | i, (_, dflt, _) :: fs, [], p, k => (dflt = none ∧ p = [] ∧ k = .invalidLength i short) ∨
    (dflt ≠ none ∧ Ty.ComplainsElems lossy file short (i + 1) fs [] p k)
  | i, (_, _, t) :: fs, w :: a, p, k => (∃ p', p = Dec.ofNat i :: p' ∧ t.Complains lossy file w p' k) ∨
    ((∃ y, t.Means lossy file w y) ∧ Ty.ComplainsElems lossy file short (i + 1) fs a p k)
/-- The value has the fault, read as the field of the name. -/
def Ty.ComplainsField (lossy : Bool) (file : Tag → Option Str) (name : Str) :
    List (Str × Option Val × Ty) → Value → List Str → Kind → Prop
  | [], _, _, _ => False
  | (n, _, t) :: fs, v, p, k => (n = name ∧ t.Complains lossy file v p k) ∨
    (n ≠ name ∧ Ty.ComplainsField lossy file name fs v p k)
/-- The value has the fault, read as the last of the fields. -/
def Ty.ComplainsLast (lossy : Bool) (file : Tag → Option Str) :
    List (Str × Option Val × Ty) → Value → List Str → Kind → Prop
  | [], _, _, _ => False
  | (_, _, t) :: fs, v, p, k => (fs = [] ∧ t.Complains lossy file v p k) ∨ Ty.ComplainsLast lossy file fs v p k
/-- The value has the fault, read as the content of the variant of the name. -/
def Ty.ComplainsVariant (lossy : Bool) (file : Tag → Option Str) (enum name : Str) :
    List (Str × VTy) → Value → List Str → Kind → Prop
  | [], _, _, _ => False
  | (n, t) :: vs, v, p, k => (n = name ∧ t.Complains lossy file (enum ++ str "::" ++ n) v p k) ∨
    (n ≠ name ∧ Ty.ComplainsVariant lossy file enum name vs v p k)
/-- The value has the fault, read as the content of the variant with the full name. -/
def VTy.Complains (lossy : Bool) (file : Tag → Option Str) (full : Str) : VTy → Value → List Str → Kind → Prop
  | .unit, v, p, k => p = [] ∧ (∀ tag, v ≠ .empty tag .unit) ∧ k.IsMismatch v "unit"
  | .newtype t, v, p, k => t.Complains lossy file v p k
  | .tuple ts, v, p, k =>
    ((∀ tag a, v ≠ .array tag a) ∧ p = [] ∧ k = .invalidType v.shown (str "tuple variant " ++ full)) ∨
    ∃ tag a, v = .array tag a ∧
      Ty.ComplainsEach lossy file (str "tuple variant " ++ full ++ str " with " ++ counted ts.length) 0 ts a p k
  | .struct deny fs, v, p, k =>
    ((∀ tag d, v ≠ .dict tag d) ∧ (∀ tag a, v ≠ .array tag a) ∧
      p = [] ∧ k = .invalidType v.shown (str "struct variant " ++ full)) ∨
      (∃ tag d, v = .dict tag d ∧ DictFault deny fs (fun key w p' k => Ty.ComplainsField lossy file key fs w p' k)
        (fun key w => Ty.GoodField lossy file deny key fs w) d p k) ∨
      ∃ tag a, v = .array tag a ∧
        Ty.ComplainsElems lossy file (str "struct variant " ++ full ++ str " with " ++ counted fs.length) 0 fs a p k
end

end Figment
