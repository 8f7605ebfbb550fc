import Verif.Spec.Complains
/-!
# Specification: what a value is, or is not, as a map with keys of any type
-/
namespace Figment
variable [FloatOps]

/-- Read as a map of keys `kt` and values `t`, the value is the entries `l`, in order. -/
def Ty.MapMeans (lossy : Bool) (file : Tag → Option Str) (kt t : Ty) (v : Value) (l : List (Val × Val)) : Prop :=
  ∃ tag d, v = .dict tag d ∧ d.length = l.length ∧
    ∀ (i : Nat) s w x y, d[i]? = some (s, w) → l[i]? = some (x, y) → kt.KeyIs s x ∧ t.Means lossy file w y

/-- Read as a map of keys `kt` and values `t`, the value has the fault at the path, and it is the first: it is not a
dictionary, or an entry has the fault, in its key or, if that has none, in its value. -/
def Ty.MapComplains (lossy : Bool) (file : Tag → Option Str) (kt t : Ty) (v : Value) (p : List Str) (k : Kind) : Prop :=
  ((∀ tag d, v ≠ .dict tag d) ∧ p = [] ∧ k.IsMismatch v "a map") ∨
  ∃ tag d, v = .dict tag d ∧ ∃ (i : Nat) (s : Str) (w : Value), d[i]? = some (s, w) ∧
    ((p = [s] ∧ kt.KeyFault s k) ∨ ((∃ x, kt.KeyIs s x) ∧ ∃ p', p = s :: p' ∧ t.Complains lossy file w p' k)) ∧
    ∀ j, j < i → ∀ e, d[j]? = some e → (∃ x, kt.KeyIs e.1 x) ∧ ∃ y, t.Means lossy file e.2 y

end Figment
