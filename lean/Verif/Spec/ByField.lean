import Verif.Spec.Means
import Verif.Spec.Path
/-!
# Specification: a struct, field by field
-/
namespace Figment

/-- A key that stands for itself in a path: it is not empty and has no dot in it. -/
def plainKey (k : Str) : Prop := k ≠ [] ∧ '.' ∉ k

instance (k : Str) : Decidable (plainKey k) := inferInstanceAs (Decidable (_ ∧ _))

/-- The values are those of the fields, in order, each of them had by `get` from the field's name and type; a field for
which nothing is there (`has`) has its default, or is `None`. -/
def FieldByField (get : Str → Ty → Except Error Val) (has : Str → Bool) (fs : List (Str × Option Val × Ty))
    (l : List Val) : Prop :=
  l.length = fs.length ∧ ∀ (i : Nat) name dflt t y, fs[i]? = some (name, dflt, t) → l[i]? = some y →
    get name t = .ok y ∨ (has name = false ∧ t.Absent dflt y)

end Figment
