import Verif.Model.Jail
import Verif.Spec.Walk
/-!
# Specification: jails
-/
namespace Figment

/-- The path leads (without links) to a place in the directory or below it. -/
def Inside (path dir : Str) : Prop :=
  ∃ names more, Place.of dir = ⟨true, 0, names⟩ ∧ Place.of path = ⟨true, 0, names ++ more⟩

/-- An environment an operating system can have: names and values that can be set. -/
def Sys.Proper (p : Sys) : Prop :=
  Map.Sorted p.env ∧ ∀ e ∈ p.env, Sys.validName e.1 = true ∧ Sys.validValue e.2 = true

end Figment
