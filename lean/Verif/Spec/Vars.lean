import Verif.Spec.Env
/-!
# Specification: the variables that are taken
-/
namespace Figment

/-- The variable of the name is taken: the name is not empty, the start and the calls, in order, let it pass, and no
component of the key that comes out is empty. -/
def Taken (start : EnvStart) (calls : List EnvStep) (name : Str) : Prop :=
  name ≠ [] ∧ ∃ k1 k2, start.Key (Str.trim name) k1 ∧ EnvSteps.Key calls k1 k2 ∧ plainPath (Str.trim k2)

/-- Two environments have the same variables that are taken, in the same order: they are the same but for variables, in
either, that are not taken. -/
inductive SameTaken (start : EnvStart) (calls : List EnvStep) : List (Str × Str) → List (Str × Str) → Prop
  | nil : SameTaken start calls [] []
  | both (name v : Str) {r r' : List (Str × Str)} : SameTaken start calls r r' →
      SameTaken start calls ((name, v) :: r) ((name, v) :: r')
  | left {name : Str} (v : Str) {r r' : List (Str × Str)} : ¬ Taken start calls name → SameTaken start calls r r' →
      SameTaken start calls ((name, v) :: r) r'
  | right {name : Str} (v : Str) {r r' : List (Str × Str)} : ¬ Taken start calls name → SameTaken start calls r r' →
      SameTaken start calls r ((name, v) :: r')

end Figment
