import Verif.Spec.Result
import Verif.Spec.Path
/-!
# Specification: which profile has the last word

Extraction puts the selected profile over `default`, and `global` over both.
-/
namespace Figment

/-- The profile counts if `sel` is selected. -/
inductive Counts (sel : Profile) : Profile → Prop where
  | default : Counts sel Profile.Default
  | selected : sel.isCustom = true → Counts sel sel
  | global : Counts sel Profile.Global

/-- The second profile is put over the first if `sel` is selected. -/
inductive Over (sel : Profile) : Profile → Profile → Prop where
  | selected : sel.isCustom = true → Over sel Profile.Default sel
  | global : Over sel Profile.Default Profile.Global
  | both : sel.isCustom = true → Over sel sel Profile.Global

/-- The profile has nothing at the path, and above it only dictionaries, if anything. -/
def Data.Quiet (m : Data) (pr : Profile) (keys : List Str) : Prop :=
  m.at pr keys = none ∧ ∀ n < keys.length, ∀ w, m.at pr (keys.take n) ≠ some (.leaf w)

/-- The value at the path comes from the profile: it is in the profile, and those over it have nothing to say. -/
def Data.ComesFrom (m : Data) (sel pr : Profile) (keys : List Str) (v : Value) : Prop :=
  Counts sel pr ∧ m.at pr keys = some (.leaf v) ∧ ∀ q, Over sel pr q → m.Quiet q keys

/-- None of the providers added has anything to say at the path, in the profile. -/
def OpsQuiet (ops : List Op) (pr : Profile) (keys : List Str) : Prop :=
  ∀ n, Except.ok n ∈ opData ops → Data.Quiet n pr keys

/-- The operation does not change the value at the path in the profile: it is a select; or the provider has nothing to say
there; or it is joined, or adjoined where the value is not an array. -/
def Op.Leaves (pr : Profile) (keys : List Str) (v : Value) : Op → Prop
  | .select _ => True
  | .add x => (∀ n, x.provider.data = .ok n → n.Quiet pr keys) ∨ x.order = .Join ∨
      (x.order = .Adjoin ∧ ∀ t a, v ≠ .array t a)

/-- In the history `pre`, then adding `x`, then `post`, `x` has the last word at the path, with the value `w` that it has
for the profile `pr`: it is merged, or nothing was said there before; later operations leave the value; and no provider
has anything to say there for a profile that is put over `pr`. -/
structure LastWord (pre : List Op) (x : Call) (post : List Op) (pr : Profile) (keys : List Str) (w : Value) : Prop where
  counts : Counts (historySelected (pre ++ .add x :: post)) pr
  says : ∃ n : Data, x.provider.data = .ok n ∧ n.at pr keys = some (.leaf w)
  before : x.order = .Merge ∨ OpsQuiet pre pr keys
  after : ∀ y ∈ post, y.Leaves pr keys w
  over : ∀ q, Over (historySelected (pre ++ .add x :: post)) pr q → OpsQuiet (pre ++ .add x :: post) q keys

end Figment
