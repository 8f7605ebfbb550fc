import Verif.Spec.Result
import Verif.Spec.Means
import Verif.Spec.ByField
/-!
# Specification: sources merged one over the other, read as a struct

The way most programs use the crate: defaults, over them a file, over that the environment; then everything is extracted
as one struct.
-/
namespace Figment

/-- What the sources say of a key: the value of the last that has it. -/
def saidLast (calls : List Call) (k : Str) : Option Value :=
  calls.reverse.findSome? fun x =>
    match x.provider.data with
    | .ok n => Map.get k (n.dictOf Profile.Default)
    | .error _ => none

/-- The sources are merged; none of them fails, and all data is for the default profile. -/
def Stacked (calls : List Call) : Prop :=
  ∀ x ∈ calls, x.order = .Merge ∧ ∃ n : Data, x.provider.data = .ok n ∧ n.WF ∧ ∀ e ∈ n, e.1.same Profile.Default = true

/-- The values are those of the fields, in order: what the value of the last source that has the field means, read as the
field's type; or the field's default, or `None`, if no source has it. -/
def FieldsFromLast [FloatOps] (lossy : Bool) (calls : List Call) (fs : List (Str × Option Val × Ty)) (l : List Val) :
    Prop :=
  l.length = fs.length ∧ ∀ (i : Nat) name dflt t y, fs[i]? = some (name, dflt, t) → l[i]? = some y →
    match saidLast calls name with
    | some w => t.Means lossy (fun _ => none) w.strip y
    | none => t.Absent dflt y

end Figment
