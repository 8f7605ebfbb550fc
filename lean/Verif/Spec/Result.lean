import Verif.Spec.History
/-!
# Specification: what is extracted after a history

From what the providers answered, path by path, to what is extracted. Provenance is left out.
-/
namespace Figment

/-- What an operation makes of what is at each path of a profile. -/
def Op.after (pr : Profile) (A : View) : Op → View
  | .add c =>
    match c.provider.data with
    | .ok n => View.coalesce c.order A fun p => (n.at pr p).map Shape.strip
    | .error _ => A
  | .select _ => A

/-- What is at each path of a profile after the operations; first there is an empty dictionary. -/
def historyView (ops : List Op) (pr : Profile) : View :=
  ops.foldl (Op.after pr) fun p => if p = [] then some (.dict Tag.Default) else none

/-- The profile that is selected after the operations. -/
def historySelected (ops : List Op) : Profile := ((ops.filterMap Op.selects).getLast?).getD Profile.Default

/-- What is extracted after the operations. -/
def historyResult (ops : List Op) : View :=
  if (historySelected ops).isCustom then
    View.merge (View.merge (historyView ops Profile.Default) (historyView ops (historySelected ops)))
      (historyView ops Profile.Global)
  else View.merge (historyView ops Profile.Default) (historyView ops Profile.Global)

/-- The result is an error, the first of its chain with the path and the kind. -/
def FailsAt (r : Except Error Val) (p : List Str) (k : Kind) : Prop :=
  ∃ e, r = .error e ∧ e.head.path = p ∧ e.head.kind = k

/-- The two results say the same: they are the same value, or errors with the same path and the same kind. -/
def SayTheSame (r s : Except Error Val) : Prop :=
  (∀ x, r = .ok x ↔ s = .ok x) ∧ ∀ p k, FailsAt r p k ↔ FailsAt s p k

end Figment
