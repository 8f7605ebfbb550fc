import Verif.Spec.Result
/-!
# Specification: data that does not conflict
-/
namespace Figment

/-- Two providers' data agree: in every profile, at every path where both have something, both have a dictionary or both
have the same. Provenance is left out. -/
def Data.Agree (a b : Data) : Prop :=
  ∀ pr p s t, a.at pr p = some s → b.at pr p = some t → s.strip = t.strip

/-- The calls add providers that agree, two by two, and if some name a profile, they name the same. -/
def CallsAgree (l : List Call) : Prop :=
  ∀ x ∈ l, ∀ y ∈ l,
    (∀ a b, x.provider.data = .ok a → y.provider.data = .ok b → a.Agree b) ∧
    (∀ p q, x.provider.profile = some p → y.provider.profile = some q → p = q)

end Figment
