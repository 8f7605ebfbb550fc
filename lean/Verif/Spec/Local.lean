import Verif.Spec.Result
/-!
# Specification: what lies along a path
-/
namespace Figment

/-- The path `p` lies along `keys`: it is on the way to `keys`, or `keys`, or below. -/
def Along (keys p : List Str) : Prop := p <+: keys ∨ keys <+: p

/-- Two providers' data have the same along the path, in every profile. Provenance is left out. -/
def Data.SameAlong (keys : List Str) (a b : Data) : Prop :=
  ∀ pr p, Along keys p → (a.at pr p).map Shape.strip = (b.at pr p).map Shape.strip

/-- The data has nothing along the path, in any profile. (There is always a dictionary at the root.) -/
def Data.NothingAlong (keys : List Str) (a : Data) : Prop := ∀ pr p, p ≠ [] → Along keys p → a.at pr p = none

/-- Two histories differ only in what is not along the path: the calls are the same but for data elsewhere, and there may
be calls in one, and not in the other, of providers that have nothing along the path and name no profile. -/
inductive OpsAlong (keys : List Str) : List Op → List Op → Prop
  | nil : OpsAlong keys [] []
  | select {r r' : List Op} (p : Profile) : OpsAlong keys r r' → OpsAlong keys (.select p :: r) (.select p :: r')
  | add {r r' : List Op} {x y : Call} {a b : Data} : x.order = y.order → x.provider.profile = y.provider.profile →
      x.provider.data = .ok a → y.provider.data = .ok b → a.SameAlong keys b → OpsAlong keys r r' →
      OpsAlong keys (.add x :: r) (.add y :: r')
  | left {r r' : List Op} {x : Call} {a : Data} : x.provider.data = .ok a → x.provider.profile = none →
      a.NothingAlong keys → OpsAlong keys r r' → OpsAlong keys (.add x :: r) r'
  | right {r r' : List Op} {y : Call} {b : Data} : y.provider.data = .ok b → y.provider.profile = none →
      b.NothingAlong keys → OpsAlong keys r r' → OpsAlong keys r (.add y :: r')

end Figment
