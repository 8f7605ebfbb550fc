import Verif.Spec.Means
import Verif.Model.Either
/-!
# Specification: `Either`
-/
namespace Figment.Value

mutual
/-- The value has no `usize` or `isize` in it. (Files and the environment give none.) -/
def fixedWidth : Value → Bool
  | .num _ (.usize _) => false
  | .num _ (.isize _) => false
  | .dict _ d => fixedWidthD d
  | .array _ a => fixedWidthA a
  | _ => true
/-- See `fixedWidth`. -/
def fixedWidthD : List (Str × Value) → Bool
  | [] => true
  | (_, v) :: r => v.fixedWidth && fixedWidthD r
/-- See `fixedWidth`. -/
def fixedWidthA : List Value → Bool
  | [] => true
  | v :: r => v.fixedWidth && fixedWidthA r
end

end Figment.Value

namespace Figment

/-- What a magic type wraps has none of the crate's own types in it, and is a proper type. -/
def MagicTy.proper : MagicTy → Bool
  | .relPath => true
  | .tagged t => t.proper false

/-- How an extraction `r` of an `Either<A, B>` should end, given how that of an `A` and that of a `B` do: as a `Left` if
the first succeeds, as a `Right` if only the second does, and otherwise in an error. -/
def Either.Picks (r : R (Either Val Val)) (a b : R Val) : Prop :=
  (∀ x, r = .ok (.left x) ↔ a = .ok x) ∧
  (∀ y, r = .ok (.right y) ↔ (∃ e, a = .error e) ∧ b = .ok y) ∧
  ((∃ e, r = .error e) ↔ (∃ e, a = .error e) ∧ ∃ e, b = .error e)

end Figment
