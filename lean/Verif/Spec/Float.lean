import Verif.Spec.Equal
import Verif.Spec.Text
import Verif.Model.Float
/-!
# Specification: the nearest floating point number, and decimal text
-/
namespace Figment

/-- The number has the sign, and is `k` times `2 ^ -1074`; infinity counts as `top`, the power of two after the greatest
finite number (IEEE 754, 4.3.1). -/
def FloatVal.Size (top : Nat) (neg : Bool) (k : Nat) (v : FloatVal) : Prop :=
  v = .fin neg k ∨ (v = .inf neg ∧ k = top)

/-- How far `k` times `2 ^ -1074` is from `n / d`, up to the factor `2 ^ 1074 * d`. -/
def away (n d k : Nat) : Nat := (k * d - n * 2 ^ 1074) + (n * 2 ^ 1074 - k * d)

/-- Of all numbers of the format, `x` is nearest to `n / d`, or to `- n / d` if `neg`, and if another is as near, the
last bit of `x` is zero. -/
def F64.Nearest (neg : Bool) (n d : Nat) (x : F64) : Prop :=
  ∃ k, x.val.Size (2 ^ (1024 + 1074)) neg k ∧ ∀ (y : F64) (s : Bool) (j : Nat), y.val.Size (2 ^ (1024 + 1074)) s j →
    away n d k < away n d j ∨ (away n d k = away n d j ∧ (j = k ∨ x.toNat % 2 = 0))

/-- The same for `f32`. -/
def F32.Nearest (neg : Bool) (n d : Nat) (x : F32) : Prop :=
  ∃ k, x.val.Size (2 ^ (128 + 1074)) neg k ∧ ∀ (y : F32) (s : Bool) (j : Nat), y.val.Size (2 ^ (128 + 1074)) s j →
    away n d k < away n d j ∨ (away n d k = away n d j ∧ (j = k ∨ x.toNat % 2 = 0))

/-- Decimal digits, maybe none. -/
def Digits (s : Str) : Prop := ∀ c ∈ s, Dec.isDigit c = true

instance (s : Str) : Decidable (Digits s) := inferInstanceAs (Decidable (∀ c ∈ s, Dec.isDigit c = true))

/-- The text is the exponent `x`: nothing, or `e` or `E` and an integer. -/
def Exponent (s : Str) (x : Int) : Prop :=
  (s = [] ∧ x = 0) ∨ ∃ c t, s = c :: t ∧ (c = 'e' ∨ c = 'E') ∧ IntText t x

/-- A sign, or none. -/
def SignText (s : Str) (neg : Bool) : Prop :=
  ((s = [] ∨ s = str "+") ∧ neg = false) ∨ (s = str "-" ∧ neg = true)

/-- The text is a decimal number with a dot: `n / d`, or `- n / d` if `neg`. It has a sign or none, digits before or after
the dot, or both, and an exponent or none. -/
def Decimal (s : Str) (neg : Bool) (n d : Nat) : Prop :=
  ∃ sign a b ex x, s = sign ++ (a ++ '.' :: (b ++ ex)) ∧ SignText sign neg ∧ Digits a ∧ Digits b ∧ a ++ b ≠ [] ∧
    Exponent ex x ∧ n = Dec.digitsVal 0 (a ++ b) * 10 ^ (x - b.length).toNat ∧ d = 10 ^ (b.length - x).toNat

end Figment
