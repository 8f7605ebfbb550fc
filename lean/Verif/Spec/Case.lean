import Verif.Base.Str
/-!
# Specification: upper and lower case
-/
namespace Figment

/-- The letters, small and capital. -/
def letters : List (Char × Char) :=
  (str "abcdefghijklmnopqrstuvwxyz").zip (str "ABCDEFGHIJKLMNOPQRSTUVWXYZ")

/-- The capital of a small letter; any other character is its own. -/
def Capital (c d : Char) : Prop := (c, d) ∈ letters ∨ c ∉ letters.map (·.1) ∧ d = c

/-- The small letter of a capital; any other character is its own. -/
def Small (c d : Char) : Prop := (d, c) ∈ letters ∨ c ∉ letters.map (·.2) ∧ d = c

/-- The same character, or the same letter, one small and one capital. -/
def SameLetter (c d : Char) : Prop := c = d ∨ (c, d) ∈ letters ∨ (d, c) ∈ letters

instance : DecidableRel SameLetter := fun _ _ => inferInstanceAs (Decidable (_ ∨ _))

/-- Letter by letter, as many of the one as of the other. -/
def Letterwise (R : Char → Char → Prop) : Str → Str → Prop
  | [], [] => True
  | c :: r, d :: t => R c d ∧ Letterwise R r t
  | _, _ => False

instance Letterwise.decidable (R : Char → Char → Prop) [DecidableRel R] : (a b : Str) → Decidable (Letterwise R a b)
  | [], [] => isTrue trivial
  | _ :: r, _ :: t => @instDecidableAnd _ _ _ (Letterwise.decidable R r t)
  | [], _ :: _ => isFalse id
  | _ :: _, [] => isFalse id

end Figment
