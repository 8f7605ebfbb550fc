import Verif.Lemmas.Text
/-!
# C34, C35, C43: what digits, white space and trimming are

The specifications of text (Spec/Text, Spec/Env) use the model's `Dec`, `Hex` and `Str.trim`; here is what these are.
-/
namespace Figment

theorem Char.eq_of_code {c : Char} {k : Nat} (h : c.toNat = k) : c = Char.ofNat k := by
  rw [← h, Char.ofNat_toNat]

/-- **C34**: the hexadecimal digits, in either case, and their values. -/
theorem C34_hex (c : Char) (n : Nat) : (Hex.isDigit c = true ∧ Hex.digitVal c = n) ↔
    (str "0123456789abcdef")[n]? = some c ∨ (str "0123456789ABCDEF")[n]? = some c := by
  constructor
  · rintro ⟨h, hn⟩
    simp only [Hex.isDigit, Bool.or_eq_true, Bool.and_eq_true, decide_eq_true_eq, Char.le_def, UInt32.le_iff_toNat_le] at h
    rcases h with (⟨h1, h2⟩ | ⟨h1, h2⟩) | ⟨h1, h2⟩
    · change 48 ≤ c.toNat at h1
      change c.toNat ≤ 57 at h2
      have h3 : c.toNat = 48 ∨ c.toNat = 49 ∨ c.toNat = 50 ∨ c.toNat = 51 ∨ c.toNat = 52 ∨ c.toNat = 53 ∨
        c.toNat = 54 ∨ c.toNat = 55 ∨ c.toNat = 56 ∨ c.toNat = 57 := by omega
      rcases h3 with h | h | h | h | h | h | h | h | h | h <;> (have := Char.eq_of_code h; subst this; subst hn; decide)
    · change 97 ≤ c.toNat at h1
      change c.toNat ≤ 102 at h2
      have h3 : c.toNat = 97 ∨ c.toNat = 98 ∨ c.toNat = 99 ∨ c.toNat = 100 ∨ c.toNat = 101 ∨ c.toNat = 102 := by omega
      rcases h3 with h | h | h | h | h | h <;> (have := Char.eq_of_code h; subst this; subst hn; decide)
    · change 65 ≤ c.toNat at h1
      change c.toNat ≤ 70 at h2
      have h3 : c.toNat = 65 ∨ c.toNat = 66 ∨ c.toNat = 67 ∨ c.toNat = 68 ∨ c.toNat = 69 ∨ c.toNat = 70 := by omega
      rcases h3 with h | h | h | h | h | h <;> (have := Char.eq_of_code h; subst this; subst hn; decide)
  · have key : ∀ n, n < 16 → ∀ c, ((str "0123456789abcdef")[n]? = some c ∨ (str "0123456789ABCDEF")[n]? = some c) →
        Hex.isDigit c = true ∧ Hex.digitVal c = n := by
      intro n hn c h
      have h3 : n = 0 ∨ n = 1 ∨ n = 2 ∨ n = 3 ∨ n = 4 ∨ n = 5 ∨ n = 6 ∨ n = 7 ∨ n = 8 ∨ n = 9 ∨ n = 10 ∨ n = 11
        ∨ n = 12 ∨ n = 13 ∨ n = 14 ∨ n = 15 := by omega
      rcases h3 with rfl | rfl | rfl | rfl | rfl | rfl | rfl | rfl | rfl | rfl | rfl | rfl | rfl | rfl | rfl |
        rfl <;> rcases h with h | h <;> cases h <;> decide
    intro h
    have hn : n < 16 := by
      rcases h with h | h <;> exact (List.getElem?_eq_some_iff.1 h).1
    exact key n hn c h

/-- **C34**: hexadecimal numbers are positional. -/
theorem C34_hex_number (ds : Str) (c : Char) :
    Hex.val 0 [] = 0 ∧ Hex.val 0 (ds ++ [c]) = 16 * Hex.val 0 ds + Hex.digitVal c := by
  refine ⟨rfl, ?_⟩
  have : ∀ (ds : Str) (a : Nat), Hex.val a (ds ++ [c]) = 16 * Hex.val a ds + Hex.digitVal c := by
    intro ds
    induction ds with
    | nil => intro a; exact congrArg (· + Hex.digitVal c) (Nat.mul_comm a 16)
    | cons d r ih => intro a; exact ih _
  exact this ds 0

/-- **C43**: the decimal digits and their values. -/
theorem C43_digit (c : Char) (n : Nat) : (Dec.isDigit c = true ∧ Dec.digitVal c = n) ↔
    (str "0123456789")[n]? = some c := by
  constructor
  · rintro ⟨h, hn⟩
    simp only [Dec.isDigit, Bool.and_eq_true, decide_eq_true_eq, Char.le_def, UInt32.le_iff_toNat_le] at h
    obtain ⟨h1, h2⟩ := h
    change 48 ≤ c.toNat at h1
    change c.toNat ≤ 57 at h2
    have h3 : c.toNat = 48 ∨ c.toNat = 49 ∨ c.toNat = 50 ∨ c.toNat = 51 ∨ c.toNat = 52 ∨ c.toNat = 53 ∨ c.toNat =
      54 ∨ c.toNat = 55 ∨ c.toNat = 56 ∨ c.toNat = 57 := by omega
    rcases h3 with h | h | h | h | h | h | h | h | h | h <;> (have := Char.eq_of_code h; subst this; subst hn; decide)
  · intro h
    have hn : n < 10 := (List.getElem?_eq_some_iff.1 h).1
    have h3 : n = 0 ∨ n = 1 ∨ n = 2 ∨ n = 3 ∨ n = 4 ∨ n = 5 ∨ n = 6 ∨ n = 7 ∨ n = 8 ∨ n = 9 := by omega
    rcases h3 with rfl | rfl | rfl | rfl | rfl | rfl | rfl | rfl | rfl | rfl <;> cases h <;> decide

/-- **C43**: decimal numbers are positional. -/
theorem C43_number (ds : Str) (c : Char) :
    Dec.digitsVal 0 [] = 0 ∧ Dec.digitsVal 0 (ds ++ [c]) = 10 * Dec.digitsVal 0 ds + Dec.digitVal c := by
  refine ⟨rfl, ?_⟩
  have : ∀ (ds : Str) (a : Nat), Dec.digitsVal a (ds ++ [c]) = 10 * Dec.digitsVal a ds + Dec.digitVal c := by
    intro ds
    induction ds with
    | nil => intro a; exact congrArg (· + Dec.digitVal c) (Nat.mul_comm a 10)
    | cons d r ih => intro a; exact ih _
  exact this ds 0

/-- **C35**: white space is what Unicode says it is. -/
theorem C35_white (c : Char) : Str.isWs c = true ↔ c.toNat ∈
    [9, 10, 11, 12, 13, 32, 133, 160, 5760, 8192, 8193, 8194, 8195, 8196, 8197, 8198, 8199, 8200, 8201, 8202, 8232, 8233,
      8239, 8287, 12288] := by
  unfold Str.isWs
  simp only [List.mem_cons, List.not_mem_nil, or_false, Bool.or_eq_true, Bool.and_eq_true, decide_eq_true_eq,
    beq_iff_eq]
  generalize c.toNat = n
  constructor
  · rintro ((((((((((⟨h1, h2⟩ | h) | h) | h) | h) | ⟨h1, h2⟩) | h) | h) | h) | h) | h)
    · have : n = 9 ∨ n = 10 ∨ n = 11 ∨ n = 12 ∨ n = 13 := by omega
      rcases this with h | h | h | h | h <;> simp [h]
    · simp [h]
    · simp [h]
    · simp [h]
    · simp [h]
    · have : n = 8192 ∨ n = 8193 ∨ n = 8194 ∨ n = 8195 ∨ n = 8196 ∨ n = 8197 ∨ n = 8198 ∨ n = 8199 ∨ n = 8200 ∨
        n = 8201 ∨ n = 8202 := by omega
      rcases this with h | h | h | h | h | h | h | h | h | h | h <;> simp [h]
    all_goals simp [h]
  · rintro (rfl | rfl | rfl | rfl | rfl | rfl | rfl | rfl | rfl | rfl | rfl | rfl | rfl | rfl | rfl | rfl | rfl | rfl | rfl |
      rfl | rfl | rfl | rfl | rfl | rfl) <;> simp

/-- **C35**: trimming leaves out the white space around the text, and all of it. -/
theorem C35_trimmed (s t : Str) : Str.trim s = t ↔
    ∃ a b, s = a ++ (t ++ b) ∧ (∀ c ∈ a, Str.isWs c = true) ∧ (∀ c ∈ b, Str.isWs c = true) ∧
      (∀ c, t.head? = some c → Str.isWs c = false) ∧ (∀ c, t.getLast? = some c → Str.isWs c = false) := by
  constructor
  · rintro rfl
    obtain ⟨a, b, ha, hb, hs, h1, h2⟩ := Str.trim_split s
    exact ⟨a, b, hs, ha, hb, h1, h2⟩
  · rintro ⟨a, b, rfl, ha, hb, h1, h2⟩
    exact Str.trim_of_split ha hb h1 h2

example : Str.trim (str " \t a b\n") = str "a b" ∧ Hex.val 0 (str "1fF") = 511 ∧ Dec.digitsVal 0 (str "042") = 42 := by
  decide

end Figment
