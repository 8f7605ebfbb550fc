import Verif.Spec.Case
import Verif.Model.Profile
import Verif.Props.Env
/-!
# C10, C39 and C57: what upper and lower case are

The theorems elsewhere speak of `Str.lower` and `Str.upper`; these say what they are, letter by letter.
-/
namespace Figment

theorem Char.ofNat_toNat' (c : Char) : Char.ofNat c.toNat = c := Char.ofNat_toNat c

theorem Str.capital_upperChar (c : Char) : Capital c (Str.upperChar c) := by
  by_cases h : 'a' ≤ c ∧ c ≤ 'z'
  · left
    have h1 : 97 ≤ c.toNat := h.1
    have h2 : c.toNat ≤ 122 := h.2
    have hall : ∀ n : Fin 26, (Char.ofNat (97 + n.val), Str.upperChar (Char.ofNat (97 + n.val))) ∈ letters := by decide
    have := hall ⟨c.toNat - 97, by omega⟩
    have he : 97 + (c.toNat - 97) = c.toNat := by omega
    dsimp only at this
    rwa [he, Char.ofNat_toNat'] at this
  · right
    refine ⟨fun hc => h ?_, by rw [Str.upperChar, if_neg h]⟩
    have hall : ∀ c ∈ letters.map (·.1), 'a' ≤ c ∧ c ≤ 'z' := by decide
    exact hall c hc

theorem Str.small_lowerChar (c : Char) : Small c (Str.lowerChar c) := by
  by_cases h : 'A' ≤ c ∧ c ≤ 'Z'
  · left
    have h1 : 65 ≤ c.toNat := h.1
    have h2 : c.toNat ≤ 90 := h.2
    have hall : ∀ n : Fin 26, (Str.lowerChar (Char.ofNat (65 + n.val)), Char.ofNat (65 + n.val)) ∈ letters := by decide
    have := hall ⟨c.toNat - 65, by omega⟩
    have he : 65 + (c.toNat - 65) = c.toNat := by omega
    dsimp only at this
    rwa [he, Char.ofNat_toNat'] at this
  · right
    refine ⟨fun hc => h ?_, by rw [Str.lowerChar, if_neg h]⟩
    have hall : ∀ c ∈ letters.map (·.2), 'A' ≤ c ∧ c ≤ 'Z' := by decide
    exact hall c hc

theorem letters_lower : ∀ x ∈ letters, Str.lowerChar x.1 = x.1 ∧ Str.lowerChar x.2 = x.1 := by decide
theorem letters_snd : ∀ x ∈ letters, ∀ y ∈ letters, x.1 = y.1 → x.2 = y.2 := by decide

theorem Str.lowerChar_eq_iff {c d : Char} : Str.lowerChar c = Str.lowerChar d ↔ SameLetter c d := by
  constructor
  · intro h
    rcases Str.small_lowerChar c with hc | ⟨_, hc⟩ <;> rcases Str.small_lowerChar d with hd | ⟨_, hd⟩
    · exact .inl (letters_snd _ hc _ hd h)
    · rw [h, hd] at hc
      exact .inr (.inr hc)
    · rw [← h, hc] at hd
      exact .inr (.inl hd)
    · rw [hc, hd] at h
      exact .inl h
  · rintro (rfl | h | h)
    · rfl
    · rw [(letters_lower _ h).1, (letters_lower _ h).2]
    · rw [(letters_lower _ h).1, (letters_lower _ h).2]

/-- **C57**: upper case is upper case, letter by letter. -/
theorem C57_upper (s : Str) : Letterwise Capital s (Str.upper s) := by
  induction s with
  | nil => trivial
  | cons c r ih => exact ⟨Str.capital_upperChar c, ih⟩

/-- **C38**: lower case is lower case, letter by letter. -/
theorem C38_lower (s : Str) : Letterwise Small s (Str.lower s) := by
  induction s with
  | nil => trivial
  | cons c r ih => exact ⟨Str.small_lowerChar c, ih⟩

/-- **C10**, **C39**: names are the same in lower case if they are letter by letter the same but for case; for profiles
this is equality. -/
theorem C10_uncased (a b : Str) : (Str.lower a = Str.lower b ↔ Letterwise SameLetter a b) ∧
    (Profile.same ⟨a⟩ ⟨b⟩ = true ↔ Letterwise SameLetter a b) := by
  have h : Str.lower a = Str.lower b ↔ Letterwise SameLetter a b := by
    induction a generalizing b with
    | nil =>
      cases b with
      | nil => exact ⟨fun _ => trivial, fun _ => rfl⟩
      | cons d t => exact ⟨(fun h => by cases h), False.elim⟩
    | cons c r ih =>
      cases b with
      | nil => exact ⟨(fun h => by cases h), False.elim⟩
      | cons d t =>
        show Str.lowerChar c :: Str.lower r = Str.lowerChar d :: Str.lower t ↔ _
        rw [List.cons.injEq, Str.lowerChar_eq_iff, ih]
        rfl
  refine ⟨h, ?_⟩
  rw [← h]
  simp [Profile.same, Str.uncasedEq]

example : Letterwise SameLetter (str "Äb-Dev_1") (str "ÄB-dEV_1") := by decide
example : ¬ Letterwise SameLetter (str "k") (str "\u212a") := by decide
example : Str.upper (str "a_zÄä[`{@") = str "A_ZÄä[`{@" := by decide

end Figment
