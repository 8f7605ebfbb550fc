import Verif.Lemmas.Text
/-! # Lemmas about the parser of values -/
namespace Figment

namespace Dec

theorem parseDigits_some {s : Str} {n : Nat} :
    parseDigits s = some n ↔ s ≠ [] ∧ (∀ c ∈ s, isDigit c = true) ∧ n = digitsVal 0 s := by
  simp only [parseDigits]
  split
  · rename_i h
    simp only [Option.some.injEq, List.all_eq_true] at h ⊢
    exact ⟨fun e => ⟨h.1, h.2, e.symm⟩, fun e => e.2.2.symm⟩
  · rename_i h
    simp only [List.all_eq_true] at h
    constructor
    · intro e; cases e
    · rintro ⟨a, b, _⟩; exact absurd ⟨a, b⟩ h

/-- Text that starts with neither sign. -/
theorem IntText.plain {s : Str} {n : Int} (h1 : s.head? ≠ some '+') (h2 : s.head? ≠ some '-') :
    IntText s n ↔ ∃ m, parseDigits s = some m ∧ n = m := by
  constructor
  · rintro ⟨ds, hne, hd, ⟨rfl, rfl⟩ | ⟨rfl, _⟩ | ⟨rfl, _⟩⟩
    · exact ⟨_, parseDigits_some.2 ⟨hne, hd, rfl⟩, rfl⟩
    · exact absurd rfl h1
    · exact absurd rfl h2
  · rintro ⟨m, hm, rfl⟩
    obtain ⟨a, b, rfl⟩ := parseDigits_some.1 hm
    exact ⟨s, a, b, .inl ⟨rfl, rfl⟩⟩

theorem IntText.plus {s : Str} {n : Int} : IntText ('+' :: s) n ↔ ∃ m, parseDigits s = some m ∧ n = m := by
  constructor
  · rintro ⟨ds, hne, hd, ⟨rfl, _⟩ | ⟨h, rfl⟩ | ⟨h, _⟩⟩
    · exact absurd (hd '+' (by simp)) (by decide)
    · obtain rfl := (List.cons.inj h).2
      exact ⟨_, parseDigits_some.2 ⟨hne, hd, rfl⟩, rfl⟩
    · exact absurd (List.cons.inj h).1 (by decide)
  · rintro ⟨m, hm, rfl⟩
    obtain ⟨a, b, rfl⟩ := parseDigits_some.1 hm
    exact ⟨s, a, b, .inr (.inl ⟨rfl, rfl⟩)⟩

theorem IntText.minus {s : Str} {n : Int} :
    IntText ('-' :: s) n ↔ ∃ m : Nat, parseDigits s = some m ∧ n = -(m : Int) := by
  constructor
  · rintro ⟨ds, hne, hd, ⟨rfl, _⟩ | ⟨h, _⟩ | ⟨h, rfl⟩⟩
    · exact absurd (hd '-' (by simp)) (by decide)
    · exact absurd (List.cons.inj h).1 (by decide)
    · obtain rfl := (List.cons.inj h).2
      exact ⟨_, parseDigits_some.2 ⟨hne, hd, rfl⟩, rfl⟩
  · rintro ⟨m, hm, rfl⟩
    obtain ⟨a, b, rfl⟩ := parseDigits_some.1 hm
    exact ⟨s, a, b, .inr (.inr ⟨rfl, rfl⟩)⟩

theorem IntText.functional {s : Str} {n m : Int} (h : IntText s n) (h' : IntText s m) : n = m := by
  by_cases h1 : ∃ r, s = '+' :: r
  · obtain ⟨r, rfl⟩ := h1
    obtain ⟨a, ha, rfl⟩ := IntText.plus.1 h
    obtain ⟨b, hb, rfl⟩ := IntText.plus.1 h'
    rw [ha] at hb; rw [Option.some.inj hb]
  · by_cases h2 : ∃ r, s = '-' :: r
    · obtain ⟨r, rfl⟩ := h2
      obtain ⟨a, ha, rfl⟩ := IntText.minus.1 h
      obtain ⟨b, hb, rfl⟩ := IntText.minus.1 h'
      rw [ha] at hb; rw [Option.some.inj hb]
    · have e1 : s.head? ≠ some '+' := by
        intro e; cases s with
        | nil => cases e
        | cons c r => exact h1 ⟨r, by rw [Option.some.inj e]⟩
      have e2 : s.head? ≠ some '-' := by
        intro e; cases s with
        | nil => cases e
        | cons c r => exact h2 ⟨r, by rw [Option.some.inj e]⟩
      obtain ⟨a, ha, rfl⟩ := (IntText.plain e1 e2).1 h
      obtain ⟨b, hb, rfl⟩ := (IntText.plain e1 e2).1 h'
      rw [ha] at hb; rw [Option.some.inj hb]

theorem parseDigits_minus (r : Str) : parseDigits ('-' :: r) = none := by
  cases h : parseDigits ('-' :: r) with
  | none => rfl
  | some n => exact absurd ((parseDigits_some.1 h).2.1 '-' (by simp)) (by decide)

theorem parseDigits_plus (r : Str) : parseDigits ('+' :: r) = none := by
  cases h : parseDigits ('+' :: r) with
  | none => rfl
  | some n => exact absurd ((parseDigits_some.1 h).2.1 '+' (by simp)) (by decide)

theorem unsignedVal_iff {s : Str} {n : Nat} : unsignedVal s = some n ↔ s.head? ≠ some '-' ∧ IntText s n := by
  unfold unsignedVal
  split
  · rename_i r
    rw [IntText.plus]
    constructor
    · intro h; exact ⟨by simp, n, h, rfl⟩
    · rintro ⟨_, m, hm, e⟩; rw [hm, Int.ofNat.inj e]
  · rename_i hs
    have e1 : s.head? ≠ some '+' := by
      intro e; cases s with
      | nil => cases e
      | cons c r => exact hs r (by rw [Option.some.inj e])
    by_cases e2 : s.head? = some '-'
    · cases s with
      | nil => cases e2
      | cons c r =>
        obtain rfl := Option.some.inj e2
        rw [parseDigits_minus]
        simp
    · rw [IntText.plain e1 e2]
      constructor
      · intro h; exact ⟨e2, n, h, rfl⟩
      · rintro ⟨_, m, hm, e⟩; rw [hm, Int.ofNat.inj e]

theorem signedVal_iff {s : Str} {n : Int} : signedVal s = some n ↔ IntText s n := by
  unfold signedVal
  split
  · rename_i r
    rw [IntText.plus]
    simp only [Option.map_eq_some_iff]
    constructor
    · rintro ⟨m, h, rfl⟩; exact ⟨m, h, rfl⟩
    · rintro ⟨m, h, rfl⟩; exact ⟨m, h, rfl⟩
  · rename_i r
    rw [IntText.minus]
    simp only [Option.map_eq_some_iff]
    constructor
    · rintro ⟨m, h, rfl⟩; exact ⟨m, h, rfl⟩
    · rintro ⟨m, h, rfl⟩; exact ⟨m, h, rfl⟩
  · rename_i h1 h2
    have e1 : s.head? ≠ some '+' := by
      intro e; cases s with
      | nil => cases e
      | cons c r => exact h1 r (by rw [Option.some.inj e])
    have e2 : s.head? ≠ some '-' := by
      intro e; cases s with
      | nil => cases e
      | cons c r => exact h2 r (by rw [Option.some.inj e])
    rw [IntText.plain e1 e2]
    simp only [Option.map_eq_some_iff]
    constructor
    · rintro ⟨m, h, rfl⟩; exact ⟨m, h, rfl⟩
    · rintro ⟨m, h, rfl⟩; exact ⟨m, h, rfl⟩

/-- An unsigned number: an integer text without minus sign, in range. -/
theorem parseUnsigned_some {w : Nat} {s : Str} {b : BitVec w} :
    parseUnsigned w s = some b ↔ s.head? ≠ some '-' ∧ IntText s b.toNat := by
  rw [← unsignedVal_iff, parseUnsigned]
  cases h : unsignedVal s with
  | none => simp
  | some n =>
    simp only [Option.some.injEq]
    constructor
    · intro h
      split at h
      · rename_i hn
        rw [← Option.some.inj h, BitVec.toNat_ofNat, Nat.mod_eq_of_lt hn]
      · cases h
    · rintro rfl
      rw [if_pos b.isLt]
      simp

/-- A signed number: an integer text, in range. -/
theorem parseSigned_some {w : Nat} (hw : 0 < w) {s : Str} {b : BitVec w} :
    parseSigned w s = some b ↔ IntText s b.toInt := by
  rw [← signedVal_iff, parseSigned]
  have hl := BitVec.le_two_mul_toInt (x := b)
  have hu := BitVec.two_mul_toInt_lt (x := b)
  have hp : (2 : Int) ^ w = 2 * 2 ^ (w - 1) := by
    obtain ⟨k, rfl⟩ : ∃ k, w = k + 1 := ⟨w - 1, by omega⟩
    rw [Nat.add_sub_cancel, Int.pow_succ]; omega
  have hp' : (2 : Int) ^ w = ((2 ^ w : Nat) : Int) := by norm_cast
  cases h : signedVal s with
  | none => simp
  | some n =>
    simp only [Option.some.injEq]
    constructor
    · intro h
      split at h
      · rename_i hn
        rw [← Option.some.inj h, BitVec.toInt_ofInt]
        exact (Int.bmod_eq_of_le (by omega) (by omega)).symm
      · cases h
    · rintro rfl
      rw [if_pos ⟨by omega, by omega⟩]
      simp

end Dec

/-- An integer text has digits and signs only. -/
theorem IntText.chars {s : Str} {n : Int} (h : IntText s n) : ∀ c ∈ s, Dec.isDigit c = true ∨ c = '+' ∨ c = '-' := by
  obtain ⟨ds, _, hd, ⟨rfl, _⟩ | ⟨rfl, _⟩ | ⟨rfl, _⟩⟩ := h
  · intro c hc; exact .inl (hd c hc)
  · intro c hc
    rcases List.mem_cons.1 hc with rfl | hc
    · exact .inr (.inl rfl)
    · exact .inl (hd c hc)
  · intro c hc
    rcases List.mem_cons.1 hc with rfl | hc
    · exact .inr (.inr rfl)
    · exact .inl (hd c hc)

theorem IntText.ne_word {s : Str} {n : Int} (h : IntText s n) : s ≠ str "true" ∧ s ≠ str "false" := by
  constructor
  · rintro rfl; exact absurd (h.chars 't' (by decide)) (by decide)
  · rintro rfl; exact absurd (h.chars 'f' (by decide)) (by decide)

/-- Integer texts by sign. -/
theorem IntText.nonneg {s : Str} {n : Int} (h : IntText s n) (hs : s.head? ≠ some '-') : 0 ≤ n := by
  obtain ⟨ds, _, hd, ⟨rfl, rfl⟩ | ⟨rfl, rfl⟩ | ⟨rfl, _⟩⟩ := h
  · omega
  · omega
  · exact absurd rfl hs

theorem IntText.nonpos {s : Str} {n : Int} (h : IntText s n) (hs : s.head? = some '-') : n ≤ 0 := by
  obtain ⟨ds, _, hd, ⟨rfl, rfl⟩ | ⟨rfl, rfl⟩ | ⟨rfl, rfl⟩⟩ := h
  · cases s with
    | nil => cases hs
    | cons c r =>
      have := hd c (by simp)
      rw [Option.some.inj hs] at this
      exact absurd this (by decide)
  · cases hs
  · omega

section
variable [FloatOps]

/-- Text without quotes: the function is the specification. -/
theorem Parser.bare_iff (s : Str) (v : Value) : Parser.bare s = v ↔ Bare s v := by
  have sound : Bare s (Parser.bare s) := by
    unfold Parser.bare
    split
    · rename_i h; subst h; exact .tt
    split
    · rename_i h; subst h; exact .ff
    rename_i ht hf
    split
    · rename_i h
      simp only [List.contains_eq_mem, decide_eq_true_eq] at h
      split
      · rename_i e; exact .float h e
      · rename_i e; exact .dotted h e
    · rename_i h
      simp only [List.contains_eq_mem, decide_eq_true_eq] at h
      split
      · rename_i e
        obtain ⟨h1, h2⟩ := Dec.parseUnsigned_some.1 e
        exact .unsigned h h1 h2
      · rename_i hu
        split
        · rename_i int e
          have h2 := (Dec.parseSigned_some (by decide)).1 e
          by_cases h1 : s.head? = some '-'
          · exact .signed h h1 h2
          · have h3 := h2.nonneg h1
            have hlt := BitVec.two_mul_toInt_lt (x := int)
            have : Dec.parseUnsigned 64 s = some (BitVec.ofNat 64 int.toInt.toNat) := by
              refine Dec.parseUnsigned_some.2 ⟨h1, ?_⟩
              rw [BitVec.toNat_ofNat, Nat.mod_eq_of_lt (by omega), Int.toNat_of_nonneg h3]
              exact h2
            rw [this] at hu; cases hu
        · rename_i hs
          refine .text ht hf h ?_
          rintro ⟨n, hn, hr⟩
          split at hr
          · rename_i h1
            have h2 := hn.nonpos h1
            have : Dec.parseSigned 64 s = some (BitVec.ofInt 64 n) := by
              refine (Dec.parseSigned_some (by decide)).2 ?_
              rw [BitVec.toInt_ofInt, Int.bmod_eq_of_le (by omega) (by omega)]
              exact hn
            rw [this] at hs; cases hs
          · rename_i h1
            have h2 := hn.nonneg h1
            have : Dec.parseUnsigned 64 s = some (BitVec.ofNat 64 n.toNat) := by
              refine Dec.parseUnsigned_some.2 ⟨h1, ?_⟩
              rw [BitVec.toNat_ofNat, Nat.mod_eq_of_lt (by omega), Int.toNat_of_nonneg h2]
              exact hn
            rw [this] at hu; cases hu
  constructor
  · rintro rfl; exact sound
  · intro h
    have nd : ∀ {n : Int}, IntText s n → '.' ∉ s := fun hn hd => absurd (hn.chars '.' hd) (by decide)
    unfold Parser.bare
    cases h with
    | tt => rfl
    | ff => rfl
    | float hd hf =>
      have h1 : s ≠ str "true" := by rintro rfl; exact absurd hd (by decide)
      have h2 : s ≠ str "false" := by rintro rfl; exact absurd hd (by decide)
      rw [if_neg h1, if_neg h2, if_pos (by simpa using hd), hf]
    | dotted hd hf =>
      have h1 : s ≠ str "true" := by rintro rfl; exact absurd hd (by decide)
      have h2 : s ≠ str "false" := by rintro rfl; exact absurd hd (by decide)
      rw [if_neg h1, if_neg h2, if_pos (by simpa using hd), hf]
    | unsigned hd hs h =>
      rw [if_neg h.ne_word.1, if_neg h.ne_word.2, if_neg (by simpa using hd), Dec.parseUnsigned_some.2 ⟨hs, h⟩]
    | signed hd hs h =>
      have : Dec.parseUnsigned 64 s = none := by
        cases e : Dec.parseUnsigned 64 s with
        | none => rfl
        | some b => exact absurd hs (Dec.parseUnsigned_some.1 e).1
      rw [if_neg h.ne_word.1, if_neg h.ne_word.2, if_neg (by simpa using hd), this,
        (Dec.parseSigned_some (by decide)).2 h]
    | text h1 h2 hd hn =>
      have hu : Dec.parseUnsigned 64 s = none := by
        cases e : Dec.parseUnsigned 64 s with
        | none => rfl
        | some b =>
          obtain ⟨e1, e2⟩ := Dec.parseUnsigned_some.1 e
          refine absurd ⟨_, e2, ?_⟩ hn
          rw [if_neg e1]
          have := b.isLt; omega
      have hs : Dec.parseSigned 64 s = none := by
        cases e : Dec.parseSigned 64 s with
        | none => rfl
        | some b =>
          have e2 := (Dec.parseSigned_some (by decide)).1 e
          have hl := BitVec.le_two_mul_toInt (x := b)
          have hg := BitVec.two_mul_toInt_lt (x := b)
          refine absurd ⟨_, e2, ?_⟩ hn
          split <;> omega
      rw [if_neg h1, if_neg h2, if_neg (by simpa using hd), hu, hs]

end
end Figment
