import Verif.Spec.Float
import Verif.Lemmas.Equal
import Verif.Lemmas.Text
import Verif.Lemmas.Parse
/-!
# Lemmas: rounding to the nearest floating point number
-/
namespace Figment

/-! ## Formats -/

/-- What bits without sign stand for, in units of the smallest number of a format with `M` bits of mantissa. Infinity is
the power of two after the greatest finite number. -/
def unitsOf (M b : Nat) : Nat := if b < 2 ^ M then b else (2 ^ M + b % 2 ^ M) * 2 ^ (b / 2 ^ M - 1)

/-- Bits made of an exponent and a mantissa that may be the next power of two. -/
theorem unitsOf_add (M s m : Nat) (h : s = 0 ∨ 2 ^ M ≤ m) (h' : m ≤ 2 ^ (M + 1)) :
    unitsOf M (s * 2 ^ M + m) = m * 2 ^ s := by
  have hp : 0 < 2 ^ M := Nat.two_pow_pos M
  have h2 : 2 ^ (M + 1) = 2 * 2 ^ M := by rw [Nat.pow_succ, Nat.mul_comm]
  rw [h2] at h'
  unfold unitsOf
  by_cases hm : m < 2 ^ M
  · have hs : s = 0 := h.resolve_right (Nat.not_le.2 hm)
    subst hs
    rw [Nat.zero_mul, Nat.zero_add, if_pos hm, Nat.pow_zero, Nat.mul_one]
  · have hm' : 2 ^ M ≤ m := Nat.not_lt.1 hm
    rw [if_neg (Nat.not_lt.2 (Nat.le_trans hm' (Nat.le_add_left _ _)))]
    by_cases he : m = 2 * 2 ^ M
    · subst he
      have e1 : s * 2 ^ M + 2 * 2 ^ M = (s + 2) * 2 ^ M := (Nat.add_mul _ _ _).symm
      rw [e1, Nat.mul_mod_left, Nat.mul_div_cancel _ hp, Nat.add_zero, show s + 2 - 1 = 1 + s by omega, Nat.pow_add,
        Nat.pow_one, ← Nat.mul_assoc, Nat.mul_comm (2 ^ M) 2]
    · obtain ⟨r, rfl⟩ : ∃ r, m = 2 ^ M + r := ⟨m - 2 ^ M, by omega⟩
      have hr : r < 2 ^ M := by omega
      have e1 : s * 2 ^ M + (2 ^ M + r) = r + (s + 1) * 2 ^ M := by rw [Nat.add_mul]; omega
      rw [e1, Nat.add_mul_mod_self_right, Nat.add_mul_div_right _ _ hp, Nat.mod_eq_of_lt hr, Nat.div_eq_of_lt hr]
      rw [show 0 + (s + 1) - 1 = s by omega]

/-- Greater bits stand for greater numbers. -/
theorem unitsOf_succ (M b : Nat) : unitsOf M b < unitsOf M (b + 1) := by
  have hp : 0 < 2 ^ M := Nat.two_pow_pos M
  have h2 : 2 ^ (M + 1) = 2 * 2 ^ M := by rw [Nat.pow_succ, Nat.mul_comm]
  by_cases hb : b < 2 ^ M
  · have e1 := unitsOf_add M 0 b (.inl rfl) (by omega)
    have e2 := unitsOf_add M 0 (b + 1) (.inl rfl) (by omega)
    rw [Nat.zero_mul, Nat.zero_add] at e1 e2
    rw [e1, e2]
    omega
  · have hd : 1 ≤ b / 2 ^ M := (Nat.one_le_div_iff hp).2 (by omega)
    have hm := Nat.mod_lt b hp
    have hb' : (b / 2 ^ M - 1) * 2 ^ M + (2 ^ M + b % 2 ^ M) = b := by
      have := Nat.div_add_mod b (2 ^ M)
      rw [Nat.mul_comm] at this
      rw [Nat.sub_mul, Nat.one_mul, ← Nat.add_assoc, Nat.sub_add_cancel, this]
      exact Nat.le_mul_of_pos_left _ hd
    have e1 := unitsOf_add M (b / 2 ^ M - 1) (2 ^ M + b % 2 ^ M) (.inr (by omega)) (by omega)
    have e2 := unitsOf_add M (b / 2 ^ M - 1) (2 ^ M + b % 2 ^ M + 1) (.inr (by omega)) (by omega)
    rw [hb'] at e1
    rw [← Nat.add_assoc, hb'] at e2
    rw [e1, e2]
    exact Nat.mul_lt_mul_of_pos_right (by omega) (Nat.two_pow_pos _)

theorem unitsOf_lt {M a b : Nat} (h : a < b) : unitsOf M a < unitsOf M b := by
  induction b with
  | zero => omega
  | succ b ih =>
    rcases Nat.lt_succ_iff_lt_or_eq.1 h with h' | rfl
    · exact Nat.lt_trans (ih h') (unitsOf_succ M b)
    · exact unitsOf_succ M a

theorem unitsOf_le {M a b : Nat} (h : a ≤ b) : unitsOf M a ≤ unitsOf M b := by
  rcases Nat.lt_or_eq_of_le h with h' | rfl
  · exact Nat.le_of_lt (unitsOf_lt h')
  · exact Nat.le_refl _

theorem unitsOf_inj {M a b : Nat} (h : unitsOf M a = unitsOf M b) : a = b := by
  rcases Nat.lt_trichotomy a b with h' | h' | h'
  · exact absurd h (Nat.ne_of_lt (unitsOf_lt h'))
  · exact h'
  · exact absurd h.symm (Nat.ne_of_lt (unitsOf_lt h'))

/-- How far a fraction is from a whole number, times the denominator. -/
def dist (n d k : Nat) : Nat := (k * d - n) + (n - k * d)

/-- The bits `b` are the nearest to `n / d` of those up to `top`. -/
def BitsNearest (M top n d b : Nat) : Prop :=
  b ≤ top ∧ ∀ c, c ≤ top → dist n d (unitsOf M b) < dist n d (unitsOf M c) ∨
    (dist n d (unitsOf M b) = dist n d (unitsOf M c) ∧ (c = b ∨ b % 2 = 0))

/-- Only one is nearest. -/
theorem BitsNearest.unique {M top n d b c : Nat} (hd : 0 < d) (hb : BitsNearest M top n d b) (hc : BitsNearest M top n d c) :
    b = c := by
  have key : ∀ {b c : Nat}, BitsNearest M top n d b → BitsNearest M top n d c → b < c → False := by
    intro b c hb hc h
    rcases hb.2 c hc.1 with h1 | ⟨h1, h2⟩
    · rcases hc.2 b hb.1 with h3 | ⟨h3, _⟩ <;> omega
    · rcases hc.2 b hb.1 with h3 | ⟨_, h4⟩
      · omega
      · have hbe : b % 2 = 0 := h2.resolve_left (by omega)
        have hce : c % 2 = 0 := h4.resolve_left (by omega)
        have hlt : b + 1 < c := by omega
        have g1 : unitsOf M b * d < unitsOf M (b + 1) * d := Nat.mul_lt_mul_of_pos_right (unitsOf_succ M b) hd
        have g2 : unitsOf M (b + 1) * d < unitsOf M c * d := Nat.mul_lt_mul_of_pos_right (unitsOf_lt hlt) hd
        have g3 := hb.2 (b + 1) (Nat.le_trans (Nat.le_of_lt hlt) hc.1)
        have hc1 := hc.1
        unfold dist at h1 g3
        omega
  rcases Nat.lt_trichotomy b c with h | h | h
  · exact (key hb hc h).elim
  · exact h
  · exact (key hc hb h).elim

/-- Rounding gives the nearest. -/
theorem round_nearest (M top n d : Nat) (hM : 0 < M) (hd : 0 < d) :
    BitsNearest M top n d (min top ((Nat.log2 (n / d) - M) * 2 ^ M + roundEven n (d * 2 ^ (Nat.log2 (n / d) - M)))) := by
  have hp : 0 < 2 ^ M := Nat.two_pow_pos M
  have h2 : 2 ^ (M + 1) = 2 * 2 ^ M := by rw [Nat.pow_succ, Nat.mul_comm]
  generalize hs : Nat.log2 (n / d) - M = s
  have hps : 0 < 2 ^ s := Nat.two_pow_pos s
  have hds : 0 < d * 2 ^ s := Nat.mul_pos hd hps
  -- the quotient is in the range of the mantissa
  have hq : n / (d * 2 ^ s) < 2 ^ (M + 1) := by
    rw [← Nat.div_div_eq_div_mul]
    apply Nat.div_lt_of_lt_mul
    rw [← Nat.pow_add]
    by_cases h0 : n / d = 0
    · rw [h0]; exact Nat.two_pow_pos _
    · exact Nat.lt_of_lt_of_le Nat.lt_log2_self (Nat.pow_le_pow_right (by decide) (by omega))
  have hq' : s = 0 ∨ 2 ^ M ≤ n / (d * 2 ^ s) := by
    by_cases h0 : s = 0
    · exact .inl h0
    · right
      rw [← Nat.div_div_eq_div_mul, Nat.le_div_iff_mul_le hps, ← Nat.pow_add]
      have hne : n / d ≠ 0 := by
        intro h
        rw [h] at hs
        have : Nat.log2 0 = 0 := by decide
        omega
      have := Nat.log2_self_le hne
      rwa [show M + s = Nat.log2 (n / d) by omega]
  have hn := Nat.div_add_mod n (d * 2 ^ s)
  have hr := Nat.mod_lt n hds
  unfold roundEven
  generalize n / (d * 2 ^ s) = q at *
  generalize n % (d * 2 ^ s) = r at *
  have e1 := unitsOf_add M s q hq' (by omega)
  have e2 := unitsOf_add M s (q + 1) (hq'.imp_right fun h => by omega) (by omega)
  have f1 : unitsOf M (s * 2 ^ M + q) * d = d * 2 ^ s * q := by rw [e1, Nat.mul_comm (d * 2 ^ s) q, Nat.mul_comm d, Nat.mul_assoc]
  have f2 : unitsOf M (s * 2 ^ M + (q + 1)) * d = d * 2 ^ s * q + d * 2 ^ s := by
    rw [e2, Nat.add_mul, Nat.one_mul, Nat.add_mul, Nat.mul_comm (d * 2 ^ s) q, Nat.mul_comm d, Nat.mul_assoc]
  have par : (s * 2 ^ M + q) % 2 = q % 2 := by
    obtain ⟨M', rfl⟩ : ∃ M', M = M' + 1 := ⟨M - 1, by omega⟩
    rw [Nat.pow_succ, ← Nat.mul_assoc, Nat.mul_add_mod_self_right]
  have par' : (s * 2 ^ M + (q + 1)) % 2 = (q + 1) % 2 := by
    obtain ⟨M', rfl⟩ : ∃ M', M = M' + 1 := ⟨M - 1, by omega⟩
    rw [Nat.pow_succ, ← Nat.mul_assoc, Nat.mul_add_mod_self_right]
  rw [← Nat.add_assoc] at f2 par'
  clear e1 e2 hq hq' hs hp h2 hps hds
  generalize hbits : s * 2 ^ M + q = b at *
  generalize d * 2 ^ s * q = lo at *
  generalize d * 2 ^ s = w at *
  have below : ∀ c, c ≤ b → unitsOf M c * d ≤ lo := fun c hc => by rw [← f1]; exact Nat.mul_le_mul_right _ (unitsOf_le hc)
  have above : ∀ c, b < c → lo + w ≤ unitsOf M c * d := fun c hc => by rw [← f2]; exact Nat.mul_le_mul_right _ (unitsOf_le hc)
  have strict : ∀ {c c' : Nat}, c < c' → unitsOf M c * d < unitsOf M c' * d := fun h =>
    Nat.mul_lt_mul_of_pos_right (unitsOf_lt h) hd
  have each : ∀ x, x = b ∨ x = b + 1 → (x = b → 2 * r < w ∨ (2 * r = w ∧ q % 2 = 0)) →
      (x = b + 1 → w < 2 * r ∨ (2 * r = w ∧ q % 2 = 1)) → BitsNearest M top n d (min top x) := by
    intro x hx hlow hhigh
    by_cases ht : top < x
    · rw [Nat.min_eq_left (Nat.le_of_lt ht)]
      refine ⟨Nat.le_refl _, fun c hc => ?_⟩
      have htb : top ≤ b := by omega
      have g1 := below top htb
      by_cases hct : c = top
      · subst hct; exact .inr ⟨rfl, .inl rfl⟩
      · have g2 := strict (Nat.lt_of_le_of_ne hc hct)
        left
        unfold dist
        omega
    · rw [Nat.min_eq_right (by omega)]
      refine ⟨by omega, fun c hc => ?_⟩
      rcases hx with rfl | rfl
      · have hl := hlow rfl
        unfold dist
        rw [f1]
        by_cases hcx : c = x
        · subst hcx; rw [f1]; exact .inr ⟨rfl, .inl rfl⟩
        · rcases Nat.lt_or_gt_of_ne hcx with hcx | hcx
          · have := strict hcx
            rw [f1] at this
            left
            omega
          · have := above c hcx
            omega
      · have hh := hhigh rfl
        unfold dist
        rw [f2]
        by_cases hcx : c = b + 1
        · subst hcx; rw [f2]; exact .inr ⟨rfl, .inl rfl⟩
        · rcases Nat.lt_or_gt_of_ne hcx with hcx | hcx
          · have := below c (by omega)
            omega
          · have := strict hcx
            rw [f2] at this
            left
            omega
  split
  · rw [hbits]
    exact each b (.inl rfl) (fun _ => .inl (by assumption)) (by omega)
  · split
    · rw [hbits]
      exact each b (.inl rfl) (fun _ => .inr (by assumption)) (by omega)
    · rw [← Nat.add_assoc, hbits]
      exact each (b + 1) (.inr rfl) (by omega) (by omega)

/-! ## The two formats -/

theorem pow_two_parts {a b c : Nat} (h : a + b = c) : (2 ^ a + 0) * 2 ^ b = 2 ^ c := by
  rw [← h, Nat.pow_add, Nat.add_zero]

theorem pow_two_parts' {a b c d : Nat} (h : a + b + c = d) : (2 ^ a + 0) * 2 ^ b * 2 ^ c = 2 ^ d := by
  rw [← h, Nat.pow_add, Nat.pow_add, Nat.add_zero]

/-- What an `f64` is, in terms of its bits without the sign. -/
theorem F64.size_iff (x : F64) (neg : Bool) (k : Nat) :
    x.val.Size (2 ^ (1024 + 1074)) neg k ↔
      neg = decide (2 ^ 63 ≤ x.toNat) ∧ x.toNat % 2 ^ 63 ≤ Fmt.f64.inf ∧ k = unitsOf 52 (x.toNat % 2 ^ 63) := by
  have hx := x.isLt
  have htop : (2 ^ 52 + 0) * 2 ^ (2047 - 1) = 2 ^ (1024 + 1074) :=
    pow_two_parts (a := 52) (b := 2047 - 1) (c := 1024 + 1074) rfl
  unfold F64.val FloatVal.Size Fmt.f64 unitsOf
  dsimp only
  generalize 2 ^ (1024 + 1074) = top at *
  generalize x.toNat = n at *
  have he : n / 2 ^ 52 % 2048 = n % 2 ^ 63 / 2 ^ 52 := by omega
  have hm : n % 2 ^ 52 = n % 2 ^ 63 % 2 ^ 52 := by omega
  rw [he, hm]
  have hb : n % 2 ^ 63 < 2 ^ 63 := by omega
  have hbd : n % 2 ^ 63 = 2 ^ 52 * (n % 2 ^ 63 / 2 ^ 52) + n % 2 ^ 63 % 2 ^ 52 := (Nat.div_add_mod _ _).symm
  have hml : n % 2 ^ 63 % 2 ^ 52 < 2 ^ 52 := by omega
  clear he hm
  generalize n % 2 ^ 63 = b at *
  generalize decide (2 ^ 63 ≤ n) = sg
  generalize b / 2 ^ 52 = e at *
  generalize b % 2 ^ 52 = m at *
  clear hx
  by_cases h1 : e = 2047
  · rw [if_pos h1]
    by_cases h2 : m = 0
    · rw [if_pos h2, if_neg (by omega), h1, h2, htop]
      constructor
      · rintro (h | ⟨h, rfl⟩)
        · cases h
        · cases h
          exact ⟨rfl, by omega, rfl⟩
      · rintro ⟨rfl, _, rfl⟩
        exact .inr ⟨rfl, rfl⟩
    · rw [if_neg h2]
      constructor
      · rintro (h | ⟨h, _⟩) <;> cases h
      · rintro ⟨_, h, _⟩
        omega
  · rw [if_neg h1]
    by_cases h2 : e = 0
    · rw [if_pos h2, if_pos (by omega), show b = m by omega]
      constructor
      · rintro (h | ⟨h, _⟩)
        · cases h; exact ⟨rfl, by omega, rfl⟩
        · cases h
      · rintro ⟨rfl, _, rfl⟩; exact .inl rfl
    · rw [if_neg h2, if_neg (by omega)]
      constructor
      · rintro (h | ⟨h, _⟩)
        · cases h; exact ⟨rfl, by omega, rfl⟩
        · cases h
      · rintro ⟨rfl, _, rfl⟩; exact .inl rfl

/-- What an `f32` is, in terms of its bits without the sign. -/
theorem F32.size_iff (x : F32) (neg : Bool) (k : Nat) :
    x.val.Size (2 ^ (128 + 1074)) neg k ↔
      neg = decide (2 ^ 31 ≤ x.toNat) ∧ x.toNat % 2 ^ 31 ≤ Fmt.f32.inf ∧ k = unitsOf 23 (x.toNat % 2 ^ 31) * 2 ^ 925 := by
  have hx := x.isLt
  have htop : (2 ^ 23 + 0) * 2 ^ (255 - 1) * 2 ^ 925 = 2 ^ (128 + 1074) :=
    pow_two_parts' (a := 23) (b := 255 - 1) (c := 925) (d := 128 + 1074) rfl
  unfold F32.val FloatVal.Size Fmt.f32 unitsOf
  dsimp only
  generalize 2 ^ (128 + 1074) = top at *
  generalize 2 ^ 925 = w at *
  generalize x.toNat = n at *
  have he : n / 2 ^ 23 % 256 = n % 2 ^ 31 / 2 ^ 23 := by omega
  have hm : n % 2 ^ 23 = n % 2 ^ 31 % 2 ^ 23 := by omega
  rw [he, hm]
  have hb : n % 2 ^ 31 < 2 ^ 31 := by omega
  have hbd : n % 2 ^ 31 = 2 ^ 23 * (n % 2 ^ 31 / 2 ^ 23) + n % 2 ^ 31 % 2 ^ 23 := (Nat.div_add_mod _ _).symm
  have hml : n % 2 ^ 31 % 2 ^ 23 < 2 ^ 23 := by omega
  clear he hm
  generalize n % 2 ^ 31 = b at *
  generalize decide (2 ^ 31 ≤ n) = sg
  generalize b / 2 ^ 23 = e at *
  generalize b % 2 ^ 23 = m at *
  clear hx
  by_cases h1 : e = 255
  · rw [if_pos h1]
    by_cases h2 : m = 0
    · rw [if_pos h2, if_neg (by omega), h1, h2, htop]
      constructor
      · rintro (h | ⟨h, rfl⟩)
        · cases h
        · cases h
          exact ⟨rfl, by omega, rfl⟩
      · rintro ⟨rfl, _, rfl⟩
        exact .inr ⟨rfl, rfl⟩
    · rw [if_neg h2]
      constructor
      · rintro (h | ⟨h, _⟩) <;> cases h
      · rintro ⟨_, h, _⟩
        omega
  · rw [if_neg h1]
    by_cases h2 : e = 0
    · rw [if_pos h2, if_pos (by omega), show b = m by omega]
      constructor
      · rintro (h | ⟨h, _⟩)
        · cases h; exact ⟨rfl, by omega, rfl⟩
        · cases h
      · rintro ⟨rfl, _, rfl⟩; exact .inl rfl
    · rw [if_neg h2, if_neg (by omega)]
      constructor
      · rintro (h | ⟨h, _⟩)
        · cases h; exact ⟨rfl, by omega, rfl⟩
        · cases h
      · rintro ⟨rfl, _, rfl⟩; exact .inl rfl

theorem F64.ofBits_toNat {neg : Bool} {b : Nat} (h : b ≤ Fmt.f64.inf) :
    decide (2 ^ 63 ≤ (F64.ofBits neg b).toNat) = neg ∧ (F64.ofBits neg b).toNat % 2 ^ 63 = b := by
  unfold Fmt.f64 at h
  dsimp only at h
  unfold F64.ofBits
  rw [BitVec.toNat_ofNat]
  cases neg with
  | true =>
    rw [if_pos rfl, Nat.mod_eq_of_lt (by omega)]
    exact ⟨decide_eq_true (by omega), by omega⟩
  | false =>
    rw [if_neg (by decide), Nat.mod_eq_of_lt (by omega)]
    exact ⟨decide_eq_false (by omega), by omega⟩

theorem F32.ofBits_toNat {neg : Bool} {b : Nat} (h : b ≤ Fmt.f32.inf) :
    decide (2 ^ 31 ≤ (F32.ofBits neg b).toNat) = neg ∧ (F32.ofBits neg b).toNat % 2 ^ 31 = b := by
  unfold Fmt.f32 at h
  dsimp only at h
  unfold F32.ofBits
  rw [BitVec.toNat_ofNat]
  cases neg with
  | true =>
    rw [if_pos rfl, Nat.mod_eq_of_lt (by omega)]
    exact ⟨decide_eq_true (by omega), by omega⟩
  | false =>
    rw [if_neg (by decide), Nat.mod_eq_of_lt (by omega)]
    exact ⟨decide_eq_false (by omega), by omega⟩

/-- Being nearest is being nearest in bits. -/
theorem F64.nearest_iff (neg : Bool) (n d : Nat) (x : F64) : x.Nearest neg n d ↔
    neg = decide (2 ^ 63 ≤ x.toNat) ∧ BitsNearest 52 Fmt.f64.inf (n * 2 ^ 1074) d (x.toNat % 2 ^ 63) := by
  have hodd : x.toNat % 2 = x.toNat % 2 ^ 63 % 2 := by omega
  unfold F64.Nearest
  rw [hodd]
  constructor
  · rintro ⟨k, hk, h⟩
    obtain ⟨h1, h2, rfl⟩ := (F64.size_iff x neg k).1 hk
    refine ⟨h1, h2, fun c hc => ?_⟩
    obtain ⟨h3, h4⟩ := F64.ofBits_toNat (neg := neg) hc
    rcases h (F64.ofBits neg c) neg (unitsOf 52 c) ((F64.size_iff _ _ _).2 ⟨h3.symm, by rw [h4]; exact hc, by rw [h4]⟩) with
      h5 | ⟨h5, h6⟩
    · exact .inl h5
    · exact .inr ⟨h5, h6.imp_left unitsOf_inj⟩
  · rintro ⟨h1, h2, h⟩
    refine ⟨_, (F64.size_iff x neg _).2 ⟨h1, h2, rfl⟩, fun y s j hj => ?_⟩
    obtain ⟨_, h3, rfl⟩ := (F64.size_iff y s j).1 hj
    rcases h _ h3 with h5 | ⟨h5, h6⟩
    · exact .inl h5
    · exact .inr ⟨h5, h6.imp_left fun e => by rw [e]⟩

/-- The same for `f32`. -/
theorem F32.nearest_iff (neg : Bool) (n d : Nat) (x : F32) : x.Nearest neg n d ↔
    neg = decide (2 ^ 31 ≤ x.toNat) ∧ BitsNearest 23 Fmt.f32.inf (n * 2 ^ 1074) (d * 2 ^ 925) (x.toNat % 2 ^ 31) := by
  have hodd : x.toNat % 2 = x.toNat % 2 ^ 31 % 2 := by omega
  have haway : ∀ u, away n d (u * 2 ^ 925) = dist (n * 2 ^ 1074) (d * 2 ^ 925) u := by
    intro u
    unfold away dist
    rw [Nat.mul_assoc, Nat.mul_comm (2 ^ 925) d]
  have hsize := F32.size_iff
  have hpos : 0 < 2 ^ 925 := Nat.two_pow_pos _
  unfold F32.Nearest
  rw [hodd]
  generalize 2 ^ 925 = w at *
  generalize 2 ^ (128 + 1074) = top at *
  constructor
  · rintro ⟨k, hk, h⟩
    obtain ⟨h1, h2, h0⟩ := (hsize x neg k).1 hk
    subst h0
    refine ⟨h1, h2, fun c hc => ?_⟩
    obtain ⟨h3, h4⟩ := F32.ofBits_toNat (neg := neg) hc
    have h5 := h (F32.ofBits neg c) neg (unitsOf 23 c * w)
      ((hsize _ _ _).2 ⟨h3.symm, by rw [h4]; exact hc, by rw [h4]⟩)
    rw [haway, haway] at h5
    exact h5.imp_right fun h => ⟨h.1, h.2.imp_left fun e => unitsOf_inj (Nat.eq_of_mul_eq_mul_right hpos e)⟩
  · rintro ⟨h1, h2, h⟩
    refine ⟨_, (hsize x neg _).2 ⟨h1, h2, rfl⟩, fun y s j hj => ?_⟩
    obtain ⟨_, h3, h0⟩ := (hsize y s j).1 hj
    subst h0
    rw [haway, haway]
    exact (h _ h3).imp_right fun h => ⟨h.1, h.2.imp_left fun e => by rw [e]⟩

theorem Fmt.round_f64 (n d : Nat) (hd : 0 < d) : BitsNearest 52 Fmt.f64.inf n d (Fmt.f64.round n d) := by
  have h := round_nearest 52 Fmt.f64.inf n d (by decide) hd
  unfold Fmt.round
  dsimp only [Fmt.f64] at h ⊢
  rw [Nat.pow_zero, Nat.mul_one]
  exact h

theorem Fmt.round_f32 (n d : Nat) (hd : 0 < d) : BitsNearest 23 Fmt.f32.inf n (d * 2 ^ 925) (Fmt.f32.round n d) :=
  round_nearest 23 Fmt.f32.inf n (d * 2 ^ 925) (by decide) (Nat.mul_pos hd (Nat.two_pow_pos _))

theorem F64.ofBits_nearest (neg : Bool) (n d : Nat) (hd : 0 < d) :
    (F64.ofBits neg (Fmt.f64.round (n * 2 ^ 1074) d)).Nearest neg n d := by
  have h := Fmt.round_f64 (n * 2 ^ 1074) d hd
  obtain ⟨h1, h2⟩ := F64.ofBits_toNat (neg := neg) h.1
  rw [F64.nearest_iff, h2]
  exact ⟨h1.symm, h⟩

theorem F32.ofBits_nearest (neg : Bool) (n d : Nat) (hd : 0 < d) :
    (F32.ofBits neg (Fmt.f32.round (n * 2 ^ 1074) d)).Nearest neg n d := by
  have h := Fmt.round_f32 (n * 2 ^ 1074) d hd
  obtain ⟨h1, h2⟩ := F32.ofBits_toNat (neg := neg) h.1
  rw [F32.nearest_iff, h2]
  exact ⟨h1.symm, h⟩

/-- There is only one nearest number. -/
theorem F64.Nearest.unique {neg : Bool} {n d : Nat} {x y : F64} (hd : 0 < d) (hx : x.Nearest neg n d)
    (hy : y.Nearest neg n d) : x = y := by
  rw [F64.nearest_iff] at hx hy
  have h := hx.2.unique hd hy.2
  have h' : decide (2 ^ 63 ≤ x.toNat) = decide (2 ^ 63 ≤ y.toNat) := hx.1.symm.trans hy.1
  rw [decide_eq_decide] at h'
  have := x.isLt
  have := y.isLt
  exact BitVec.eq_of_toNat_eq (by omega)

theorem F32.Nearest.unique {neg : Bool} {n d : Nat} {x y : F32} (hd : 0 < d) (hx : x.Nearest neg n d)
    (hy : y.Nearest neg n d) : x = y := by
  rw [F32.nearest_iff] at hx hy
  have h := hx.2.unique (Nat.mul_pos hd (Nat.two_pow_pos _)) hy.2
  have h' : decide (2 ^ 31 ≤ x.toNat) = decide (2 ^ 31 ≤ y.toNat) := hx.1.symm.trans hy.1
  rw [decide_eq_decide] at h'
  have := x.isLt
  have := y.isLt
  exact BitVec.eq_of_toNat_eq (by omega)

/-! ## Decimal text -/

theorem Dec.exponent_iff (s : Str) (x : Int) : Dec.exponent s = some x ↔ Exponent s x := by
  unfold Dec.exponent Exponent
  cases s with
  | nil => exact ⟨fun h => .inl ⟨rfl, (Option.some.inj h).symm⟩, fun h => by
      rcases h with ⟨_, rfl⟩ | ⟨_, _, h, _⟩
      · rfl
      · cases h⟩
  | cons c t =>
    dsimp only
    split
    · rename_i hc
      rw [Dec.signedVal_iff]
      exact ⟨fun h => .inr ⟨c, t, rfl, hc, h⟩, fun h => by
        rcases h with ⟨h, _⟩ | ⟨_, _, h, _, h'⟩
        · cases h
        · cases h; exact h'⟩
    · rename_i hc
      exact ⟨nofun, fun h => by
        rcases h with ⟨h, _⟩ | ⟨_, _, h, h', _⟩
        · cases h
        · cases h; exact absurd h' hc⟩

theorem takeWhile_digits (s : Str) : Digits (s.takeWhile Dec.isDigit) := fun c hc =>
  List.all_eq_true.1 (List.all_takeWhile (p := Dec.isDigit) (l := s)) c hc

/-- What the text after the sign is. -/
def FractionText (r : Str) (m : Nat) (e : Int) : Prop :=
  ∃ a b ex x, r = a ++ '.' :: (b ++ ex) ∧ Digits a ∧ Digits b ∧ a ++ b ≠ [] ∧ Exponent ex x ∧
    m = Dec.digitsVal 0 (a ++ b) ∧ e = x - b.length

theorem Exponent.head {s : Str} {x : Int} (h : Exponent s x) : ∀ c, s.head? = some c → Dec.isDigit c = false := by
  rcases h with ⟨rfl, _⟩ | ⟨c, t, rfl, hc, _⟩
  · nofun
  · intro c' hc'
    cases hc'
    rcases hc with rfl | rfl <;> decide

theorem Dec.fraction_iff (r : Str) (m : Nat) (e : Int) : Dec.fraction r = some (m, e) ↔ FractionText r m e := by
  constructor
  · intro h
    unfold Dec.fraction at h
    dsimp only at h
    split at h
    · rename_i q hq
      split at h
      · cases h
      · rename_i hne
        split at h
        · rename_i x hx
          cases h
          refine ⟨r.takeWhile Dec.isDigit, q.takeWhile Dec.isDigit, q.dropWhile Dec.isDigit, x, ?_, takeWhile_digits _,
            takeWhile_digits _, ?_, (Dec.exponent_iff _ _).1 hx, rfl, rfl⟩
          · rw [List.takeWhile_append_dropWhile, ← hq, List.takeWhile_append_dropWhile]
          · intro h
            exact hne (List.append_eq_nil_iff.1 h)
        · cases h
    · cases h
  · rintro ⟨a, b, ex, x, rfl, ha, hb, hne, hx, rfl, rfl⟩
    obtain ⟨h1, h2⟩ := Parser.takeWhile_append_stop (p := Dec.isDigit) (s := a) (r := '.' :: (b ++ ex)) ha
      (fun c hc => by cases hc; decide)
    obtain ⟨h3, h4⟩ := Parser.takeWhile_append_stop (p := Dec.isDigit) (s := b) (r := ex) hb hx.head
    unfold Dec.fraction
    rw [h2, h1]
    show (if a = [] ∧ (b ++ ex).takeWhile Dec.isDigit = [] then none
      else match Dec.exponent ((b ++ ex).dropWhile Dec.isDigit) with
        | some e => some (Dec.digitsVal 0 (a ++ (b ++ ex).takeWhile Dec.isDigit), e - ((b ++ ex).takeWhile Dec.isDigit).length)
        | none => none) = _
    rw [h3, h4, if_neg (fun h => hne (by rw [h.1, h.2]; rfl)), (Dec.exponent_iff _ _).2 hx]

theorem FractionText.head {r : Str} {m : Nat} {e : Int} (h : FractionText r m e) :
    r.head? ≠ some '-' ∧ r.head? ≠ some '+' := by
  obtain ⟨a, b, ex, x, rfl, ha, _⟩ := h
  cases a with
  | nil => exact ⟨nofun, nofun⟩
  | cons c a =>
    have := ha c (List.mem_cons_self ..)
    constructor
    · intro h; cases h; exact absurd this (by decide)
    · intro h; cases h; exact absurd this (by decide)

theorem Dec.sign_iff (s : Str) (neg : Bool) (m : Nat) (e : Int) :
    ((Dec.sign s).1 = neg ∧ Dec.fraction (Dec.sign s).2 = some (m, e)) ↔
    ∃ sign r, s = sign ++ r ∧ SignText sign neg ∧ FractionText r m e := by
  rw [Dec.fraction_iff]
  constructor
  · rintro ⟨rfl, h⟩
    unfold Dec.sign at h ⊢
    split at h
    · exact ⟨str "-", _, rfl, .inr ⟨rfl, rfl⟩, h⟩
    · exact ⟨str "+", _, rfl, .inl ⟨.inr rfl, rfl⟩, h⟩
    · exact ⟨[], _, rfl, .inl ⟨.inl rfl, rfl⟩, h⟩
  · rintro ⟨sign, r, rfl, hs, hr⟩
    rcases hs with ⟨rfl | rfl, rfl⟩ | ⟨rfl, rfl⟩
    · obtain ⟨h1, h2⟩ := hr.head
      have : Dec.sign r = (false, r) := by
        unfold Dec.sign
        split
        · exact absurd rfl h1
        · exact absurd rfl h2
        · rfl
      rw [List.nil_append, this]
      exact ⟨rfl, hr⟩
    · exact ⟨rfl, hr⟩
    · exact ⟨rfl, hr⟩

/-- The fraction that digits with an exponent are. -/
theorem decimal_iff (s : Str) (neg : Bool) (n d : Nat) : Decimal s neg n d ↔
    ∃ m e, ((Dec.sign s).1 = neg ∧ Dec.fraction (Dec.sign s).2 = some (m, e)) ∧ n = m * 10 ^ e.toNat ∧
      d = 10 ^ (-e).toNat := by
  constructor
  · rintro ⟨sign, a, b, ex, x, h1, h2, h3, h4, h5, h6, h7, h8⟩
    refine ⟨Dec.digitsVal 0 (a ++ b), x - b.length, (Dec.sign_iff _ _ _ _).2
      ⟨sign, _, h1, h2, a, b, ex, x, rfl, h3, h4, h5, h6, rfl, rfl⟩, h7, ?_⟩
    rw [h8, Int.neg_sub]
  · rintro ⟨m, e, h, rfl, rfl⟩
    obtain ⟨sign, r, rfl, h2, a, b, ex, x, rfl, h3, h4, h5, h6, rfl, rfl⟩ := (Dec.sign_iff _ _ _ _).1 h
    exact ⟨sign, a, b, ex, x, rfl, h2, h3, h4, h5, h6, rfl, by rw [Int.neg_sub]⟩

theorem Decimal.pos {s : Str} {neg : Bool} {n d : Nat} (h : Decimal s neg n d) : 0 < d := by
  obtain ⟨_, _, _, _, rfl⟩ := (decimal_iff _ _ _ _).1 h
  exact Nat.pow_pos (by decide)

theorem Decimal.unique {s : Str} {neg neg' : Bool} {n d n' d' : Nat} (h : Decimal s neg n d) (h' : Decimal s neg' n' d') :
    neg = neg' ∧ n = n' ∧ d = d' := by
  obtain ⟨_, _, ⟨rfl, h1⟩, rfl, rfl⟩ := (decimal_iff _ _ _ _).1 h
  obtain ⟨_, _, ⟨rfl, h2⟩, rfl, rfl⟩ := (decimal_iff _ _ _ _).1 h'
  rw [h1] at h2
  cases h2
  exact ⟨rfl, rfl, rfl⟩

theorem Fmt.decimal_eq (f : Fmt) (m : Nat) (e : Int) :
    f.decimal m e = f.round (m * 10 ^ e.toNat * 2 ^ 1074) (10 ^ (-e).toNat) := by
  cases e with
  | ofNat k =>
    have : (-(Int.ofNat k)).toNat = 0 := by
      rw [Int.toNat_eq_zero]
      have : (0 : Int) ≤ Int.ofNat k := Int.natCast_nonneg k
      omega
    rw [this]
    rfl
  | negSucc k =>
    have : (Int.negSucc k).toNat = 0 := rfl
    rw [this, Nat.pow_zero, Nat.mul_one]
    rfl

/-- Text is read as the nearest `f64`, if it is a decimal number with a dot. -/
theorem parse64_iff (s : Str) (x : F64) : FloatOps.std.parse64 s = some x ↔
    ∃ neg n d, Decimal s neg n d ∧ x.Nearest neg n d := by
  have hstd : FloatOps.std.parse64 s = (Dec.fraction (Dec.sign s).2).map fun p =>
      F64.ofBits (Dec.sign s).1 (Fmt.f64.decimal p.1 p.2) := rfl
  rw [hstd, Option.map_eq_some_iff]
  constructor
  · rintro ⟨⟨m, e⟩, h, rfl⟩
    refine ⟨_, _, _, (decimal_iff _ _ _ _).2 ⟨m, e, ⟨rfl, h⟩, rfl, rfl⟩, ?_⟩
    dsimp only
    rw [Fmt.decimal_eq]
    exact F64.ofBits_nearest _ _ _ (Nat.pow_pos (by decide))
  · rintro ⟨neg, n, d, h, hx⟩
    have hd := h.pos
    obtain ⟨m, e, ⟨rfl, h1⟩, rfl, rfl⟩ := (decimal_iff _ _ _ _).1 h
    refine ⟨_, h1, ?_⟩
    dsimp only
    rw [Fmt.decimal_eq]
    exact (F64.ofBits_nearest _ _ _ hd).unique hd hx

theorem parse32_iff (s : Str) (x : F32) : FloatOps.std.parse32 s = some x ↔
    ∃ neg n d, Decimal s neg n d ∧ x.Nearest neg n d := by
  have hstd : FloatOps.std.parse32 s = (Dec.fraction (Dec.sign s).2).map fun p =>
      F32.ofBits (Dec.sign s).1 (Fmt.f32.decimal p.1 p.2) := rfl
  rw [hstd, Option.map_eq_some_iff]
  constructor
  · rintro ⟨⟨m, e⟩, h, rfl⟩
    refine ⟨_, _, _, (decimal_iff _ _ _ _).2 ⟨m, e, ⟨rfl, h⟩, rfl, rfl⟩, ?_⟩
    dsimp only
    rw [Fmt.decimal_eq]
    exact F32.ofBits_nearest _ _ _ (Nat.pow_pos (by decide))
  · rintro ⟨neg, n, d, h, hx⟩
    have hd := h.pos
    obtain ⟨m, e, ⟨rfl, h1⟩, rfl, rfl⟩ := (decimal_iff _ _ _ _).1 h
    refine ⟨_, h1, ?_⟩
    dsimp only
    rw [Fmt.decimal_eq]
    exact (F32.ofBits_nearest _ _ _ hd).unique hd hx

/-! ## Conversions of numbers -/

theorem ofInt64_nearest (i : Int) : (FloatOps.std.ofInt64 i).Nearest (decide (i < 0)) i.natAbs 1 :=
  F64.ofBits_nearest _ _ _ (by decide)

theorem ofInt32_nearest (i : Int) : (FloatOps.std.ofInt32 i).Nearest (decide (i < 0)) i.natAbs 1 :=
  F32.ofBits_nearest _ _ _ (by decide)

theorem dist_mul (n d k c : Nat) : dist (n * c) (d * c) k = dist n d k * c := by
  unfold dist
  rw [← Nat.mul_assoc, ← Nat.sub_mul, ← Nat.sub_mul, ← Nat.add_mul]

theorem BitsNearest.scale {M top n d b c : Nat} (hc : 0 < c) (h : BitsNearest M top n d b) :
    BitsNearest M top (n * c) (d * c) b := by
  refine ⟨h.1, fun j hj => ?_⟩
  rw [dist_mul, dist_mul]
  exact (h.2 j hj).imp (fun h => Nat.mul_lt_mul_of_pos_right h hc) fun h => ⟨by rw [h.1], h.2⟩

/-- Narrowing gives the nearest. -/
theorem narrow_nearest (x : F64) (neg : Bool) (k : Nat) (h : x.val = .fin neg k) :
    (F64.narrow x).Nearest neg k (2 ^ 1074) := by
  have hx := x.isLt
  have hval := h
  unfold F64.val at h
  unfold F64.narrow
  dsimp only at h ⊢
  have he : x.toNat / 2 ^ 52 % 2048 = x.toNat % 2 ^ 63 / 2 ^ 52 := by omega
  have hm : x.toNat % 2 ^ 52 = x.toNat % 2 ^ 63 % 2 ^ 52 := by omega
  rw [he, hm] at h
  have key : ∀ k', (F32.ofBits neg (Fmt.f32.round k' 1)).Nearest neg k' (2 ^ 1074) := by
    intro k'
    have h := Fmt.round_f32 k' 1 (by decide)
    obtain ⟨h1, h2⟩ := F32.ofBits_toNat (neg := neg) h.1
    rw [F32.nearest_iff, h2]
    refine ⟨h1.symm, ?_⟩
    have h3 := h.scale (c := 2 ^ 1074) (Nat.two_pow_pos _)
    rwa [Nat.one_mul, Nat.mul_comm (2 ^ 925)] at h3
  split at h
  · split at h <;> cases h
  · rename_i h1
    rw [if_neg h1]
    split at h
    · rename_i h2
      rw [if_pos h2]
      cases h
      exact key _
    · rename_i h2
      rw [if_neg h2]
      cases h
      exact key _

theorem narrow_inf (x : F64) (neg : Bool) (h : x.val = .inf neg) : (F64.narrow x).val = .inf neg := by
  unfold F64.val at h
  have hx := x.isLt
  have he : x.toNat / 2 ^ 52 % 2048 = x.toNat % 2 ^ 63 / 2 ^ 52 := by omega
  have hm : x.toNat % 2 ^ 52 = x.toNat % 2 ^ 63 % 2 ^ 52 := by omega
  dsimp only at h
  rw [he, hm] at h
  unfold F64.narrow
  dsimp only
  split at h
  · rename_i h1
    rw [if_pos h1]
    split at h
    · rename_i h2
      rw [if_pos h2]
      cases h
      generalize decide (2 ^ 63 ≤ x.toNat) = s
      cases s <;> rfl
    · cases h
  · split at h <;> cases h

theorem narrow_nan (x : F64) (h : x.val = .nan) : (F64.narrow x).val = .nan := by
  unfold F64.val at h
  have hx := x.isLt
  have he : x.toNat / 2 ^ 52 % 2048 = x.toNat % 2 ^ 63 / 2 ^ 52 := by omega
  have hm : x.toNat % 2 ^ 52 = x.toNat % 2 ^ 63 % 2 ^ 52 := by omega
  dsimp only at h
  rw [he, hm] at h
  unfold F64.narrow
  dsimp only
  split at h
  · rename_i h1
    rw [if_pos h1]
    split at h
    · cases h
    · rename_i h2
      rw [if_neg h2]
      generalize decide (2 ^ 63 ≤ x.toNat) = s
      cases s <;> rfl
  · split at h <;> cases h

/-- A number that is just the fraction is nearest to it. -/
theorem F64.nearest_exact {x : F64} {neg : Bool} {k n d : Nat} (hx : x.val = .fin neg k) (hd : 0 < d)
    (h : k * d = n * 2 ^ 1074) : x.Nearest neg n d := by
  refine ⟨k, .inl hx, fun y s j _ => ?_⟩
  unfold away
  rw [← h]
  by_cases hj : j = k
  · rw [hj]; exact .inr ⟨rfl, .inl rfl⟩
  · refine .inl ?_
    have : j * d ≠ k * d := fun e => hj (Nat.eq_of_mul_eq_mul_right hd e)
    omega

/-- The same for `f32`. -/
theorem F32.nearest_exact {x : F32} {neg : Bool} {k n d : Nat} (hx : x.val = .fin neg k) (hd : 0 < d)
    (h : k * d = n * 2 ^ 1074) : x.Nearest neg n d := by
  refine ⟨k, .inl hx, fun y s j _ => ?_⟩
  unfold away
  rw [← h]
  by_cases hj : j = k
  · rw [hj]; exact .inr ⟨rfl, .inl rfl⟩
  · refine .inl ?_
    have : j * d ≠ k * d := fun e => hj (Nat.eq_of_mul_eq_mul_right hd e)
    omega

/-- The nearest number is a number. -/
theorem F64.Nearest.ne_nan {neg : Bool} {n d : Nat} {x : F64} (h : x.Nearest neg n d) : x.val ≠ .nan := by
  obtain ⟨k, h | ⟨h, _⟩, _⟩ := h <;> rw [h] <;> nofun

theorem F32.Nearest.ne_nan {neg : Bool} {n d : Nat} {x : F32} (h : x.Nearest neg n d) : x.val ≠ .nan := by
  obtain ⟨k, h | ⟨h, _⟩, _⟩ := h <;> rw [h] <;> nofun

/-! ## Numbers that are exact -/

theorem repr_units (M q t : Nat) (hq : q ≤ 2 ^ (M + 1)) (ht : M + 1 ≤ t) :
    ∃ b, unitsOf M b = q * 2 ^ t ∧ b ≤ t * 2 ^ M + 2 ^ (M + 1) := by
  by_cases h0 : q = 0
  · refine ⟨0, ?_, Nat.zero_le _⟩
    have := unitsOf_add M 0 0 (.inl rfl) (Nat.zero_le _)
    rw [Nat.zero_mul, Nat.zero_add, Nat.zero_mul] at this
    rw [this, h0, Nat.zero_mul]
  · obtain ⟨j, hj, h1, h2⟩ : ∃ j, j ≤ M + 1 ∧ 2 ^ M ≤ q * 2 ^ j ∧ q * 2 ^ j ≤ 2 ^ (M + 1) := by
      by_cases h : 2 ^ M ≤ q
      · exact ⟨0, Nat.zero_le _, by rwa [Nat.pow_zero, Nat.mul_one], by rwa [Nat.pow_zero, Nat.mul_one]⟩
      · have h3 := Nat.log2_self_le h0
        have h4 := Nat.lt_log2_self (n := q)
        have h5 : Nat.log2 q ≤ M := by
          rcases Nat.lt_or_ge M (Nat.log2 q) with h6 | h6
          · have := Nat.pow_le_pow_right (n := 2) (by decide) (Nat.le_of_lt h6)
            omega
          · exact h6
        refine ⟨M - Nat.log2 q, by omega, ?_, ?_⟩
        · have := Nat.mul_le_mul_right (2 ^ (M - Nat.log2 q)) h3
          rwa [← Nat.pow_add, Nat.add_sub_cancel' h5] at this
        · have := Nat.mul_le_mul_right (2 ^ (M - Nat.log2 q)) (Nat.le_of_lt h4)
          rwa [← Nat.pow_add, Nat.add_right_comm, Nat.add_sub_cancel' h5] at this
    refine ⟨(t - j) * 2 ^ M + q * 2 ^ j, ?_, ?_⟩
    · rw [unitsOf_add M (t - j) (q * 2 ^ j) (.inr h1) h2, Nat.mul_assoc, ← Nat.pow_add, Nat.add_sub_cancel' (by omega)]
    · exact Nat.add_le_add (Nat.mul_le_mul_right _ (Nat.sub_le _ _)) h2

/-- An integer that has few enough binary digits, apart from zeros at the end, is one of the numbers of the format. -/
theorem F64.Nearest.exact {x : F64} {neg : Bool} {q s : Nat} (h : x.Nearest neg (q * 2 ^ s) 1) (hq : q ≤ 2 ^ 53)
    (hs : s ≤ 64) : x.val = .fin neg (q * 2 ^ s * 2 ^ 1074) := by
  obtain ⟨b, h1, h2⟩ := repr_units 52 q (s + 1074) hq (by omega)
  have h3 : b ≤ Fmt.f64.inf := by
    clear h1 h
    show b ≤ 2047 * 2 ^ 52
    have h3 : (s + 1074) * 2 ^ 52 ≤ 1138 * 2 ^ 52 := Nat.mul_le_mul_right _ (by omega)
    exact Nat.le_trans h2 (Nat.le_trans (Nat.add_le_add_right h3 _) (by decide +kernel))
  obtain ⟨h4, h5⟩ := F64.ofBits_toNat (neg := neg) h3
  rw [Nat.pow_add 2 s 1074, ← Nat.mul_assoc] at h1
  have h6 : (F64.ofBits neg b).val.Size (2 ^ (1024 + 1074)) neg (q * 2 ^ s * 2 ^ 1074) :=
    (F64.size_iff _ _ _).2 ⟨h4.symm, by rw [h5]; exact h3, by rw [h5]; exact h1.symm⟩
  have h7 : (F64.ofBits neg b).val = .fin neg (q * 2 ^ s * 2 ^ 1074) := by
    rcases h6 with h6 | ⟨_, h6⟩
    · exact h6
    · exfalso
      have h8 : q * 2 ^ s * 2 ^ 1074 < 2 ^ (1024 + 1074) := by
        rw [Nat.pow_add]
        refine Nat.mul_lt_mul_of_pos_right ?_ (Nat.two_pow_pos _)
        calc q * 2 ^ s ≤ 2 ^ 53 * 2 ^ 64 := Nat.mul_le_mul hq (Nat.pow_le_pow_right (by decide) hs)
          _ = 2 ^ (53 + 64) := (Nat.pow_add ..).symm
          _ < 2 ^ 1024 := Nat.pow_lt_pow_right (by decide) (by decide)
      exact Nat.ne_of_lt h8 h6
  have h9 : (F64.ofBits neg b).Nearest neg (q * 2 ^ s) 1 := F64.nearest_exact h7 (by decide) (Nat.mul_one _)
  rw [h.unique (by decide) h9]
  exact h7

theorem F32.Nearest.exact {x : F32} {neg : Bool} {q s : Nat} (h : x.Nearest neg (q * 2 ^ s) 1) (hq : q ≤ 2 ^ 24)
    (hs : s ≤ 64) : x.val = .fin neg (q * 2 ^ s * 2 ^ 1074) := by
  obtain ⟨b, h1, h2⟩ := repr_units 23 q (s + 149) hq (by omega)
  have h3 : b ≤ Fmt.f32.inf := by
    unfold Fmt.f32
    dsimp only
    omega
  obtain ⟨h4, h5⟩ := F32.ofBits_toNat (neg := neg) h3
  have h6 : (F32.ofBits neg b).val.Size (2 ^ (128 + 1074)) neg (q * 2 ^ s * 2 ^ 1074) := by
    refine (F32.size_iff _ _ _).2 ⟨h4.symm, by rw [h5]; exact h3, ?_⟩
    rw [h5, h1, show 1074 = 149 + 925 from rfl, Nat.pow_add 2 149 925, Nat.pow_add 2 s 149]
    generalize 2 ^ 149 = u
    generalize 2 ^ 925 = w
    rw [Nat.mul_assoc, Nat.mul_assoc, Nat.mul_assoc]
  have h7 : (F32.ofBits neg b).val = .fin neg (q * 2 ^ s * 2 ^ 1074) := by
    rcases h6 with h6 | ⟨_, h6⟩
    · exact h6
    · exfalso
      have h8 : q * 2 ^ s * 2 ^ 1074 < 2 ^ (128 + 1074) := by
        rw [Nat.pow_add]
        refine Nat.mul_lt_mul_of_pos_right ?_ (Nat.two_pow_pos _)
        calc q * 2 ^ s ≤ 2 ^ 24 * 2 ^ 64 := Nat.mul_le_mul hq (Nat.pow_le_pow_right (by decide) hs)
          _ = 2 ^ (24 + 64) := (Nat.pow_add ..).symm
          _ < 2 ^ 128 := Nat.pow_lt_pow_right (by decide) (by decide)
      exact Nat.ne_of_lt h8 h6
  have h9 : (F32.ofBits neg b).Nearest neg (q * 2 ^ s) 1 := F32.nearest_exact h7 (by decide) (Nat.mul_one _)
  rw [h.unique (by decide) h9]
  exact h7

theorem F32.val_inj {x y : F32} (h : x.val = y.val) (hn : x.val ≠ .nan) : x = y := by
  have key : ∀ neg k, x.val.Size (2 ^ (128 + 1074)) neg k → x = y := by
    intro neg k hx
    have hy : y.val.Size (2 ^ (128 + 1074)) neg k := by rw [← h]; exact hx
    obtain ⟨h1, _, h2⟩ := (F32.size_iff _ _ _).1 hx
    obtain ⟨h3, _, h4⟩ := (F32.size_iff _ _ _).1 hy
    have h5 := unitsOf_inj (Nat.eq_of_mul_eq_mul_right (Nat.two_pow_pos _) (h2.symm.trans h4))
    have h6 := h1.symm.trans h3
    rw [decide_eq_decide] at h6
    clear h2 h4 hx hy
    have := x.isLt
    have := y.isLt
    exact BitVec.eq_of_toNat_eq (by omega)
  cases hv : x.val with
  | nan => exact absurd hv hn
  | inf s => exact key s _ (.inr ⟨hv, rfl⟩)
  | fin s k => exact key s k (.inl hv)

end Figment
