import Verif.Spec.Num
/-! # Lemmas about numbers -/
namespace Figment

theorem F64.isNan_iff (x : F64) : F64.isNan x = true ↔ 2047 * 2 ^ 52 < x.toNat % 2 ^ 63 := by
  have h : (x &&& 0x7fffffffffffffff#64).toNat = x.toNat % 2 ^ 63 := by
    rw [BitVec.toNat_and]
    exact Nat.and_two_pow_sub_one_eq_mod x.toNat 63
  have h2 : F64.isNan x = true ↔ (0x7ff0000000000000#64).toNat < (x &&& 0x7fffffffffffffff#64).toNat := by
    simp only [F64.isNan, decide_eq_true_eq, gt_iff_lt, BitVec.lt_def]
  rw [h2, h]
  exact Iff.rfl

theorem F32.isNan_iff (x : F32) : F32.isNan x = true ↔ 255 * 2 ^ 23 < x.toNat % 2 ^ 31 := by
  have h : (x &&& 0x7fffffff#32).toNat = x.toNat % 2 ^ 31 := by
    rw [BitVec.toNat_and]
    exact Nat.and_two_pow_sub_one_eq_mod x.toNat 31
  have h2 : F32.isNan x = true ↔ (0x7f800000#32).toNat < (x &&& 0x7fffffff#32).toNat := by
    simp only [F32.isNan, decide_eq_true_eq, gt_iff_lt, BitVec.lt_def]
  rw [h2, h]
  exact Iff.rfl

/-- Widening keeps being NaN. -/
theorem F32.isNan_toF64 (x : F32) : F64.isNan (F32.toF64 x) = F32.isNan x := by
  rw [Bool.eq_iff_iff, F64.isNan_iff, F32.isNan_iff]
  have hx := x.isLt
  generalize hn : x.toNat = n at hx ⊢
  have hs : n / 2 ^ 31 < 2 := by omega
  have he : n / 2 ^ 23 % 2 ^ 8 < 256 := Nat.mod_lt _ (by decide)
  have hm : n % 2 ^ 23 < 2 ^ 23 := Nat.mod_lt _ (by decide)
  have hn31 : n % 2 ^ 31 = (n / 2 ^ 23 % 2 ^ 8) * 2 ^ 23 + n % 2 ^ 23 := by omega
  rw [F32.toF64, hn, BitVec.toNat_ofNat, hn31]
  generalize n / 2 ^ 31 = s at hs
  generalize n / 2 ^ 23 % 2 ^ 8 = e at he
  generalize n % 2 ^ 23 = m at hm
  simp only
  split
  · subst e; omega
  · rename_i h255
    split
    · subst e
      split
      · omega
      · rename_i hm0
        have hk : Nat.log2 m < 23 := (Nat.log2_lt hm0).2 hm
        have h1 := Nat.log2_self_le hm0
        have h2 : m < 2 ^ (Nat.log2 m + 1) := Nat.lt_log2_self
        obtain ⟨k, hkk⟩ : ∃ k, k = Nat.log2 m := ⟨_, rfl⟩
        rw [← hkk] at hk h1 h2 ⊢
        have hp : 2 ^ k * 2 ^ (52 - k) = 2 ^ 52 := by rw [← Nat.pow_add]; congr 1; omega
        have hp' : 2 ^ (k + 1) * 2 ^ (52 - k) = 2 ^ 53 := by rw [← Nat.pow_add]; congr 1; omega
        have hlt : m * 2 ^ (52 - k) < 2 ^ 53 := by
          rw [← hp']; exact Nat.mul_lt_mul_of_pos_right h2 (Nat.two_pow_pos _)
        obtain ⟨q, hq⟩ : ∃ q, q = m * 2 ^ (52 - k) := ⟨_, rfl⟩
        rw [← hq] at hlt ⊢
        omega
    · omega

theorem F64.eq_refl (x : F64) : F64.eq x x = !F64.isNan x := by
  simp [F64.eq]

theorem F64.eq_symm (x y : F64) : F64.eq x y = F64.eq y x := by
  simp only [F64.eq]
  rw [Bool.eq_iff_iff]
  simp only [Bool.and_eq_true, Bool.or_eq_true, Bool.not_eq_true', beq_iff_eq]
  constructor <;> (rintro ⟨⟨a, b⟩, c⟩; refine ⟨⟨b, a⟩, ?_⟩; rcases c with rfl | ⟨c, d⟩ <;> simp_all)

theorem F64.eq_trans {x y z : F64} (h : F64.eq x y = true) (h' : F64.eq y z = true) : F64.eq x z = true := by
  simp only [F64.eq, Bool.and_eq_true, Bool.or_eq_true, Bool.not_eq_true', beq_iff_eq] at h h' ⊢
  obtain ⟨⟨a, b⟩, c⟩ := h
  obtain ⟨⟨d, e⟩, f⟩ := h'
  refine ⟨⟨a, e⟩, ?_⟩
  rcases c with rfl | ⟨c1, c2⟩
  · exact f
  · rcases f with rfl | ⟨f1, f2⟩
    · exact .inr ⟨c1, c2⟩
    · exact .inr ⟨c1, f2⟩

namespace Actual
theorem same_symm (a b : Actual) : a.same b = b.same a := by
  cases a <;> cases b <;> simp only [same, F64.eq_symm] <;> (first | rfl | (congr 1; exact propext eq_comm))

theorem same_trans {a b c : Actual} (h : a.same b = true) (h' : b.same c = true) : a.same c = true := by
  cases b with
  | float y =>
    cases a with
    | float x =>
      cases c with
      | float z => exact F64.eq_trans h h'
      | _ => simp [same] at h'
    | _ => simp [same] at h
  | _ =>
    cases a <;> first | (simp only [same, decide_eq_true_eq] at h; rw [h]; exact h') | (simp [same] at h; done) | exact h'
end Actual

namespace Num
theorem same_symm (a b : Num) : a.same b = b.same a := Actual.same_symm _ _
theorem same_trans {a b c : Num} (h : a.same b = true) (h' : b.same c = true) : a.same c = true :=
  Actual.same_trans h h'
theorem same_refl (a : Num) : a.same a = !a.isNan := by
  cases a <;> simp [same, toActual, Actual.same, isNan, F64.eq_refl, F32.isNan_toF64]
end Num

namespace Value

mutual
theorem same_refl : ∀ v : Value, v.same v = v.noNan
  | .string .. => by simp [same, noNan]
  | .char .. => by simp [same, noNan]
  | .bool .. => by simp [same, noNan]
  | .num _ n => by simp [same, noNan, Num.same_refl]
  | .empty .. => by simp [same, noNan]
  | .dict _ d => by rw [same, noNan]; exact sameD_refl d
  | .array _ a => by rw [same, noNan]; exact sameA_refl a
theorem sameD_refl : ∀ d : List (Str × Value), sameD d d = noNanD d
  | [] => rfl
  | (k, v) :: r => by simp [sameD, noNanD, same_refl v, sameD_refl r]
theorem sameA_refl : ∀ a : List Value, sameA a a = noNanA a
  | [] => rfl
  | v :: r => by simp [sameA, noNanA, same_refl v, sameA_refl r]
end

mutual
theorem same_symm : ∀ v w : Value, v.same w = w.same v
  | .string .., w => by cases w <;> simp only [same] <;> exact Bool.beq_comm ..
  | .char .., w => by cases w <;> simp only [same] <;> exact Bool.beq_comm ..
  | .bool .., w => by cases w <;> simp only [same] <;> exact Bool.beq_comm ..
  | .num _ n, w => by cases w <;> simp only [same] <;> exact Num.same_symm ..
  | .empty .., w => by cases w <;> simp only [same] <;> exact Bool.beq_comm ..
  | .dict _ d, w => by cases w <;> simp only [same] <;> exact sameD_symm ..
  | .array _ a, w => by cases w <;> simp only [same] <;> exact sameA_symm ..
theorem sameD_symm : ∀ d d' : List (Str × Value), sameD d d' = sameD d' d
  | [], d' => by cases d' <;> rfl
  | (k, v) :: r, d' => by
    cases d' with
    | nil => rfl
    | cons e r' =>
      obtain ⟨k', v'⟩ := e
      simp only [sameD, same_symm v v', sameD_symm r r', Bool.beq_comm (a := k)]
theorem sameA_symm : ∀ a a' : List Value, sameA a a' = sameA a' a
  | [], d' => by cases d' <;> rfl
  | v :: r, d' => by
    cases d' with
    | nil => rfl
    | cons v' r' => simp only [sameA, same_symm v v', sameA_symm r r']
end

mutual
theorem same_trans : ∀ v w x : Value, v.same w = true → w.same x = true → v.same x = true
  | .string .., w, x, h, h' => by cases w <;> cases x <;> simp_all [same]
  | .char .., w, x, h, h' => by cases w <;> cases x <;> simp_all [same]
  | .bool .., w, x, h, h' => by cases w <;> cases x <;> simp_all [same]
  | .num _ n, w, x, h, h' => by
    cases w <;> cases x <;> simp only [same] at h h' ⊢ <;> first | exact Num.same_trans h h' | simp at h h'
  | .empty .., w, x, h, h' => by cases w <;> cases x <;> simp_all [same]
  | .dict _ d, w, x, h, h' => by
    cases w <;> cases x <;> simp only [same] at h h' ⊢ <;> first | exact sameD_trans _ _ _ h h' | simp at h h'
  | .array _ a, w, x, h, h' => by
    cases w <;> cases x <;> simp only [same] at h h' ⊢ <;> first | exact sameA_trans _ _ _ h h' | simp at h h'
theorem sameD_trans : ∀ d e f : List (Str × Value), sameD d e = true → sameD e f = true → sameD d f = true
  | [], e, f, h, h' => by cases e <;> cases f <;> simp_all [sameD]
  | (k, v) :: r, e, f, h, h' => by
    cases e with
    | nil => simp [sameD] at h
    | cons x r' =>
      cases f with
      | nil => simp [sameD] at h'
      | cons y r'' =>
        simp only [sameD, Bool.and_eq_true, beq_iff_eq] at h h' ⊢
        exact ⟨⟨h.1.1.trans h'.1.1, same_trans _ _ _ h.1.2 h'.1.2⟩, sameD_trans _ _ _ h.2 h'.2⟩
theorem sameA_trans : ∀ d e f : List Value, sameA d e = true → sameA e f = true → sameA d f = true
  | [], e, f, h, h' => by cases e <;> cases f <;> simp_all [sameA]
  | v :: r, e, f, h, h' => by
    cases e with
    | nil => simp [sameA] at h
    | cons x r' =>
      cases f with
      | nil => simp [sameA] at h'
      | cons y r'' =>
        simp only [sameA, Bool.and_eq_true] at h h' ⊢
        exact ⟨same_trans _ _ _ h.1 h'.1, sameA_trans _ _ _ h.2 h'.2⟩
end

end Value
end Figment
