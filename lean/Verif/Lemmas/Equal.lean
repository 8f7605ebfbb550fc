import Verif.Spec.Equal
import Verif.Lemmas.Num
/-! # Lemmas about equality -/
namespace Figment

/-! ## Floats -/

/-- A mantissa with its leading bit, and an exponent, are determined by the number. -/
theorem scaled_inj {w A B i j : Nat} (hA : 2 ^ w ≤ A) (hA' : A < 2 ^ (w + 1)) (hB : 2 ^ w ≤ B) (hB' : B < 2 ^ (w + 1))
    (h : A * 2 ^ i = B * 2 ^ j) : A = B ∧ i = j := by
  have key : ∀ {A B i j : Nat}, A < 2 ^ (w + 1) → 2 ^ w ≤ B → A * 2 ^ i = B * 2 ^ j → ¬ i < j := by
    intro A B i j hA' hB h hij
    obtain ⟨k, rfl⟩ : ∃ k, j = i + 1 + k := ⟨j - i - 1, by omega⟩
    have h1 : A = B * 2 * 2 ^ k := by
      have h2 : B * 2 ^ (i + 1 + k) = (B * 2 * 2 ^ k) * 2 ^ i := by
        rw [Nat.pow_add, Nat.pow_add, Nat.pow_one]
        simp only [Nat.mul_assoc, Nat.mul_comm, Nat.mul_left_comm]
      rw [h2] at h
      exact Nat.eq_of_mul_eq_mul_right (Nat.two_pow_pos i) h
    have h3 : B * 2 ≤ B * 2 * 2 ^ k := Nat.le_mul_of_pos_right _ (Nat.two_pow_pos k)
    have h4 : 2 ^ (w + 1) = 2 ^ w * 2 := Nat.pow_succ ..
    omega
  have h1 := key hA' hB h
  have h2 := key hB' hA h.symm
  have h3 : i = j := by omega
  subst h3
  exact ⟨Nat.eq_of_mul_eq_mul_right (Nat.two_pow_pos i) h, rfl⟩

theorem F64.val_cases (x : F64) : x.val =
    (if x.toNat / 2 ^ 52 % 2048 = 2047 then
      (if x.toNat % 2 ^ 52 = 0 then .inf (decide (2 ^ 63 ≤ x.toNat)) else .nan)
    else if x.toNat / 2 ^ 52 % 2048 = 0 then .fin (decide (2 ^ 63 ≤ x.toNat)) (x.toNat % 2 ^ 52)
    else .fin (decide (2 ^ 63 ≤ x.toNat)) ((2 ^ 52 + x.toNat % 2 ^ 52) * 2 ^ (x.toNat / 2 ^ 52 % 2048 - 1))) := rfl

theorem F64.val_nan (x : F64) : x.val = .nan ↔ F64.isNan x = true := by
  rw [F64.isNan_iff, F64.val_cases]
  have hx := x.isLt
  generalize x.toNat = n at hx ⊢
  have h0 : n % 2 ^ 63 = n / 2 ^ 52 % 2048 * 2 ^ 52 + n % 2 ^ 52 := by omega
  rw [h0]
  have h1 : n / 2 ^ 52 % 2048 < 2048 := Nat.mod_lt _ (by decide)
  have h2 : n % 2 ^ 52 < 2 ^ 52 := Nat.mod_lt _ (by decide)
  generalize n / 2 ^ 52 % 2048 = e at *
  generalize n % 2 ^ 52 = m at *
  split
  · split
    · exact ⟨nofun, fun h => by omega⟩
    · exact ⟨fun _ => by omega, fun _ => rfl⟩
  · split <;> exact ⟨nofun, fun h => by omega⟩

theorem F64.val_zero (x : F64) : (∃ s, x.val = .fin s 0) ↔ F64.isZero x = true := by
  have hz : F64.isZero x = true ↔ x.toNat % 2 ^ 63 = 0 := by
    have h : (x &&& 0x7fffffffffffffff#64).toNat = x.toNat % 2 ^ 63 := by
      rw [BitVec.toNat_and]
      exact Nat.and_two_pow_sub_one_eq_mod x.toNat 63
    rw [F64.isZero, beq_iff_eq, ← h, ← BitVec.toNat_inj]
    rfl
  rw [hz, F64.val_cases]
  have hx := x.isLt
  generalize x.toNat = n at hx ⊢
  have h0 : n % 2 ^ 63 = n / 2 ^ 52 % 2048 * 2 ^ 52 + n % 2 ^ 52 := by omega
  rw [h0]
  have h2 : n % 2 ^ 52 < 2 ^ 52 := Nat.mod_lt _ (by decide)
  generalize n / 2 ^ 52 % 2048 = e at *
  generalize n % 2 ^ 52 = m at *
  split
  · split
    · exact ⟨fun ⟨_, h⟩ => (nomatch h), fun h => by omega⟩
    · exact ⟨fun ⟨_, h⟩ => (nomatch h), fun h => by omega⟩
  · split
    · constructor
      · rintro ⟨s, h⟩
        have := (FloatVal.fin.inj h).2
        omega
      · intro h
        exact ⟨_, by rw [show m = 0 by omega]⟩
    · constructor
      · rintro ⟨s, h⟩
        have h3 := (FloatVal.fin.inj h).2
        have h4 : 0 < (2 ^ 52 + m) * 2 ^ (e - 1) := Nat.mul_pos (by omega) (Nat.two_pow_pos _)
        omega
      · intro h; omega

theorem F64.val_inj {x y : F64} (h : x.val = y.val) (hn : x.val ≠ .nan) : x = y := by
  apply BitVec.eq_of_toNat_eq
  have hny : y.val ≠ .nan := h ▸ hn
  rw [F64.val_cases] at hn
  rw [F64.val_cases y] at hny
  rw [F64.val_cases, F64.val_cases] at h
  have hx := x.isLt
  have hy := y.isLt
  generalize x.toNat = n at *
  generalize y.toNat = k at *
  have hn0 : n = (if 2 ^ 63 ≤ n then 2 ^ 63 else 0) + n / 2 ^ 52 % 2048 * 2 ^ 52 + n % 2 ^ 52 := by split <;> omega
  have hk0 : k = (if 2 ^ 63 ≤ k then 2 ^ 63 else 0) + k / 2 ^ 52 % 2048 * 2 ^ 52 + k % 2 ^ 52 := by split <;> omega
  have hs : decide (2 ^ 63 ≤ n) = decide (2 ^ 63 ≤ k) → (n / 2 ^ 52 % 2048 = k / 2 ^ 52 % 2048) →
      n % 2 ^ 52 = k % 2 ^ 52 → n = k := by
    intro h1 h2 h3
    rw [hn0, hk0, h2, h3]
    have : (2 ^ 63 ≤ n) ↔ (2 ^ 63 ≤ k) := by simpa using h1
    simp only [this]
  clear hn0 hk0
  have e1 : n / 2 ^ 52 % 2048 < 2048 := Nat.mod_lt _ (by decide)
  have e2 : k / 2 ^ 52 % 2048 < 2048 := Nat.mod_lt _ (by decide)
  have m1 : n % 2 ^ 52 < 2 ^ 52 := Nat.mod_lt _ (by decide)
  have m2 : k % 2 ^ 52 < 2 ^ 52 := Nat.mod_lt _ (by decide)
  generalize n / 2 ^ 52 % 2048 = e at *
  generalize k / 2 ^ 52 % 2048 = e' at *
  generalize n % 2 ^ 52 = m at *
  generalize k % 2 ^ 52 = m' at *
  have big : ∀ (m e : Nat), 2 ^ 52 ≤ (2 ^ 52 + m) * 2 ^ (e - 1) := fun m e =>
    Nat.le_trans (Nat.le_add_right _ m) (Nat.le_mul_of_pos_right _ (Nat.two_pow_pos _))
  by_cases a1 : e = 2047
  · rw [if_pos a1] at h hn
    by_cases a2 : m = 0
    · rw [if_pos a2] at h
      by_cases b1 : e' = 2047
      · rw [if_pos b1] at h hny
        by_cases b2 : m' = 0
        · rw [if_pos b2] at h
          exact hs (FloatVal.inf.inj h) (by omega) (by omega)
        · rw [if_neg b2] at hny; exact absurd rfl hny
      · rw [if_neg b1] at h
        split at h <;> cases h
    · rw [if_neg a2] at hn; exact absurd rfl hn
  · rw [if_neg a1] at h
    by_cases b1 : e' = 2047
    · rw [if_pos b1] at h
      split at h <;> split at h <;> cases h
    · rw [if_neg b1] at h
      by_cases a2 : e = 0 <;> by_cases b2 : e' = 0
      · rw [if_pos a2, if_pos b2] at h
        exact hs (FloatVal.fin.inj h).1 (by omega) (FloatVal.fin.inj h).2
      · rw [if_pos a2, if_neg b2] at h
        have := (FloatVal.fin.inj h).2
        have := big m' e'
        omega
      · rw [if_neg a2, if_pos b2] at h
        have := (FloatVal.fin.inj h).2
        have := big m e
        omega
      · rw [if_neg a2, if_neg b2] at h
        obtain ⟨h1, h2⟩ := scaled_inj (w := 52) (by omega) (by omega) (by omega) (by omega) (FloatVal.fin.inj h).2
        exact hs (FloatVal.fin.inj h).1 (by omega) (by omega)

theorem F64.eq_iff (x y : F64) : F64.eq x y = true ↔ x.val.Equal y.val := by
  simp only [F64.eq, Bool.and_eq_true, Bool.or_eq_true, Bool.not_eq_true', beq_iff_eq]
  constructor
  · rintro ⟨⟨hx, hy⟩, rfl | ⟨hx0, hy0⟩⟩
    · cases hv : x.val with
      | nan => rw [(F64.val_nan x).1 hv] at hx; cases hx
      | inf s => exact .inf s
      | fin s n => exact .fin s n
    · obtain ⟨s, hs⟩ := (F64.val_zero x).2 hx0
      obtain ⟨t, ht⟩ := (F64.val_zero y).2 hy0
      rw [hs, ht]
      exact .zero s t
  · intro h
    have nn : ∀ {z : F64}, z.val ≠ .nan → F64.isNan z = false := by
      intro z hz
      cases hc : F64.isNan z with
      | false => rfl
      | true => exact absurd ((F64.val_nan z).2 hc) hz
    generalize hx : x.val = a at h
    generalize hy : y.val = b at h
    cases h with
    | inf s =>
      exact ⟨⟨nn (by rw [hx]; nofun), nn (by rw [hy]; nofun)⟩,
        .inl (F64.val_inj (hx.trans hy.symm) (by rw [hx]; nofun))⟩
    | fin s n =>
      exact ⟨⟨nn (by rw [hx]; nofun), nn (by rw [hy]; nofun)⟩,
        .inl (F64.val_inj (hx.trans hy.symm) (by rw [hx]; nofun))⟩
    | zero s t =>
      exact ⟨⟨nn (by rw [hx]; nofun), nn (by rw [hy]; nofun)⟩,
        .inr ⟨(F64.val_zero x).1 ⟨s, hx⟩, (F64.val_zero y).1 ⟨t, hy⟩⟩⟩

theorem F64.val_ofParts {s e m : Nat} (hs : s < 2) (he : e < 2048) (hm : m < 2 ^ 52) :
    F64.val (BitVec.ofNat 64 (s * 2 ^ 63 + (e * 2 ^ 52 + m))) =
      if e = 2047 then (if m = 0 then .inf (decide (s = 1)) else .nan)
      else if e = 0 then .fin (decide (s = 1)) m
      else .fin (decide (s = 1)) ((2 ^ 52 + m) * 2 ^ (e - 1)) := by
  rw [F64.val_cases, BitVec.toNat_ofNat, Nat.mod_eq_of_lt (show s * 2 ^ 63 + (e * 2 ^ 52 + m) < 2 ^ 64 by omega)]
  have h1 : (s * 2 ^ 63 + (e * 2 ^ 52 + m)) / 2 ^ 52 % 2048 = e := by omega
  have h2 : (s * 2 ^ 63 + (e * 2 ^ 52 + m)) % 2 ^ 52 = m := by omega
  have h3 : decide (2 ^ 63 ≤ s * 2 ^ 63 + (e * 2 ^ 52 + m)) = decide (s = 1) := by
    rw [decide_eq_decide]; omega
  rw [h1, h2, h3]

theorem shift_swap (a j u v w : Nat) (h : u + v = w) : a * 2 ^ u * 2 ^ (j + v) = a * 2 ^ j * 2 ^ w := by
  subst h
  rw [Nat.pow_add, Nat.pow_add]
  simp only [Nat.mul_assoc, Nat.mul_left_comm]

/-- Widening is exact. -/
theorem F32.toF64_val (x : F32) : (F32.toF64 x).val = x.val := by
  have hx := x.isLt
  unfold F32.val F32.toF64
  dsimp only
  generalize x.toNat = n at hx ⊢
  have hs : n / 2 ^ 31 < 2 := by omega
  have hd : decide (2 ^ 31 ≤ n) = decide (n / 2 ^ 31 = 1) := by rw [decide_eq_decide]; omega
  rw [hd]
  have he : n / 2 ^ 23 % 256 < 256 := Nat.mod_lt _ (by decide)
  have hm : n % 2 ^ 23 < 2 ^ 23 := Nat.mod_lt _ (by decide)
  rw [show (2 ^ 8 : Nat) = 256 from rfl]
  generalize n / 2 ^ 31 = s at *
  generalize n / 2 ^ 23 % 256 = e at *
  generalize n % 2 ^ 23 = m at *
  clear hx hd
  by_cases h1 : e = 255
  · rw [if_pos h1, if_pos h1, F64.val_ofParts hs (by decide) (by omega), if_pos rfl]
    by_cases h2 : m = 0
    · rw [if_pos h2, if_pos (by omega)]
    · rw [if_neg h2, if_neg (by omega)]
  · rw [if_neg h1, if_neg h1]
    by_cases h2 : e = 0
    · rw [if_pos h2, if_pos h2]
      by_cases h3 : m = 0
      · subst h3
        rw [if_pos rfl]
        have := F64.val_ofParts (s := s) (e := 0) (m := 0) hs (by decide) (by decide)
        rw [show (0 * 2 ^ 52 + 0 : Nat) = 0 from rfl] at this
        rw [this, if_neg (by decide), if_pos rfl, Nat.zero_mul]
      · rw [if_neg h3]
        have hk : Nat.log2 m < 23 := (Nat.log2_lt h3).2 hm
        have h4 := Nat.log2_self_le h3
        have h5 : m < 2 ^ (Nat.log2 m + 1) := Nat.lt_log2_self
        generalize Nat.log2 m = k at *
        have hp : 2 ^ k * 2 ^ (52 - k) = 2 ^ 52 := by rw [← Nat.pow_add]; congr 1; omega
        have hp' : 2 ^ (k + 1) * 2 ^ (52 - k) = 2 ^ 53 := by rw [← Nat.pow_add]; congr 1; omega
        have hlt : m * 2 ^ (52 - k) < 2 ^ 53 := by
          rw [← hp']; exact Nat.mul_lt_mul_of_pos_right h5 (Nat.two_pow_pos _)
        have hge : 2 ^ 52 ≤ m * 2 ^ (52 - k) := by rw [← hp]; exact Nat.mul_le_mul_right _ h4
        have hv : (2 ^ 52 + (m * 2 ^ (52 - k) - 2 ^ 52)) * 2 ^ (k + 874 - 1) = m * 2 ^ 925 := by
          rw [Nat.add_sub_cancel' hge, Nat.mul_assoc, ← Nat.pow_add,
            show 52 - k + (k + 874 - 1) = 925 by omega]
        rw [F64.val_ofParts hs (by omega) (by omega), if_neg (by omega), if_neg (by omega), hv]
    · rw [if_neg h2, if_neg h2, F64.val_ofParts hs (by omega) (by omega), if_neg (by omega), if_neg (by omega)]
      refine congrArg (FloatVal.fin _) ?_
      obtain ⟨j, rfl⟩ : ∃ j, e = j + 1 := ⟨e - 1, by omega⟩
      have h3 : (2 ^ 52 + m * 2 ^ 29) = (2 ^ 23 + m) * 2 ^ 29 := by omega
      exact (congrArg (· * 2 ^ (j + 1 + 896 - 1)) h3).trans (shift_swap _ j 29 896 925 rfl)

/-! ## Paths -/

/-- The component of a part. -/
def compOf (s : Str) : Comp := if s = str ".." then .parentDir else .normal s

theorem compOf_inj {a b : Str} (h : compOf a = compOf b) : a = b := by
  unfold compOf at h
  split at h <;> split at h
  · rename_i h1 h2; rw [h1, h2]
  · cases h
  · cases h
  · exact Comp.normal.inj h

theorem filterMap_piece (l : List Str) :
    l.filterMap Path.piece = (l.filter fun s => s ≠ [] ∧ s ≠ str ".").map compOf := by
  induction l with
  | nil => rfl
  | cons s r ih =>
    by_cases h1 : s = []
    · rw [List.filterMap_cons_none (by rw [Path.piece, if_pos h1]), List.filter_cons_of_neg (by simp [h1]), ih]
    · by_cases h2 : s = str "."
      · rw [List.filterMap_cons_none (by rw [Path.piece, if_neg h1, if_pos h2]), List.filter_cons_of_neg (by simp [h2]),
          ih]
      · rw [List.filterMap_cons_some (b := compOf s), List.filter_cons_of_pos (by simp [h1, h2]), ih, List.map_cons]
        rw [Path.piece, if_neg h1, if_neg h2, compOf]
        split <;> rfl

theorem dotFirst_iff (p : Str) : dotFirst p ↔ (Str.splitOn '/' p).head? = some (str ".") := by
  cases p with
  | nil => exact ⟨fun h => (by rcases h with h | ⟨r, h⟩ <;> cases h), fun h => by cases h⟩
  | cons c cs =>
    rw [Str.splitOn]
    by_cases hc : c = '/'
    · rw [if_pos hc]
      exact ⟨fun h => by rcases h with h | ⟨r, h⟩ <;> (cases h; cases hc), fun h => by cases h⟩
    · rw [if_neg hc]
      cases cs with
      | nil =>
        change _ ↔ some [c] = some ['.']
        constructor
        · rintro (h | ⟨r, h⟩)
          · exact congrArg some h
          · cases h
        · intro h; exact .inl (Option.some.inj h)
      | cons d ds =>
        rw [Str.splitOn]
        by_cases hd : d = '/'
        · rw [if_pos hd]
          change _ ↔ some [c] = some ['.']
          constructor
          · rintro (h | ⟨r, h⟩)
            · cases h
            · cases h; rfl
          · intro h
            cases h
            exact .inr ⟨ds, by rw [hd]⟩
        · rw [if_neg hd]
          constructor
          · rintro (h | ⟨r, h⟩)
            · cases h
            · cases h; exact absurd rfl hd
          · intro h
            exfalso
            cases hs : Str.splitOn '/' ds with
            | nil => rw [hs] at h; cases h
            | cons a b => rw [hs] at h; cases h

theorem components_eq (p : Str) : Path.components p =
    (if p.head? = some '/' then [.rootDir] else []) ++
      ((if (Str.splitOn '/' p).head? = some (str ".") then [.curDir] else []) ++ (pathParts p).map compOf) := by
  unfold Path.components
  by_cases h : p.head? = some '/'
  · have h' : (Str.splitOn '/' p).head? ≠ some (str ".") := by
      cases p with
      | nil => cases h
      | cons c cs => cases h; rw [Str.splitOn, if_pos rfl]; nofun
    rw [if_pos h, if_neg h', if_pos (by rw [Path.hasRoot, h]; rfl), filterMap_piece]
    rfl
  · rw [if_neg h, if_neg (by rw [Path.hasRoot, beq_iff_eq]; exact h), pathParts, ← filterMap_piece]
    cases hs : Str.splitOn '/' p with
    | nil => rfl
    | cons s r =>
      rw [List.nil_append]
      dsimp only
      by_cases h2 : s = str "."
      · rw [if_pos h2, if_pos (by rw [h2]; rfl), List.filterMap_cons_none (by rw [h2]; rfl)]
        rfl
      · rw [if_neg h2, if_neg (by simpa using h2)]
        rfl

theorem compOf_plain (s : Str) : compOf s ≠ .rootDir ∧ compOf s ≠ .curDir := by
  unfold compOf
  split <;> exact ⟨nofun, nofun⟩

theorem map_compOf_inj {a b : List Str} (h : a.map compOf = b.map compOf) : a = b := by
  induction a generalizing b with
  | nil => cases b with
    | nil => rfl
    | cons => cases h
  | cons x r ih => cases b with
    | nil => cases h
    | cons y s =>
      rw [List.map_cons, List.map_cons, List.cons.injEq] at h
      rw [compOf_inj h.1, ih h.2]

theorem components_same (p q : Str) : Path.components p = Path.components q ↔ PathEqual p q := by
  unfold PathEqual
  rw [components_eq, components_eq, dotFirst_iff, dotFirst_iff]
  have key : ∀ (r d r' d' : Prop) [Decidable r] [Decidable d] [Decidable r'] [Decidable d'] (l m : List Str),
      (if r then [Comp.rootDir] else []) ++ ((if d then [Comp.curDir] else []) ++ l.map compOf) =
        (if r' then [Comp.rootDir] else []) ++ ((if d' then [Comp.curDir] else []) ++ m.map compOf) ↔
      (r ↔ r') ∧ (d ↔ d') ∧ l = m := by
    intro r d r' d' _ _ _ _ l m
    have hr : ∀ (a : List Str) b, a.map compOf ≠ Comp.rootDir :: b := by
      intro a b h
      cases a with
      | nil => cases h
      | cons x s => exact (compOf_plain x).1 (List.cons.inj h).1
    have hd : ∀ (a : List Str) b, a.map compOf ≠ Comp.curDir :: b := by
      intro a b h
      cases a with
      | nil => cases h
      | cons x s => exact (compOf_plain x).2 (List.cons.inj h).1
    constructor
    · intro h
      by_cases a1 : r <;> by_cases a2 : d <;> by_cases b1 : r' <;> by_cases b2 : d' <;>
        simp only [a1, a2, b1, b2, if_true, if_false, List.nil_append, List.cons_append, List.cons.injEq, true_and,
          reduceCtorEq, false_and, iff_self] at h ⊢
      all_goals first
        | exact map_compOf_inj h
        | exact absurd h (hr _ _)
        | exact absurd h.symm (hr _ _)
        | exact absurd h (hd _ _)
        | exact absurd h.symm (hd _ _)
    · rintro ⟨h1, h2, rfl⟩
      simp only [h1, h2]
  exact key ..

end Figment
