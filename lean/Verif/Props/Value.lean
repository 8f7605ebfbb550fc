import Verif.Lemmas.Same
import Verif.Spec.Examples
/-!
# C42, C59: numbers and equality of values
-/
namespace Figment

/-! ## C59 -/

/-- **C59**: provenance plays no role in `==`: it gives the same answer after all tags are reset, and after
any retagging; so values that differ in tags only (and have no NaN) are equal. -/
theorem C59_tags_ignored (v w : Value) :
    (v.same w = v.strip.same w.strip) ∧
    (∀ f, (v.mapTag f).same w = v.same w) ∧
    (∀ t, (v.setTag t).same w = v.same w) ∧
    (v.strip = w.strip → v.noNan = true → v.same w = true) := by
  refine ⟨(Value.same_strip v w).symm, fun f => ?_, fun t => ?_, fun h hn => ?_⟩
  · rw [← Value.same_strip, Value.strip_mapTag, Value.same_strip]
  · cases v <;> cases w <;> rfl
  · rw [← Value.same_strip, ← h, Value.same_strip, Value.same_refl, hn]

/-- **C59**: `==` is symmetric and transitive, and a value equals itself exactly if it has no NaN at any
depth. -/
theorem C59_equivalence (u v w : Value) :
    (v.same w = w.same v) ∧ (u.same v = true → v.same w = true → u.same w = true) ∧
    (v.same v = true ↔ v.noNan = true) :=
  ⟨Value.same_symm v w, Value.same_trans u v w, by rw [Value.same_refl]⟩

example : (Ex.d [(str "a", Ex.n 1)]).noNan = true ∧
    (Value.dict ⟨7⟩ [(str "a", .num ⟨9⟩ (.u8 1#8))]).strip = (Ex.d [(str "a", Ex.n 1)]).strip := ⟨by decide, rfl⟩
example : (Value.num ⟨0⟩ (.f64 0x7ff8000000000000#64)).noNan = false := by decide

/-! ## C42 -/

theorem toNat_setWidth_128 {n : Nat} (h : n ≤ 128) (v : BitVec n) : (v.setWidth 128).toNat = v.toNat := by
  rw [BitVec.toNat_setWidth, Nat.mod_eq_of_lt]
  exact Nat.lt_of_lt_of_le v.isLt (Nat.pow_le_pow_right (by decide) h)

theorem toInt_signExtend_128 {n : Nat} (h : n ≤ 128) (v : BitVec n) : (v.signExtend 128).toInt = v.toInt :=
  BitVec.toInt_signExtend_of_le h

/-- A non-negative integer is the same when read as unsigned. -/
theorem toNat_of_toInt_nonneg {n : Nat} (v : BitVec n) (h : 0 ≤ v.toInt) : (v.toNat : Int) = v.toInt := by
  rw [BitVec.toInt_eq_toNat_cond] at h ⊢
  have := v.isLt
  split <;> rename_i hh
  · rfl
  · rw [if_neg hh] at h; omega

/-- **C42**: every conversion gives the integer itself or nothing, and gives it exactly for the kinds it is
documented for: `to_u32` for the three narrow unsigned types, `to_u128` for unsigned, `to_i128` for signed,
`to_u128_lossy` for every integer that is not negative. -/
theorem C42_conversions (x : Num) :
    (∀ n, x.toU32 = some n → x.intVal = some (n.toNat : Int)) ∧
    (x.toU32.isSome ↔ ∃ v8 v16 v32, x = .u8 v8 ∨ x = .u16 v16 ∨ x = .u32 v32) ∧
    (∀ n, x.toU128 = some n → x.intVal = some (n.toNat : Int)) ∧
    (x.toU128.isSome ↔ x.intVal.isSome ∧ x.isSigned = false) ∧
    (∀ n, x.toI128 = some n → x.intVal = some n.toInt) ∧
    (x.toI128.isSome ↔ x.intVal.isSome ∧ x.isSigned = true) ∧
    (∀ n, x.toU128Lossy = some n → x.intVal = some (n.toNat : Int)) ∧
    (x.toU128Lossy.isSome ↔ ∃ i, x.intVal = some i ∧ 0 ≤ i) ∧
    (x.toF64.isSome ↔ x.intVal = none) := by
  refine ⟨?_, ?_, ?_, ?_, ?_, ?_, ?_, ?_, ?_⟩
  · intro n h
    cases x <;> simp only [Num.toU32, Option.some.injEq, reduceCtorEq] at h <;> subst h <;>
      simp only [Num.intVal]
    · rw [BitVec.toNat_setWidth_of_le (by decide)]
    · rw [BitVec.toNat_setWidth_of_le (by decide)]
  · cases x <;> simp [Num.toU32]
  · intro n h
    cases x <;> simp only [Num.toU128, Option.some.injEq, reduceCtorEq] at h <;> subst h <;>
      simp only [Num.intVal] <;> try rw [toNat_setWidth_128 (by decide)]
  · cases x <;> simp [Num.toU128, Num.intVal, Num.isSigned]
  · intro n h
    cases x <;> simp only [Num.toI128, Option.some.injEq, reduceCtorEq] at h <;> subst h <;>
      simp only [Num.intVal] <;> try rw [toInt_signExtend_128 (by decide)]
  · cases x <;> simp [Num.toI128, Num.intVal, Num.isSigned]
  · intro n h
    cases x <;> simp only [Num.toU128Lossy, Option.some.injEq, reduceCtorEq] at h
    all_goals first
      | (subst h; simp only [Num.intVal]; done)
      | (subst h; simp only [Num.intVal]; rw [toNat_setWidth_128 (by decide)]; done)
      | (split at h
         · rename_i hv
           simp only [Option.some.injEq] at h
           subst h
           simp only [Num.intVal, Option.some.injEq]
           first
             | (rw [toNat_of_toInt_nonneg _ (by rw [toInt_signExtend_128 (by decide)]; exact hv),
                  toInt_signExtend_128 (by decide)]; done)
             | (rw [toNat_of_toInt_nonneg _ hv]; done)
         · simp at h)
  · cases x <;> simp [Num.toU128Lossy, Num.intVal]
  · cases x <;> simp [Num.toF64, Num.intVal]

/-- **C42**: `to_actual` gives the integer itself with its signedness; two integers are equal exactly when
they have the same signedness and value, whatever their widths; an integer never equals a float. -/
theorem C42_equality (x y : Num) (i : Int) (hx : x.intVal = some i) :
    (x.isSigned = false → ∃ n, x.toActual = .unsigned n ∧ (n.toNat : Int) = i) ∧
    (x.isSigned = true → ∃ n, x.toActual = .signed n ∧ n.toInt = i) ∧
    (x.same y = true ↔ y.intVal = some i ∧ y.isSigned = x.isSigned) := by
  have key : ∀ (z : Num) (j : Int), z.intVal = some j →
      (z.isSigned = false ∧ ∃ n, z.toActual = .unsigned n ∧ (n.toNat : Int) = j) ∨
      (z.isSigned = true ∧ ∃ n, z.toActual = .signed n ∧ n.toInt = j) := by
    intro z j hz
    cases z <;> simp only [Num.intVal, Option.some.injEq, reduceCtorEq] at hz
    all_goals first
      | (left; exact ⟨rfl, _, rfl, by first | exact hz | rw [toNat_setWidth_128 (by decide), hz]⟩)
      | (right; exact ⟨rfl, _, rfl, by first | exact hz | rw [toInt_signExtend_128 (by decide), hz]⟩)
  have flt : ∀ z : Num, z.intVal = none → ∃ f, z.toActual = .float f := by
    intro z hz
    cases z <;> simp only [Num.intVal, reduceCtorEq] at hz
    all_goals exact ⟨_, rfl⟩
  refine ⟨fun h => ?_, fun h => ?_, ?_⟩
  · rcases key x i hx with ⟨_, r⟩ | ⟨h', _⟩
    · exact r
    · rw [h] at h'; cases h'
  · rcases key x i hx with ⟨h', _⟩ | ⟨_, r⟩
    · rw [h] at h'; cases h'
    · exact r
  · cases hy : y.intVal with
    | none =>
      obtain ⟨f, hf⟩ := flt y hy
      rcases key x i hx with ⟨_, n, hn, _⟩ | ⟨_, n, hn, _⟩ <;> simp [Num.same, hf, hn, Actual.same]
    | some j =>
      rcases key x i hx with ⟨hs, n, hn, hi⟩ | ⟨hs, n, hn, hi⟩ <;>
      rcases key y j hy with ⟨hs', m, hm, hj⟩ | ⟨hs', m, hm, hj⟩ <;>
      simp only [Num.same, hn, hm, Actual.same, hs, hs', Option.some.injEq, decide_eq_true_eq,
        Actual.unsigned.injEq, Actual.signed.injEq, reduceCtorEq, and_false, and_true]
      · rw [← hi, ← hj, Int.natCast_inj, BitVec.toNat_inj]; exact eq_comm
      · rw [← hi, ← hj, BitVec.toInt_inj]; exact eq_comm

example : (Num.i64 7#64).intVal = some 7 ∧ (Num.i8 7#8).same (.i64 7#64) = true
    ∧ (Num.u8 7#8).same (.i64 7#64) = false ∧ (Num.i8 7#8).toU128Lossy = some 7#128 := by decide

end Figment
