import Verif.Model.NumParse
import Verif.Spec.Num
import Verif.Lemmas.Print
/-! # Parsing numbers -/
namespace Figment
namespace Num

theorem ofUInt_spec (n : BitVec 128) : (ofUInt n).intVal = some (n.toNat : Int) ∧ (ofUInt n).isSigned = false ∧
    (ofUInt n).Narrowest := by
  have key : ∃ w, (ofUInt n).width = some w ∧ (ofUInt n).intVal = some (n.toNat : Int) ∧ (ofUInt n).isSigned = false ∧
      (w = 8 ∨ (2 ^ 8 ≤ n.toNat ∧ w = 16) ∨ (2 ^ 16 ≤ n.toNat ∧ w = 32) ∨ (2 ^ 32 ≤ n.toNat ∧ w = 64) ∨ (2 ^ 64 ≤ n.toNat ∧ w = 128)) := by
    rw [ofUInt]
    split
    · exact ⟨8, rfl, by rw [intVal, BitVec.toNat_setWidth, Nat.mod_eq_of_lt (by assumption)], rfl, by omega⟩
    · split
      · exact ⟨16, rfl, by rw [intVal, BitVec.toNat_setWidth, Nat.mod_eq_of_lt (by assumption)], rfl, by omega⟩
      · split
        · exact ⟨32, rfl, by rw [intVal, BitVec.toNat_setWidth, Nat.mod_eq_of_lt (by assumption)], rfl, by omega⟩
        · split
          · exact ⟨64, rfl, by rw [intVal, BitVec.toNat_setWidth, Nat.mod_eq_of_lt (by assumption)], rfl, by omega⟩
          · exact ⟨128, rfl, rfl, rfl, by omega⟩
  obtain ⟨w, h1, h2, h3, h4⟩ := key
  refine ⟨h2, h3, w, h1, ?_⟩
  intro m w' hw hs hi
  rw [h2] at hi
  rw [h3] at hs
  cases m <;> simp only [width, isSigned, intVal, Option.some.injEq, reduceCtorEq] at hw hs hi
  all_goals
    rename_i v
    have := v.isLt
    omega

theorem toInt_setWidth {w : Nat} (hw : w = 8 ∨ w = 16 ∨ w = 32 ∨ w = 64) {n : BitVec 128} (h : fits w n = true) :
    (n.setWidth w).toInt = n.toInt := by
  simp only [fits, Bool.and_eq_true, decide_eq_true_eq] at h
  have hn := n.isLt
  rw [BitVec.toInt_eq_toNat_cond] at h ⊢
  rw [BitVec.toInt_eq_toNat_cond, BitVec.toNat_setWidth]
  rcases hw with rfl | rfl | rfl | rfl <;> simp only [Nat.reduceSub] at h <;> (repeat' split) <;> omega

theorem ofSInt_spec (n : BitVec 128) : (ofSInt n).intVal = some n.toInt ∧ (ofSInt n).isSigned = true ∧
    (ofSInt n).Narrowest := by
  have key : ∃ w, (ofSInt n).width = some w ∧ (ofSInt n).intVal = some n.toInt ∧ (ofSInt n).isSigned = true ∧
      (w = 8 ∨ (fits 8 n = false ∧ w = 16) ∨ (fits 16 n = false ∧ w = 32) ∨ (fits 32 n = false ∧ w = 64) ∨ (fits 64 n = false ∧ w = 128)) := by
    rw [ofSInt]
    split
    · exact ⟨8, rfl, by rw [intVal, toInt_setWidth (by decide) (by assumption)], rfl, .inl rfl⟩
    · rename_i h8
      split
      · exact ⟨16, rfl, by rw [intVal, toInt_setWidth (by decide) (by assumption)], rfl, by simp_all⟩
      · rename_i h16
        split
        · exact ⟨32, rfl, by rw [intVal, toInt_setWidth (by decide) (by assumption)], rfl, by simp_all⟩
        · rename_i h32
          split
          · exact ⟨64, rfl, by rw [intVal, toInt_setWidth (by decide) (by assumption)], rfl, by simp_all⟩
          · exact ⟨128, rfl, rfl, rfl, by simp_all⟩
  obtain ⟨w, h1, h2, h3, h4⟩ := key
  refine ⟨h2, h3, w, h1, ?_⟩
  intro m w' hw hs hi
  rw [h2] at hi
  rw [h3] at hs
  simp only [fits, Bool.and_eq_false_iff, decide_eq_false_iff_not, Nat.reduceSub] at h4
  cases m <;> simp only [width, isSigned, intVal, Option.some.injEq, reduceCtorEq] at hw hs hi
  all_goals
    rename_i v
    have h5 := BitVec.le_two_mul_toInt (x := v)
    have h6 := BitVec.two_mul_toInt_lt (x := v)
    omega

/-- An integer has one narrowest number of either signedness. -/
theorem Narrowest.unique {n m : Num} (hn : n.Narrowest) (hm : m.Narrowest) (hs : n.isSigned = m.isSigned)
    (hi : n.intVal = m.intVal) : n = m := by
  obtain ⟨w, h1, h2⟩ := hn
  obtain ⟨w', h3, h4⟩ := hm
  have h5 := h2 m w' h3 hs.symm hi.symm
  have h6 := h4 n w h1 hs hi
  obtain rfl : w = w' := Nat.le_antisymm h5 h6
  clear h2 h4 h5 h6
  cases n <;> simp only [width, Option.some.injEq, reduceCtorEq] at h1 <;> subst h1 <;>
  cases m <;> simp only [width, Option.some.injEq, reduceCtorEq, Nat.reduceEqDiff] at h3 <;>
  simp only [isSigned, reduceCtorEq] at hs <;>
  simp only [intVal, Option.some.injEq] at hi <;> congr 1
  all_goals first
    | exact BitVec.eq_of_toNat_eq (Int.ofNat.inj hi)
    | exact BitVec.eq_of_toInt_eq hi

variable [FloatOps]

theorem parse_int {s : Str} (h : '.' ∉ Str.trim s) : parse s =
    if (Str.trim s).head? = some '-' then (Dec.parseSigned 128 (Str.trim s)).map ofSInt
    else (Dec.parseUnsigned 128 (Str.trim s)).map ofUInt := by
  rw [parse]
  simp only [List.contains_eq_mem, decide_eq_true_eq]
  rw [if_neg h]

end Num
end Figment
