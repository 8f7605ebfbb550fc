import Verif.Model.Process
import Verif.Lemmas.Tag
import Verif.Lemmas.Provide
/-! # Invariants of executions: tags -/
namespace Figment

/-- Is the step a call of `Tag::next()`? -/
def Step.isObtain : Step → Bool
  | .obtain => true
  | _ => false

namespace Proc

theorem exec_snoc (steps : List Step) (x : Step) : exec (steps ++ [x]) = (exec steps).step x := by
  simp [exec, List.foldl_append]

/-- Induction over executions, last step first. -/
theorem exec_induct {P : List Step → Proc → Prop} (h0 : P [] init)
    (hs : ∀ steps x, P steps (exec steps) → P (steps ++ [x]) ((exec steps).step x))
    (steps : List Step) : P steps (exec steps) := by
  induction h : steps.length generalizing steps with
  | zero =>
    have : steps = [] := List.eq_nil_of_length_eq_zero h
    subst this; exact h0
  | succ n ih =>
    have hne : steps ≠ [] := by rintro rfl; simp at h
    have e := List.dropLast_concat_getLast hne
    rw [← e, exec_snoc]
    exact hs _ _ (ih _ (by simp [h]))

/-- The tags given out after `n` calls of `Tag::next()`. -/
def tagsAfter (n : Nat) : List Tag :=
  (List.range' 1 (min n (2 ^ 62 - 1))).map fun i => Tag.new (BitVec.ofNat 64 i) .Default

theorem step_counter_obtained (s : Proc) (x : Step) (hx : x.isObtain = false) :
    (s.step x).counter = s.counter ∧ (s.step x).obtained = s.obtained := by
  cases x with
  | new => exact ⟨rfl, rfl⟩
  | obtain => cases hx
  | _ => simp only [step]; split <;> exact ⟨rfl, rfl⟩

theorem exec_counter (steps : List Step) (h : steps.countP Step.isObtain < 2 ^ 64) :
    (exec steps).counter = BitVec.ofNat 64 (steps.countP Step.isObtain + 1) ∧
    (exec steps).obtained = tagsAfter (steps.countP Step.isObtain) := by
  revert h
  refine exec_induct (P := fun steps s => steps.countP Step.isObtain < 2 ^ 64 →
    s.counter = BitVec.ofNat 64 (steps.countP Step.isObtain + 1) ∧
    s.obtained = tagsAfter (steps.countP Step.isObtain)) ?_ ?_ steps
  · intro _; exact ⟨rfl, rfl⟩
  · intro steps x ih hlt
    rw [List.countP_append] at *
    simp only [List.countP_singleton] at *
    by_cases hx : x.isObtain = true
    · cases x <;> simp [Step.isObtain] at hx
      simp only [Step.isObtain, if_true] at *
      obtain ⟨h1, h2⟩ := ih (by omega)
      have hN : (exec steps).counter.toNat = (steps.countP Step.isObtain + 1) := by
        rw [h1, BitVec.toNat_ofNat]; exact Nat.mod_eq_of_lt hlt
      simp only [step, Tag.next_eq, hN]
      by_cases hc : steps.countP Step.isObtain + 1 < 2 ^ 62
      · simp only [hc, if_true]
        refine ⟨?_, ?_⟩
        · rw [h1]
          apply BitVec.eq_of_toNat_eq
          simp
        · rw [h1, h2, tagsAfter, tagsAfter, Nat.min_eq_left (by omega), Nat.min_eq_left (by omega),
            List.range'_concat]
          simp [Nat.add_comm]
      · simp only [hc, if_false]
        refine ⟨?_, ?_⟩
        · rw [h1]
          apply BitVec.eq_of_toNat_eq
          simp
        · rw [h2, tagsAfter, tagsAfter, Nat.min_eq_right (by omega), Nat.min_eq_right (by omega)]
    · have hx' : x.isObtain = false := by simpa using hx
      simp only [hx', Bool.false_eq_true, if_false, Nat.add_zero] at ih hlt ⊢
      obtain ⟨e1, e2⟩ := step_counter_obtained (exec steps) x hx'
      rw [e1, e2]
      exact ih hlt

theorem tagsAfter_id {n : Nat} {i : Nat} (h : i < (tagsAfter n).length) :
    ((tagsAfter n)[i]).metadataId.toNat = i + 1 := by
  simp only [tagsAfter, List.length_map, List.length_range'] at h
  have h2 : 1 + i < 2 ^ 62 := by omega
  simp only [tagsAfter, List.getElem_map, List.getElem_range', Nat.one_mul]
  rw [Tag.metadataId_new_of_lt]
  · rw [BitVec.toNat_ofNat, Nat.mod_eq_of_lt (by omega)]; omega
  · rw [BitVec.toNat_ofNat, Nat.mod_eq_of_lt (by omega)]; omega

end Proc
end Figment
