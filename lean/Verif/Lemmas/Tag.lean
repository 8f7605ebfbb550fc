import Verif.Model.Tag
/-! # Bit-level lemmas about tags -/
namespace Figment.Tag

theorem getLsbD_metadataIdMask (i : Nat) : metadataIdMask.getLsbD i = decide (i < 62) := by
  by_cases h : i < 64
  · have : ∀ j : Fin 64, metadataIdMask.getLsbD j.val = decide (j.val < 62) := by decide
    exact this ⟨i, h⟩
  · rw [BitVec.getLsbD_of_ge _ _ (by omega)]
    simp; omega

theorem getLsbD_profileTagMask (i : Nat) :
    profileTagMask.getLsbD i = (decide (62 ≤ i) && decide (i < 64)) := by
  by_cases h : i < 64
  · have : ∀ j : Fin 64, profileTagMask.getLsbD j.val = (decide (62 ≤ j.val) && decide (j.val < 64)) := by
      decide
    exact this ⟨i, h⟩
  · rw [BitVec.getLsbD_of_ge _ _ (by omega)]
    simp; omega

theorem mask_toNat : metadataIdMask.toNat = 2 ^ 62 - 1 := by decide

theorem metadataId_toNat (t : Tag) : t.metadataId.toNat = t.raw.toNat % 2 ^ 62 := by
  simp only [metadataId, metadataIdShift, BitVec.ushiftRight_zero, BitVec.toNat_and, mask_toNat,
    Nat.and_two_pow_sub_one_eq_mod]

theorem getLsbD_new (id : BitVec 64) (p : ProfileTag) (i : Nat) :
    (new id p).raw.getLsbD i
      = if i < 62 then id.getLsbD i else (decide (i < 64) && p.bits.getLsbD (i - 62)) := by
  simp only [new, metadataIdShift, BitVec.shiftLeft_zero, BitVec.getLsbD_or, BitVec.getLsbD_and,
    getLsbD_metadataIdMask, getLsbD_profileTagMask, BitVec.getLsbD_shiftLeft, profileTagShift]
  by_cases h : i < 62
  · simp [h, show ¬ 62 ≤ i by omega]
  · simp only [h, decide_false, Bool.and_false, Bool.false_or, if_false, decide_true,
      show 62 ≤ i by omega, Bool.and_true, Bool.not_false, Bool.true_and]
    cases decide (i < 64) <;> simp

/-- Unpacking the metadata id. -/
theorem metadataId_new (id : BitVec 64) (p : ProfileTag) : (new id p).metadataId = id &&& metadataIdMask := by
  apply BitVec.eq_of_getLsbD_eq
  intro i hi
  simp only [metadataId, metadataIdShift, BitVec.ushiftRight_zero, BitVec.getLsbD_and, getLsbD_new,
    getLsbD_metadataIdMask]
  by_cases h : i < 62 <;> simp [h]

theorem and_mask_of_lt {id : BitVec 64} (h : id.toNat < 2 ^ 62) : id &&& metadataIdMask = id := by
  apply BitVec.eq_of_toNat_eq
  rw [BitVec.toNat_and, mask_toNat, Nat.and_two_pow_sub_one_eq_mod, Nat.mod_eq_of_lt h]

theorem metadataId_new_of_lt {id : BitVec 64} (h : id.toNat < 2 ^ 62) (p : ProfileTag) :
    (new id p).metadataId = id := by
  rw [metadataId_new, and_mask_of_lt h]

theorem metadataId_and_mask (t : Tag) : t.metadataId &&& metadataIdMask = t.metadataId := by
  simp only [metadataId, metadataIdShift, BitVec.ushiftRight_zero, BitVec.and_assoc, BitVec.and_self]

theorem metadataId_lt (t : Tag) : t.metadataId.toNat < 2 ^ 62 := by
  rw [metadataId_toNat]; exact Nat.mod_lt _ (by decide)

/-- Unpacking the profile kind. -/
theorem profileTag_new (id : BitVec 64) (p : ProfileTag) : (new id p).profileTag = p := by
  have h : (((new id p).raw &&& profileTagMask) >>> profileTagShift) = p.bits &&& 0b11#64 := by
    apply BitVec.eq_of_getLsbD_eq
    intro i hi
    simp only [profileTagShift, BitVec.getLsbD_ushiftRight, BitVec.getLsbD_and, getLsbD_new,
      getLsbD_profileTagMask]
    by_cases h2 : i < 2
    · rcases (by omega : i = 0 ∨ i = 1) with rfl | rfl <;> simp
    · have h1 : ¬ 62 + i < 64 := by omega
      have h3 : (0b11#64).getLsbD i = false := by
        have : ∀ j : Fin 64, ¬ j.val < 2 → (0b11#64).getLsbD j.val = false := by decide
        exact this ⟨i, hi⟩ h2
      simp [h1, h3]
  rw [profileTag, h]
  cases p <;> decide

theorem metadataId_forProfile (t : Tag) (p : Profile) : (t.forProfile p).metadataId = t.metadataId := by
  rw [forProfile, metadataId_new, metadataId_and_mask]

theorem same_forProfile (t : Tag) (p : Profile) : (t.forProfile p).same t = true := by
  simp [same, metadataId_forProfile]

theorem profileTag_forProfile (t : Tag) (p : Profile) :
    (t.forProfile p).profileTag = ProfileTag.ofProfile p := profileTag_new _ _

theorem compare_eq_iff {a b : Tag} : compare a b = .eq ↔ a.metadataId = b.metadataId := by
  show compare a.metadataId.toNat b.metadataId.toNat = .eq ↔ _
  rw [Std.LawfulEqOrd.compare_eq_iff_eq]
  exact ⟨BitVec.eq_of_toNat_eq, fun h => by rw [h]⟩

theorem compare_eq_iff_same {a b : Tag} : compare a b = .eq ↔ a.same b = true := by
  rw [compare_eq_iff]; simp [same]

theorem compare_lt_iff {a b : Tag} : compare a b = .lt ↔ a.metadataId.toNat < b.metadataId.toNat := by
  show compare a.metadataId.toNat b.metadataId.toNat = .lt ↔ _
  exact Nat.compare_eq_lt

theorem default_metadataId : Default.metadataId = 0#64 := by decide

theorem next_eq (c : BitVec 64) :
    next c = (if c.toNat < 2 ^ 62 then some (new c .Default) else none, c + 1#64) := by
  simp only [next, mask_toNat]
  have : (c.toNat > 2 ^ 62 - 1) ↔ ¬ (c.toNat < 2 ^ 62) := by omega
  simp only [this]
  by_cases h : c.toNat < 2 ^ 62 <;> simp [h]

theorem next_some {c c' : BitVec 64} {t : Tag} (h : next c = (some t, c')) :
    t = new c .Default ∧ c.toNat < 2 ^ 62 ∧ t.metadataId = c ∧ c' = c + 1#64 := by
  rw [next_eq] at h
  simp only [Prod.mk.injEq] at h
  obtain ⟨h1, h2⟩ := h
  split at h1
  · rename_i hc
    simp only [Option.some.injEq] at h1
    exact ⟨h1.symm, hc, by rw [← h1, metadataId_new_of_lt hc], h2.symm⟩
  · cases h1

end Figment.Tag
