import Verif.Lemmas.Origin
import Verif.Lemmas.History
/-!
# Lemmas: what the merged data has at a key
-/
namespace Figment

/-- The value at a key of the merged data, from the values at the key in the profiles. -/
def mergedAt (p : Profile) (x : Profile → Option Value) : Option Value :=
  let both := optCombine (fun a b => Value.coalesce a b .Merge)
  both (if p.isCustom then both (x Profile.Default) (x p) else x Profile.Default) (x Profile.Global)

theorem Fig.merged_spec {f : Fig} {m : Data} (hf : f.value = .ok m) (hm : m.WF) :
    ∃ d : Dict, f.merged = .ok (.dict Tag.Default d) ∧ d.WF ∧
      (∀ k, Map.get k d = mergedAt f.profile fun pr => Map.get k (m.dictOf pr)) ∧
      ∀ P : Tag → Bool, m.tagsAll P → Value.tagsAllD P d = true := by
  have w := fun pr => hm.dictOf pr
  have s := fun pr => (Dict.wf_iff.1 (hm.dictOf pr)).1
  have hif : (if (Map.get f.profile m).isSome then Dict.merge (m.dictOf Profile.Default) (m.dictOf f.profile)
          else m.dictOf Profile.Default) = Dict.merge (m.dictOf Profile.Default) (m.dictOf f.profile) := by
    split
    · rfl
    · next h =>
      have : m.dictOf f.profile = [] := by
        unfold Data.dictOf
        cases hg : Map.get f.profile m with
        | none => rfl
        | some d => rw [hg] at h; exact absurd rfl h
      rw [this]
      exact (Dict.coalesce_nil_right (s _) _).symm
  rw [Fig.merged_ok hf, hif]
  unfold mergedAt
  by_cases hc : f.profile.isCustom = true
  · simp only [hc, if_true]
    refine ⟨_, rfl, Dict.wf_coalesce _ (Dict.wf_coalesce _ (w _) (w _)) (w _), fun k => ?_, fun P hP => ?_⟩
    · rw [Dict.merge, Dict.merge, Dict.get_coalesce (Dict.sorted_coalesce _ _ _) (s _), Dict.get_coalesce (s _) (s _)]
    · exact Dict.tagsAll_coalesce _ (Dict.wf_coalesce _ (w _) (w _)) (w _)
        (Dict.tagsAll_coalesce _ (w _) (w _) (Data.tagsAll_dictOf hP _) (Data.tagsAll_dictOf hP _))
        (Data.tagsAll_dictOf hP _)
  · simp only [hc]
    refine ⟨_, rfl, Dict.wf_coalesce _ (w _) (w _), fun k => ?_, fun P hP => ?_⟩
    · rw [if_neg (by decide), if_neg (by decide), Dict.merge, Dict.get_coalesce (s _) (s _)]
    · exact Dict.tagsAll_coalesce _ (w _) (w _) (Data.tagsAll_dictOf hP _) (Data.tagsAll_dictOf hP _)
end Figment
