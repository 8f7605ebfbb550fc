import Verif.Spec.History
import Verif.Lemmas.Provide
import Verif.Lemmas.Error
import Verif.Lemmas.Tag
/-! # Lemmas about histories of one figment and about layering -/
namespace Figment

theorem opData_append (a b : List Op) : opData (a ++ b) = opData a ++ opData b := by
  induction a with
  | nil => rfl
  | cons x r ih => cases x <;> simp [opData, ih]

theorem opErrors_append (a b : List Op) : opErrors (a ++ b) = opErrors a ++ opErrors b := by
  simp [opErrors, opData_append]

/-- Induction over a history, last operation first. -/
theorem Fig.run_induct {P : List Op → Fig → Prop} {f : Fig} (h0 : P [] f)
    (hadd : ∀ ops g (c : Call) tag ctr ctr', P ops g → Tag.next ctr = (some tag, ctr') →
      P (ops ++ [.add c]) (g.provideWith c.provider c.order c.loc tag))
    (hsel : ∀ ops g p, P ops g → P (ops ++ [.select p]) (g.select p))
    {ops : List Op} {c c' : BitVec 64} {g : Fig} (h : f.run ops c = (some g, c')) : P ops g := by
  have key : ∀ (ops pre : List Op) (f : Fig) (c : BitVec 64), P pre f → f.run ops c = (some g, c') →
      P (pre ++ ops) g := by
    intro ops
    induction ops with
    | nil => intro pre f c hp h; simp only [Fig.run, Prod.mk.injEq, Option.some.injEq] at h; simpa [← h.1] using hp
    | cons x r ih =>
      intro pre f c hp h
      cases x with
      | select p =>
        rw [Fig.run] at h
        have := ih (pre ++ [.select p]) _ _ (hsel _ _ p hp) h
        simpa using this
      | add x =>
        rw [Fig.run] at h
        cases hx : f.provide x.provider x.order x.loc c with
        | mk o ctr =>
          cases o with
          | none => simp [hx] at h
          | some y =>
            simp only [hx] at h
            rw [Fig.provide] at hx
            cases hn : Tag.next c with
            | mk t ctr2 =>
              simp only [hn, Prod.mk.injEq, Option.map_eq_some_iff] at hx
              obtain ⟨⟨t', rfl, rfl⟩, rfl⟩ := hx
              have := ih (pre ++ [.add x]) _ _ (hadd _ _ x t' _ _ hp hn) h
              simpa using this
  simpa using key ops [] f c h0 h

theorem Profile.isCustom_congr {p q : Profile} (h : compare p q = .eq) : p.isCustom = q.isCustom := by
  have : Str.lower p.name = Str.lower q.name := Std.LawfulEqOrd.eq_of_compare (a := Str.lower p.name) (b := Str.lower q.name) h
  simp [isCustom, same, Str.uncasedEq, this]

theorem Data.at_congr {p q : Profile} (h : compare p q = .eq) (m : Data) : m.at p = m.at q := by
  rw [Data.at, Data.at, dictOf_congr h]

/-- What `merged` gives. -/
theorem Fig.merged_ok {f : Fig} {m : Data} (hf : f.value = .ok m) :
    f.merged = .ok (.dict Tag.Default
      (if f.profile.isCustom then
        Dict.merge (if (Map.get f.profile m).isSome then Dict.merge (m.dictOf Profile.Default) (m.dictOf f.profile)
          else m.dictOf Profile.Default) (m.dictOf Profile.Global)
       else Dict.merge (m.dictOf Profile.Default) (m.dictOf Profile.Global))) := by
  have hgd : compare Profile.Global Profile.Default ≠ .eq := by decide
  simp only [Fig.merged, Fig.resolvedValue, hf, Map.get_erase, hgd, if_false]
  by_cases hc : f.profile.isCustom = true
  · have h1 : compare f.profile Profile.Default ≠ .eq := by
      rw [Ne, ← Profile.same_iff]; simp [Profile.isCustom] at hc; simp [hc.1]
    have h2 : compare f.profile Profile.Global ≠ .eq := by
      rw [Ne, ← Profile.same_iff]; simp [Profile.isCustom] at hc; simp [hc.2]
    simp only [h1, h2, if_false, hc, if_true]
    cases hg : Map.get f.profile m with
    | none => simp [Data.dictOf]
    | some v => simp [Data.dictOf, hg]
  · have hc' : f.profile.isCustom = false := by simpa using hc
    simp only [hc', Bool.false_eq_true, if_false]
    split <;> rfl

theorem view_root_merge (a b : Dict) (ha : a.WF) (hb : b.WF) (t : Tag) (p : List Str) :
    (Value.dict t (Dict.merge a b)).view p = View.merge (Value.dict t a).view (Value.dict t b).view p := by
  have h := Value.view_coalesce .Merge (.dict t a) (.dict t b) (Value.wf_dict'.2 ha) (Value.wf_dict'.2 hb) p
  rw [Value.coalesce_dict] at h
  exact h

theorem View.merge_root {A : View} {t : Tag} (h0 : A [] = some (.dict t)) :
    View.merge A (Value.dict t []).view = A := by
  funext p
  cases p with
  | nil => simp [View.merge, Value.view, Value.shape, h0]
  | cons k ks =>
    have : (Value.dict t []).view (k :: ks) = none := rfl
    simp only [View.merge, this, Value.blocked_dict_cons, Map.get]
    simp

/-- What `merged` gives, path by path. -/
theorem Fig.merged_view {f : Fig} {m : Data} (hf : f.value = .ok m) (hm : m.WF) :
    ∃ v, f.merged = .ok v ∧ v.WF ∧ v.view = m.layered f.profile := by
  refine ⟨_, Fig.merged_ok hf, ?_, ?_⟩
  · rw [Value.wf_dict']
    have hd := hm.dictOf Profile.Default
    have hg := hm.dictOf Profile.Global
    have hp := hm.dictOf f.profile
    split
    · split
      · exact Dict.wf_coalesce _ (Dict.wf_coalesce _ hd hp) hg
      · exact Dict.wf_coalesce _ hd hg
    · exact Dict.wf_coalesce _ hd hg
  · funext p
    have hd := hm.dictOf Profile.Default
    have hg := hm.dictOf Profile.Global
    have hp := hm.dictOf f.profile
    rw [Data.layered]
    split
    · by_cases hs : (Map.get f.profile m).isSome = true
      · simp only [hs, if_true]
        have hdp : (Dict.merge (m.dictOf Profile.Default) (m.dictOf f.profile)).WF := Dict.wf_coalesce _ hd hp
        rw [view_root_merge _ _ hdp hg]
        have : (Value.dict Tag.Default (Dict.merge (m.dictOf Profile.Default) (m.dictOf f.profile))).view
            = View.merge (m.at Profile.Default) (m.at f.profile) := by
          funext q; exact view_root_merge _ _ hd hp _ q
        rw [this]; rfl
      · simp only [hs, Bool.false_eq_true, if_false]
        rw [view_root_merge _ _ hd hg]
        have hn : Map.get f.profile m = none := by simpa using hs
        have : m.at f.profile = (Value.dict Tag.Default []).view := by
          simp [Data.at, Data.dictOf, hn]
        rw [this, View.merge_root (Data.at_nil m _)]
        rfl
    · rw [view_root_merge _ _ hd hg]; rfl

/-- After any history without failure, with well-formed data, the figment's data is well-formed. -/
theorem Fig.run_wf {ops : List Op} {c c' : BitVec 64} {g : Fig} (h : Fig.new.run ops c = (some g, c'))
    (hw : OpsWF ops) (m : Data) (hm : g.value = .ok m) : m.WF := by
  revert m hw
  refine Fig.run_induct (P := fun ops g => OpsWF ops → ∀ m, g.value = .ok m → Data.WF m) ?_ ?_ ?_ h
  · intro _ m hm; cases hm; exact Data.wf_nil
  · intro ops g c tag _ _ ih _ hw m hm
    have hw1 : OpsWF ops := fun n hn => hw n (by simp [opData_append, hn])
    simp only [Fig.provideWith] at hm
    cases hd : c.provider.data with
    | error e => rw [hd] at hm; cases hv : g.value <;> rw [hv] at hm <;> cases hm
    | ok n =>
      cases hv : g.value with
      | error e => rw [hd, hv] at hm; cases hm
      | ok old =>
        rw [hd, hv, Fig.combine] at hm
        cases hm
        exact Data.wf_coalesce (ih hw1 _ hv)
          (Fig.wf_retagData tag (hw n (by simp [opData_append, opData, hd]))) _
  · intro ops g p ih hw m hm
    exact ih (fun n hn => hw n (by simp [opData_append, opData, hn])) m hm

theorem opErrors_eq_nil {ops : List Op} : opErrors ops = [] ↔ ∀ d ∈ opData ops, ∃ n, d = .ok n := by
  rw [opErrors, List.filterMap_eq_nil_iff]
  constructor
  · intro h d hd
    have := h d hd
    cases d with
    | ok n => exact ⟨n, rfl⟩
    | error e => simp at this
  · intro h d hd
    obtain ⟨n, rfl⟩ := h d hd
    rfl


theorem opErrors_ok {c : Call} {n : Data} (h : c.provider.data = .ok n) : opErrors [.add c] = [] := by
  simp [opErrors, opData, h]

theorem opErrors_error {c : Call} {e : Error} (h : c.provider.data = .error e) : opErrors [.add c] = [e] := by
  simp [opErrors, opData, h]

/-- What `provide` leaves of any number of failures: of the first error all but its chain, chained to the
last error. -/
theorem Fig.run_errors {ops : List Op} {c c' : BitVec 64} {g : Fig} (h : Fig.new.run ops c = (some g, c'))
    (e : Error) (he : g.value = .error e) :
    ∃ first rest, opErrors ops = first :: rest ∧ ∃ t : Tag,
      (rest = [] → e = first.retagged t) ∧
      (∀ l, rest.getLast? = some l → ∃ t', e = (first.retagged t).setPrev (some (l.retagged t'))) := by
  refine (Fig.run_induct (P := fun ops g => (∀ m, g.value = .ok m → opErrors ops = []) ∧ ∀ e, g.value = .error e →
    ∃ first rest, opErrors ops = first :: rest ∧ ∃ t : Tag,
      (rest = [] → e = first.retagged t) ∧
      (∀ l, rest.getLast? = some l → ∃ t', e = (first.retagged t).setPrev (some (l.retagged t')))) ?_ ?_ ?_ h).2 e he
  · exact ⟨fun m _ => rfl, fun e he => by cases he⟩
  · intro ops g c tag c1 c2 ih _
    rw [opErrors_append]
    refine ⟨fun m hm => ?_, fun e he => ?_⟩
    · simp only [Fig.provideWith] at hm
      cases hp : c.provider.data with
      | error ne => cases hv : g.value <;> rw [hv, hp] at hm <;> cases hm
      | ok n =>
        cases hv : g.value with
        | error e => rw [hv, hp] at hm; cases hm
        | ok m' => rw [opErrors_ok hp, ih.1 _ hv]; rfl
    simp only [Fig.provideWith] at he
    cases hp : c.provider.data with
    | ok n =>
      rw [opErrors_ok hp, List.append_nil]
      cases hv : g.value with
      | ok m => rw [hv, hp] at he; cases he
      | error prev => rw [hv, hp, Fig.combine] at he; cases he; exact ih.2 _ hv
    | error ne =>
      rw [opErrors_error hp]
      cases hv : g.value with
      | ok m =>
        rw [hv, hp, Fig.combine] at he
        cases he
        rw [ih.1 _ hv]
        exact ⟨ne, [], rfl, tag, fun _ => rfl, by simp⟩
      | error prev =>
        rw [hv, hp, Fig.combine] at he
        cases he
        obtain ⟨first, rest, h1, t, h2, h3⟩ := ih.2 _ hv
        refine ⟨first, rest ++ [ne], by simp [h1], t, by simp, fun l hl => ?_⟩
        simp only [List.getLast?_append, List.getLast?_singleton, Option.some_or, Option.some.injEq] at hl
        subst hl
        refine ⟨tag, ?_⟩
        cases hr : rest.getLast? with
        | none =>
          rw [h2 (by simpa using hr)]; rfl
        | some l =>
          obtain ⟨t', ht'⟩ := h3 l hr
          rw [ht', Error.chain]
          rfl
  · intro ops g p ih
    have : opErrors (ops ++ [.select p]) = opErrors ops := by rw [opErrors_append]; exact List.append_nil _
    rw [this]
    exact ih

theorem Map.mem_keys_same (pr : Profile) (m : Data) :
    (∃ q ∈ Map.keys m, q.same pr = true) ↔ (Map.get pr m).isSome = true := by
  constructor
  · rintro ⟨q, hq, hs⟩
    obtain ⟨x, hx, rfl⟩ := List.mem_map.1 hq
    rw [Map.get_congr (Map.cmp_symm.1 (Profile.same_iff.1 hs))]
    exact Map.get_isSome_of_mem hx
  · intro h
    obtain ⟨d, hd⟩ := Option.isSome_iff_exists.1 h
    obtain ⟨k, hk, hkp⟩ := Map.mem_of_get hd
    exact ⟨k, List.mem_map.2 ⟨_, hk, rfl⟩, Profile.same_iff.2 (Map.cmp_symm.1 hkp)⟩

theorem Fig.run_profiles {ops : List Op} {c c' : BitVec 64} {g : Fig} (h : Fig.new.run ops c = (some g, c'))
    (hw : OpsWF ops) (m : Data) (hm : g.value = .ok m) (pr : Profile) :
    (Map.get pr m).isSome = true ↔ ∃ n, Except.ok n ∈ opData ops ∧ ∃ q ∈ Map.keys n, q.same pr = true := by
  have hw0 := hw
  revert m hw
  refine (Fig.run_induct (P := fun ops g => OpsWF ops → ∀ m, g.value = .ok m → Data.WF m ∧ ((Map.get pr m).isSome = true ↔
    ∃ n, Except.ok n ∈ opData ops ∧ ∃ q ∈ Map.keys n, q.same pr = true)) ?_ ?_ ?_ h) |> fun H hw m hm => (H hw m hm).2
  · intro _ m hm; cases hm; exact ⟨Data.wf_nil, by simp [Map.get, opData]⟩
  · intro ops g c tag _ _ ih _ hw m hm
    have hw1 : OpsWF ops := fun n hn => hw n (by simp [opData_append, hn])
    simp only [Fig.provideWith] at hm
    cases hd : c.provider.data with
    | error e => rw [hd] at hm; cases hv : g.value <;> rw [hv] at hm <;> cases hm
    | ok n =>
      cases hv : g.value with
      | error e => rw [hd, hv] at hm; cases hm
      | ok old =>
        rw [hd, hv, Fig.combine] at hm
        cases hm
        obtain ⟨hwo, ho⟩ := ih hw1 _ hv
        have hwn := hw n (by simp [opData_append, opData, hd])
        refine ⟨Data.wf_coalesce hwo (Fig.wf_retagData tag hwn) _, ?_⟩
        have hn : (Map.get pr (Fig.retagData tag n)).isSome = (Map.get pr n).isSome := by
          rw [Fig.get_retagData]; cases Map.get pr n <;> rfl
        rw [coalesceProfiles, Map.get_coalesce _ hwo.1 (Fig.wf_retagData tag hwn).1]
        have hsome : ∀ (f : Dict → Dict → Dict) (a b : Option Dict),
            (optCombine f a b).isSome = true ↔ a.isSome = true ∨ b.isSome = true := by
          intro f a b; cases a <;> cases b <;> simp [optCombine]
        rw [hsome, hn, ho, ← Map.mem_keys_same pr n]
        simp only [opData_append, opData, List.mem_append, List.mem_cons, List.not_mem_nil, or_false, hd,
          Except.ok.injEq]
        constructor
        · rintro (⟨x, hx, hq⟩ | hq)
          · exact ⟨x, .inl hx, hq⟩
          · exact ⟨n, .inr rfl, hq⟩
        · rintro ⟨x, hx | rfl, hq⟩
          · exact .inl ⟨x, hx, hq⟩
          · exact .inr hq
  · intro ops g p ih hw m hm
    have := ih (fun n hn => hw n (by simp [opData_append, opData, hn])) m hm
    simpa [opData_append, opData] using this

/-- A profile that no operation touches keeps its dictionary. -/
theorem Fig.run_keeps {ops : List Op} {c c' : BitVec 64} {f g : Fig} {pr : Profile} {m : Data}
    (hf : f.value = .ok m) (hm : m.WF) (h : f.run ops c = (some g, c')) (hw : OpsWF ops) (hok : opErrors ops = [])
    (hng : ∀ n, Except.ok n ∈ opData ops → ∀ q ∈ Map.keys n, q.same pr = false) :
    ∃ m' : Data, g.value = .ok m' ∧ m'.WF ∧ m'.dictOf pr = m.dictOf pr := by
  revert hw hok hng
  refine Fig.run_induct (P := fun ops g => OpsWF ops → opErrors ops = [] →
    (∀ n, Except.ok n ∈ opData ops → ∀ q ∈ Map.keys n, q.same pr = false) →
    ∃ m' : Data, g.value = .ok m' ∧ m'.WF ∧ m'.dictOf pr = m.dictOf pr) ?_ ?_ ?_ h
  · intro _ _ _; exact ⟨m, hf, hm, rfl⟩
  · intro ops g c tag _ _ ih _ hw hok hng
    have hw1 : OpsWF ops := fun n hn => hw n (by simp [opData_append, hn])
    rw [opErrors_append, List.append_eq_nil_iff] at hok
    obtain ⟨m', h1, h2, h3⟩ := ih hw1 hok.1 (fun n hn => hng n (by simp [opData_append, hn]))
    cases hd : c.provider.data with
    | error e => rw [opErrors_error hd] at hok; cases hok.2
    | ok n =>
      have hwn := hw n (by simp [opData_append, opData, hd])
      have hwr := Fig.wf_retagData tag hwn
      refine ⟨coalesceProfiles m' (Fig.retagData tag n) c.order, by simp only [Fig.provideWith, hd, h1, Fig.combine], Data.wf_coalesce h2 hwr _, ?_⟩
      rw [Data.dictOf_coalesce h2 hwr]
      have hnone : Data.dictOf (Fig.retagData tag n) pr = [] := by
        rw [Data.dictOf, Fig.get_retagData]
        cases hg : Map.get pr n with
        | none => rfl
        | some d =>
          have hs : (Map.get pr n).isSome = true := by rw [hg]; rfl
          obtain ⟨q, hq, hqs⟩ := (Map.mem_keys_same pr n).2 hs
          rw [hng n (by simp [opData_append, opData, hd]) q hq] at hqs
          cases hqs
      rw [hnone, Dict.coalesce_nil_right (Dict.wf_iff.1 (h2.dictOf pr)).1, h3]
  · intro ops g p ih hw hok hng
    rw [opErrors_append, List.append_eq_nil_iff] at hok
    obtain ⟨m', h1, h2, h3⟩ := ih (fun n hn => hw n (by simp [opData_append, hn])) hok.1
      (fun n hn => hng n (by simp [opData_append, hn]))
    exact ⟨m', h1, h2, h3⟩

end Figment
