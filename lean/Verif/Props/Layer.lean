import Verif.Lemmas.History
import Verif.Lemmas.Find
import Verif.Spec.Examples
/-!
# C10 – C12: profiles
-/
namespace Figment

/-! ## C11 -/

/-- **C11**: what is extracted is, at every path, the global profile's data merged over the selected
profile's (if it is custom) merged over the default profile's. -/
theorem C11_layering (f : Fig) (m : Data) (hf : f.value = .ok m) (hm : m.WF) :
    ∃ v, f.merged = .ok v ∧ ∀ p, v.view p =
      (if f.profile.isCustom then
        View.merge (View.merge (m.at Profile.Default) (m.at f.profile)) (m.at Profile.Global) p
      else View.merge (m.at Profile.Default) (m.at Profile.Global) p) := by
  obtain ⟨v, hv, _, hview⟩ := Fig.merged_view hf hm
  refine ⟨v, hv, fun p => ?_⟩
  rw [hview, Data.layered]
  split <;> rfl

/-- **C11**: a non-dictionary value in the global profile is what is found, whatever the other profiles
hold and whatever profile is selected. -/
theorem C11_global_wins (f : Fig) (m : Data) (hf : f.value = .ok m) (hm : m.WF) (path : Str) (w : Value)
    (hw : m.at Profile.Global (pathKeys path) = some (.leaf w)) (hd : w.asDict? = none) :
    f.findValue path = .ok w := by
  obtain ⟨v, hv, h⟩ := C11_layering f m hf hm
  have hvp : v.view (pathKeys path) = some (.leaf w) := by
    rw [h]
    split <;> exact View.merge_some hw
  rw [Fig.findValue, hv]
  simp only [Value.find_eq, (Value.getKeys_eq_some_iff_view hd).2 hvp]

/-- **C11**: a non-dictionary value in the selected profile is found if the global profile has nothing
there and no non-dictionary above; likewise the default profile's if the selected one has nothing there
either. -/
theorem C11_selected_wins (f : Fig) (m : Data) (hf : f.value = .ok m) (hm : m.WF) (path : Str) (w : Value)
    (hd : w.asDict? = none)
    (hg : m.at Profile.Global (pathKeys path) = none)
    (hgb : View.blocked (m.at Profile.Global) (pathKeys path) = false) :
    (f.profile.isCustom = true → m.at f.profile (pathKeys path) = some (.leaf w) → f.findValue path = .ok w) ∧
    (m.at Profile.Default (pathKeys path) = some (.leaf w) →
      (f.profile.isCustom = true → m.at f.profile (pathKeys path) = none ∧
        View.blocked (m.at f.profile) (pathKeys path) = false) → f.findValue path = .ok w) := by
  obtain ⟨v, hv, h⟩ := C11_layering f m hf hm
  have fin : v.view (pathKeys path) = some (.leaf w) → f.findValue path = .ok w := by
    intro hvp
    rw [Fig.findValue, hv]
    simp only [Value.find_eq, (Value.getKeys_eq_some_iff_view hd).2 hvp]
  refine ⟨fun hc hs => fin ?_, fun hdef hs => fin ?_⟩
  · rw [h]; simp [hc, View.merge, hg, hgb, hs]
  · rw [h]
    by_cases hc : f.profile.isCustom = true
    · simp [hc, View.merge, hg, hgb, hdef, (hs hc).1, (hs hc).2]
    · simp [hc, View.merge, hg, hgb, hdef]

/-- Data in three profiles. -/
def Ex.data3 : Data :=
  [(Profile.Default, [(str "a", Ex.n 1), (str "b", Ex.d [(str "x", Ex.n 2)])]),
   (Ex.dev, [(str "a", Ex.n 5), (str "b", Ex.n 4), (str "c", Ex.n 3)]),
   (Profile.Global, [(str "b", Ex.d [(str "y", Ex.n 9)]), (str "c", Ex.n 6)])]

example : Ex.data3.WF ∧ Ex.dev.isCustom = true
    ∧ Ex.data3.at Profile.Global (pathKeys (str "b.y")) = some (.leaf (Ex.n 9)) := by
  refine ⟨by decide, by decide, rfl⟩
example : Ex.data3.at Profile.Global (pathKeys (str "a")) = none
    ∧ View.blocked (Ex.data3.at Profile.Global) (pathKeys (str "a")) = false
    ∧ Ex.data3.at Ex.dev (pathKeys (str "a")) = some (.leaf (Ex.n 5)) := by
  refine ⟨rfl, rfl, rfl⟩

/-! ## C12 -/

/-- **C12**: `select` changes the selected profile only; a later `select` overrides it. -/
theorem C12_select (f : Fig) (p q : Profile) :
    (f.select p).profile = p ∧ (f.select p).value = f.value ∧ (f.select p).metadata = f.metadata ∧
    (f.select p).metadataList = f.metadataList ∧ (f.select p).profiles = f.profiles ∧
    (∀ t, (f.select p).getMetadata t = f.getMetadata t) ∧
    (f.select p).select q = f.select q :=
  ⟨rfl, rfl, rfl, rfl, rfl, fun _ => rfl, rfl⟩

/-- **C12**: selecting a profile that has no data, or `default`, or `global` (in any case), gives the
default data with the global data over it. -/
theorem C12_select_unknown (f : Fig) (m : Data) (hf : f.value = .ok m) (hm : m.WF) (p : Profile)
    (hp : (∀ q ∈ f.profiles, q.same p = false) ∨ p.same Profile.Default = true ∨ p.same Profile.Global = true) :
    ∃ v, (f.select p).merged = .ok v ∧
      ∀ path, v.view path = View.merge (m.at Profile.Default) (m.at Profile.Global) path := by
  obtain ⟨v, hv, h⟩ := C11_layering (f.select p) m hf hm
  refine ⟨v, hv, fun path => ?_⟩
  rw [h]
  split
  · rename_i hc
    have hc' : p.isCustom = true := hc
    simp only [Profile.isCustom, Bool.and_eq_true, Bool.not_eq_true'] at hc'
    rcases hp with hp | hp | hp
    · have hn : Map.get p m = none := by
        cases hg : Map.get p m with
        | none => rfl
        | some d =>
          obtain ⟨k, hk, hkp⟩ := Map.mem_of_get hg
          have hkm : k ∈ f.profiles := by
            simp only [Fig.profiles, hf, Map.keys, List.mem_map]
            exact ⟨_, hk, rfl⟩
          have := hp k hkm
          rw [Map.cmp_symm, ← Profile.same_iff, this] at hkp
          cases hkp
      have : m.at (f.select p).profile = (Value.dict Tag.Default []).view := by
        simp [Data.at, Data.dictOf, Fig.select, hn]
      rw [this, View.merge_root (Data.at_nil m _)]
    · rw [hp] at hc'; cases hc'.1
    · rw [hp] at hc'; cases hc'.2
  · rfl

/-- **C12**: selections before a later one have no effect at all. -/
theorem C12_last_select (f : Fig) (ps : List Profile) (p : Profile) :
    (ps.foldl Fig.select f).select p = f.select p := by
  induction ps generalizing f with
  | nil => rfl
  | cons q r ih => exact (ih (f.select q)).trans rfl

example : ∀ q ∈ Ex.fig1.profiles, q.same ⟨str "other"⟩ = false := by decide

/-! ## C10 -/

/-- **C10**: profiles whose names differ in ASCII case only are equal, order the same against any third,
are both custom or both not, and hold the same data. -/
theorem C10_case (p q : Profile) (h : Str.lower p.name = Str.lower q.name) :
    p.same q = true ∧ (∀ r, compare p r = compare q r ∧ compare r p = compare r q ∧ p.same r = q.same r) ∧
    p.isCustom = q.isCustom ∧ (∀ pre, p.startsWith pre = q.startsWith pre) ∧
    (∀ m : Data, Map.get p m = Map.get q m ∧ m.at p = m.at q) := by
  have hs : p.same q = true := by simp [Profile.same, Str.uncasedEq, h]
  have hc : compare p q = .eq := Profile.same_iff.1 hs
  refine ⟨hs, fun r => ⟨Map.cmp_congr_left hc, Map.cmp_congr_right hc, ?_⟩, Profile.isCustom_congr hc, ?_,
    fun m => ⟨Map.get_congr hc m, Data.at_congr hc m⟩⟩
  · simp [Profile.same, Str.uncasedEq, h]
  · intro pre; simp [Profile.startsWith, h]

/-- **C10**: data emitted under `p` is emitted under `q`: providing the same dictionaries under names
that differ in case gives, at every profile and path, the same data, including provenance. -/
theorem C10_emitted (f : Fig) (m : Data) (hf : f.value = .ok m) (hm : m.WF) (prov : Provider) (o : Order)
    (loc : Location) (tag : Tag) (p q : Profile) (h : Str.lower p.name = Str.lower q.name) (d : Dict) (hd : d.WF) :
    ∃ m₁ m₂ : Data, (f.provideWith { prov with data := .ok (p.collect d) } o loc tag).value = .ok m₁ ∧
      (f.provideWith { prov with data := .ok (q.collect d) } o loc tag).value = .ok m₂ ∧
      ∀ pr, m₁.at pr = m₂.at pr := by
  have hc : compare p q = .eq := Profile.same_iff.1 (by simp [Profile.same, Str.uncasedEq, h])
  have wf : ∀ x : Profile, Data.WF [(x, d)] := fun x =>
    ⟨List.pairwise_singleton .., by simpa using hd⟩
  refine ⟨coalesceProfiles m (Fig.retagData tag [(p, d)]) o, coalesceProfiles m (Fig.retagData tag [(q, d)]) o,
    ?_, ?_, fun pr => ?_⟩
  · simp [Fig.provideWith, hf, Fig.combine, Profile.collect, Map.insert]
  · simp [Fig.provideWith, hf, Fig.combine, Profile.collect, Map.insert]
  have hdict : Data.dictOf (Fig.retagData tag [(p, d)]) pr = Data.dictOf (Fig.retagData tag [(q, d)]) pr := by
    rw [Data.dictOf, Data.dictOf, Fig.get_retagData, Fig.get_retagData]
    simp only [Map.get, Map.cmp_congr_right hc]
  rw [Data.at, Data.at, Data.dictOf_coalesce hm (Fig.wf_retagData tag (wf p)),
    Data.dictOf_coalesce hm (Fig.wf_retagData tag (wf q)), hdict]

/-- **C10**: selecting either of two names that differ in case only gives the same data, and the same
result of every lookup. -/
theorem C10_select (f : Fig) (m : Data) (hf : f.value = .ok m) (p q : Profile)
    (h : Str.lower p.name = Str.lower q.name) :
    (f.select p).merged = (f.select q).merged ∧
    (∀ path, (f.select p).findValue path = (f.select q).findValue path) ∧
    (∀ path, (f.select p).findMetadata path = (f.select q).findMetadata path) ∧
    (∀ path, (f.select p).contains path = (f.select q).contains path) := by
  have hc : compare p q = .eq := Profile.same_iff.1 (by simp [Profile.same, Str.uncasedEq, h])
  have hm : (f.select p).merged = (f.select q).merged := by
    rw [Fig.merged_ok (f := f.select p) hf, Fig.merged_ok (f := f.select q) hf]
    simp only [Fig.select, Profile.isCustom_congr hc, Map.get_congr hc, Data.dictOf_congr hc]
    rfl
  have hv : ∀ path, (f.select p).findValue path = (f.select q).findValue path := by
    intro path; rw [Fig.findValue, hm]; rfl
  refine ⟨hm, hv, ?_, ?_⟩
  · intro path; rw [Fig.findMetadata, hv]; rfl
  · intro path; rw [Fig.contains, hm]; rfl

/-- **C10**: after any history, no two of the figment's profiles differ in case only. -/
theorem C10_profiles_distinct (ops : List Op) (c c' : BitVec 64) (g : Fig)
    (h : Fig.new.run ops c = (some g, c')) (hw : OpsWF ops) :
    g.profiles.Pairwise fun p q => Str.lower p.name ≠ Str.lower q.name := by
  rw [Fig.profiles]
  cases hv : g.value with
  | error e => exact List.Pairwise.nil
  | ok m =>
    have := (Fig.run_wf h hw m hv).1
    show List.Pairwise _ (m.map (·.1))
    rw [List.pairwise_map]
    refine this.imp ?_
    intro a b hab hl
    have : compare a.1 b.1 = .eq := Profile.same_iff.1 (by simp [Profile.same, Str.uncasedEq, hl])
    rw [this] at hab
    cases hab

example : Str.lower (str "DEbug") = Str.lower (str "deBUG") := by decide
example : OpsWF [.add ⟨.Merge, Ex.prov1, Ex.loc⟩, .select Ex.dev, .add ⟨.Join, Ex.prov2, Ex.loc⟩] := by
  intro n hn
  simp only [opData, Ex.prov1, Ex.prov2, Provider.plain, List.mem_cons, Except.ok.injEq, List.not_mem_nil,
    or_false] at hn
  rcases hn with rfl | rfl
  · exact Ex.data1_wf
  · exact Ex.data2_wf

end Figment
