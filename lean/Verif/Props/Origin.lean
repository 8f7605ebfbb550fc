import Verif.Lemmas.Made
import Verif.Props.Tag
import Verif.Model.Extract
import Verif.Spec.Examples
/-!
# C16, C17, C18, C21, C22, C61: where values and errors come from

All theorems are about every figment made in an execution (`Proc.exec`), that is by any interleaving of
any number of threads; `Step.Plain` says that providers do not make up tags.
-/
namespace Figment

/-- An execution used to show that hypotheses can be met: a figment gets data from two providers in profile
order, is focused, provided to another figment together with a failing provider. -/
def Ex.steps : List Step :=
  [.new, .obtain, .obtain, .provide 0 1 Ex.prov1 .Merge Ex.loc, .provide 1 0 Ex.prov2 .Adjoin Ex.loc,
   .focus 2 (str "b"), .obtain, .obtain, .provideFig 0 2 0 .Merge Ex.loc, .provide 4 0 Ex.provErr .Join Ex.loc]

theorem Ex.steps_plain : ∀ s ∈ Ex.steps, s.Plain := by
  intro s hs
  simp only [Ex.steps, List.mem_cons, List.not_mem_nil, or_false] at hs
  rcases hs with rfl | rfl | rfl | rfl | rfl | rfl | rfl | rfl | rfl | rfl
  all_goals try trivial
  all_goals
    refine ⟨rfl, ?_, ?_⟩
    · intro n hn; cases hn <;> decide
    · intro e he; cases he <;> exact ⟨rfl, rfl⟩

example : Ex.steps.countP Step.isObtain < 2 ^ 64 := by decide
example : (Proc.exec Ex.steps).made.length = 6 := by rfl

/-! ## C16 -/

/-- **C16**: every error yielded by the error of any extraction is that of one of the (non-figment) providers
added, and it carries that provider's metadata, with the place where it was provided, and the profile
`default`. -/
theorem C16_failure_names_provider (steps : List Step) (h : steps.countP Step.isObtain < 2 ^ 64)
    (hp : ∀ s ∈ steps, s.Plain) (x : Made) (hx : x ∈ (Proc.exec steps).made) (er : Error)
    (he : x.fig.merged = .error er) (l : List Error) (hl : Error.Yields (some er) l) :
    ∀ y ∈ l, ∃ e ∈ x.added, e.own = true ∧ (∃ er', e.data = .error er' ∧ y.what = er'.what) ∧
      y.head.tag = e.tag ∧ y.head.metadata = some e.metadata ∧ y.head.profile = some Profile.Default := by
  have hi := (Proc.exec_inv steps h hp).made x hx
  intro y hy
  rw [Error.yields_iff.1 hl] at hy
  cases hv : x.fig.value with
  | ok m => simp [Fig.merged, Fig.resolvedValue, hv] at he
  | error e0 =>
    simp only [Fig.merged, Fig.resolvedValue, hv, Except.error.injEq] at he
    subst he
    rw [Error.items_resolved] at hy
    obtain ⟨z, hz, rfl⟩ := List.mem_map.1 hy
    have hzp := Error.items_prev hz
    obtain ⟨e, hem, ho, h1, er', h2, h3⟩ := hi.errors _ hv z hz
    have hmd : Map.get e.tag x.fig.metadata = some e.metadata := (hi.metadata _ _).2 ⟨e, hem, Tag.same_refl _, rfl⟩
    have hpr : e.tag.profile = some Profile.Default := by rw [Tag.profile, (hi.names e hem).2]; rfl
    cases z with
    | cons hd p => cases hzp
    | last hd =>
      simp only [Error.head] at h1
      refine ⟨e, hem, ho, ⟨er', h2, h3⟩, h1, ?_, ?_⟩
      · simp only [Error.resolved, Error.head, Error.resolved.resolveHead, h1, hmd]
      · simp only [Error.resolved, Error.head, Error.resolved.resolveHead, h1, hpr, Option.some_or]

/-- **C16**, one call: if a provider fails with an untagged error on a figment that has data, the error seen
on any extraction is that error with the provider's metadata and the profile `default`. -/
theorem C16_provide (f g : Fig) (m : Data) (hf : f.value = .ok m) (p : Provider) (o : Order) (loc : Location)
    (c c' : BitVec 64) (h : f.provide p o loc c = (some g, c')) (e : Error) (hd : p.data = .error e)
    (ht : e.head.tag = Tag.Default) :
    ∃ e', g.merged = .error e' ∧ e'.what = e.what ∧
      e'.head.metadata = some { p.metadata with provideLocation := some loc } ∧
      e'.head.profile = some Profile.Default := by
  rw [Fig.provide] at h
  cases hn : Tag.next c with
  | mk r cc =>
    rw [hn] at h
    cases r with
    | none => simp at h
    | some t =>
      simp only [Option.map_some, Prod.mk.injEq, Option.some.injEq] at h
      obtain ⟨rfl, rfl⟩ := h
      obtain ⟨h2, _⟩ := Tag.next_some hn
      have hdef : e.head.tag.isDefault = true := by rw [ht]; decide
      have hpt : t.profile = some Profile.Default := by rw [Tag.profile, h2, Tag.profileTag_new]; rfl
      refine ⟨(e.retagged t).resolved (Fig.provideWith f p o loc t).metadata (Fig.provideWith f p o loc t).profile,
        ?_, ?_, ?_, ?_⟩
      · simp only [Fig.merged, Fig.resolvedValue]
        simp only [Fig.provideWith, hd, hf, Fig.combine]
      · rw [← Error.what_retagged t e]; cases (e.retagged t) <;> rfl
      · rw [Error.retagged, hdef, if_pos rfl]
        cases e <;> simp [Error.mapHead, Error.resolved, Error.head, Error.resolved.resolveHead, Fig.provideWith,
          Map.get_insert]
      · rw [Error.retagged, hdef, if_pos rfl]
        cases e <;> simp [Error.mapHead, Error.resolved, Error.head, Error.resolved.resolveHead, hpt]

example : ∃ x er, (Proc.exec Ex.steps).made[5]? = some x ∧ x.fig.merged = .error er ∧
    er.head.metadata.map (·.name) = some (str "bad") := ⟨_, _, rfl, rfl, rfl⟩

/-! ## C17 -/

/-- **C17**: a value which is not a dictionary, found at a path, is what some provider supplied at that path
(or the concatenation of the arrays which several did) under the default, the selected or the global
profile, and `find_metadata` at the path gives the metadata of that provider (the first of several), which
is the only one with the value's tag. -/
theorem C17_provenance (steps : List Step) (h : steps.countP Step.isObtain < 2 ^ 64)
    (hp : ∀ s ∈ steps, s.Plain) (x : Made) (hx : x ∈ (Proc.exec steps).made) (path : Str) (v : Value)
    (hv : x.fig.findValue path = .ok v) (hd : v.asDict? = none) :
    ∃ pr e, (pr = Profile.Default ∨ pr = x.fig.profile ∨ pr = Profile.Global) ∧
      Origin x.added pr (pathKeys path) e v ∧ v.tag = e.tag.forProfile pr ∧
      x.fig.findMetadata path = some e.metadata ∧ x.fig.getMetadata v.tag = some e.metadata ∧
      ∀ e' ∈ x.added, e'.tag.same v.tag = true → e'.metadata = e.metadata ∧ e'.data = e.data ∧ e'.own = true := by
  have hI := Proc.exec_inv steps h hp
  have hi := hI.made x hx
  cases hval : x.fig.value with
  | error er => simp [Fig.findValue, Fig.merged, Fig.resolvedValue, hval] at hv
  | ok m =>
    obtain ⟨w, hw, hwf, hview⟩ := Fig.merged_view hval (hi.wf m hval)
    have hvv := hv
    rw [Fig.findValue, hw] at hvv
    simp only [Value.find_eq] at hvv
    have hfound : w.getKeys (pathKeys path) = some v := by
      cases hg : w.getKeys (pathKeys path) with
      | none => rw [hg] at hvv; cases hvv
      | some u => rw [hg] at hvv; rw [Except.ok.inj hvv]
    have hleaf : w.view (pathKeys path) = some (.leaf v) := by
      rw [Value.view_eq_getKeys, hfound]
      cases v <;> first | rfl | cases hd
    have hsrc : ∃ pr : Profile, (pr = Profile.Default ∨ pr = x.fig.profile ∨ pr = Profile.Global) ∧
        m.at pr (pathKeys path) = some (.leaf v) := by
      rw [hview, Data.layered] at hleaf
      have hsplit : ∀ A B : View, View.merge A B (pathKeys path) = some (.leaf v) →
          A (pathKeys path) = some (.leaf v) ∨ B (pathKeys path) = some (.leaf v) := by
        intro A B hAB
        rw [View.merge] at hAB
        cases hB : B (pathKeys path) with
        | some s => rw [hB] at hAB; exact .inr hAB
        | none =>
          rw [hB] at hAB
          simp only at hAB
          split at hAB
          · cases hAB
          · exact .inl hAB
      split at hleaf
      · rcases hsplit _ _ hleaf with h1 | h1
        · rcases hsplit _ _ h1 with h1 | h1
          · exact ⟨_, .inl rfl, h1⟩
          · exact ⟨_, .inr (.inl rfl), h1⟩
        · exact ⟨_, .inr (.inr rfl), h1⟩
      · rcases hsplit _ _ hleaf with h1 | h1
        · exact ⟨_, .inl rfl, h1⟩
        · exact ⟨_, .inr (.inr rfl), h1⟩
    obtain ⟨pr, hpr, hat⟩ := hsrc
    obtain ⟨e, ho, htag⟩ := hi.origin m hval pr _ v hat
    obtain ⟨hem, how⟩ := ho.mem
    have hsame : e.tag.same v.tag = true := by rw [htag, Tag.same_comm]; exact Tag.same_forProfile _ _
    have hmd : Map.get v.tag x.fig.metadata = some e.metadata := (hi.metadata _ _).2 ⟨e, hem, hsame, rfl⟩
    refine ⟨pr, e, hpr, ho, htag, ?_, hmd, ?_⟩
    · rw [Fig.findMetadata, hv]; exact hmd
    · intro e' he' hs'
      have : e'.tag.same e.tag = true := by
        simp only [Tag.same, beq_iff_eq] at hs' hsame ⊢
        rw [hs', hsame]
      obtain ⟨_, q2, q3, q4⟩ := hI.agree x hx x hx e' he' e hem this
      exact ⟨q2, q3, q4.trans how⟩

example : ∃ x v, (Proc.exec Ex.steps).made[4]? = some x ∧ x.fig.findValue (str "b.y") = .ok v ∧ v.asDict? = none ∧
    (x.fig.findMetadata (str "b.y")).map (·.name) = some (str "one") := ⟨_, _, rfl, rfl, rfl, rfl⟩

/-- A value the second provider supplied, found below the focus. -/
example : ∃ x v, (Proc.exec Ex.steps).made[3]? = some x ∧ x.fig.findValue (str "z") = .ok v ∧ v.asDict? = none ∧
    (x.fig.findMetadata (str "z")).map (·.name) = some (str "two") := ⟨_, _, rfl, rfl, rfl, rfl⟩

/-! ## C18 -/

/-- **C18**: in every figment, every value at any depth of the data of a profile has a tag that tells the
profile. -/
theorem C18_every_tag (steps : List Step) (h : steps.countP Step.isObtain < 2 ^ 64)
    (hp : ∀ s ∈ steps, s.Plain) (x : Made) (hx : x ∈ (Proc.exec steps).made) (m : Data)
    (hm : x.fig.value = .ok m) (pr : Profile) (d : Dict) (hd : Map.get pr m = some d) (P : Tag → Bool)
    (hP : ∀ t, TagTells t pr → P t = true) : Value.tagsAllD P d = true := by
  have hi := (Proc.exec_inv steps h hp).made x hx
  have := hi.tags m hm pr
  rw [Data.dictOf, hd] at this
  refine Value.tagsAllD_imp (fun t ht => hP t ?_) this
  obtain ⟨e, _, _, rfl⟩ := knownTag_iff.1 ht
  exact tagTells_forProfile _ _

example : ∃ x m d, (Proc.exec Ex.steps).made[4]? = some x ∧ x.fig.value = .ok m ∧ Map.get Ex.dev m = some d ∧
    d ≠ [] := ⟨_, _, _, rfl, rfl, rfl, by decide⟩

/-! ## C21 -/

/-- **C21**: in every figment, every value at any depth in any profile carries a tag which is not the default
tag and which `get_metadata` resolves, to the metadata of a provider that was added. -/
theorem C21_known (steps : List Step) (h : steps.countP Step.isObtain < 2 ^ 64)
    (hp : ∀ s ∈ steps, s.Plain) (x : Made) (hx : x ∈ (Proc.exec steps).made) (m : Data)
    (hm : x.fig.value = .ok m) (P : Tag → Bool)
    (hP : ∀ t, t.isDefault = false → t.same Tag.Default = false →
      (∃ e ∈ x.added, e.own = true ∧ x.fig.getMetadata t = some e.metadata) → P t = true) :
    m.tagsAll P := by
  have hi := (Proc.exec_inv steps h hp).made x hx
  refine (hi.tags m hm).tagsAll (hi.wf m hm) fun pr e he ho => ?_
  have hn := Tag.named_forProfile (hi.names e he).1 pr
  have hs : (e.tag.forProfile pr).same Tag.Default = false := by simpa [Tag.named] using hn
  refine hP _ ?_ hs ⟨e, he, ho, ?_⟩
  · cases hd : (e.tag.forProfile pr).isDefault with
    | false => rfl
    | true =>
      simp only [Tag.isDefault, beq_iff_eq] at hd
      have : e.tag.forProfile pr = Tag.Default := by
        cases ht : e.tag.forProfile pr; rw [ht] at hd; simp only at hd; rw [hd]
      rw [this] at hs
      exact absurd hs (by decide)
  · exact (hi.metadata _ _).2 ⟨e, he, by rw [Tag.same_comm]; exact Tag.same_forProfile _ _, rfl⟩

/-- **C21**: everything that can be found (other than the root, which no provider supplied) has known
provenance, at any depth; in particular `find_metadata` gives metadata. -/
theorem C21_found (steps : List Step) (h : steps.countP Step.isObtain < 2 ^ 64)
    (hp : ∀ s ∈ steps, s.Plain) (x : Made) (hx : x ∈ (Proc.exec steps).made) (path : Str) (v : Value)
    (hv : x.fig.findValue path = .ok v) (hk : pathKeys path ≠ []) :
    v.tagsAll (fun t => !t.isDefault && (x.fig.getMetadata t).isSome) = true ∧
    ∃ md, x.fig.findMetadata path = some md := by
  have hi := (Proc.exec_inv steps h hp).made x hx
  cases hval : x.fig.value with
  | error er => simp [Fig.findValue, Fig.merged, Fig.resolvedValue, hval] at hv
  | ok m =>
    have hall := C21_known steps h hp x hx m hval (fun t => !t.isDefault && (x.fig.getMetadata t).isSome) (by
      rintro t h1 _ ⟨e, _, _, h2⟩; simp [h1, h2])
    have hwf := hi.wf m hval
    have hvv := hv
    rw [Fig.findValue, Fig.merged_ok hval] at hvv
    simp only [Value.find_eq] at hvv
    have hD := Data.tagsAll_dictOf hall Profile.Default
    have hG := Data.tagsAll_dictOf hall Profile.Global
    have hS := Data.tagsAll_dictOf hall x.fig.profile
    have wD := hwf.dictOf Profile.Default
    have wG := hwf.dictOf Profile.Global
    have wS := hwf.dictOf x.fig.profile
    have key : ∀ d : Dict, Value.tagsAllD (fun t => !t.isDefault && (x.fig.getMetadata t).isSome) d = true →
        (Value.dict Tag.Default d).getKeys (pathKeys path) = some v →
        v.tagsAll (fun t => !t.isDefault && (x.fig.getMetadata t).isSome) = true := by
      intro d hd hg
      cases hks : pathKeys path with
      | nil => exact absurd hks hk
      | cons k ks =>
        rw [hks, Value.getKeys_dict_cons] at hg
        cases hgk : Map.get k d with
        | none => rw [hgk] at hg; cases hg
        | some w =>
          rw [hgk] at hg
          exact Value.tagsAll_getKeys (Value.tagsAll_of_get (Value.tagsAllD_iff.1 hd) hgk) hg
    have hfin : v.tagsAll (fun t => !t.isDefault && (x.fig.getMetadata t).isSome) = true := by
      revert hvv
      generalize hdd : (if x.fig.profile.isCustom then _ else _ : Dict) = dd
      intro hvv
      refine key dd ?_ ?_
      · rw [← hdd]
        split
        · split
          · exact Dict.tagsAll_coalesce _ (Dict.wf_coalesce _ wD wS) wG (Dict.tagsAll_coalesce _ wD wS hD hS) hG
          · exact Dict.tagsAll_coalesce _ wD wG hD hG
        · exact Dict.tagsAll_coalesce _ wD wG hD hG
      · cases hg : (Value.dict Tag.Default dd).getKeys (pathKeys path) with
        | none => rw [hg] at hvv; cases hvv
        | some u => rw [hg] at hvv; rw [Except.ok.inj hvv]
    refine ⟨hfin, ?_⟩
    have ht := Value.tagsAll_tag hfin
    simp only [Bool.and_eq_true] at ht
    obtain ⟨md, hmd⟩ := Option.isSome_iff_exists.1 ht.2
    exact ⟨md, by rw [Fig.findMetadata, hv]; exact hmd⟩

example : ∃ x v, (Proc.exec Ex.steps).made[4]? = some x ∧ x.fig.findValue (str "b") = .ok v ∧
    pathKeys (str "b") ≠ [] := ⟨_, _, rfl, rfl, by decide⟩

/-! ## C22 -/

/-- **C22**: providing a figment `y` to a figment `x`: the data is combined value by value, tags and all; an
error is passed on; the selected profile is passed on as that of any provider; whatever tag either figment
resolves, the result resolves to the same metadata. -/
theorem C22_figment_provider (steps : List Step) (h : steps.countP Step.isObtain < 2 ^ 64)
    (hp : ∀ s ∈ steps, s.Plain) (x y : Made) (hx : x ∈ (Proc.exec steps).made) (hy : y ∈ (Proc.exec steps).made)
    (t : Tag) (ht : t ∈ (Proc.exec steps).pending) (o : Order) (loc : Location) (g : Fig)
    (hg : g = x.fig.provideWith y.fig.toProvider o loc t) :
    (∀ m n, x.fig.value = .ok m → y.fig.value = .ok n →
      ∃ r : Data, g.value = .ok r ∧ ∀ pr p, r.at pr p = View.coalesce o (m.at pr) (n.at pr) p) ∧
    (∀ m e, x.fig.value = .ok m → y.fig.value = .error e → g.value = .error e) ∧
    (∀ e n, x.fig.value = .error e → y.fig.value = .ok n → g.value = .error e) ∧
    (∀ e e', x.fig.value = .error e → y.fig.value = .error e' → g.value = .error (e'.chain e)) ∧
    (g.profile = match o with
      | .Join | .Adjoin => x.fig.profile
      | .Merge | .Admerge => y.fig.profile) ∧
    (∀ tag md, y.fig.getMetadata tag = some md → g.getMetadata tag = some md) ∧
    (∀ tag md, x.fig.getMetadata tag = some md → g.getMetadata tag = some md) := by
  have hI := Proc.exec_inv steps h hp
  have hix := hI.made x hx
  have hiy := hI.made y hy
  subst hg
  have hret : ∀ e, y.fig.value = .error e → e.retagged t = e := by
    intro e he; rw [Error.retagged, hiy.not_default he]; rfl
  have hget : ∀ tag md, y.fig.getMetadata tag = some md ∨ x.fig.getMetadata tag = some md →
      (x.fig.provideWith y.fig.toProvider o loc t).getMetadata tag = some md := by
    intro tag md hor
    have hne : compare tag t ≠ .eq := by
      intro hc
      have hs := Tag.compare_eq_iff_same.1 hc
      have aux : ∀ z ∈ (Proc.exec steps).made, z.fig.getMetadata tag = some md → False := by
        intro z hz hzm
        obtain ⟨e, he, h1, _⟩ := ((hI.made z hz).metadata _ _).1 hzm
        have h2 := hI.pending_fresh t ht z hz e he
        simp only [Tag.same, beq_iff_eq, beq_eq_false_iff_ne] at hs h1 h2
        exact h2 (h1.trans hs)
      rcases hor with h1 | h1
      · exact aux y hy h1
      · exact aux x hx h1
    simp only [Fig.getMetadata, Fig.provideWith, Fig.toProvider, Map.get_insert, Map.get_extend_sorted _ _ hiy.sorted,
      if_neg hne]
    cases hgy : Map.get tag y.fig.metadata with
    | some w =>
      rcases hor with h1 | h1
      · rw [Fig.getMetadata, hgy] at h1; rw [← h1]; rfl
      · obtain ⟨e, he, h2, h3⟩ := (hix.metadata _ _).1 h1
        obtain ⟨e', he', h2', h3'⟩ := (hiy.metadata _ _).1 hgy
        have hs : e.tag.same e'.tag = true := by
          simp only [Tag.same, beq_iff_eq] at h2 h2' ⊢; exact h2.trans h2'.symm
        rw [← h3, (hI.agree x hx y hy e he e' he' hs).2.1, h3']; rfl
    | none =>
      rcases hor with h1 | h1
      · rw [Fig.getMetadata, hgy] at h1; cases h1
      · rw [Option.none_or]; exact h1
  refine ⟨?_, ?_, ?_, ?_, ?_, fun tag md hh => hget tag md (.inl hh), fun tag md hh => hget tag md (.inr hh)⟩
  · intro m n hm hn
    refine ⟨coalesceProfiles m n o, ?_, fun pr p => Data.at_coalesce (hix.wf m hm) (hiy.wf n hn) o pr p⟩
    simp only [Fig.provideWith, Fig.toProvider, hm, hn, Fig.combine, Fig.retagData_named t (hiy.named_all hn)]
  · intro m e hm he
    simp only [Fig.provideWith, Fig.toProvider, hm, he, Fig.combine, hret e he]
  · intro e n he hn
    simp only [Fig.provideWith, Fig.toProvider, he, hn, Fig.combine]
  · intro e e' he he'
    simp only [Fig.provideWith, Fig.toProvider, he, he', Fig.combine, hret e' he']
  · cases o <;> rfl

theorem Error.resolved_congr {a b : Map Tag Metadata} {pr : Profile} (e : Error)
    (h : ∀ y ∈ e.items, Map.get y.head.tag a = Map.get y.head.tag b) : e.resolved a pr = e.resolved b pr := by
  induction e with
  | last hd =>
    have := h (.last hd) (by simp [Error.items])
    simp only [Error.head] at this
    simp only [Error.resolved, Error.resolved.resolveHead, this]
  | cons hd p ih =>
    have h1 := h (.last hd) (by simp [Error.items])
    simp only [Error.head] at h1
    have h2 := ih fun y hy => h y (by simp [Error.items, hy])
    simp only [Error.resolved, Error.resolved.resolveHead, h1, h2]

/-- **C22**: `Figment::from(y)` has the same data or error, the same selected profile and the same answers to
all lookups as `y`. (`C22_from_extract` has typed extraction.) -/
theorem C22_from (steps : List Step) (h : steps.countP Step.isObtain < 2 ^ 64)
    (hp : ∀ s ∈ steps, s.Plain) (y : Made) (hy : y ∈ (Proc.exec steps).made)
    (t : Tag) (ht : t ∈ (Proc.exec steps).pending) (loc : Location) (g : Fig)
    (hg : g = Fig.new.provideWith y.fig.toProvider .Merge loc t) :
    g.value = y.fig.value ∧ g.profile = y.fig.profile ∧ g.merged = y.fig.merged ∧
    (∀ path, g.findValue path = y.fig.findValue path ∧ g.contains path = y.fig.contains path) ∧
    (∀ path, g.findMetadata path = y.fig.findMetadata path) ∧
    (∀ tag md, y.fig.getMetadata tag = some md → g.getMetadata tag = some md) ∧
    g.profiles = y.fig.profiles := by
  have hI := Proc.exec_inv steps h hp
  have hiy := hI.made y hy
  have hvalue : g.value = y.fig.value := by
    subst hg
    cases hv : y.fig.value with
    | error e =>
      simp only [Fig.provideWith, Fig.toProvider, hv, Fig.new, Fig.combine, Error.retagged, hiy.not_default hv]
      rfl
    | ok n =>
      simp only [Fig.provideWith, Fig.toProvider, hv, Fig.new, Fig.combine, Fig.retagData_named t (hiy.named_all hv)]
      exact congrArg _ (Map.coalesce_nil_left _ (hiy.wf n hv).1)
  have hprofile : g.profile = y.fig.profile := by subst hg; rfl
  have hmeta : ∀ tag, tag.same t = false → Map.get tag g.metadata = Map.get tag y.fig.metadata := by
    intro tag hs
    have hne : compare tag t ≠ .eq := fun hc => by rw [Tag.compare_eq_iff_same.1 hc] at hs; cases hs
    subst hg
    simp only [Fig.provideWith, Fig.toProvider, Fig.new, Map.get_insert, Map.get_extend_sorted _ _ hiy.sorted,
      if_neg hne]
    cases Map.get tag y.fig.metadata <;> rfl
  have hmerged : g.merged = y.fig.merged := by
    have hr : g.resolvedValue = y.fig.resolvedValue := by
      rw [Fig.resolvedValue, Fig.resolvedValue, hvalue, hprofile]
      cases hv : y.fig.value with
      | ok m => rfl
      | error e =>
        simp only
        rw [Error.resolved_congr e]
        intro z hz
        obtain ⟨en, hen, _, h1, _⟩ := hiy.errors e hv z hz
        rw [h1]
        exact hmeta _ (hI.pending_fresh t ht y hy en hen)
    rw [Fig.merged, Fig.merged, hr, hprofile]
  have hfv : ∀ path, g.findValue path = y.fig.findValue path := by
    intro path; rw [Fig.findValue, Fig.findValue, hmerged]
  refine ⟨hvalue, hprofile, hmerged, fun path => ⟨hfv path, by rw [Fig.contains, Fig.contains, hmerged]⟩, ?_, ?_, ?_⟩
  · intro path
    rw [Fig.findMetadata, Fig.findMetadata, hfv]
    cases hv : y.fig.findValue path with
    | error e => rfl
    | ok v =>
      refine hmeta _ ?_
      by_cases hk : pathKeys path = []
      · have hvv := hv
        rw [Fig.findValue] at hvv
        have htd : v.tag = Tag.Default := by
          cases hval : y.fig.value with
          | error e => simp [Fig.merged, Fig.resolvedValue, hval] at hvv
          | ok m =>
            rw [Fig.merged_ok hval] at hvv
            simp only [Value.find_eq, hk, Value.getKeys_nil] at hvv
            rw [← Except.ok.inj hvv]; rfl
        have hn := ((Proc.exec_tags steps h).names t (hI.pending_obtained t ht)).1
        rw [htd, Tag.same_comm]; simpa [Tag.named] using hn
      have hfin := Value.tagsAll_tag (C21_found steps h hp y hy path v hv hk).1
      simp only [Bool.and_eq_true] at hfin
      obtain ⟨md, hmd⟩ := Option.isSome_iff_exists.1 hfin.2
      obtain ⟨e, he, h1, _⟩ := (hiy.metadata _ _).1 hmd
      have h2 := hI.pending_fresh t ht y hy e he
      simp only [Tag.same, beq_iff_eq, beq_eq_false_iff_ne] at h1 h2 ⊢
      rw [← h1]; exact h2
  · intro tag md hmd
    rw [Fig.getMetadata, hmeta tag]
    · exact hmd
    · obtain ⟨e, he, h1, _⟩ := (hiy.metadata _ _).1 hmd
      have h2 := hI.pending_fresh t ht y hy e he
      simp only [Tag.same, beq_iff_eq, beq_eq_false_iff_ne] at h1 h2 ⊢
      rw [← h1]; exact h2
  · rw [Fig.profiles, Fig.profiles, hvalue]

/-- `made[5]` (which failed) and `made[2]` with a tag that another call has obtained meanwhile. -/
example : ∃ x y t, (Proc.exec (Ex.steps ++ [.obtain])).made[5]? = some x ∧
    (Proc.exec (Ex.steps ++ [.obtain])).made[2]? = some y ∧ t ∈ (Proc.exec (Ex.steps ++ [.obtain])).pending :=
  ⟨_, _, _, rfl, rfl, List.mem_singleton.2 rfl⟩

/-! ## C61 -/

theorem List.sublist_of_ids {a b : List Tag} (ha : a.Pairwise fun x y => x.metadataId.toNat < y.metadataId.toNat)
    (hb : b.Pairwise fun x y => x.metadataId.toNat < y.metadataId.toNat) (h : ∀ x ∈ a, x ∈ b) : a.Sublist b := by
  induction b generalizing a with
  | nil =>
    cases a with
    | nil => exact List.Sublist.refl _
    | cons x a => cases h x (by simp)
  | cons y b ih =>
    cases a with
    | nil => exact List.nil_sublist _
    | cons x a =>
      rw [List.pairwise_cons] at ha hb
      by_cases hxy : x = y
      · subst hxy
        refine List.Sublist.cons_cons _ (ih ha.2 hb.2 fun z hz => ?_)
        rcases List.mem_cons.1 (h z (List.mem_cons_of_mem _ hz)) with rfl | h1
        · exact absurd (ha.1 _ hz) (by omega)
        · exact h1
      · refine List.Sublist.cons _ (ih (List.pairwise_cons.2 ha) hb.2 fun z hz => ?_)
        rcases List.mem_cons.1 (h z hz) with rfl | h1
        · rcases List.mem_cons.1 hz with h2 | h2
          · exact absurd h2.symm hxy
          · have h3 := ha.1 _ h2
            rcases List.mem_cons.1 (h x (by simp)) with h4 | h4
            · exact absurd h4 hxy
            · have := hb.1 _ h4; omega
        · exact h1

theorem Made.exists_entries {added : List Entry} : ∀ (l : List (Tag × Metadata)),
    (∀ p ∈ l, ∃ e ∈ added, e.tag.same p.1 = true ∧ e.metadata = p.2) →
    ∃ es : List Entry, l.map (·.2) = es.map (·.metadata) ∧ (∀ e ∈ es, e ∈ added) ∧
      es.map (fun e => e.tag.metadataId) = l.map fun p => p.1.metadataId
  | [], _ => ⟨[], rfl, by simp, rfl⟩
  | p :: l, h => by
    obtain ⟨e, he, h1, h2⟩ := h p (by simp)
    obtain ⟨es, h3, h4, h5⟩ := Made.exists_entries l fun q hq => h q (by simp [hq])
    refine ⟨e :: es, by simp [h2, h3], ?_, ?_⟩
    · intro z hz
      rcases List.mem_cons.1 hz with rfl | hz
      · exact he
      · exact h4 z hz
    · simp only [Tag.same, beq_iff_eq] at h1
      simp [h1, h5]

/-- **C61**: `metadata()` yields the metadata of each provider added, directly or through a figment, once, in
the order in which the calls of `provide` obtained their tags anywhere in the process. -/
theorem C61_metadata_order (steps : List Step) (h : steps.countP Step.isObtain < 2 ^ 64)
    (hp : ∀ s ∈ steps, s.Plain) (x : Made) (hx : x ∈ (Proc.exec steps).made) :
    ∃ es : List Entry, x.fig.metadataList = es.map (·.metadata) ∧
      (∀ e ∈ es, e ∈ x.added) ∧
      (∀ e ∈ x.added, ∃ e' ∈ es, e'.tag = e.tag ∧ e'.metadata = e.metadata) ∧
      (es.map (·.tag)).Sublist (Proc.exec steps).obtained := by
  have hI := Proc.exec_inv steps h hp
  have hi := hI.made x hx
  obtain ⟨es, h1, h2, h3⟩ := Made.exists_entries x.fig.metadata fun p hp =>
    (hi.metadata p.1 p.2).1 (Map.get_eq_some_of_mem hi.sorted hp)
  refine ⟨es, h1, h2, ?_, ?_⟩
  · intro e he
    have hg := (hi.metadata e.tag e.metadata).2 ⟨e, he, Tag.same_refl _, rfl⟩
    obtain ⟨k, hk, hc⟩ := Map.mem_of_get hg
    have : k.metadataId ∈ es.map fun e => e.tag.metadataId := by
      rw [h3]; exact List.mem_map.2 ⟨_, hk, rfl⟩
    obtain ⟨e', he', hid⟩ := List.mem_map.1 this
    have hs : e'.tag.same e.tag = true := by
      have := Tag.compare_eq_iff.1 hc
      simp only [Tag.same, beq_iff_eq]; rw [hid]; first | exact this | exact this.symm
    obtain ⟨q1, q2, _⟩ := hI.agree x hx x hx e' (h2 e' he') e he hs
    exact ⟨e', he', q1, q2⟩
  · refine List.sublist_of_ids ?_ ?_ ?_
    · have hs : (x.fig.metadata.map fun p => p.1.metadataId).Pairwise fun a b => a.toNat < b.toNat := by
        rw [List.pairwise_map]
        exact hi.sorted.imp fun hab => Tag.compare_lt_iff.1 hab
      rw [← h3, List.pairwise_map] at hs
      rw [List.pairwise_map]
      exact hs
    · exact (C19_tags_unique steps h).1.imp fun hab => Tag.compare_lt_iff.1 hab.1
    · intro t ht
      obtain ⟨e, he, rfl⟩ := List.mem_map.1 ht
      exact hI.given x hx e (h2 e he)

/-- The provider `two`, which obtained its tag first, is listed first, although added later. -/
example : ∃ x, (Proc.exec Ex.steps).made[5]? = some x ∧
    x.fig.metadataList.map (·.name) = [str "two", str "one", Metadata.Default.name, str "bad"] := ⟨_, rfl, rfl⟩

end Figment
