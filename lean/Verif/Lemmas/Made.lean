import Verif.Lemmas.Origin
/-! # Invariants of executions: every figment made -/
namespace Figment

/-- What holds of every figment made in an execution. -/
structure Made.Inv (x : Made) : Prop where
  wf : ∀ m, x.fig.value = .ok m → m.WF
  tags : ∀ m, x.fig.value = .ok m → m.TagsKnown x.added
  origin : ∀ m, x.fig.value = .ok m → m.Originated x.added
  sorted : Map.Sorted x.fig.metadata
  metadata : ∀ t md, Map.get t x.fig.metadata = some md ↔ ∃ e ∈ x.added, e.tag.same t = true ∧ e.metadata = md
  errors : ∀ er, x.fig.value = .error er → ∀ h ∈ er.items, ∃ e ∈ x.added, e.own = true ∧ h.head.tag = e.tag ∧
    ∃ er', e.data = .error er' ∧ h.what = er'.what
  names : ∀ e ∈ x.added, e.tag.named = true ∧ e.tag.profileTag = .Default

namespace Made.Inv

theorem new : Made.Inv ⟨Fig.new, []⟩ where
  wf := by intro m hm; cases hm; exact Data.wf_nil
  tags := by intro m hm; cases hm; intro pr; rfl
  origin := by
    intro m hm; cases hm; intro pr path v h
    cases path with
    | nil => rw [Data.at_nil] at h; cases h
    | cons k ks => simp [Data.at, Data.dictOf, Value.view] at h
  sorted := Map.Sorted.nil
  metadata := by intro t md; simp [Fig.new]
  errors := by intro er h; cases h
  names := by intro e he; cases he

theorem select {x : Made} (h : x.Inv) (p : Profile) : Made.Inv ⟨x.fig.select p, x.added⟩ :=
  ⟨h.wf, h.tags, h.origin, h.sorted, h.metadata, h.errors, h.names⟩

theorem focus {x : Made} (h : x.Inv) (key : Str) :
    Made.Inv ⟨x.fig.focus key, x.added.map (Entry.below (pathKeys key))⟩ := by
  have hok : ∀ m, (x.fig.focus key).value = .ok m → ∃ m0, x.fig.value = .ok m0 ∧ m = m0.focus key := by
    intro m hm
    cases hv : x.fig.value with
    | error e => simp [Fig.focus, Fig.resolvedValue, hv] at hm
    | ok m0 =>
      rw [Fig.focus_value_ok hv (h.wf _ hv)] at hm
      exact ⟨m0, rfl, (Except.ok.inj hm).symm⟩
  refine ⟨?_, ?_, ?_, h.sorted, ?_, ?_, ?_⟩
  · intro m hm
    obtain ⟨m0, h0, rfl⟩ := hok m hm
    exact Data.wf_focus (h.wf _ h0) key
  · intro m hm
    obtain ⟨m0, h0, rfl⟩ := hok m hm
    have h1 := (h.tags _ h0).focus (h.wf _ h0) key
    intro pr
    refine Value.tagsAllD_imp (fun t ht => ?_) (h1 pr)
    obtain ⟨e, he, ho, rfl⟩ := knownTag_iff.1 ht
    exact knownTag_iff.2 ⟨_, List.mem_map_of_mem he, ho, rfl⟩
  · intro m hm
    obtain ⟨m0, h0, rfl⟩ := hok m hm
    exact (h.origin _ h0).focus (h.wf _ h0) key
  · intro t md
    refine (h.metadata t md).trans ⟨?_, ?_⟩
    · rintro ⟨e, he, h1, h2⟩
      exact ⟨_, List.mem_map_of_mem he, h1, h2⟩
    · rintro ⟨e, he, h1, h2⟩
      obtain ⟨e0, he0, rfl⟩ := List.mem_map.1 he
      exact ⟨e0, he0, h1, h2⟩
  · intro er hm y hy
    cases hv : x.fig.value with
    | ok m0 => simp [Fig.focus, Fig.resolvedValue, hv] at hm
    | error e0 =>
      simp only [Fig.focus, Fig.resolvedValue, hv, Except.error.injEq] at hm
      subst hm
      rw [Error.items_resolved] at hy
      obtain ⟨z, hz, rfl⟩ := List.mem_map.1 hy
      obtain ⟨e, he, ho, h1, er', h2, h3⟩ := h.errors _ hv z hz
      refine ⟨_, List.mem_map_of_mem he, ho, ?_, er', h2, ?_⟩
      · cases z <;> exact h1
      · rw [← h3]; cases z <;> rfl
  · intro e he
    obtain ⟨e0, he0, rfl⟩ := List.mem_map.1 he
    exact h.names e0 he0

theorem not_default {x : Made} (h : x.Inv) {er : Error} (her : x.fig.value = .error er) :
    er.head.tag.isDefault = false := by
  have : Error.last er.head ∈ er.items := by cases er <;> simp [Error.items, Error.head]
  obtain ⟨e, he, _, h1, _⟩ := h.errors _ her _ this
  have h2 := (h.names e he).1
  rw [← h1] at h2
  cases hd : er.head.tag.isDefault with
  | false => rfl
  | true =>
    have h3 : er.head.tag = Tag.Default := by
      simp only [Tag.isDefault, beq_iff_eq] at hd
      cases ht : er.head.tag; rw [ht] at hd; simp only at hd; rw [hd]
    have h4 : Tag.named Tag.Default = true := by rw [← h3]; exact h2
    exact absurd h4 (by decide)

/-- Data without tags, or with tags known elsewhere, is combined. -/
theorem combine_ok {x : Made} (h : x.Inv) {added : List Entry} (hx : ∀ e ∈ x.added, e ∈ added)
    {m n : Data} (hm : x.fig.value = .ok m) (hn : n.WF) (ht : n.TagsKnown added) (ho : n.Originated added)
    (o : Order) :
    Data.WF (coalesceProfiles m n o) ∧ Data.TagsKnown (coalesceProfiles m n o) added ∧
      Data.Originated (coalesceProfiles m n o) added :=
  ⟨Data.wf_coalesce (h.wf _ hm) hn o, ((h.tags _ hm).mono hx).coalesce (h.wf _ hm) hn ht o,
    ((h.origin _ hm).mono hx).coalesce (h.wf _ hm) hn ho o⟩

theorem provide {x : Made} (h : x.Inv) (p : Provider) (o : Order) (loc : Location) (t : Tag)
    (hp : Step.Plain (.provide 0 0 p o loc)) (ht : t.named = true ∧ t.profileTag = .Default)
    (hfresh : ∀ e ∈ x.added, e.tag.same t = false) :
    Made.Inv ⟨x.fig.provideWith p o loc t,
      x.added ++ [⟨t, { p.metadata with provideLocation := some loc }, p.data, true, []⟩]⟩ := by
  obtain ⟨hmap, hdata, herr⟩ := hp
  obtain ⟨ne, hne⟩ : ∃ ne : Entry, ne = ⟨t, { p.metadata with provideLocation := some loc }, p.data, true, []⟩ := ⟨_, rfl⟩
  rw [← hne]
  have hsub : ∀ e ∈ x.added, e ∈ x.added ++ [ne] :=
    fun e he => List.mem_append_left _ he
  have hmem : ne ∈
      x.added ++ [ne] :=
    List.mem_append_right _ (List.mem_singleton.2 rfl)
  have hok : ∀ m', (x.fig.provideWith p o loc t).value = .ok m' → ∃ m n, x.fig.value = .ok m ∧ p.data = .ok n ∧
      m' = coalesceProfiles m (Fig.retagData t n) o := by
    intro m' hm'
    simp only [Fig.provideWith] at hm'
    cases hd : p.data <;> cases hv : x.fig.value <;> simp only [hd, hv, Fig.combine, reduceCtorEq] at hm'
    exact ⟨_, _, rfl, rfl, (Except.ok.inj hm').symm⟩
  have hall : ∀ m' : Data, (x.fig.provideWith p o loc t).value = .ok m' → m'.WF ∧
      m'.TagsKnown (x.added ++ [ne]) ∧
      m'.Originated (x.added ++ [ne]) := by
    intro m' hm'
    obtain ⟨m, n, h1, h2, rfl⟩ := hok m' hm'
    exact h.combine_ok hsub h1 (Fig.wf_retagData t (hdata n h2).1)
      (Data.tagsKnown_retag (hdata n h2).2 hmem (by rw [hne]) (by rw [hne]))
      (Data.originated_retag (hdata n h2).2 hmem (by rw [hne]) (by rw [hne]) (by rw [hne]; exact h2) (by rw [hne])) o
  refine ⟨fun m' hm' => (hall m' hm').1, fun m' hm' => (hall m' hm').2.1, fun m' hm' => (hall m' hm').2.2, ?_, ?_, ?_, ?_⟩
  · simp only [Fig.provideWith, hmap]
    exact h.sorted.insert _ _
  · intro t' md
    simp only [Fig.provideWith, hmap, Map.get_insert]
    split
    · rename_i hc
      have hs := Tag.compare_eq_iff_same.1 (Map.cmp_symm.1 hc)
      constructor
      · intro hh
        exact ⟨_, hmem, by rw [hne]; exact hs, by rw [hne]; exact Option.some.inj hh⟩
      · rintro ⟨e, he, h1, h2⟩
        rcases List.mem_append.1 he with he | he
        · have := hfresh e he
          exfalso
          simp only [Tag.same, beq_iff_eq, beq_eq_false_iff_ne] at h1 hs this
          exact this (h1.trans hs.symm)
        · rw [List.mem_singleton.1 he, hne] at h2
          rw [← h2]
    · rename_i hc
      refine (h.metadata t' md).trans ⟨fun ⟨e, he, hh⟩ => ⟨e, hsub e he, hh⟩, ?_⟩
      rintro ⟨e, he, h1, h2⟩
      rcases List.mem_append.1 he with he | he
      · exact ⟨e, he, h1, h2⟩
      · rw [List.mem_singleton.1 he, hne] at h1
        exact absurd (Map.cmp_symm.1 (Tag.compare_eq_iff_same.2 h1)) hc
  · intro er her y hy
    simp only [Fig.provideWith] at her
    cases hd : p.data with
    | ok n =>
      cases hv : x.fig.value with
      | ok m => simp [hd, hv, Fig.combine] at her
      | error e0 =>
        simp only [hd, hv, Fig.combine, Except.error.injEq] at her
        subst her
        obtain ⟨e, he, hh⟩ := h.errors _ hv y hy
        exact ⟨e, hsub e he, hh⟩
    | error e1 =>
      obtain ⟨hp1, ht1⟩ := herr e1 hd
      have hnew : ∀ y ∈ (e1.retagged t).items, ∃ e ∈ x.added ++ [ne],
          e.own = true ∧ y.head.tag = e.tag ∧ ∃ er', e.data = .error er' ∧ y.what = er'.what := by
        intro y hy
        rw [Error.items_of_prev_none (by rw [Error.prev_retagged, hp1]), List.mem_singleton] at hy
        subst hy
        refine ⟨_, hmem, by rw [hne], ?_, e1, by rw [hne]; exact hd, Error.what_retagged t e1⟩
        have : e1.head.tag.isDefault = true := by rw [ht1]; decide
        rw [Error.retagged, this, if_pos rfl, Error.head_mapHead, hne]
      cases hv : x.fig.value with
      | ok m =>
        simp only [hd, hv, Fig.combine, Except.error.injEq] at her
        subst her
        exact hnew y hy
      | error e0 =>
        simp only [hd, hv, Fig.combine, Except.error.injEq] at her
        subst her
        rw [Error.chain, Error.items_setPrev_some] at hy
        rcases List.mem_cons.1 hy with rfl | hy
        · have : Error.last e0.head ∈ e0.items := by cases e0 <;> simp [Error.items, Error.head]
          obtain ⟨e, he, hh⟩ := h.errors _ hv _ this
          exact ⟨e, hsub e he, hh⟩
        · exact hnew y hy
  · intro e he
    rcases List.mem_append.1 he with he | he
    · exact h.names e he
    · rw [List.mem_singleton.1 he, hne]; exact ht

theorem named_all {y : Made} (hy : y.Inv) {n : Data} (hn : y.fig.value = .ok n) : n.tagsAll Tag.named :=
  (hy.tags n hn).tagsAll (hy.wf n hn) fun pr e he _ => Tag.named_forProfile (hy.names e he).1 pr

theorem provideFig {x y : Made} (h : x.Inv) (hy : y.Inv) (o : Order) (loc : Location) (t : Tag)
    (ht : t.named = true ∧ t.profileTag = .Default)
    (hfresh : ∀ e ∈ x.added ++ y.added, e.tag.same t = false)
    (hagree : ∀ e ∈ x.added, ∀ e' ∈ y.added, e.tag.same e'.tag = true → e.metadata = e'.metadata) :
    Made.Inv ⟨x.fig.provideWith y.fig.toProvider o loc t, x.added ++ y.added ++
      [⟨t, { Metadata.Default with provideLocation := some loc }, y.fig.value, false, []⟩]⟩ := by
  obtain ⟨ne, hne⟩ : ∃ ne : Entry, ne = ⟨t, { Metadata.Default with provideLocation := some loc }, y.fig.value, false, []⟩ := ⟨_, rfl⟩
  rw [← hne]
  have hsub : ∀ e ∈ x.added, e ∈ x.added ++ y.added ++ [ne] :=
    fun e he => List.mem_append_left _ (List.mem_append_left _ he)
  have hsub' : ∀ e ∈ y.added, e ∈ x.added ++ y.added ++ [ne] :=
    fun e he => List.mem_append_left _ (List.mem_append_right _ he)
  have hmem : ne ∈ x.added ++ y.added ++ [ne] := List.mem_append_right _ (List.mem_singleton.2 rfl)
  have hok : ∀ m', (x.fig.provideWith y.fig.toProvider o loc t).value = .ok m' →
      ∃ m n, x.fig.value = .ok m ∧ y.fig.value = .ok n ∧ m' = coalesceProfiles m n o := by
    intro m' hm'
    simp only [Fig.provideWith, Fig.toProvider] at hm'
    cases hd : y.fig.value <;> cases hv : x.fig.value <;> simp only [hd, hv, Fig.combine, reduceCtorEq] at hm'
    rw [Fig.retagData_named t (named_all hy hd)] at hm'
    exact ⟨_, _, rfl, rfl, (Except.ok.inj hm').symm⟩
  have hall : ∀ m' : Data, (x.fig.provideWith y.fig.toProvider o loc t).value = .ok m' → m'.WF ∧
      m'.TagsKnown (x.added ++ y.added ++ [ne]) ∧ m'.Originated (x.added ++ y.added ++ [ne]) := by
    intro m' hm'
    obtain ⟨m, n, h1, h2, rfl⟩ := hok m' hm'
    exact h.combine_ok hsub h1 (hy.wf n h2) ((hy.tags n h2).mono hsub') ((hy.origin n h2).mono hsub') o
  refine ⟨fun m' hm' => (hall m' hm').1, fun m' hm' => (hall m' hm').2.1, fun m' hm' => (hall m' hm').2.2, ?_, ?_, ?_, ?_⟩
  · simp only [Fig.provideWith, Fig.toProvider]
    exact (h.sorted.extend _).insert _ _
  · intro t' md
    simp only [Fig.provideWith, Fig.toProvider, Map.get_insert, Map.get_extend_sorted _ _ hy.sorted]
    split
    · rename_i hc
      have hs := Tag.compare_eq_iff_same.1 (Map.cmp_symm.1 hc)
      constructor
      · intro hh
        exact ⟨_, hmem, by rw [hne]; exact hs, by rw [hne]; exact Option.some.inj hh⟩
      · rintro ⟨e, he, h1, h2⟩
        rcases List.mem_append.1 he with he | he
        · have := hfresh e he
          exfalso
          simp only [Tag.same, beq_iff_eq, beq_eq_false_iff_ne] at h1 hs this
          exact this (h1.trans hs.symm)
        · rw [List.mem_singleton.1 he, hne] at h2
          rw [← h2]
    · rename_i hc
      constructor
      · intro hh
        cases hg : Map.get t' y.fig.metadata with
        | some w =>
          rw [hg] at hh
          simp only [Option.some_or, Option.some.injEq] at hh
          subst hh
          obtain ⟨e, he, hh⟩ := (hy.metadata t' w).1 hg
          exact ⟨e, hsub' e he, hh⟩
        | none =>
          rw [hg, Option.none_or] at hh
          obtain ⟨e, he, hh⟩ := (h.metadata t' md).1 hh
          exact ⟨e, hsub e he, hh⟩
      · rintro ⟨e, he, h1, h2⟩
        rcases List.mem_append.1 he with he | he
        · rcases List.mem_append.1 he with he | he
          · have hx := (h.metadata t' md).2 ⟨e, he, h1, h2⟩
            cases hg : Map.get t' y.fig.metadata with
            | none => rw [hx]; rfl
            | some w =>
              obtain ⟨e', he', h1', h2'⟩ := (hy.metadata t' w).1 hg
              have : e.tag.same e'.tag = true := by
                simp only [Tag.same, beq_iff_eq] at h1 h1' ⊢
                exact h1.trans h1'.symm
              rw [Option.some_or, ← h2', ← hagree e he e' he' this, h2]
          · rw [(hy.metadata t' md).2 ⟨e, he, h1, h2⟩]; rfl
        · rw [List.mem_singleton.1 he, hne] at h1
          exact absurd (Map.cmp_symm.1 (Tag.compare_eq_iff_same.2 h1)) hc
  · intro er her z hz
    simp only [Fig.provideWith, Fig.toProvider] at her
    have hx : ∀ e0, x.fig.value = .error e0 → ∀ z ∈ e0.items, ∃ e ∈ x.added ++ y.added ++ [ne], e.own = true ∧ z.head.tag = e.tag ∧
        ∃ er', e.data = .error er' ∧ z.what = er'.what := by
      intro e0 hv z hz
      obtain ⟨e, he, hh⟩ := h.errors _ hv z hz
      exact ⟨e, hsub e he, hh⟩
    have hnew : ∀ e1, y.fig.value = .error e1 → ∀ z ∈ (e1.retagged t).items, ∃ e ∈ x.added ++ y.added ++ [ne],
        e.own = true ∧ z.head.tag = e.tag ∧ ∃ er', e.data = .error er' ∧ z.what = er'.what := by
      intro e1 hv z hz
      rw [Error.retagged, hy.not_default hv] at hz
      obtain ⟨e, he, hh⟩ := hy.errors _ hv z hz
      exact ⟨e, hsub' e he, hh⟩
    cases hd : y.fig.value with
    | ok n =>
      cases hv : x.fig.value with
      | ok m => simp [hd, hv, Fig.combine] at her
      | error e0 =>
        simp only [hd, hv, Fig.combine, Except.error.injEq] at her
        subst her
        exact hx _ hv z hz
    | error e1 =>
      cases hv : x.fig.value with
      | ok m =>
        simp only [hd, hv, Fig.combine, Except.error.injEq] at her
        subst her
        exact hnew _ hd z hz
      | error e0 =>
        simp only [hd, hv, Fig.combine, Except.error.injEq] at her
        subst her
        rw [Error.chain, Error.items_setPrev_some] at hz
        rcases List.mem_cons.1 hz with rfl | hz
        · exact hx _ hv _ (by cases e0 <;> simp [Error.items, Error.head])
        · exact hnew _ hd z hz
  · intro e he
    rcases List.mem_append.1 he with he | he
    · rcases List.mem_append.1 he with he | he
      · exact h.names e he
      · exact hy.names e he
    · rw [List.mem_singleton.1 he, hne]; exact ht

end Made.Inv

/-! ## Executions -/

/-- What holds after every execution. -/
structure Proc.Inv (s : Proc) : Prop where
  made : ∀ x ∈ s.made, x.Inv
  agree : ∀ x ∈ s.made, ∀ y ∈ s.made, ∀ e ∈ x.added, ∀ e' ∈ y.added, e.tag.same e'.tag = true →
    e.tag = e'.tag ∧ e.metadata = e'.metadata ∧ e.data = e'.data ∧ e.own = e'.own
  given : ∀ x ∈ s.made, ∀ e ∈ x.added, e.tag ∈ s.obtained
  pending_obtained : ∀ t ∈ s.pending, t ∈ s.obtained
  pending_fresh : ∀ t ∈ s.pending, ∀ x ∈ s.made, ∀ e ∈ x.added, e.tag.same t = false
  pending_distinct : s.pending.Pairwise fun a b => a.same b = false

theorem Tag.same_comm (a b : Tag) : a.same b = b.same a := by
  rw [Bool.eq_iff_iff]; simp only [Tag.same, beq_iff_eq]; exact eq_comm

theorem Tag.same_refl (a : Tag) : a.same a = true := by simp [Tag.same]

/-- What is known of the tags given out. -/
structure Proc.Tags (s : Proc) : Prop where
  distinct : s.obtained.Pairwise fun a b => a.same b = false
  names : ∀ t ∈ s.obtained, t.named = true ∧ t.profileTag = .Default

/-- Adding a figment whose entries are entries of other figments, up to focus. -/
theorem Proc.Inv.add_old {s : Proc} (h : s.Inv) {x : Made} (hx : x.Inv)
    (hold : ∀ e ∈ x.added, ∃ y ∈ s.made, ∃ e0 ∈ y.added,
      e.tag = e0.tag ∧ e.metadata = e0.metadata ∧ e.data = e0.data ∧ e.own = e0.own) :
    Proc.Inv { s with made := s.made ++ [x] } := by
  refine ⟨?_, ?_, ?_, h.pending_obtained, ?_, h.pending_distinct⟩
  · intro y hy
    rcases List.mem_append.1 hy with hy | hy
    · exact h.made y hy
    · rw [List.mem_singleton.1 hy]; exact hx
  · have hlift : ∀ y ∈ s.made ++ [x], ∀ e ∈ y.added, ∃ z ∈ s.made, ∃ e0 ∈ z.added,
        e.tag = e0.tag ∧ e.metadata = e0.metadata ∧ e.data = e0.data ∧ e.own = e0.own := by
      intro y hy e he
      rcases List.mem_append.1 hy with hy | hy
      · exact ⟨y, hy, e, he, rfl, rfl, rfl, rfl⟩
      · rw [List.mem_singleton.1 hy] at he; exact hold e he
    intro y hy z hz e he e' he' hs
    obtain ⟨y0, hy0, e0, he0, q1, q2, q3, q4⟩ := hlift y hy e he
    obtain ⟨z0, hz0, f0, hf0, r1, r2, r3, r4⟩ := hlift z hz e' he'
    rw [q1, r1] at hs
    rw [q1, q2, q3, q4, r1, r2, r3, r4]
    exact h.agree y0 hy0 z0 hz0 e0 he0 f0 hf0 hs
  · intro y hy e he
    rcases List.mem_append.1 hy with hy | hy
    · exact h.given y hy e he
    · rw [List.mem_singleton.1 hy] at he
      obtain ⟨y0, hy0, e0, he0, q1, _⟩ := hold e he
      rw [q1]; exact h.given y0 hy0 e0 he0
  · intro t ht y hy e he
    rcases List.mem_append.1 hy with hy | hy
    · exact h.pending_fresh t ht y hy e he
    · rw [List.mem_singleton.1 hy] at he
      obtain ⟨y0, hy0, e0, he0, q1, _⟩ := hold e he
      rw [q1]; exact h.pending_fresh t ht y0 hy0 e0 he0

/-- Adding a figment with one new entry, of a pending tag. -/
theorem Proc.Inv.add_new {s : Proc} (h : s.Inv) {x : Made} (hx : x.Inv) {k : Nat} {ne : Entry}
    (hk : s.pending[k]? = some ne.tag)
    (hold : ∀ e ∈ x.added, e = ne ∨ ∃ y ∈ s.made, e ∈ y.added) :
    Proc.Inv { s with made := s.made ++ [x], pending := s.pending.eraseIdx k } := by
  have hmem : ne.tag ∈ s.pending := List.mem_of_getElem? hk
  have hfresh := h.pending_fresh _ hmem
  have hothers : ∀ t ∈ s.pending.eraseIdx k, t.same ne.tag = false := by
    intro t ht
    obtain ⟨hk1, hk2⟩ := List.getElem?_eq_some_iff.1 hk
    obtain ⟨j, hj, hjk, hjt⟩ := List.mem_eraseIdx_iff_getElem.1 ht
    have hp := List.pairwise_iff_getElem.1 h.pending_distinct
    rcases Nat.lt_or_gt_of_ne hjk with hlt | hlt
    · have := hp j k hj hk1 hlt
      rw [hjt, hk2] at this; exact this
    · have := hp k j hk1 hj hlt
      rw [hjt, hk2, Tag.same_comm] at this; exact this
  have hmade : ∀ y ∈ s.made ++ [x], ∀ e ∈ y.added, e = ne ∨ ∃ y ∈ s.made, e ∈ y.added := by
    intro y hy e he
    rcases List.mem_append.1 hy with hy | hy
    · exact .inr ⟨y, hy, he⟩
    · rw [List.mem_singleton.1 hy] at he; exact hold e he
  refine ⟨?_, ?_, ?_, ?_, ?_, ?_⟩
  · intro y hy
    rcases List.mem_append.1 hy with hy | hy
    · exact h.made y hy
    · rw [List.mem_singleton.1 hy]; exact hx
  · intro y hy z hz e he e' he' hs
    rcases hmade y hy e he with rfl | ⟨y0, hy0, he0⟩ <;> rcases hmade z hz e' he' with rfl | ⟨z0, hz0, he0'⟩
    · exact ⟨rfl, rfl, rfl, rfl⟩
    · rw [Tag.same_comm, hfresh z0 hz0 e' he0'] at hs; cases hs
    · rw [hfresh y0 hy0 e he0] at hs; cases hs
    · exact h.agree y0 hy0 z0 hz0 e he0 e' he0' hs
  · intro y hy e he
    rcases hmade y hy e he with rfl | ⟨y0, hy0, he0⟩
    · exact h.pending_obtained _ hmem
    · exact h.given y0 hy0 e he0
  · intro t ht
    exact h.pending_obtained t (List.mem_of_mem_eraseIdx ht)
  · intro t ht y hy e he
    rcases hmade y hy e he with rfl | ⟨y0, hy0, he0⟩
    · rw [Tag.same_comm]; exact hothers t ht
    · exact h.pending_fresh t (List.mem_of_mem_eraseIdx ht) y0 hy0 e he0
  · exact h.pending_distinct.sublist (List.eraseIdx_sublist ..)

theorem Proc.Inv.step {s : Proc} (h : s.Inv) (x : Step) (hx : x.Plain) (ht : s.Tags) (ht' : (s.step x).Tags) :
    (s.step x).Inv := by
  cases x with
  | new => exact h.add_old Made.Inv.new (by intro e he; cases he)
  | obtain =>
    revert ht'
    simp only [Proc.step]
    cases hn : Tag.next s.counter with
    | mk r c =>
      cases r with
      | none => intro _; exact ⟨h.made, h.agree, h.given, h.pending_obtained, h.pending_fresh, h.pending_distinct⟩
      | some t =>
        intro ht'
        have hd := List.pairwise_append.1 ht'.distinct
        refine ⟨h.made, h.agree, ?_, ?_, ?_, ?_⟩
        · intro y hy e he; exact List.mem_append_left _ (h.given y hy e he)
        · intro t' h'
          rcases List.mem_append.1 h' with h' | h'
          · exact List.mem_append_left _ (h.pending_obtained t' h')
          · exact List.mem_append_right _ h'
        · intro t' h' y hy e he
          rcases List.mem_append.1 h' with h' | h'
          · exact h.pending_fresh t' h' y hy e he
          · rw [List.mem_singleton.1 h']
            exact hd.2.2 _ (h.given y hy e he) _ (List.mem_singleton.2 rfl)
        · rw [List.pairwise_append]
          exact ⟨h.pending_distinct, List.pairwise_singleton .., fun a ha b hb =>
            hd.2.2 _ (h.pending_obtained a ha) b hb⟩
  | provide i k p o loc =>
    simp only [Proc.step]
    cases hi : s.made[i]? with
    | none => exact h
    | some y =>
      cases hk : s.pending[k]? with
      | none => exact h
      | some t =>
        have hy : y ∈ s.made := List.mem_of_getElem? hi
        have htm := List.mem_of_getElem? hk
        refine h.add_new ((h.made y hy).provide p o loc t hx (ht.names t (h.pending_obtained t htm))
          (h.pending_fresh t htm y hy)) (ne := ⟨t, { p.metadata with provideLocation := some loc }, p.data, true, []⟩) hk ?_
        intro e he
        rcases List.mem_append.1 he with he | he
        · exact .inr ⟨y, hy, he⟩
        · exact .inl (List.mem_singleton.1 he)
  | provideFig i j k o loc =>
    simp only [Proc.step]
    cases hi : s.made[i]? with
    | none => exact h
    | some y =>
      cases hj : s.made[j]? with
      | none => exact h
      | some z =>
        cases hk : s.pending[k]? with
        | none => exact h
        | some t =>
          have hy : y ∈ s.made := List.mem_of_getElem? hi
          have hz : z ∈ s.made := List.mem_of_getElem? hj
          have htm := List.mem_of_getElem? hk
          refine h.add_new ((h.made y hy).provideFig (h.made z hz) o loc t (ht.names t (h.pending_obtained t htm))
            ?_ ?_) (ne := ⟨t, { Metadata.Default with provideLocation := some loc }, z.fig.value, false, []⟩) hk ?_
          · intro e he
            rcases List.mem_append.1 he with he | he
            · exact h.pending_fresh t htm y hy e he
            · exact h.pending_fresh t htm z hz e he
          · intro e he e' he' hs
            exact (h.agree y hy z hz e he e' he' hs).2.1
          · intro e he
            rcases List.mem_append.1 he with he | he
            · rcases List.mem_append.1 he with he | he
              · exact .inr ⟨y, hy, he⟩
              · exact .inr ⟨z, hz, he⟩
            · exact .inl (List.mem_singleton.1 he)
  | select i p =>
    simp only [Proc.step]
    cases hi : s.made[i]? with
    | none => exact h
    | some y =>
      have hy : y ∈ s.made := List.mem_of_getElem? hi
      exact h.add_old ((h.made y hy).select p) fun e he => ⟨y, hy, e, he, rfl, rfl, rfl, rfl⟩
  | focus i key =>
    simp only [Proc.step]
    cases hi : s.made[i]? with
    | none => exact h
    | some y =>
      have hy : y ∈ s.made := List.mem_of_getElem? hi
      refine h.add_old ((h.made y hy).focus key) fun e he => ?_
      obtain ⟨e0, he0, rfl⟩ := List.mem_map.1 he
      exact ⟨y, hy, e0, he0, rfl, rfl, rfl, rfl⟩

theorem Proc.exec_tags (steps : List Step) (h : steps.countP Step.isObtain < 2 ^ 64) : (Proc.exec steps).Tags := by
  have he := (Proc.exec_counter steps h).2
  refine ⟨?_, ?_⟩
  · rw [he, List.pairwise_iff_getElem]
    intro i j hi hj hij
    have h1 := Proc.tagsAfter_id hi
    have h2 := Proc.tagsAfter_id hj
    simp only [Tag.same, beq_eq_false_iff_ne]
    intro hc
    rw [hc] at h1
    omega
  · rw [he]
    intro t ht
    obtain ⟨i, hi, rfl⟩ := List.getElem_of_mem ht
    refine ⟨?_, ?_⟩
    · have h1 := Proc.tagsAfter_id hi
      simp only [Tag.named, Tag.same, Tag.default_metadataId, Bool.not_eq_true', beq_eq_false_iff_ne]
      intro hc
      rw [hc] at h1
      simp at h1
    · simp only [Proc.tagsAfter, List.getElem_map]
      exact Tag.profileTag_new _ _

/-- The invariant holds after every execution. -/
theorem Proc.exec_inv (steps : List Step) (h : steps.countP Step.isObtain < 2 ^ 64) (hp : ∀ x ∈ steps, x.Plain) :
    (Proc.exec steps).Inv := by
  revert h hp
  refine Proc.exec_induct (P := fun steps s => steps.countP Step.isObtain < 2 ^ 64 → (∀ x ∈ steps, x.Plain) → s.Inv)
    ?_ ?_ steps
  · intro _ _
    refine ⟨?_, ?_, ?_, ?_, ?_, List.Pairwise.nil⟩
    all_goals intro x hx; cases hx
  · intro steps x ih hlt hp
    have hlt' : steps.countP Step.isObtain < 2 ^ 64 := by
      rw [List.countP_append] at hlt; omega
    refine (ih hlt' fun y hy => hp y (List.mem_append_left _ hy)).step x (hp x (List.mem_append_right _ (List.mem_singleton.2 rfl)))
      (Proc.exec_tags _ hlt') ?_
    rw [← Proc.exec_snoc]
    exact Proc.exec_tags _ hlt

end Figment
