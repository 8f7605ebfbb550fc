import Verif.Spec.Origin
import Verif.Lemmas.Process
import Verif.Lemmas.Focus
import Verif.Lemmas.Error
import Verif.Lemmas.History
/-! # Invariants of executions: provenance -/
namespace Figment

/-! ## Tags are kept by combining -/

namespace Value

theorem tagsAll_of_get {P : Tag → Bool} {d : Dict} (h : ∀ e ∈ d, e.2.tagsAll P = true) {k : Str} {v : Value}
    (hg : Map.get k d = some v) : v.tagsAll P = true := by
  obtain ⟨k', hm, _⟩ := Map.mem_of_get hg
  exact h _ hm

theorem tagsAll_coalesce {P : Tag → Bool} (o : Order) (a : Value) : ∀ b : Value, a.WF → b.WF →
    a.tagsAll P = true → b.tagsAll P = true → (a.coalesce b o).tagsAll P = true := by
  refine Value.induct' (P := fun a => ∀ b : Value, a.WF → b.WF →
    a.tagsAll P = true → b.tagsAll P = true → (a.coalesce b o).tagsAll P = true) ?_ ?_ ?_ a
  · intro a h1 h2 b wa wb ha hb
    rw [coalesce_other a b o (.inl h1) (.inl h2)]
    cases o <;> assumption
  · intro t d ih b wa wb ha hb
    by_cases h : b.asDict? = none
    · rw [coalesce_other _ b o (.inr h) (.inl rfl)]
      cases o <;> assumption
    · cases b <;> simp [asDict?] at h
      rename_i t' d'
      rw [coalesce_dict, tagsAll_dict]
      have wa' := wf_dict.1 wa
      have wb' := wf_dict.1 wb
      have ha' := tagsAll_dict.1 ha
      have hb' := tagsAll_dict.1 hb
      refine ⟨?_, ?_⟩
      · cases o
        · exact hb'.1
        · exact ha'.1
        · exact ha'.1
        · exact hb'.1
      intro e he
      have hg := Map.get_eq_some_of_mem (Dict.sorted_coalesce d d' o) he
      rw [Dict.get_coalesce wa'.1 wb'.1] at hg
      cases h1 : Map.get e.1 d with
      | none =>
        simp only [h1, optCombine] at hg
        exact tagsAll_of_get hb'.2 hg
      | some x =>
        obtain ⟨k', hm, hk'⟩ := Map.mem_of_get h1
        cases h2 : Map.get e.1 d' with
        | none =>
          simp only [h1, h2, optCombine, Option.some.injEq] at hg
          rw [← hg]
          exact ha'.2 _ hm
        | some y =>
          simp only [h1, h2, optCombine, Option.some.injEq] at hg
          rw [← hg]
          exact ih _ hm y (wf_of_get wa h1) (wf_of_get wb h2) (ha'.2 _ hm) (tagsAll_of_get hb'.2 h2)
  · intro t d ih b wa wb ha hb
    by_cases h : b.asArray? = none
    · rw [coalesce_other _ b o (.inl rfl) (.inr h)]
      cases o <;> assumption
    · cases b <;> simp [asArray?] at h
      rename_i t' d'
      rw [coalesce_array]
      cases o <;> simp only
      · exact hb
      · exact ha
      all_goals
        rw [tagsAll_array] at *
        refine ⟨ha.1, fun e he => ?_⟩
        rcases List.mem_append.1 he with he | he
        · exact ha.2 _ he
        · exact hb.2 _ he

end Value

theorem Dict.tagsAll_coalesce {P : Tag → Bool} (o : Order) {a b : Dict} (wa : a.WF) (wb : b.WF)
    (ha : Value.tagsAllD P a = true) (hb : Value.tagsAllD P b = true) :
    Value.tagsAllD P (Dict.coalesce a b o) = true := by
  rw [Value.tagsAllD_iff]
  intro e he
  have hg := Map.get_eq_some_of_mem (Dict.sorted_coalesce a b o) he
  rw [Dict.get_coalesce (Dict.wf_iff.1 wa).1 (Dict.wf_iff.1 wb).1] at hg
  rw [Value.tagsAllD_iff] at ha hb
  cases h1 : Map.get e.1 a with
  | none =>
    simp only [h1, optCombine] at hg
    exact Value.tagsAll_of_get hb hg
  | some x =>
    cases h2 : Map.get e.1 b with
    | none =>
      simp only [h1, h2, optCombine, Option.some.injEq] at hg
      rw [← hg]
      exact Value.tagsAll_of_get ha h1
    | some y =>
      simp only [h1, h2, optCombine, Option.some.injEq] at hg
      rw [← hg]
      exact Value.tagsAll_coalesce o x y (Dict.wf_get wa h1) (Dict.wf_get wb h2)
        (Value.tagsAll_of_get ha h1) (Value.tagsAll_of_get hb h2)

/-- A tag which a `provide` call put on a value of the profile. -/
def knownTag (added : List Entry) (pr : Profile) (t : Tag) : Bool :=
  added.any fun e => e.own && t == e.tag.forProfile pr

theorem knownTag_iff {added : List Entry} {pr : Profile} {t : Tag} :
    knownTag added pr t = true ↔ ∃ e ∈ added, e.own = true ∧ t = e.tag.forProfile pr := by
  simp [knownTag]

/-- All values of every profile have tags known for that profile. -/
def Data.TagsKnown (m : Data) (added : List Entry) : Prop :=
  ∀ pr, Value.tagsAllD (knownTag added pr) (m.dictOf pr) = true

theorem Value.tagsAllD_imp {P Q : Tag → Bool} (hPQ : ∀ t, P t = true → Q t = true) {d : Dict}
    (h : Value.tagsAllD P d = true) : Value.tagsAllD Q d = true := by
  rw [Value.tagsAllD_iff] at *
  exact fun e he => Value.tagsAll_imp hPQ _ (h e he)

theorem Data.TagsKnown.mono {m : Data} {a b : List Entry} (h : m.TagsKnown a) (hab : ∀ e ∈ a, e ∈ b) :
    m.TagsKnown b := by
  intro pr
  refine Value.tagsAllD_imp (fun t ht => ?_) (h pr)
  obtain ⟨e, he, h⟩ := knownTag_iff.1 ht
  exact knownTag_iff.2 ⟨e, hab e he, h⟩

theorem Value.tagsAll_mapTag {tag : Tag} (v : Value) (hv : v.tagsAll (fun t => t.same Tag.Default) = true) :
    (v.mapTag fun _ => tag).tagsAll (fun t => t == tag) = true := by
  refine Value.induct (P := fun v => v.tagsAll (fun t => t.same Tag.Default) = true →
    (v.mapTag fun _ => tag).tagsAll (fun t => t == tag) = true) ?_ ?_ ?_ ?_ ?_ ?_ ?_ v hv
  iterate 5 (intro t v h; simp only [Value.tagsAll] at h; simp [Value.mapTag, Value.tagsAll, h])
  · intro t d ih h
    rw [Value.tagsAll_dict] at h
    rw [Value.mapTag, Value.tagsAll_dict]
    refine ⟨by simp [h.1], fun e he => ?_⟩
    rw [Value.mapTagD_eq] at he
    obtain ⟨y, hy, rfl⟩ := List.mem_map.1 he
    exact ih y hy (h.2 y hy)
  · intro t d ih h
    rw [Value.tagsAll_array] at h
    rw [Value.mapTag, Value.tagsAll_array]
    refine ⟨by simp [h.1], fun e he => ?_⟩
    rw [Value.mapTagA_eq] at he
    obtain ⟨y, hy, rfl⟩ := List.mem_map.1 he
    exact ih y hy (h.2 y hy)

theorem Data.dictOf_retag (tag : Tag) (n : Data) (pr : Profile) :
    Data.dictOf (Fig.retagData tag n) pr = Value.mapTagD (fun _ => tag.forProfile pr) (n.dictOf pr) := by
  unfold Data.dictOf
  rw [Fig.get_retagData]
  cases Map.get pr n <;> simp [Value.mapTagD]

theorem Data.tagsAll_dictOf {P : Tag → Bool} {n : Data} (h : n.tagsAll P) (pr : Profile) :
    Value.tagsAllD P (n.dictOf pr) = true := by
  unfold Data.dictOf
  cases hg : Map.get pr n with
  | none => rfl
  | some d =>
    obtain ⟨k, hk, _⟩ := Map.mem_of_get hg
    exact h _ hk

/-- Untagged data gets known tags. -/
theorem Data.tagsKnown_retag {tag : Tag} {n : Data} (hn : n.tagsAll fun t => t.same Tag.Default)
    {added : List Entry} {e : Entry} (he : e ∈ added) (ho : e.own = true) (ht : e.tag = tag) :
    Data.TagsKnown (Fig.retagData tag n) added := by
  intro pr
  rw [Data.dictOf_retag, Value.mapTagD_eq, Value.tagsAllD_iff]
  intro x hx
  obtain ⟨y, hy, rfl⟩ := List.mem_map.1 hx
  refine Value.tagsAll_imp (fun t h => ?_) _
    (Value.tagsAll_mapTag y.2 (Value.tagsAllD_iff.1 (Data.tagsAll_dictOf hn pr) y hy))
  exact knownTag_iff.2 ⟨e, he, ho, by rw [ht]; exact eq_of_beq h⟩

theorem Data.TagsKnown.coalesce {a b : Data} (wa : a.WF) (wb : b.WF) {added : List Entry}
    (ha : a.TagsKnown added) (hb : b.TagsKnown added) (o : Order) :
    Data.TagsKnown (coalesceProfiles a b o) added := by
  intro pr
  rw [Data.dictOf_coalesce wa wb]
  exact Dict.tagsAll_coalesce o (wa.dictOf pr) (wb.dictOf pr) (ha pr) (hb pr)

theorem Value.tagsAll_getKeys {P : Tag → Bool} {ks : List Str} {v w : Value} (h : v.tagsAll P = true)
    (hg : v.getKeys ks = some w) : w.tagsAll P = true := by
  induction ks generalizing v with
  | nil => rw [Value.getKeys_nil] at hg; cases hg; exact h
  | cons k ks ih =>
    cases v with
    | dict t d =>
      rw [Value.getKeys_dict_cons] at hg
      obtain ⟨u, hu, hg⟩ := Option.bind_eq_some_iff.1 hg
      exact ih (Value.tagsAll_of_get (Value.tagsAll_dict.1 h).2 hu) hg
    | _ => simp [Value.getKeys] at hg

theorem Data.TagsKnown.focus {m : Data} (hm : m.WF) {added : List Entry} (h : m.TagsKnown added) (key : Str) :
    (m.focus key).TagsKnown added := by
  intro pr
  have h0 := h pr
  unfold Data.dictOf at h0 ⊢
  rw [Data.get_focus hm]
  cases hg : Map.get pr m with
  | none => rfl
  | some d =>
    rw [hg] at h0
    simp only [Option.getD_some] at h0
    simp only [Option.bind_some]
    rw [Fig.focusDict_eq]
    cases hks : pathKeys key with
    | nil => simpa [Value.getKeys_nil, Value.asDict?] using h0
    | cons k ks =>
      rw [Value.getKeys_dict_cons]
      cases hk : Map.get k d with
      | none => rfl
      | some u =>
        simp only [Option.bind_some]
        cases hw : u.getKeys ks with
        | none => rfl
        | some w =>
          have h1 := Value.tagsAll_getKeys (Value.tagsAll_of_get (Value.tagsAllD_iff.1 h0) hk) hw
          cases w with
          | dict t d' => rw [Value.tagsAll_dict] at h1; simpa [Value.asDict?] using Value.tagsAllD_iff.2 h1.2
          | _ => rfl

theorem Data.TagsKnown.tagsAll {m : Data} (hm : m.WF) {added : List Entry} (h : m.TagsKnown added)
    {P : Tag → Bool} (hP : ∀ pr, ∀ e ∈ added, e.own = true → P (e.tag.forProfile pr) = true) : m.tagsAll P := by
  intro e he
  have hg := Map.get_eq_some_of_mem hm.1 he
  have := h e.1
  rw [Data.dictOf, hg] at this
  refine Value.tagsAllD_imp (fun t ht => ?_) this
  obtain ⟨x, hx, ho, rfl⟩ := knownTag_iff.1 ht
  exact hP _ x hx ho

theorem Tag.named_forProfile {t : Tag} (h : t.named = true) (pr : Profile) : (t.forProfile pr).named = true := by
  simpa [Tag.named, Tag.same, Tag.metadataId_forProfile] using h

/-! ## Origins -/

theorem Origin.mono {a b : List Entry} (hab : ∀ e ∈ a, e ∈ b) {pr : Profile} {path : List Str} {e : Entry} {v : Value}
    (h : Origin a pr path e v) : Origin b pr path e v := by
  induction h with
  | whole he hs => exact .whole (hab _ he) hs
  | concat _ _ ih ih' => exact .concat ih ih'

theorem Origin.focused {a : List Entry} {ks : List Str} {pr : Profile} {path : List Str} {e : Entry} {v : Value}
    (h : Origin a pr (ks ++ path) e v) : Origin (a.map (Entry.below ks)) pr path (e.below ks) v := by
  generalize hq : ks ++ path = q at h
  induction h with
  | whole he hs =>
    refine .whole (List.mem_map_of_mem he) ?_
    subst hq
    obtain ⟨ho, n, w, h1, h2, h3⟩ := hs
    exact ⟨ho, n, w, h1, by rw [Entry.below, List.append_assoc]; exact h2, h3⟩
  | concat _ _ ih ih' => exact .concat ih ih'

theorem Origin.mem {a : List Entry} {pr : Profile} {path : List Str} {e : Entry} {v : Value}
    (h : Origin a pr path e v) : e ∈ a ∧ e.own = true := by
  induction h with
  | whole he hs => exact ⟨he, hs.1⟩
  | concat _ _ ih _ => exact ih

/-- What is not a dictionary in a combination comes from one side, or is a concatenation. -/
theorem View.coalesce_leaf {o : Order} {A B : View} {p : List Str} {v : Value}
    (h : View.coalesce o A B p = some (.leaf v)) :
    A p = some (.leaf v) ∨ B p = some (.leaf v) ∨
      ∃ t a t' b, A p = some (.leaf (.array t a)) ∧ B p = some (.leaf (.array t' b)) ∧ v = .array t (a ++ b) := by
  have hm : View.merge A B p = some (.leaf v) → A p = some (.leaf v) ∨ B p = some (.leaf v) := by
    intro h
    unfold View.merge at h
    cases hB : B p with
    | some s => rw [hB] at h; exact .inr h
    | none =>
      rw [hB] at h
      simp only at h
      split at h
      · cases h
      · exact .inl h
  have hj : View.join A B p = some (.leaf v) → A p = some (.leaf v) ∨ B p = some (.leaf v) := by
    intro h
    unfold View.join at h
    cases hA : A p with
    | some s => rw [hA] at h; exact .inl h
    | none =>
      rw [hA] at h
      simp only at h
      split at h
      · cases h
      · exact .inr h
  cases o with
  | Merge => exact (hm h).imp id .inl
  | Join => exact (hj h).imp id .inl
  | Adjoin =>
    simp only [View.coalesce, View.adjoin] at h
    split at h
    · rename_i t a t' b hA hB
      simp only [Option.some.injEq, Shape.leaf.injEq] at h
      exact .inr (.inr ⟨t, a, t', b, hA, hB, h.symm⟩)
    · exact (hj h).imp id .inl
  | Admerge =>
    simp only [View.coalesce, View.admerge] at h
    split at h
    · rename_i t a t' b hA hB
      simp only [Option.some.injEq, Shape.leaf.injEq] at h
      exact .inr (.inr ⟨t, a, t', b, hA, hB, h.symm⟩)
    · exact (hm h).imp id .inl

theorem Data.given_leaf {n : Data} {tag : Tag} {pr : Profile} {p : List Str} {v : Value}
    (h : n.given tag pr p = some (.leaf v)) :
    ∃ w, n.at pr p = some (.leaf w) ∧ v = w.mapTag fun _ => tag.forProfile pr := by
  cases p with
  | nil => simp [Data.given] at h
  | cons k ks =>
    simp only [Data.given] at h
    obtain ⟨s, hs, h⟩ := Option.map_eq_some_iff.1 h
    cases s with
    | dict t => simp [Shape.retag] at h
    | leaf w => exact ⟨w, hs, by simp only [Shape.retag, Shape.leaf.injEq] at h; exact h.symm⟩

/-- Everything that is not a dictionary comes from somewhere. -/
def Data.Originated (m : Data) (added : List Entry) : Prop :=
  ∀ pr path v, m.at pr path = some (.leaf v) → ∃ e, Origin added pr path e v ∧ v.tag = e.tag.forProfile pr

theorem Data.Originated.mono {m : Data} {a b : List Entry} (h : m.Originated a) (hab : ∀ e ∈ a, e ∈ b) :
    m.Originated b := by
  intro pr path v hv
  obtain ⟨e, h1, h2⟩ := h pr path v hv
  exact ⟨e, h1.mono hab, h2⟩

theorem Data.Originated.coalesce {a b : Data} (wa : a.WF) (wb : b.WF) {added : List Entry}
    (ha : a.Originated added) (hb : b.Originated added) (o : Order) :
    Data.Originated (coalesceProfiles a b o) added := by
  intro pr path v hv
  rw [Data.at_coalesce wa wb] at hv
  rcases View.coalesce_leaf hv with h | h | ⟨t, x, t', y, h1, h2, rfl⟩
  · exact ha pr path v h
  · exact hb pr path v h
  · obtain ⟨e, he, ht⟩ := ha _ _ _ h1
    obtain ⟨e', he', _⟩ := hb _ _ _ h2
    exact ⟨e, .concat he he', ht⟩

theorem Data.Originated.focus {m : Data} (hm : m.WF) {added : List Entry} (h : m.Originated added) (key : Str) :
    (m.focus key).Originated (added.map (Entry.below (pathKeys key))) := by
  intro pr path v hv
  cases path with
  | nil => rw [Data.at_nil] at hv; cases hv
  | cons k ks =>
    rw [Data.at_focus hm] at hv
    obtain ⟨e, he, ht⟩ := h _ _ _ hv
    exact ⟨e.below (pathKeys key), he.focused, ht⟩

theorem Value.leaf_tag_untagged {n : Data} (hn : n.tagsAll fun t => t.same Tag.Default) {pr : Profile} {p : List Str}
    {w : Value} (h : n.at pr p = some (.leaf w)) : w.tag.same Tag.Default = true := by
  rw [Data.at, Value.view_eq_getKeys] at h
  obtain ⟨u, hu, h⟩ := Option.map_eq_some_iff.1 h
  have : u = w := by cases u <;> simp [Value.shape] at h <;> exact h
  subst this
  have h0 : (Value.dict Tag.Default (n.dictOf pr)).tagsAll (fun t => t.same Tag.Default) = true :=
    Value.tagsAll_dict.2 ⟨by decide, Value.tagsAllD_iff.1 (Data.tagsAll_dictOf hn pr)⟩
  exact Value.tagsAll_tag (P := fun t => t.same Tag.Default) (Value.tagsAll_getKeys h0 hu)

theorem Data.originated_retag {tag : Tag} {n : Data} (hn : n.tagsAll fun t => t.same Tag.Default)
    {added : List Entry} {e : Entry} (he : e ∈ added) (ho : e.own = true) (ht : e.tag = tag) (hd : e.data = .ok n)
    (hr : e.root = []) : Data.Originated (Fig.retagData tag n) added := by
  intro pr path v hv
  rw [Fig.at_retagData] at hv
  obtain ⟨w, hw, rfl⟩ := Data.given_leaf hv
  refine ⟨e, .whole he ⟨ho, n, w, hd, by rw [hr]; exact hw, by rw [ht]⟩, ?_⟩
  rw [Value.tag_mapTag, Value.leaf_tag_untagged hn hw, if_pos rfl, ht]

end Figment
