import Verif.Lemmas.History
import Verif.Lemmas.Find
/-! # Lemmas about `focus` -/
set_option linter.unusedSectionVars false
namespace Figment

theorem Value.view_append (v : Value) (a r : List Str) :
    v.view (a ++ r) = (v.getKeys a).bind fun w => w.view r := by
  rw [Value.view_eq_getKeys, Value.getKeys_append]
  cases v.getKeys a with
  | none => rfl
  | some w => simp [Value.view_eq_getKeys]

/-- Two lookups give the same if they see the same below. -/
theorem Value.getKeys_eq_of_view {v v' : Value} (hv : v.WF) (hv' : v'.WF) {a b : List Str}
    (h : ∀ r, v.view (a ++ r) = v'.view (b ++ r)) : v.getKeys a = v'.getKeys b := by
  cases ha : v.getKeys a with
  | none =>
    cases hb : v'.getKeys b with
    | none => rfl
    | some w =>
      have := h []
      rw [Value.view_append, Value.view_append, ha, hb] at this
      simp [Value.view] at this
  | some w =>
    cases hb : v'.getKeys b with
    | none =>
      have := h []
      rw [Value.view_append, Value.view_append, ha, hb] at this
      simp [Value.view] at this
    | some w' =>
      congr 1
      refine Value.ext_view w w' (Value.wf_getKeys hv ha) (Value.wf_getKeys hv' hb) fun r => ?_
      have := h r
      rw [Value.view_append, Value.view_append, ha, hb] at this
      exact this

theorem Fig.focusDict_eq (key : Str) (d : Dict) :
    Fig.focusDict key d = ((Value.dict Tag.Default d).getKeys (pathKeys key)).bind Value.asDict? := by
  rw [Fig.focusDict, Value.find_eq]

/-- The tag of a dictionary plays no role in lookup below it. -/
theorem Value.getKeys_dict_tag (t t' : Tag) (d : Dict) {ks : List Str} (h : ks ≠ []) :
    (Value.dict t d).getKeys ks = (Value.dict t' d).getKeys ks := by
  cases ks with
  | nil => exact absurd rfl h
  | cons k ks => rw [Value.getKeys_dict_cons, Value.getKeys_dict_cons]

section
variable {κ : Type _} {α β : Type _} [Ord κ] [Std.TransOrd κ]

theorem Map.sorted_filterMap {m : Map κ α} (h : Map.Sorted m) (f : α → Option β) :
    Map.Sorted (m.filterMap fun (k, v) => (f v).map fun d => (k, d)) := by
  induction m with
  | nil => exact List.Pairwise.nil
  | cons e r ih =>
    obtain ⟨k, v⟩ := e
    have hr := (List.pairwise_cons.1 h)
    simp only [List.filterMap_cons]
    cases hf : f v with
    | none => simpa using ih hr.2
    | some d =>
      simp only [Option.map_some]
      refine List.pairwise_cons.2 ⟨?_, ih hr.2⟩
      intro e he
      obtain ⟨x, hx, hxe⟩ := List.mem_filterMap.1 he
      obtain ⟨y, hy, rfl⟩ := Option.map_eq_some_iff.1 hxe
      exact hr.1 x hx

theorem Map.get_filterMap {m : Map κ α} (h : Map.Sorted m) (f : α → Option β) (k : κ) :
    Map.get k (m.filterMap fun (k, v) => (f v).map fun d => (k, d)) = (Map.get k m).bind f := by
  induction m with
  | nil => rfl
  | cons e r ih =>
    obtain ⟨k', v⟩ := e
    have hr := (List.pairwise_cons.1 h)
    simp only [List.filterMap_cons, Map.get]
    by_cases hk : compare k k' = .eq
    · simp only [hk, if_true, Option.bind_some]
      cases hf : f v with
      | none =>
        simp only [Option.map_none]
        rw [ih hr.2, Map.get_eq_none_of_forall]
        · rfl
        · intro e he
          have := hr.1 e he
          rw [Map.cmp_congr_left hk, this]; simp
      | some d => simp [Map.get, hk]
    · simp only [hk, if_false]
      cases hf : f v with
      | none => simpa using ih hr.2
      | some d => simp only [Option.map_some, Map.get, hk, if_false]; exact ih hr.2
end

/-- The data of a focused figment. -/
def Data.focus (key : Str) (m : Data) : Data :=
  m.filterMap fun (k, v) => (Fig.focusDict key v).map fun d => (k, d)

theorem Fig.focus_value_ok {f : Fig} {m : Data} (hf : f.value = .ok m) (hm : m.WF) (key : Str) :
    (f.focus key).value = .ok (m.focus key) := by
  simp only [Fig.focus, Fig.resolvedValue, hf, Except.ok.injEq]
  exact Map.ofList_sorted (Map.sorted_filterMap hm.1 _)

theorem Data.wf_focus {m : Data} (hm : m.WF) (key : Str) : (m.focus key).WF := by
  refine ⟨Map.sorted_filterMap hm.1 _, fun e he => ?_⟩
  obtain ⟨x, hx, hxe⟩ := List.mem_filterMap.1 he
  obtain ⟨y, hy, rfl⟩ := Option.map_eq_some_iff.1 hxe
  rw [Fig.focusDict_eq] at hy
  obtain ⟨w, hw, hwd⟩ := Option.bind_eq_some_iff.1 hy
  have := Value.wf_getKeys (Value.wf_dict'.2 (hm.2 x hx)) hw
  cases w <;> simp [Value.asDict?] at hwd
  subst hwd
  exact Value.wf_dict'.1 this

theorem Data.get_focus {m : Data} (hm : m.WF) (key : Str) (pr : Profile) :
    Map.get pr (m.focus key) = (Map.get pr m).bind (Fig.focusDict key) :=
  Map.get_filterMap hm.1 _ pr

/-- What a focused figment holds: what is below the key, if there is a dictionary. -/
theorem Data.at_focus {m : Data} (hm : m.WF) (key : Str) (pr : Profile) (k : Str) (ks : List Str) :
    (m.focus key).at pr (k :: ks) = m.at pr (pathKeys key ++ k :: ks) := by
  have e1 : (m.focus key).at pr (k :: ks)
      = (Value.dict Tag.Default (((Map.get pr m).bind (Fig.focusDict key)).getD [])).view (k :: ks) := by
    rw [Data.at, Data.dictOf, Data.get_focus hm]
  rw [e1, Data.at, Data.dictOf, Value.view_append]
  cases hg : Map.get pr m with
  | none =>
    simp only [Option.bind_none, Option.getD_none]
    cases hk : pathKeys key with
    | nil => rw [Value.getKeys_nil]; rfl
    | cons j js => rw [Value.getKeys_dict_cons]; rfl
  | some d =>
    simp only [Option.bind_some, Option.getD_some, Fig.focusDict_eq]
    cases hgk : (Value.dict Tag.Default d).getKeys (pathKeys key) with
    | none => rfl
    | some w =>
      simp only [Option.bind_some]
      cases w <;> simp only [Value.asDict?, Option.getD_some, Option.getD_none]
      all_goals first
        | (rw [Value.view_dict_cons, Value.view_dict_cons])
        | (simp only [Value.view, Map.get])

/-- Along the key the data of a profile has nothing but dictionaries. -/
def Data.onlyDictsAlong (m : Data) (pr : Profile) (keys : List Str) : Prop :=
  ∀ n ≤ keys.length, ∀ w, m.at pr (keys.take n) ≠ some (.leaf w)

theorem Data.blocked_focus {m : Data} (hm : m.WF) (key : Str) (pr : Profile)
    (hd : m.onlyDictsAlong pr (pathKeys key)) (p : List Str) :
    View.blocked ((m.focus key).at pr) p = View.blocked (m.at pr) (pathKeys key ++ p) := by
  rw [Bool.eq_iff_iff, View.blocked_iff, View.blocked_iff]
  constructor
  · rintro ⟨n, hn, w, hw⟩
    cases n with
    | zero => rw [List.take_zero, Data.at_nil] at hw; cases hw
    | succ n =>
      cases p with
      | nil => simp at hn
      | cons k ks =>
        refine ⟨(pathKeys key).length + (n + 1), by simp at hn ⊢; omega, w, ?_⟩
        rw [List.take_length_add_append, List.take_succ_cons, ← Data.at_focus hm]
        exact hw
  · rintro ⟨n, hn, w, hw⟩
    by_cases hle : n ≤ (pathKeys key).length
    · rw [List.take_append_of_le_length hle] at hw
      exact absurd hw (hd n hle w)
    · obtain ⟨j, rfl⟩ : ∃ j, n = (pathKeys key).length + (j + 1) := ⟨n - (pathKeys key).length - 1, by omega⟩
      cases p with
      | nil => simp at hn; omega
      | cons k ks =>
        refine ⟨j + 1, by simp at hn ⊢; omega, w, ?_⟩
        rw [List.take_length_add_append, List.take_succ_cons, ← Data.at_focus hm] at hw
        exact hw

theorem Data.layered_focus {m : Data} (hm : m.WF) (key : Str) (sel : Profile)
    (hg : m.onlyDictsAlong Profile.Global (pathKeys key))
    (hs : sel.isCustom = true → m.onlyDictsAlong sel (pathKeys key)) (k : Str) (ks : List Str) :
    (m.focus key).layered sel (k :: ks) = m.layered sel (pathKeys key ++ k :: ks) := by
  simp only [Data.layered]
  split
  · rename_i hc
    simp only [View.merge, Data.at_focus hm, Data.blocked_focus hm key _ hg, Data.blocked_focus hm key _ (hs hc)]
  · simp only [View.merge, Data.at_focus hm, Data.blocked_focus hm key _ hg]

theorem Fig.focusDict_focusDict {a : Str} (ha : plainPath a) (b : Str) (d : Dict) :
    (Fig.focusDict a d).bind (Fig.focusDict b) = Fig.focusDict (a ++ '.' :: b) d := by
  rw [Fig.focusDict_eq, Fig.focusDict_eq, pathKeys_append ha, Value.getKeys_append]
  cases (Value.dict Tag.Default d).getKeys (pathKeys a) with
  | none => rfl
  | some w =>
    simp only [Option.bind_some]
    cases hw : w.asDict? with
    | none =>
      cases hk : pathKeys b with
      | nil => rw [Value.getKeys_nil]; simp [hw]
      | cons k ks => rw [Value.getKeys_leaf_cons hw]; rfl
    | some d' =>
      cases w <;> simp [Value.asDict?] at hw
      subst hw
      rename_i t d'
      simp only [Option.bind_some, Fig.focusDict_eq]
      cases hk : pathKeys b with
      | nil => simp only [Value.getKeys_nil, Option.bind_some, Value.asDict?]
      | cons k ks => rw [Value.getKeys_dict_tag _ t _ (by simp)]

theorem Data.focus_focus {a : Str} (ha : plainPath a) (b : Str) (m : Data) :
    (m.focus a).focus b = m.focus (a ++ '.' :: b) := by
  induction m with
  | nil => rfl
  | cons e r ih =>
    obtain ⟨k, d⟩ := e
    have h := Fig.focusDict_focusDict ha b d
    simp only [Data.focus, List.filterMap_cons] at ih ⊢
    rw [← h]
    cases hf : Fig.focusDict a d with
    | none => simpa using ih
    | some d' =>
      simp only [Option.map_some, List.filterMap_cons, Option.bind_some]
      cases hf' : Fig.focusDict b d' with
      | none => simpa using ih
      | some d'' => simp only [Option.map_some]; rw [ih]

theorem Error.resolved_resolved (md : Map Tag Metadata) (pr : Profile) (e : Error) :
    (e.resolved md pr).resolved md pr = e.resolved md pr := by
  induction e with
  | last h => rfl
  | cons h p ih => simp only [Error.resolved, ih]; rfl

theorem Data.blocked_below (m : Data) (pr : Profile) (keys p : List Str) (hp : p ≠ []) :
    View.blocked (m.at pr) (keys ++ p) = true ↔
    m.hides pr keys ∨ ∃ n, 0 < n ∧ n < p.length ∧ ∃ w, m.at pr (keys ++ p.take n) = some (.leaf w) := by
  rw [View.blocked_iff]
  constructor
  · rintro ⟨n, hn, w, hw⟩
    by_cases hle : n ≤ keys.length
    · rw [List.take_append_of_le_length hle] at hw
      exact .inl ⟨n, hle, w, hw⟩
    · obtain ⟨j, rfl⟩ : ∃ j, n = keys.length + j := ⟨n - keys.length, by omega⟩
      rw [List.take_length_add_append] at hw
      exact .inr ⟨j, by omega, by simp at hn; omega, w, hw⟩
  · rintro (⟨n, hn, w, hw⟩ | ⟨n, h0, hn, w, hw⟩)
    · refine ⟨n, ?_, w, ?_⟩
      · have := List.length_pos_iff.2 hp
        simp; omega
      · rw [List.take_append_of_le_length hn]; exact hw
    · refine ⟨keys.length + n, by simp; omega, w, ?_⟩
      rw [List.take_length_add_append]; exact hw

theorem Data.blocked_focus_below {m : Data} (hm : m.WF) (key : Str) (pr : Profile) (p : List Str) :
    View.blocked ((m.focus key).at pr) p = true ↔
    ∃ n, 0 < n ∧ n < p.length ∧ ∃ w, m.at pr (pathKeys key ++ p.take n) = some (.leaf w) := by
  rw [View.blocked_iff]
  constructor
  · rintro ⟨n, hn, w, hw⟩
    cases n with
    | zero => rw [List.take_zero, Data.at_nil] at hw; cases hw
    | succ n =>
      cases p with
      | nil => simp at hn
      | cons k ks =>
        refine ⟨n + 1, by omega, hn, w, ?_⟩
        rw [List.take_succ_cons, ← Data.at_focus hm]
        exact hw
  · rintro ⟨n, h0, hn, w, hw⟩
    refine ⟨n, hn, w, ?_⟩
    cases n with
    | zero => omega
    | succ n =>
      cases p with
      | nil => simp at hn
      | cons k ks =>
        rw [List.take_succ_cons] at hw ⊢
        rw [Data.at_focus hm]; exact hw

/-- A non-dictionary at or above the key leaves nothing below it. -/
theorem Data.hides_none {m : Data} {pr : Profile} {keys p : List Str} (h : m.hides pr keys) (hp : p ≠ []) :
    m.at pr (keys ++ p) = none := by
  obtain ⟨n, hn, w, hw⟩ := h
  cases hv : m.at pr (keys ++ p) with
  | none => rfl
  | some s =>
    have := List.length_pos_iff.2 hp
    obtain ⟨t, ht⟩ := Data.tree_at m pr (keys ++ p) n (by simp; omega) (by simp [hv])
    rw [List.take_append_of_le_length hn, hw] at ht
    cases ht

end Figment
