import Verif.Model.Value
/-! # Basic lemmas about values -/
namespace Figment
namespace Value

/-- Induction over values with the hypothesis for all entries of dictionaries and arrays. -/
theorem induct {P : Value → Prop}
    (hstring : ∀ t v, P (.string t v)) (hchar : ∀ t v, P (.char t v)) (hbool : ∀ t v, P (.bool t v))
    (hnum : ∀ t v, P (.num t v)) (hempty : ∀ t v, P (.empty t v))
    (hdict : ∀ t d, (∀ e ∈ d, P e.2) → P (.dict t d))
    (harray : ∀ t a, (∀ e ∈ a, P e) → P (.array t a)) (v : Value) : P v :=
  Value.rec (motive_1 := P) (motive_2 := fun d => ∀ e ∈ d, P e.2) (motive_3 := fun a => ∀ e ∈ a, P e)
    (motive_4 := fun e => P e.2)
    hstring hchar hbool hnum hempty hdict harray
    (by simp) (fun e r he hr x hx => by
      rcases List.mem_cons.1 hx with rfl | hx
      · exact he
      · exact hr _ hx)
    (by simp) (fun e r he hr x hx => by
      rcases List.mem_cons.1 hx with rfl | hx
      · exact he
      · exact hr _ hx)
    (fun _ _ h => h) v

/-- `Value.induct` with one case for everything that is no dictionary and no array. -/
theorem induct' {P : Value → Prop}
    (hscalar : ∀ v, v.asDict? = none → v.asArray? = none → P v)
    (hdict : ∀ t d, (∀ e ∈ d, P e.2) → P (.dict t d))
    (harray : ∀ t a, (∀ e ∈ a, P e) → P (.array t a)) (v : Value) : P v :=
  induct (fun _ _ => hscalar _ rfl rfl) (fun _ _ => hscalar _ rfl rfl) (fun _ _ => hscalar _ rfl rfl)
    (fun _ _ => hscalar _ rfl rfl) (fun _ _ => hscalar _ rfl rfl) hdict harray v

theorem wfD_iff {d : List (Str × Value)} : wfD d = true ↔ ∀ e ∈ d, e.2.WF := by
  induction d with
  | nil => simp [wfD]
  | cons e r ih =>
    obtain ⟨k, v⟩ := e
    simp [wfD, ih, WF]

theorem wfA_iff {a : List Value} : wfA a = true ↔ ∀ e ∈ a, e.WF := by
  induction a with
  | nil => simp [wfA]
  | cons e r ih => simp [wfA, ih, WF]

theorem wf_dict {t : Tag} {d : List (Str × Value)} :
    (Value.dict t d).WF ↔ Map.Sorted d ∧ ∀ e ∈ d, e.2.WF := by
  simp [WF, wf, wfD_iff]

theorem wf_array {t : Tag} {a : List Value} : (Value.array t a).WF ↔ ∀ e ∈ a, e.WF := by
  simp [WF, wf, wfA_iff]

theorem wf_of_scalar {v : Value} (h : v.asDict? = none) (h' : v.asArray? = none) : v.WF := by
  cases v <;> simp_all [WF, wf, asDict?, asArray?]

theorem wf_of_get {t : Tag} {d : Dict} (h : (Value.dict t d).WF) {k : Str} {v : Value}
    (hg : Map.get k d = some v) : v.WF := by
  obtain ⟨k', hm, _⟩ := Map.mem_of_get hg
  exact (wf_dict.1 h).2 _ hm

theorem mapTagD_eq (f : Tag → Tag) (d : List (Str × Value)) :
    mapTagD f d = d.map (fun e => (e.1, mapTag f e.2)) := by
  induction d with
  | nil => rfl
  | cons e r ih => obtain ⟨k, v⟩ := e; simp [mapTagD, ih]

theorem mapTagA_eq (f : Tag → Tag) (a : List Value) : mapTagA f a = a.map (mapTag f) := by
  induction a with
  | nil => rfl
  | cons e r ih => simp [mapTagA, ih]

end Value

theorem Dict.wf_iff {d : Dict} : d.WF ↔ Map.Sorted d ∧ ∀ e ∈ d, e.2.WF := Value.wf_dict

theorem Value.wf_dict' {t : Tag} {d : Dict} : (Value.dict t d).WF ↔ d.WF := by
  rw [Value.wf_dict, Dict.wf_iff]

theorem Dict.wf_nil : Dict.WF [] := by decide

theorem Dict.wf_get {d : Dict} (h : d.WF) {k : Str} {v : Value} (hg : Map.get k d = some v) : v.WF :=
  Value.wf_of_get h hg

theorem Dict.wf_insert {d : Dict} (h : d.WF) (k : Str) {v : Value} (hv : v.WF) :
    Dict.WF (Map.insert k v d) := by
  rw [Dict.wf_iff] at *
  refine ⟨h.1.insert _ _, ?_⟩
  intro e he
  rcases Map.mem_insert he with ⟨h1, _⟩ | h1
  · rw [h1]; exact hv
  · exact h.2 _ h1

theorem Dict.wf_erase {d : Dict} (h : d.WF) (k : Str) : Dict.WF (Map.erase k d) := by
  rw [Dict.wf_iff] at *
  exact ⟨h.1.erase _, fun e he => h.2 _ (Map.mem_erase he)⟩

theorem Dict.wf_extend {d : Dict} (h : d.WF) (l : List (Str × Value)) (hl : ∀ e ∈ l, e.2.WF) :
    Dict.WF (Map.extend d l) := by
  induction l generalizing d with
  | nil => exact h
  | cons e r ih =>
    exact ih (Dict.wf_insert h _ (hl _ (List.mem_cons_self ..)))
      (fun e he => hl _ (List.mem_cons_of_mem _ he))

end Figment
