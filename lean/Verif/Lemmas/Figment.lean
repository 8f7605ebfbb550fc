import Verif.Lemmas.Coalesce
import Verif.Spec.Data
/-! # Lemmas about data by profile -/
namespace Figment

section
variable {κ : Type _} [Ord κ] [Std.TransOrd κ] {α : Type _}

omit [Std.TransOrd κ] in
theorem Map.extend_cons (m : Map κ α) (e : κ × α) (l : List (κ × α)) :
    Map.extend m (e :: l) = Map.extend (Map.insert e.1 e.2 m) l := rfl

theorem Map.insert_last {m : Map κ α} {k : κ} {v : α} (h : ∀ e ∈ m, compare e.1 k = .lt) :
    Map.insert k v m = m ++ [(k, v)] := by
  induction m with
  | nil => rfl
  | cons e r ih =>
    obtain ⟨j, w⟩ := e
    have h1 : compare j k = .lt := h (j, w) (List.mem_cons_self ..)
    have h2 : compare k j = .gt := Std.OrientedCmp.gt_iff_lt.2 h1
    simp only [Map.insert, h2, List.cons_append]
    rw [ih (fun e he => h e (List.mem_cons_of_mem _ he))]

theorem Map.extend_append {m l : Map κ α} (h : Map.Sorted (m ++ l)) : Map.extend m l = m ++ l := by
  induction l generalizing m with
  | nil => simp [Map.extend]
  | cons e r ih =>
    have h1 : ∀ x ∈ m, compare x.1 e.1 = .lt := by
      intro x hx
      exact (List.pairwise_append.1 h).2.2 x hx e (List.mem_cons_self ..)
    rw [Map.extend_cons, Map.insert_last h1]
    have h2 : m ++ e :: r = m ++ [(e.1, e.2)] ++ r := by simp
    rw [ih (by rw [← h2]; exact h), ← h2]

/-- Collecting a map that already is one. -/
theorem Map.ofList_sorted {l : Map κ α} (h : Map.Sorted l) : Map.ofList l = l :=
  Map.extend_append (m := []) h

theorem Map.coalesce_nil_left (f : α → α → α) {b : Map κ α} (h : Map.Sorted b) :
    Map.coalesce f [] b = b := Map.ofList_sorted h

theorem Map.coalesceLoop_nil (f : α → α → α) {a j : Map κ α} (h : Map.Sorted (j ++ a)) :
    Map.coalesceLoop f a [] j = j ++ a := by
  induction a generalizing j with
  | nil => simp [Map.coalesceLoop, Map.extend]
  | cons e r ih =>
    obtain ⟨k, v⟩ := e
    have h1 : ∀ x ∈ j, compare x.1 k = .lt := fun x hx =>
      (List.pairwise_append.1 h).2.2 x hx (k, v) (List.mem_cons_self ..)
    have h2 : j ++ (k, v) :: r = j ++ [(k, v)] ++ r := by simp
    simp only [Map.coalesceLoop, Map.get_nil]
    rw [Map.insert_last h1, ih (by rw [← h2]; exact h), ← h2]

theorem Map.coalesce_nil_right (f : α → α → α) {a : Map κ α} (h : Map.Sorted a) :
    Map.coalesce f a [] = a := Map.coalesceLoop_nil f (j := []) h

end

theorem Dict.coalesce_nil_left {b : Dict} (h : Map.Sorted b) (o : Order) : Dict.coalesce [] b o = b := by
  rw [Dict.coalesce_eq, Map.coalesce_nil_left _ h]

theorem Dict.coalesce_nil_right {a : Dict} (h : Map.Sorted a) (o : Order) : Dict.coalesce a [] o = a := by
  rw [Dict.coalesce_eq, Map.coalesce_nil_right _ h]

namespace Data

theorem wf_nil : Data.WF [] := by decide

theorem WF.dictOf {m : Data} (h : m.WF) (pr : Profile) : (m.dictOf pr).WF := by
  unfold Data.dictOf
  cases hg : Map.get pr m with
  | none => exact Dict.wf_nil
  | some d =>
    obtain ⟨k, hm, _⟩ := Map.mem_of_get hg
    exact h.2 _ hm

theorem WF.insert {m : Data} (h : m.WF) (pr : Profile) {d : Dict} (hd : d.WF) :
    Data.WF (Map.insert pr d m) := by
  refine ⟨h.1.insert _ _, fun _ he => ?_⟩
  rcases Map.mem_insert he with ⟨h1, _⟩ | h1
  · rw [h1]; exact hd
  · exact h.2 _ h1

theorem WF.erase {m : Data} (h : m.WF) (pr : Profile) : Data.WF (Map.erase pr m) :=
  ⟨h.1.erase _, fun _ he => h.2 _ (Map.mem_erase he)⟩

theorem dictOf_congr {p q : Profile} (h : compare p q = .eq) (m : Data) : m.dictOf p = m.dictOf q := by
  rw [Data.dictOf, Data.dictOf, Map.get_congr h]

theorem dictOf_coalesce {a b : Data} (ha : a.WF) (hb : b.WF) (o : Order) (pr : Profile) :
    Data.dictOf (coalesceProfiles a b o) pr = Dict.coalesce (a.dictOf pr) (b.dictOf pr) o := by
  have h1 := Dict.wf_iff.1 (ha.dictOf pr)
  have h2 := Dict.wf_iff.1 (hb.dictOf pr)
  unfold Data.dictOf at *
  rw [coalesceProfiles, Map.get_coalesce _ ha.1 hb.1]
  cases hx : Map.get pr a with
  | none =>
    simp only [hx, optCombine, Option.getD_none] at *
    rw [Dict.coalesce_nil_left h2.1]
  | some x =>
    cases hy : Map.get pr b with
    | none =>
      simp only [hx, hy, optCombine, Option.getD_none, Option.getD_some] at *
      rw [Dict.coalesce_nil_right h1.1]
    | some y => simp only [optCombine, Option.getD_some]

theorem wf_coalesce {a b : Data} (ha : a.WF) (hb : b.WF) (o : Order) :
    Data.WF (coalesceProfiles a b o) := by
  refine ⟨Map.sorted_coalesce _ _ _, ?_⟩
  rintro ⟨pr, d⟩ he
  have hg := Map.get_eq_some_of_mem (Map.sorted_coalesce (fun x y => Dict.coalesce x y o) a b) he
  have := dictOf_coalesce ha hb o pr
  rw [Data.dictOf, coalesceProfiles, hg] at this
  simp only [Option.getD_some] at this
  simp only
  rw [this]
  exact Dict.wf_coalesce o (ha.dictOf _) (hb.dictOf _)

/-- At every path of every profile, combined data is what the strategy says. -/
theorem at_coalesce {a b : Data} (ha : a.WF) (hb : b.WF) (o : Order) (pr : Profile) (p : List Str) :
    Data.at (coalesceProfiles a b o) pr p = View.coalesce o (a.at pr) (b.at pr) p := by
  unfold Data.at
  rw [dictOf_coalesce ha hb]
  have := Value.view_coalesce o (.dict Tag.Default (a.dictOf pr)) (.dict Tag.Default (b.dictOf pr))
    (ha.dictOf pr) (hb.dictOf pr) p
  rw [← this, Value.coalesce_dict]
  cases o <;> rfl

end Data

/-! ## Retagging -/

namespace Value

theorem asDict_mapTag (f : Tag → Tag) (v : Value) :
    (v.mapTag f).asDict? = v.asDict?.map (mapTagD f) := by
  cases v <;> simp [mapTag, asDict?]

theorem asArray_mapTag (f : Tag → Tag) (v : Value) :
    (v.mapTag f).asArray? = v.asArray?.map (mapTagA f) := by
  cases v <;> simp [mapTag, asArray?]

theorem tag_mapTag (f : Tag → Tag) (v : Value) :
    (v.mapTag f).tag = if v.tag.same Tag.Default then f v.tag else v.tag := by
  cases v <;> rfl

theorem get_mapTagD (f : Tag → Tag) (k : Str) (d : Dict) :
    Map.get k (mapTagD f d) = (Map.get k d).map (mapTag f) := by
  rw [mapTagD_eq]
  exact Map.get_map_snd (mapTag f) k d

theorem sorted_mapTagD (f : Tag → Tag) {d : Dict} (h : Map.Sorted d) : Map.Sorted (mapTagD f d) := by
  rw [mapTagD_eq]
  exact h.map_snd (fun e => mapTag f e.2)

theorem wf_mapTag (f : Tag → Tag) (v : Value) : v.WF → (v.mapTag f).WF := by
  refine Value.induct' (P := fun v => v.WF → (v.mapTag f).WF) ?_ ?_ ?_ v
  · intro v h1 h2 _
    exact wf_of_scalar (by rw [asDict_mapTag, h1]; rfl) (by rw [asArray_mapTag, h2]; rfl)
  · intro t d ih h
    rw [wf_dict] at h
    rw [mapTag, wf_dict]
    refine ⟨sorted_mapTagD f h.1, fun e he => ?_⟩
    rw [mapTagD_eq] at he
    obtain ⟨x, hx, rfl⟩ := List.mem_map.1 he
    exact ih x hx (h.2 x hx)
  · intro t a ih h
    rw [wf_array] at h
    rw [mapTag, wf_array]
    intro e he
    rw [mapTagA_eq] at he
    obtain ⟨x, hx, rfl⟩ := List.mem_map.1 he
    exact ih x hx (h x hx)

theorem shape_mapTag (t : Tag) (v : Value) :
    (v.mapTag fun _ => t).shape = Shape.retag t v.shape := by
  cases v <;> simp [mapTag, shape, Shape.retag]

theorem view_mapTag (t : Tag) (v : Value) (p : List Str) :
    (v.mapTag fun _ => t).view p = (v.view p).map (Shape.retag t) := by
  induction p generalizing v with
  | nil => simp [shape_mapTag]
  | cons k ks ih =>
    by_cases h : v.asDict? = none
    · rw [view_leaf_cons h, view_leaf_cons (by rw [asDict_mapTag, h]; rfl)]; rfl
    · cases v <;> simp [asDict?] at h
      rename_i t' d
      rw [mapTag, view_dict_cons, view_dict_cons, get_mapTagD]
      cases Map.get k d with
      | none => rfl
      | some x => exact ih x

end Value

namespace Fig

theorem retagDict_eq (t : Tag) (d : Dict) :
    (d.map fun (e : Str × Value) => (e.1, e.2.mapTag fun _ => t)) = Value.mapTagD (fun _ => t) d := by
  rw [Value.mapTagD_eq]

theorem retagData_eq (tag : Tag) (m : Data) :
    retagData tag m = m.map fun e => (e.1, Value.mapTagD (fun _ => tag.forProfile e.1) e.2) := by
  unfold retagData
  apply List.map_congr_left
  intro e _
  simp only [Prod.mk.injEq, true_and]
  exact retagDict_eq _ _

end Fig

theorem Profile.same_iff {p q : Profile} : p.same q = true ↔ compare p q = .eq := by
  show (Str.lower p.name == Str.lower q.name) = true ↔ compare (Str.lower p.name) (Str.lower q.name) = .eq
  rw [beq_iff_eq, Std.LawfulEqOrd.compare_eq_iff_eq]

theorem Profile.ofProfile_congr {p q : Profile} (h : compare p q = .eq) :
    ProfileTag.ofProfile p = ProfileTag.ofProfile q := by
  have h' : Str.lower p.name = Str.lower q.name := by
    have := Profile.same_iff.2 h
    simpa [Profile.same, Str.uncasedEq] using this
  simp [ProfileTag.ofProfile, Profile.same, Str.uncasedEq, h']

theorem Tag.forProfile_congr {p q : Profile} (h : compare p q = .eq) (t : Tag) :
    t.forProfile p = t.forProfile q := by
  rw [Tag.forProfile, Tag.forProfile, Profile.ofProfile_congr h]

namespace Fig

theorem get_retagData (tag : Tag) (m : Data) (pr : Profile) :
    Map.get pr (retagData tag m)
      = (Map.get pr m).map (Value.mapTagD fun _ => tag.forProfile pr) := by
  rw [retagData_eq]
  induction m with
  | nil => rfl
  | cons e r ih =>
    simp only [List.map_cons, Map.get]
    by_cases h : compare pr e.1 = .eq
    · simp [h, Tag.forProfile_congr h]
    · simp only [h, if_false] at *
      exact ih

theorem wf_retagData (tag : Tag) {m : Data} (h : m.WF) : Data.WF (retagData tag m) := by
  rw [retagData_eq]
  refine ⟨h.1.map_snd (fun e => Value.mapTagD (fun _ => tag.forProfile e.1) e.2), fun e he => ?_⟩
  obtain ⟨x, hx, rfl⟩ := List.mem_map.1 he
  have := Value.wf_mapTag (fun _ => tag.forProfile x.1) (.dict Tag.Default x.2) (h.2 x hx)
  rw [Value.mapTag] at this
  exact Value.wf_dict'.1 this

/-- What a provided data shows, path by path. -/
theorem at_retagData (tag : Tag) (m : Data) (pr : Profile) (p : List Str) :
    Data.at (retagData tag m) pr p = m.given tag pr p := by
  unfold Data.given
  have hd : Data.dictOf (retagData tag m) pr
      = Value.mapTagD (fun _ => tag.forProfile pr) (m.dictOf pr) := by
    unfold Data.dictOf
    rw [get_retagData]
    cases Map.get pr m <;> rfl
  cases p with
  | nil => simp [Data.at, Value.shape]
  | cons k ks =>
    simp only [Data.at, hd, Value.view_dict_cons, Value.get_mapTagD]
    cases Map.get k (m.dictOf pr) with
    | none => rfl
    | some v => exact Value.view_mapTag _ v ks

end Fig

/-! ## Tags at any depth -/

namespace Value

theorem tagsAllD_iff {P : Tag → Bool} {d : List (Str × Value)} :
    tagsAllD P d = true ↔ ∀ e ∈ d, e.2.tagsAll P = true := by
  induction d with
  | nil => simp [tagsAllD]
  | cons e r ih => obtain ⟨k, v⟩ := e; simp [tagsAllD, ih]

theorem tagsAllA_iff {P : Tag → Bool} {d : List Value} :
    tagsAllA P d = true ↔ ∀ e ∈ d, e.tagsAll P = true := by
  induction d with
  | nil => simp [tagsAllA]
  | cons e r ih => simp [tagsAllA, ih]

theorem tagsAll_dict {P : Tag → Bool} {t : Tag} {d : Dict} :
    (Value.dict t d).tagsAll P = true ↔ P t = true ∧ ∀ e ∈ d, e.2.tagsAll P = true := by
  simp [tagsAll, tagsAllD_iff]

theorem tagsAll_array {P : Tag → Bool} {t : Tag} {d : List Value} :
    (Value.array t d).tagsAll P = true ↔ P t = true ∧ ∀ e ∈ d, e.tagsAll P = true := by
  simp [tagsAll, tagsAllA_iff]

theorem tagsAll_tag {P : Tag → Bool} {v : Value} (h : v.tagsAll P = true) : P v.tag = true := by
  cases v <;> simp_all [tagsAll, tag]

theorem tagsAll_imp {P Q : Tag → Bool} (hPQ : ∀ t, P t = true → Q t = true) (v : Value) :
    v.tagsAll P = true → v.tagsAll Q = true := by
  refine Value.induct (P := fun v => v.tagsAll P = true → v.tagsAll Q = true) ?_ ?_ ?_ ?_ ?_ ?_ ?_ v
  iterate 5 (intro t v h; exact hPQ _ h)
  · intro t d ih h
    rw [tagsAll_dict] at *
    exact ⟨hPQ _ h.1, fun e he => ih e he (h.2 e he)⟩
  · intro t d ih h
    rw [tagsAll_array] at *
    exact ⟨hPQ _ h.1, fun e he => ih e he (h.2 e he)⟩

/-- Retagging changes nothing if every value has provenance. -/
theorem mapTag_named (f : Tag → Tag) (v : Value) : v.tagsAll Tag.named = true → v.mapTag f = v := by
  refine Value.induct (P := fun v => v.tagsAll Tag.named = true → v.mapTag f = v) ?_ ?_ ?_ ?_ ?_ ?_ ?_ v
  iterate 5 (intro t v h; simp only [tagsAll, Tag.named, Bool.not_eq_true'] at h; simp [mapTag, h])
  · intro t d ih h
    rw [tagsAll_dict] at h
    have h1 : t.same Tag.Default = false := by simpa [Tag.named] using h.1
    simp only [mapTag, h1, mapTagD_eq]
    congr 1
    conv => rhs; rw [← List.map_id d]
    exact List.map_congr_left (fun e he => by simp [ih e he (h.2 e he)])
  · intro t d ih h
    rw [tagsAll_array] at h
    have h1 : t.same Tag.Default = false := by simpa [Tag.named] using h.1
    simp only [mapTag, h1, mapTagA_eq]
    congr 1
    conv => rhs; rw [← List.map_id d]
    exact List.map_congr_left (fun e he => by simp [ih e he (h.2 e he)])

end Value

theorem Fig.retagData_named (t : Tag) {m : Data} (h : m.tagsAll Tag.named) : Fig.retagData t m = m := by
  rw [Fig.retagData_eq]
  conv => rhs; rw [← List.map_id m]
  refine List.map_congr_left fun e he => ?_
  have h1 := Value.tagsAllD_iff.1 (h e he)
  obtain ⟨pr, d⟩ := e
  simp only [id, Prod.mk.injEq, true_and]
  rw [Value.mapTagD_eq]
  conv => rhs; rw [← List.map_id d]
  exact List.map_congr_left fun x hx => by simp [Value.mapTag_named _ _ (h1 x hx)]

/-! ## Stripping -/

namespace Value

theorem stripD_eq (d : List (Str × Value)) : stripD d = d.map (fun e => (e.1, e.2.strip)) := by
  induction d with
  | nil => rfl
  | cons e r ih => obtain ⟨k, v⟩ := e; simp [stripD, ih]

theorem stripA_eq (a : List Value) : stripA a = a.map strip := by
  induction a with
  | nil => rfl
  | cons e r ih => simp [stripA, ih]

theorem asDict_strip (v : Value) : v.strip.asDict? = v.asDict?.map stripD := by
  cases v <;> simp [strip, asDict?]

theorem asArray_strip (v : Value) : v.strip.asArray? = v.asArray?.map stripA := by
  cases v <;> simp [strip, asArray?]

theorem get_stripD (k : Str) (d : Dict) : Map.get k (stripD d) = (Map.get k d).map strip := by
  rw [stripD_eq]
  exact Map.get_map_snd strip k d

theorem strip_mapTag (f : Tag → Tag) (v : Value) : (v.mapTag f).strip = v.strip := by
  refine Value.induct (P := fun v => (v.mapTag f).strip = v.strip) ?_ ?_ ?_ ?_ ?_ ?_ ?_ v
  iterate 5 (intro t v; rfl)
  · intro t d ih
    simp only [mapTag, strip, stripD_eq, mapTagD_eq, List.map_map]
    congr 1
    exact List.map_congr_left (fun e he => by simp [ih e he])
  · intro t d ih
    simp only [mapTag, strip, stripA_eq, mapTagA_eq, List.map_map]
    congr 1
    exact List.map_congr_left (fun e he => by simp [ih e he])

theorem strip_strip (v : Value) : v.strip.strip = v.strip := by
  refine Value.induct (P := fun v => v.strip.strip = v.strip) ?_ ?_ ?_ ?_ ?_ ?_ ?_ v
  iterate 5 (intro t v; rfl)
  · intro t d ih
    simp only [strip, stripD_eq, List.map_map]
    congr 1
    exact List.map_congr_left (fun e he => by simp [ih e he])
  · intro t d ih
    simp only [strip, stripA_eq, List.map_map]
    congr 1
    exact List.map_congr_left (fun e he => by simp [ih e he])

theorem shape_strip (v : Value) : v.strip.shape = v.shape.strip := by
  cases v <;> simp [strip, shape, Shape.strip]

theorem view_strip (v : Value) (p : List Str) : v.strip.view p = (v.view p).map Shape.strip := by
  induction p generalizing v with
  | nil => simp [shape_strip]
  | cons k ks ih =>
    by_cases h : v.asDict? = none
    · rw [view_leaf_cons h, view_leaf_cons (by rw [asDict_strip, h]; rfl)]; rfl
    · cases v <;> simp [asDict?] at h
      rename_i t' d
      rw [strip, view_dict_cons, view_dict_cons, get_stripD]
      cases Map.get k d with
      | none => rfl
      | some x => exact ih x

theorem wf_strip (v : Value) : v.WF → v.strip.WF := by
  refine Value.induct' (P := fun v => v.WF → v.strip.WF) ?_ ?_ ?_ v
  · intro v h1 h2 _
    exact wf_of_scalar (by rw [asDict_strip, h1]; rfl) (by rw [asArray_strip, h2]; rfl)
  · intro t d ih h
    rw [wf_dict] at h
    rw [strip, wf_dict]
    refine ⟨by rw [stripD_eq]; exact h.1.map_snd (fun e => e.2.strip), fun e he => ?_⟩
    rw [stripD_eq] at he
    obtain ⟨x, hx, rfl⟩ := List.mem_map.1 he
    exact ih x hx (h.2 x hx)
  · intro t a ih h
    rw [wf_array] at h
    rw [strip, wf_array]
    intro e he
    rw [stripA_eq] at he
    obtain ⟨x, hx, rfl⟩ := List.mem_map.1 he
    exact ih x hx (h x hx)

end Value

end Figment
