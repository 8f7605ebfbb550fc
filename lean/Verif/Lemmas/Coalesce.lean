import Verif.Lemmas.Value
import Verif.Model.Coalesce
import Verif.Spec.View
/-! # Lemmas about combining -/
namespace Figment

section
variable {κ : Type _} [Ord κ] [Std.TransOrd κ] {α : Type _}

/-- The pointwise rule of `Map::coalesce`. -/
def optCombine (f : α → α → α) : Option α → Option α → Option α
  | some x, some y => some (f x y)
  | some x, none => some x
  | none, y => y

theorem Map.get_coalesceLoop (f : α → α → α) (a other joined : Map κ α) (ha : Map.Sorted a)
    (ho : Map.Sorted other) (hj : ∀ e ∈ a, Map.get e.1 joined = none) (k : κ)
    (hd : ∀ k, (Map.get k joined).isSome → Map.get k other = none) :
    Map.get k (Map.coalesceLoop f a other joined)
      = (Map.get k joined).or (optCombine f (Map.get k a) (Map.get k other)) := by
  induction a generalizing other joined with
  | nil =>
    simp only [Map.coalesceLoop, Map.get_extend_sorted _ _ ho, Map.get_nil, optCombine]
    cases h : Map.get k joined with
    | none => simp
    | some v => simp [hd k (by simp [h])]
  | cons e r ih =>
    obtain ⟨j, v⟩ := e
    have hc := List.pairwise_cons.1 ha
    have hr : ∀ (w : α), ∀ e ∈ r, Map.get e.1 (Map.insert j w joined) = none := by
      intro w e he
      rw [Map.get_insert]
      have h1 := hc.1 _ he
      simp only at h1
      have h2 : compare e.1 j ≠ .eq := by
        rw [Ne, Map.cmp_symm, h1]; decide
      simp [h2, hj _ (List.mem_cons_of_mem _ he)]
    have hjj : Map.get j joined = none := hj (j, v) (List.mem_cons_self ..)
    have hjr : Map.get k joined = none ∨ compare k j ≠ .eq := by
      by_cases h : compare k j = .eq
      · left; rw [Map.get_congr h]; exact hjj
      · exact .inr h
    have hkr : compare k j = .eq → Map.get k r = none := by
      intro h
      refine Map.get_eq_none_of_forall ?_
      intro e he
      have h1 := hc.1 _ he
      simp only at h1
      rw [Map.cmp_congr_left h, h1]; decide
    rw [Map.coalesceLoop]
    split
    · rename_i b hb
      rw [ih _ _ ha.tail (ho.erase _) (hr _)]
      · rw [Map.get_insert, Map.get_erase]
        simp only [Map.get]
        by_cases h : compare k j = .eq
        · have hjn : Map.get k joined = none := by rw [Map.get_congr h]; exact hjj
          simp [h, hjn, optCombine, Map.get_congr h, hb]
        · simp [h]
      · intro k'
        rw [Map.get_insert, Map.get_erase]
        by_cases h : compare k' j = .eq
        · simp [h]
        · simpa [h] using hd k'
    · rename_i hb
      rw [ih _ _ ha.tail ho (hr _)]
      · rw [Map.get_insert]
        simp only [Map.get]
        by_cases h : compare k j = .eq
        · have hjn : Map.get k joined = none := by rw [Map.get_congr h]; exact hjj
          simp [h, hjn, optCombine, Map.get_congr h, hb]
        · simp [h]
      · intro k'
        rw [Map.get_insert]
        by_cases h : compare k' j = .eq
        · intro _; rw [Map.get_congr h]; exact hb
        · simpa [h] using hd k'

theorem Map.get_coalesce (f : α → α → α) {a b : Map κ α} (ha : Map.Sorted a) (hb : Map.Sorted b)
    (k : κ) : Map.get k (Map.coalesce f a b) = optCombine f (Map.get k a) (Map.get k b) := by
  rw [Map.coalesce, Map.get_coalesceLoop f a b [] ha hb (by simp) k (by simp)]
  simp

theorem Map.sorted_coalesceLoop (f : α → α → α) (a other joined : Map κ α) (hj : Map.Sorted joined) :
    Map.Sorted (Map.coalesceLoop f a other joined) := by
  induction a generalizing other joined with
  | nil => exact hj.extend _
  | cons e r ih =>
    obtain ⟨j, v⟩ := e
    rw [Map.coalesceLoop]
    split
    · exact ih _ _ (hj.insert _ _)
    · exact ih _ _ (hj.insert _ _)

theorem Map.sorted_coalesce (f : α → α → α) (a b : Map κ α) : Map.Sorted (Map.coalesce f a b) :=
  Map.sorted_coalesceLoop f a b [] Map.Sorted.nil

end

theorem Value.coalesceD_eq (a other joined : Dict) (o : Order) :
    Value.coalesceD a other joined o
      = Map.coalesceLoop (fun x y => Value.coalesce x y o) a other joined := by
  induction a generalizing other joined with
  | nil => simp [Value.coalesceD, Map.coalesceLoop]
  | cons e r ih =>
    obtain ⟨j, v⟩ := e
    rw [Value.coalesceD, Map.coalesceLoop]
    cases Map.get j other <;> exact ih _ _

theorem Dict.coalesce_eq (a b : Dict) (o : Order) :
    Dict.coalesce a b o = Map.coalesce (fun x y => Value.coalesce x y o) a b :=
  Value.coalesceD_eq a b [] o

theorem Dict.get_coalesce {a b : Dict} (ha : Map.Sorted a) (hb : Map.Sorted b) (o : Order) (k : Str) :
    Map.get k (Dict.coalesce a b o)
      = optCombine (fun x y => Value.coalesce x y o) (Map.get k a) (Map.get k b) := by
  rw [Dict.coalesce_eq, Map.get_coalesce _ ha hb]

theorem Dict.sorted_coalesce (a b : Dict) (o : Order) : Map.Sorted (Dict.coalesce a b o) := by
  rw [Dict.coalesce_eq]; exact Map.sorted_coalesce _ _ _

theorem Value.coalesce_dict (t t' : Tag) (a b : Dict) (o : Order) :
    Value.coalesce (.dict t a) (.dict t' b) o
      = .dict (match o with | .Join | .Adjoin => t | .Merge | .Admerge => t') (Dict.coalesce a b o) := by
  cases o <;> simp [Value.coalesce, Dict.coalesce]

theorem Value.coalesce_array (t t' : Tag) (a b : List Value) (o : Order) :
    Value.coalesce (.array t a) (.array t' b) o
      = match o with
        | .Adjoin | .Admerge => .array t (a ++ b)
        | .Join => .array t a
        | .Merge => .array t' b := by
  cases o <;> simp [Value.coalesce]

/-- Everything but dict/dict and array/array. -/
theorem Value.coalesce_other (a b : Value) (o : Order)
    (h1 : a.asDict? = none ∨ b.asDict? = none) (h2 : a.asArray? = none ∨ b.asArray? = none) :
    Value.coalesce a b o = match o with | .Join | .Adjoin => a | .Merge | .Admerge => b := by
  cases a <;> cases b <;> simp_all [Value.coalesce, asDict?, asArray?] <;> cases o <;> rfl

/-- Well-formedness is kept by combining. -/
theorem Value.wf_coalesce (o : Order) (a : Value) : ∀ b : Value, a.WF → b.WF → (a.coalesce b o).WF := by
  refine Value.induct' (P := fun a => ∀ b : Value, a.WF → b.WF → (a.coalesce b o).WF) ?_ ?_ ?_ a
  · intro a h1 h2 b ha hb
    rw [coalesce_other a b o (.inl h1) (.inl h2)]
    cases o <;> assumption
  · intro t d ih b ha hb
    by_cases h : b.asDict? = none
    · rw [coalesce_other _ b o (.inr h) (.inl rfl)]
      cases o <;> assumption
    · cases b <;> simp [asDict?] at h
      rename_i t' d'
      rw [coalesce_dict, wf_dict]
      have ha' := wf_dict.1 ha
      have hb' := wf_dict.1 hb
      refine ⟨Dict.sorted_coalesce _ _ _, ?_⟩
      intro e he
      have hg := Map.get_eq_some_of_mem (Dict.sorted_coalesce d d' o) he
      rw [Dict.get_coalesce ha'.1 hb'.1] at hg
      cases h1 : Map.get e.1 d with
      | none =>
        simp only [h1, optCombine] at hg
        exact wf_of_get hb hg
      | some x =>
        obtain ⟨k', hm, hk'⟩ := Map.mem_of_get h1
        cases h2 : Map.get e.1 d' with
        | none =>
          simp only [h1, h2, optCombine, Option.some.injEq] at hg
          rw [← hg]
          exact wf_of_get ha h1
        | some y =>
          simp only [h1, h2, optCombine, Option.some.injEq] at hg
          rw [← hg]
          exact ih _ hm y (wf_of_get ha h1) (wf_of_get hb h2)
  · intro t d ih b ha hb
    by_cases h : b.asArray? = none
    · rw [coalesce_other _ b o (.inl rfl) (.inr h)]
      cases o <;> assumption
    · cases b <;> simp [asArray?] at h
      rename_i t' d'
      rw [coalesce_array]
      have hb' := wf_array.1 hb
      cases o <;> simp only
      · exact hb
      · exact ha
      all_goals
        rw [wf_array] at *
        intro e he
        rcases List.mem_append.1 he with he | he
        · exact ha _ he
        · exact hb _ he

theorem Dict.wf_coalesce {a b : Dict} (o : Order) (ha : a.WF) (hb : b.WF) : (Dict.coalesce a b o).WF := by
  have := Value.wf_coalesce o (.dict Tag.Default a) (.dict Tag.Default b) ha hb
  rw [Value.coalesce_dict] at this
  exact Value.wf_dict'.1 this

/-! ## Views -/

namespace Value

@[simp] theorem view_nil (v : Value) : v.view [] = some v.shape := by
  cases v <;> rfl

theorem view_dict_cons (t : Tag) (d : Dict) (k : Str) (ks : List Str) :
    (Value.dict t d).view (k :: ks) = (Map.get k d).bind (fun v => v.view ks) := by
  rw [view]
  cases Map.get k d <;> rfl

theorem view_leaf_cons {v : Value} (h : v.asDict? = none) (k : Str) (ks : List Str) :
    v.view (k :: ks) = none := by
  cases v <;> simp_all [view, asDict?]

theorem shape_leaf {v : Value} (h : v.asDict? = none) : v.shape = .leaf v := by
  cases v <;> simp_all [shape, asDict?]

theorem blocked_nil (A : View) : View.blocked A [] = false := rfl

theorem blocked_dict_cons (t : Tag) (d : Dict) (k : Str) (ks : List Str) :
    View.blocked (Value.dict t d).view (k :: ks)
      = match Map.get k d with | some v => View.blocked v.view ks | none => false := by
  simp only [View.blocked, List.length_cons, List.range_succ_eq_map, List.any_cons, List.any_map,
    List.take_zero, view_nil, shape, Bool.false_or]
  cases h : Map.get k d with
  | none =>
    simp only [List.any_eq_false]
    intro n _
    simp [Function.comp, view_dict_cons, h]
  | some v =>
    simp [Function.comp_def, view_dict_cons, h]

theorem blocked_leaf_cons {v : Value} (h : v.asDict? = none) (k : Str) (ks : List Str) :
    View.blocked v.view (k :: ks) = true := by
  simp [View.blocked, List.range_succ_eq_map, shape_leaf h]

end Value

namespace Value

theorem asArray_of_shape {v : Value} {t : Tag} {a : List Value} (h : v.shape = .leaf (.array t a)) :
    v = .array t a := by
  cases v <;> simp_all [shape]

/-- Combining two values is, at every path, what the strategy's specification says. -/
theorem view_coalesce (o : Order) (a b : Value) (ha : a.WF) (hb : b.WF) (p : List Str) :
    (a.coalesce b o).view p = View.coalesce o a.view b.view p := by
  induction p generalizing a b with
  | nil =>
    by_cases h1 : a.asDict? = none ∨ b.asDict? = none
    · by_cases h2 : a.asArray? = none ∨ b.asArray? = none
      · rw [coalesce_other a b o h1 h2]
        cases o <;> simp [View.coalesce, View.merge, View.join, View.adjoin, View.admerge]
        all_goals
          split
          · rename_i t x t' y h3 h4
            rw [asArray_of_shape (Option.some.inj h3), asArray_of_shape (Option.some.inj h4)] at h2
            simp [asArray?] at h2
          · rfl
      · cases a <;> simp [asArray?] at h2
        cases b <;> simp at h2
        rw [coalesce_array]
        cases o <;> simp [View.coalesce, View.merge, View.join, View.adjoin, View.admerge, shape]
    · cases a <;> simp [asDict?] at h1
      cases b <;> simp at h1
      rw [coalesce_dict]
      cases o <;> simp [View.coalesce, View.merge, View.join, View.adjoin, View.admerge, shape]
  | cons k ks ih =>
    by_cases h1 : a.asDict? = none
    · -- existing side is a leaf
      by_cases h2 : b.asDict? = none
      · -- both leaves: nothing below
        have hres : (a.coalesce b o).asDict? = none := by
          by_cases h3 : a.asArray? = none ∨ b.asArray? = none
          · rw [coalesce_other a b o (.inl h1) h3]; cases o <;> assumption
          · cases a <;> simp [asArray?] at h3
            cases b <;> simp at h3
            rw [coalesce_array]; cases o <;> rfl
        rw [view_leaf_cons hres]
        cases o <;>
          simp [View.coalesce, View.merge, View.join, View.adjoin, View.admerge, view_leaf_cons h1,
            view_leaf_cons h2]
      · have h3 : b.asArray? = none := by
          cases b <;> simp_all [asDict?, asArray?]
        rw [coalesce_other a b o (.inl h1) (.inr h3)]
        cases o <;>
          simp [View.coalesce, View.merge, View.join, View.adjoin, View.admerge, view_leaf_cons h1,
            blocked_leaf_cons h1]
        all_goals (cases b.view (k :: ks) <;> simp)
    · have h3 : a.asArray? = none := by
        cases a <;> simp_all [asDict?, asArray?]
      by_cases h2 : b.asDict? = none
      · rw [coalesce_other a b o (.inr h2) (.inl h3)]
        cases o <;>
          simp [View.coalesce, View.merge, View.join, View.adjoin, View.admerge, view_leaf_cons h2,
            blocked_leaf_cons h2]
        all_goals (cases a.view (k :: ks) <;> simp)
      · cases a <;> simp [asDict?] at h1
        cases b <;> simp [asDict?] at h2
        rename_i t d t' d'
        have ha' := wf_dict.1 ha
        have hb' := wf_dict.1 hb
        rw [coalesce_dict, view_dict_cons, Dict.get_coalesce ha'.1 hb'.1]
        cases hx : Map.get k d with
        | none =>
          cases hy : Map.get k d' with
          | none =>
            cases o <;>
              simp [View.coalesce, View.merge, View.join, View.adjoin, View.admerge, view_dict_cons,
                hx, hy, optCombine]
          | some y =>
            cases o <;>
              simp [View.coalesce, View.merge, View.join, View.adjoin, View.admerge, view_dict_cons,
                blocked_dict_cons, hx, hy, optCombine]
            all_goals (cases y.view ks <;> simp)
        | some x =>
          cases hy : Map.get k d' with
          | none =>
            cases o <;>
              simp [View.coalesce, View.merge, View.join, View.adjoin, View.admerge, view_dict_cons,
                blocked_dict_cons, hx, hy, optCombine]
            all_goals (cases x.view ks <;> simp)
          | some y =>
            simp only [optCombine, Option.bind_some]
            rw [ih x y (wf_of_get ha hx) (wf_of_get hb hy)]
            cases o <;>
              simp [View.coalesce, View.merge, View.join, View.adjoin, View.admerge, view_dict_cons,
                blocked_dict_cons, hx, hy]

/-- Well-formed values that look the same at every path are equal. -/
theorem ext_view (a : Value) : ∀ b : Value, a.WF → b.WF → (∀ p, a.view p = b.view p) → a = b := by
  refine Value.induct' (P := fun a => ∀ b : Value, a.WF → b.WF → (∀ p, a.view p = b.view p) → a = b)
    ?_ ?_ ?_ a
  · intro a h1 h2 b ha hb h
    have h0 := h []
    simp only [view_nil, shape_leaf h1, Option.some.injEq] at h0
    by_cases h3 : b.asDict? = none
    · rw [shape_leaf h3] at h0; simpa using h0
    · cases b <;> simp [asDict?] at h3
      simp [shape] at h0
  · intro t d ih b ha hb h
    have h0 := h []
    simp only [view_nil, Option.some.injEq] at h0
    cases b <;> simp [shape] at h0
    rename_i t' d'
    subst h0
    have ha' := wf_dict.1 ha
    have hb' := wf_dict.1 hb
    congr 1
    refine Map.ext_of_sorted ha'.1 hb'.1 ?_
    intro k
    have hk : ∀ ks, (Map.get k d).bind (fun v => v.view ks) = (Map.get k d').bind (fun v => v.view ks) := by
      intro ks
      have := h (k :: ks)
      rwa [view_dict_cons, view_dict_cons] at this
    cases hx : Map.get k d with
    | none =>
      cases hy : Map.get k d' with
      | none => rfl
      | some y => have := hk []; simp [hx, hy] at this
    | some x =>
      cases hy : Map.get k d' with
      | none => have := hk []; simp [hx, hy] at this
      | some y =>
        obtain ⟨k', hm, _⟩ := Map.mem_of_get hx
        refine congrArg some (ih _ hm y (wf_of_get ha hx) (wf_of_get hb hy) ?_)
        intro p
        have := hk p
        simpa [hx, hy] using this
  · intro t d ih b ha hb h
    have h0 := h []
    simp only [view_nil, Option.some.injEq] at h0
    by_cases h3 : b.asDict? = none
    · rw [shape_leaf h3] at h0; simpa [shape] using h0
    · cases b <;> simp [asDict?] at h3
      simp [shape] at h0

end Value
end Figment
