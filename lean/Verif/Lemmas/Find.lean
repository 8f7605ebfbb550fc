import Verif.Model.Find
import Verif.Spec.Path
import Verif.Spec.View
import Verif.Lemmas.Coalesce
/-! # Lemmas about path lookup -/
namespace Figment

theorem Str.splitOn_ne_nil (sep : Char) (s : Str) : Str.splitOn sep s ≠ [] := by
  cases s with
  | nil => simp [Str.splitOn]
  | cons c cs =>
    rw [Str.splitOn]
    split
    · simp
    · split <;> simp

theorem Str.splitOn_append (sep : Char) (a b : Str) :
    Str.splitOn sep (a ++ sep :: b) = Str.splitOn sep a ++ Str.splitOn sep b := by
  induction a with
  | nil => simp [Str.splitOn]
  | cons c cs ih =>
    simp only [List.cons_append, Str.splitOn, ih]
    split
    · simp
    · cases h : Str.splitOn sep cs with
      | nil => exact absurd h (Str.splitOn_ne_nil _ _)
      | cons x xs => simp

theorem Str.splitOn_of_not_mem {sep : Char} {s : Str} (h : sep ∉ s) : Str.splitOn sep s = [s] := by
  induction s with
  | nil => rfl
  | cons c cs ih =>
    simp only [List.mem_cons, not_or] at h
    rw [Str.splitOn, ih h.2]
    simp [Ne.symm h.1]

theorem Str.join_splitOn (sep : Char) (s : Str) : Str.join [sep] (Str.splitOn sep s) = s := by
  induction s with
  | nil => rfl
  | cons c cs ih =>
    rw [Str.splitOn]
    split
    · rename_i h
      cases hs : Str.splitOn sep cs with
      | nil => exact absurd hs (Str.splitOn_ne_nil _ _)
      | cons x xs => rw [hs] at ih; simp [Str.join, ih, h]
    · cases hs : Str.splitOn sep cs with
      | nil => exact absurd hs (Str.splitOn_ne_nil _ _)
      | cons x xs =>
        rw [hs] at ih
        cases xs with
        | nil => simp only [Str.join] at ih ⊢; rw [ih]
        | cons y ys => simp only [Str.join] at ih ⊢; simp [← ih]

theorem Str.splitOn_join {sep : Char} {parts : List Str} (hne : parts ≠ []) (h : ∀ k ∈ parts, sep ∉ k) :
    Str.splitOn sep (Str.join [sep] parts) = parts := by
  induction parts with
  | nil => exact absurd rfl hne
  | cons k r ih =>
    cases r with
    | nil => exact Str.splitOn_of_not_mem (h k (List.mem_cons_self ..))
    | cons k' r' =>
      have : Str.join [sep] (k :: k' :: r') = k ++ sep :: Str.join [sep] (k' :: r') := by
        simp [Str.join]
      rw [this, Str.splitOn_append, Str.splitOn_of_not_mem (h k (List.mem_cons_self ..)),
        ih (by simp) fun x hx => h x (List.mem_cons_of_mem _ hx)]
      rfl

theorem Str.not_mem_of_mem_splitOn {sep : Char} {s : Str} {k : Str} (h : k ∈ Str.splitOn sep s) : sep ∉ k := by
  induction s generalizing k with
  | nil => simp [Str.splitOn] at h; simp [h]
  | cons c cs ih =>
    rw [Str.splitOn] at h
    split at h
    · rcases List.mem_cons.1 h with rfl | h
      · simp
      · exact ih h
    · rename_i hc
      cases hs : Str.splitOn sep cs with
      | nil => exact absurd hs (Str.splitOn_ne_nil _ _)
      | cons x xs =>
        rw [hs] at h ih
        rcases List.mem_cons.1 h with rfl | h
        · have := ih (List.mem_cons_self ..)
          simp [this, Ne.symm hc]
        · exact ih (List.mem_cons_of_mem _ h)

theorem pathKeys_nil : pathKeys [] = [] := rfl

theorem pathKeys_of_plain {a : Str} (h : plainPath a) : pathKeys a = Str.splitOn '.' a := by
  unfold plainPath at h
  rw [pathKeys]
  generalize Str.splitOn '.' a = l at h
  induction l with
  | nil => rfl
  | cons k ks ih =>
    have hk := h k (List.mem_cons_self ..)
    cases k with
    | nil => exact absurd rfl hk
    | cons c cs =>
      simp only [List.takeWhile_cons, List.isEmpty_cons, Bool.not_false, if_true]
      rw [ih fun k hk => h k (List.mem_cons_of_mem _ hk)]

theorem pathKeys_append {a : Str} (h : plainPath a) (b : Str) :
    pathKeys (a ++ '.' :: b) = pathKeys a ++ pathKeys b := by
  rw [pathKeys_of_plain h, pathKeys, Str.splitOn_append, List.takeWhile_append_of_pos]
  · rfl
  · intro k hk; simpa using h k hk

theorem pathKeys_append_not_plain {a : Str} (h : ¬ plainPath a) (b : Str) :
    pathKeys (a ++ '.' :: b) = pathKeys a := by
  rw [pathKeys, pathKeys, Str.splitOn_append]
  unfold plainPath at h
  generalize Str.splitOn '.' a = l at h
  induction l with
  | nil => simp at h
  | cons k ks ih =>
    cases k with
    | nil => simp
    | cons c cs =>
      simp only [List.cons_append, List.takeWhile_cons, List.isEmpty_cons, Bool.not_false, if_true]
      rw [ih (by simpa using h)]

namespace Value

theorem getKeys_dict_cons (t : Tag) (d : Dict) (k : Str) (ks : List Str) :
    (Value.dict t d).getKeys (k :: ks) = (Map.get k d).bind (fun v => v.getKeys ks) := by
  rw [getKeys]; cases Map.get k d <;> rfl

theorem getKeys_nil (v : Value) : v.getKeys [] = some v := by rw [getKeys]

theorem getKeys_leaf_cons {v : Value} (h : v.asDict? = none) (k : Str) (ks : List Str) :
    v.getKeys (k :: ks) = none := by
  cases v <;> simp_all [getKeys, asDict?]

theorem getKeys_append (a b : List Str) (v : Value) :
    v.getKeys (a ++ b) = (v.getKeys a).bind (fun w => w.getKeys b) := by
  induction a generalizing v with
  | nil => simp [getKeys_nil]
  | cons k ks ih =>
    by_cases h : v.asDict? = none
    · rw [List.cons_append, getKeys_leaf_cons h, getKeys_leaf_cons h]; rfl
    · cases v <;> simp [asDict?] at h
      rw [List.cons_append, getKeys_dict_cons, getKeys_dict_cons]
      rename_i d
      cases Map.get k d with
      | none => rfl
      | some w => exact ih w

theorem view_eq_getKeys (p : List Str) (v : Value) : v.view p = (v.getKeys p).map shape := by
  induction p generalizing v with
  | nil => simp [getKeys_nil]
  | cons k ks ih =>
    by_cases h : v.asDict? = none
    · rw [getKeys_leaf_cons h, view_leaf_cons h]; rfl
    · cases v <;> simp [asDict?] at h
      rw [getKeys_dict_cons, view_dict_cons]
      rename_i d
      cases Map.get k d with
      | none => rfl
      | some w => exact ih w

theorem getKeys_eq_some_iff_view {p : List Str} {v w : Value} (hw : w.asDict? = none) :
    v.getKeys p = some w ↔ v.view p = some (.leaf w) := by
  rw [view_eq_getKeys]
  cases v.getKeys p with
  | none => simp
  | some x =>
    simp only [Option.some.injEq, Option.map_some]
    constructor
    · rintro rfl; exact shape_leaf hw
    · intro h; cases x <;> simp_all [shape]

theorem findLoop_eq (l : List Str) (v : Value) :
    findLoop l v = v.getKeys (l.takeWhile fun k => !k.isEmpty) := by
  induction l generalizing v with
  | nil => simp [findLoop, getKeys_nil]
  | cons k ks ih =>
    rw [findLoop]
    cases hk : k.isEmpty with
    | true => simp [hk, getKeys_nil]
    | false =>
      simp only [List.takeWhile_cons, hk, Bool.not_false, if_true]
      by_cases h : v.asDict? = none
      · rw [getKeys_leaf_cons h]; simp [h]
      · cases v <;> simp [asDict?] at h
        rw [getKeys_dict_cons]
        simp only [asDict?]
        rename_i d
        cases Map.get k d with
        | none => rfl
        | some w => exact ih w

/-- `find` follows the keys of the path. -/
theorem find_eq (v : Value) (path : Str) : v.find path = v.getKeys (pathKeys path) := findLoop_eq _ _

theorem findRefLoop_eq (l : List Str) (v : Value) : findRefLoop l v = findLoop l v := by
  induction l generalizing v with
  | nil => rfl
  | cons k ks ih =>
    rw [findLoop, findRefLoop]
    split
    · cases v.asDict? with
      | none => rfl
      | some d =>
        simp only [Option.bind_some]
        cases Map.get k d with
        | none => rfl
        | some w => exact ih w
    · rfl

theorem findRef_eq (v : Value) (path : Str) : v.findRef path = v.find path := findRefLoop_eq _ _

theorem wf_getKeys {v w : Value} {p : List Str} (hv : v.WF) (h : v.getKeys p = some w) : w.WF := by
  induction p generalizing v with
  | nil => rw [getKeys_nil] at h; cases h; exact hv
  | cons k ks ih =>
    by_cases hd : v.asDict? = none
    · rw [getKeys_leaf_cons hd] at h; cases h
    · cases v <;> simp [asDict?] at hd
      rw [getKeys_dict_cons] at h
      rename_i d
      cases hg : Map.get k d with
      | none => simp [hg] at h
      | some x => simp only [hg, Option.bind_some] at h; exact ih (wf_of_get hv hg) h

/-- The dictionaries along a list of keys, without looking at emptiness. -/
def nestKeys : List Str → Value → Value
  | [], v => v
  | k :: ks, v => ofDict [(k, nestKeys ks v)]

theorem nestLoop_eq (l : List Str) (v : Value) :
    nestLoop l v = nestKeys (l.takeWhile fun k => !k.isEmpty) v := by
  induction l with
  | nil => simp [nestLoop, nestKeys]
  | cons k ks ih =>
    rw [nestLoop]
    cases hk : k.isEmpty with
    | true => simp [hk, nestKeys]
    | false => simp [hk, nestKeys, ih, Map.insert]

end Value

theorem nest_eq (key : Str) (v : Value) : nest key v = Value.nestKeys (pathKeys key) v :=
  Value.nestLoop_eq _ _

namespace Value

theorem getKeys_nestKeys_self (ks r : List Str) (v : Value) :
    (nestKeys ks v).getKeys (ks ++ r) = v.getKeys r := by
  induction ks with
  | nil => rfl
  | cons k ks ih =>
    rw [nestKeys, ofDict, List.cons_append, getKeys_dict_cons]
    simp only [Map.get, Std.ReflCmp.compare_self, if_true, Option.bind_some]
    exact ih

theorem getKeys_nestKeys_prefix (q r : List Str) (v : Value) :
    (nestKeys (q ++ r) v).getKeys q = some (nestKeys r v) := by
  induction q with
  | nil => rw [getKeys_nil]; rfl
  | cons k ks ih =>
    rw [List.cons_append, nestKeys, ofDict, getKeys_dict_cons]
    simp only [Map.get, Std.ReflCmp.compare_self, if_true, Option.bind_some]
    exact ih

theorem getKeys_nestKeys_none (ks q : List Str) (v : Value) (h1 : ¬ ks <+: q) (h2 : ¬ q <+: ks) :
    (nestKeys ks v).getKeys q = none := by
  induction ks generalizing q with
  | nil => exact absurd (List.nil_prefix) h1
  | cons k ks ih =>
    cases q with
    | nil => exact absurd (List.nil_prefix) h2
    | cons j q =>
      rw [nestKeys, ofDict, getKeys_dict_cons]
      simp only [Map.get]
      by_cases hk : j = k
      · subst hk
        simp only [Std.ReflCmp.compare_self, if_true, Option.bind_some]
        refine ih q ?_ ?_
        · intro h; exact h1 (List.cons_prefix_cons.2 ⟨rfl, h⟩)
        · intro h; exact h2 (List.cons_prefix_cons.2 ⟨rfl, h⟩)
      · have : compare j k ≠ .eq := by
          rw [Ne, Std.LawfulEqOrd.compare_eq_iff_eq]; exact hk
        simp [this]

theorem wf_nestKeys (ks : List Str) {v : Value} (h : v.WF) : (nestKeys ks v).WF := by
  induction ks with
  | nil => exact h
  | cons k ks ih =>
    rw [nestKeys, ofDict, wf_dict]
    exact ⟨List.pairwise_singleton .., by simpa using ih⟩

end Value
end Figment
