/-!
# Ordered maps

`BTreeMap<K, V>` (`figment::value::Map`, value/value.rs:11) as an association list. `insert` keeps
the list sorted; keys are compared with the key type's `Ord`, so "same key" means
`compare a b = .eq`. As in `BTreeMap`, inserting over an existing key keeps the old key and replaces
the value.
-/

set_option linter.unusedSectionVars false

namespace Figment

/-- `BTreeMap<K, V>`; see `Map.Sorted` for the representation invariant. The alias `Map`: value/value.rs:11. -/
abbrev Map (κ : Type _) (α : Type _) := List (κ × α)

namespace Map
variable {κ : Type _} {α β : Type _} [Ord κ]

/-- `BTreeMap::get` (std).
Called at value/value.rs:182, figment.rs:819, figment.rs:852, value/magic.rs:505, value/magic.rs:585. -/
def get (k : κ) : Map κ α → Option α
  | [] => none
  | (k', v) :: r => if compare k k' = .eq then some v else get k r

/-- `BTreeMap::insert` (std).
Called at figment.rs:155, coalesce.rs:42-43, profile.rs:209, util.rs:276, value/de.rs:504. -/
def insert (k : κ) (v : α) : Map κ α → Map κ α
  | [] => [(k, v)]
  | (k', v') :: r =>
    match compare k k' with
    | .lt => (k, v) :: (k', v') :: r
    | .eq => (k', v) :: r
    | .gt => (k', v') :: insert k v r

/-- `BTreeMap::remove` (std), the remaining map; the removed value is `get`.
Called at coalesce.rs:41, figment.rs:354-357, value/value.rs:142. -/
def erase (k : κ) : Map κ α → Map κ α
  | [] => []
  | (k', v) :: r => if compare k k' = .eq then erase k r else (k', v) :: erase k r

/-- `BTreeMap::extend` (std): inserts the entries one by one.
Called at coalesce.rs:48, figment.rs:144, value/parse.rs:119. -/
def extend (m : Map κ α) (new : List (κ × α)) : Map κ α :=
  new.foldl (fun m e => insert e.1 e.2 m) m

/-- `FromIterator for BTreeMap` (std): of two entries with the same key the later value stays.
Called at value/value.rs:490, value/ser.rs:334, figment.rs:425. -/
def ofList (l : List (κ × α)) : Map κ α := extend [] l

/-- `BTreeMap::keys` (std). Called at figment.rs:690. -/
def keys (m : Map κ α) : List κ := m.map (·.1)

/-- Keys strictly increase: the representation invariant of a `BTreeMap`. Of the maps of value/value.rs:11. -/
def Sorted (m : Map κ α) : Prop := m.Pairwise (fun a b => compare a.1 b.1 = .lt)

instance [DecidableEq κ] (m : Map κ α) : Decidable (Sorted m) :=
  inferInstanceAs (Decidable (m.Pairwise _))

/-! ## Lemmas -/

section
variable [Std.TransOrd κ]

theorem cmp_congr_left {a b c : κ} (h : compare a b = .eq) : compare a c = compare b c :=
  Std.TransCmp.congr_left h

theorem cmp_congr_right {a b c : κ} (h : compare b c = .eq) : compare a b = compare a c :=
  Std.TransCmp.congr_right h

theorem cmp_symm {a b : κ} : compare a b = .eq ↔ compare b a = .eq :=
  ⟨Std.OrientedCmp.eq_symm, Std.OrientedCmp.eq_symm⟩

@[simp] theorem get_nil (k : κ) : get k ([] : Map κ α) = none := rfl

theorem get_congr {k k' : κ} (h : compare k k' = .eq) (m : Map κ α) : get k m = get k' m := by
  induction m with
  | nil => rfl
  | cons e r ih => simp only [get, ih, cmp_congr_left h]

theorem get_insert (k k' : κ) (v : α) (m : Map κ α) :
    get k (insert k' v m) = if compare k k' = .eq then some v else get k m := by
  induction m with
  | nil => simp [insert, get]
  | cons e r ih =>
    obtain ⟨j, w⟩ := e
    rw [insert]
    split
    · simp [get]
    · rename_i h
      simp only [get]
      rw [cmp_congr_right (a := k) h]
      split <;> rfl
    · rename_i h
      simp only [get, ih]
      by_cases h1 : compare k j = .eq
      · have : compare k k' ≠ .eq := by
          intro h2
          have h3 := cmp_congr_left (c := j) h2
          rw [h1, h] at h3
          cases h3
        simp [h1, this]
      · simp [h1]

theorem get_erase (k k' : κ) (m : Map κ α) :
    get k (erase k' m) = if compare k k' = .eq then none else get k m := by
  induction m with
  | nil => simp [erase]
  | cons e r ih =>
    obtain ⟨j, w⟩ := e
    simp only [erase]
    by_cases h : compare k' j = .eq
    · simp only [h, if_true, ih, get]
      rw [cmp_congr_right (a := k) h]
      split <;> rfl
    · simp only [h, if_false, get, ih]
      by_cases h1 : compare k j = .eq
      · have : compare k k' ≠ .eq := by
          intro h2
          exact h (by rw [← cmp_congr_left h2]; exact h1)
        simp [h1, this]
      · simp [h1]

theorem mem_of_get {k : κ} {v : α} {m : Map κ α} (h : get k m = some v) :
    ∃ k', (k', v) ∈ m ∧ compare k k' = .eq := by
  induction m with
  | nil => simp at h
  | cons e r ih =>
    obtain ⟨j, w⟩ := e
    simp only [get] at h
    split at h
    · exact ⟨j, by simp_all, by assumption⟩
    · obtain ⟨k', h1, h2⟩ := ih h
      exact ⟨k', List.mem_cons_of_mem _ h1, h2⟩

theorem get_isSome_of_mem {k : κ} {v : α} {m : Map κ α} (h : (k, v) ∈ m) : (get k m).isSome := by
  induction m with
  | nil => simp at h
  | cons e r ih =>
    obtain ⟨j, w⟩ := e
    simp only [get]
    split
    · rfl
    · rcases List.mem_cons.1 h with h | h
      · cases h
        rename_i hne
        exact absurd Std.ReflCmp.compare_self hne
      · exact ih h

theorem Sorted.tail {e : κ × α} {m : Map κ α} (h : Sorted (e :: m)) : Sorted m :=
  (List.pairwise_cons.1 h).2

theorem get_eq_some_of_mem {k : κ} {v : α} {m : Map κ α} (hs : Sorted m) (h : (k, v) ∈ m) :
    get k m = some v := by
  induction m with
  | nil => simp at h
  | cons e r ih =>
    obtain ⟨j, w⟩ := e
    simp only [get]
    rcases List.mem_cons.1 h with h | h
    · cases h
      simp [Std.ReflCmp.compare_self]
    · have h1 := (List.pairwise_cons.1 hs).1 _ h
      have : compare k j ≠ .eq := by
        intro h2
        rw [cmp_symm] at h2
        simp only at h1
        rw [h2] at h1
        cases h1
      simp [this, ih hs.tail h]

theorem mem_insert {k : κ} {v : α} {m : Map κ α} {e : κ × α} (h : e ∈ insert k v m) :
    e.2 = v ∧ compare k e.1 = .eq ∨ e ∈ m := by
  induction m with
  | nil =>
    simp only [insert, List.mem_singleton] at h
    subst h
    exact .inl ⟨rfl, Std.ReflCmp.compare_self⟩
  | cons e' r ih =>
    obtain ⟨j, w⟩ := e'
    rw [insert] at h
    split at h
    · rcases List.mem_cons.1 h with h | h
      · subst h
        exact .inl ⟨rfl, Std.ReflCmp.compare_self⟩
      · exact .inr h
    · rename_i hc
      rcases List.mem_cons.1 h with h | h
      · subst h
        exact .inl ⟨rfl, hc⟩
      · exact .inr (List.mem_cons_of_mem _ h)
    · rcases List.mem_cons.1 h with h | h
      · exact .inr (h ▸ List.mem_cons_self ..)
      · rcases ih h with h | h
        · exact .inl h
        · exact .inr (List.mem_cons_of_mem _ h)

theorem mem_erase {k : κ} {m : Map κ α} {e : κ × α} (h : e ∈ erase k m) : e ∈ m := by
  induction m with
  | nil => simp [erase] at h
  | cons e' r ih =>
    obtain ⟨j, w⟩ := e'
    simp only [erase] at h
    split at h
    · exact List.mem_cons_of_mem _ (ih h)
    · rcases List.mem_cons.1 h with h | h
      · exact h ▸ List.mem_cons_self ..
      · exact List.mem_cons_of_mem _ (ih h)

theorem Sorted.insert {m : Map κ α} (h : Sorted m) (k : κ) (v : α) : Sorted (insert k v m) := by
  induction m with
  | nil => simp [Map.insert, Sorted]
  | cons e r ih =>
    obtain ⟨j, w⟩ := e
    have hc := List.pairwise_cons.1 h
    rw [Map.insert]
    split
    · rename_i hlt
      refine List.pairwise_cons.2 ⟨?_, h⟩
      intro e he
      rcases List.mem_cons.1 he with he | he
      · subst he; exact hlt
      · exact Std.TransCmp.lt_trans hlt (hc.1 _ he)
    · exact List.pairwise_cons.2 ⟨hc.1, hc.2⟩
    · rename_i hgt
      refine List.pairwise_cons.2 ⟨?_, ih h.tail⟩
      intro e he
      rcases mem_insert he with ⟨_, h2⟩ | he
      · simp only
        rw [← cmp_congr_right (a := j) h2]
        exact Std.OrientedCmp.gt_iff_lt.1 hgt
      · exact hc.1 _ he

theorem Sorted.erase {m : Map κ α} (h : Sorted m) (k : κ) : Sorted (erase k m) := by
  induction m with
  | nil => simp [Map.erase, Sorted]
  | cons e r ih =>
    obtain ⟨j, w⟩ := e
    have hc := List.pairwise_cons.1 h
    simp only [Map.erase]
    split
    · exact ih h.tail
    · exact List.pairwise_cons.2 ⟨fun e he => hc.1 _ (mem_erase he), ih h.tail⟩

theorem Sorted.nil : Sorted ([] : Map κ α) := List.Pairwise.nil

theorem Sorted.extend {m : Map κ α} (h : Sorted m) (l : List (κ × α)) : Sorted (extend m l) := by
  induction l generalizing m with
  | nil => exact h
  | cons e r ih => exact ih (h.insert _ _)

theorem Sorted.ofList (l : List (κ × α)) : Sorted (ofList l) := Sorted.nil.extend l

/-- Lookup after `extend`: the last entry of the new list with that key, else the old map. -/
theorem get_extend (k : κ) (m : Map κ α) (l : List (κ × α)) :
    get k (extend m l) = (get k l.reverse).or (get k m) := by
  induction l generalizing m with
  | nil => simp [extend]
  | cons e r ih =>
    have hx : extend m (e :: r) = extend (insert e.1 e.2 m) r := rfl
    rw [hx, ih, get_insert, List.reverse_cons]
    have happ : ∀ (a b : Map κ α), get k (a ++ b) = (get k a).or (get k b) := by
      intro a b
      induction a with
      | nil => simp
      | cons x a iha =>
        obtain ⟨j, w⟩ := x
        simp only [List.cons_append, get, iha]
        split <;> simp
    rw [happ]
    obtain ⟨j, w⟩ := e
    simp only [get]
    by_cases h : compare k j = .eq <;> simp [h]

theorem get_append (k : κ) (a b : Map κ α) : get k (a ++ b) = (get k a).or (get k b) := by
  induction a with
  | nil => simp
  | cons x a iha =>
    obtain ⟨j, w⟩ := x
    simp only [List.cons_append, get, iha]
    split <;> simp

theorem get_reverse_of_sorted {m : Map κ α} (h : Sorted m) (k : κ) :
    get k m.reverse = get k m := by
  induction m with
  | nil => rfl
  | cons e r ih =>
    obtain ⟨j, w⟩ := e
    rw [List.reverse_cons, get_append, ih h.tail]
    simp only [get]
    by_cases hk : compare k j = .eq
    · have : get k r = none := by
        cases hg : get k r with
        | none => rfl
        | some v =>
          obtain ⟨k', h1, h2⟩ := mem_of_get hg
          have h3 := (List.pairwise_cons.1 h).1 _ h1
          simp only at h3
          rw [← cmp_congr_left hk, h2] at h3
          cases h3
      simp [this, hk]
    · simp [hk]

theorem get_extend_sorted (k : κ) (m : Map κ α) {l : Map κ α} (h : Sorted l) :
    get k (extend m l) = (get k l).or (get k m) := by
  rw [get_extend, get_reverse_of_sorted h]

theorem get_eq_none_of_forall {k : κ} {m : Map κ α} (h : ∀ e ∈ m, compare k e.1 ≠ .eq) :
    get k m = none := by
  cases hg : get k m with
  | none => rfl
  | some v =>
    obtain ⟨k', h1, h2⟩ := mem_of_get hg
    exact absurd h2 (h _ h1)

theorem get_none_of_lt {k : κ} {e : κ × α} {m : Map κ α} (h : Sorted (e :: m))
    (hk : compare k e.1 = .lt) : get k (e :: m) = none := by
  refine get_eq_none_of_forall ?_
  intro e' he'
  rcases List.mem_cons.1 he' with rfl | he'
  · rw [hk]; decide
  · have := Std.TransCmp.lt_trans hk ((List.pairwise_cons.1 h).1 _ he')
    rw [this]; decide

/-- Sorted maps are determined by their lookups (for keys whose order identifies only equal keys). -/
theorem ext_of_sorted [Std.LawfulEqOrd κ] {a b : Map κ α} (ha : Sorted a) (hb : Sorted b)
    (h : ∀ k, get k a = get k b) : a = b := by
  induction a generalizing b with
  | nil =>
    cases b with
    | nil => rfl
    | cons e r =>
      have := h e.1
      obtain ⟨j, w⟩ := e
      simp [get, Std.ReflCmp.compare_self] at this
  | cons e r ih =>
    cases b with
    | nil =>
      have := h e.1
      obtain ⟨j, w⟩ := e
      simp [get, Std.ReflCmp.compare_self] at this
    | cons e' r' =>
      have key : compare e.1 e'.1 = .eq := by
        cases hc : compare e.1 e'.1 with
        | eq => rfl
        | lt =>
          have h1 := h e.1
          rw [get_none_of_lt hb hc] at h1
          obtain ⟨j, w⟩ := e
          simp [get, Std.ReflCmp.compare_self] at h1
        | gt =>
          have h1 := h e'.1
          rw [get_none_of_lt ha (Std.OrientedCmp.gt_iff_lt.1 hc)] at h1
          obtain ⟨j, w⟩ := e'
          simp [get, Std.ReflCmp.compare_self] at h1
      have hk : e.1 = e'.1 := Std.LawfulEqCmp.eq_of_compare key
      obtain ⟨j, w⟩ := e
      obtain ⟨j', w'⟩ := e'
      simp only at hk
      subst hk
      have hv : w = w' := by
        have := h j
        simpa [get, Std.ReflCmp.compare_self] using this
      subst hv
      congr 1
      refine ih ha.tail hb.tail ?_
      intro k
      have := h k
      simp only [get] at this
      split at this
      · rename_i hkj
        have e1 : ∀ (x : Map κ α), Sorted ((j, w) :: x) → get k x = none := by
          intro x hx
          refine get_eq_none_of_forall ?_
          intro e he
          have := (List.pairwise_cons.1 hx).1 _ he
          simp only at this
          rw [← cmp_congr_left hkj] at this
          rw [this]; decide
        rw [e1 r ha, e1 r' hb]
      · exact this

theorem mem_keys_iff [Std.LawfulEqOrd κ] {k : κ} {m : Map κ α} : k ∈ keys m ↔ (get k m).isSome := by
  constructor
  · intro h
    simp only [keys, List.mem_map] at h
    obtain ⟨⟨k', v⟩, h1, rfl⟩ := h
    exact get_isSome_of_mem h1
  · intro h
    obtain ⟨v, hv⟩ := Option.isSome_iff_exists.1 h
    obtain ⟨k', h1, h2⟩ := mem_of_get hv
    have := Std.LawfulEqCmp.eq_of_compare h2
    subst this
    exact List.mem_map.2 ⟨_, h1, rfl⟩

theorem get_map_snd (f : α → β) (k : κ) (m : Map κ α) :
    get k (m.map (fun e => (e.1, f e.2))) = (get k m).map f := by
  induction m with
  | nil => rfl
  | cons e r ih =>
    obtain ⟨j, w⟩ := e
    simp only [List.map_cons, get, ih]
    split <;> rfl

theorem Sorted.map_snd {m : Map κ α} (h : Sorted m) (f : κ × α → β) :
    Sorted (m.map (fun e => (e.1, f e))) := by
  refine List.Pairwise.map _ ?_ h
  intro a b h
  exact h

end
end Map
end Figment
