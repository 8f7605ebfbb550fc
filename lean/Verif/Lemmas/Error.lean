import Verif.Spec.Errors
/-! # Lemmas about errors -/
namespace Figment.Error

/-- The errors of a chain, each alone. -/
def items : Error → List Error
  | last h => [last h]
  | cons h p => last h :: items p

theorem yields_items (e : Error) : Yields (some e) (items e) := by
  induction e with
  | last h => exact .more (e := last h) (s' := none) rfl (.done (s' := none) rfl)
  | cons h p ih => exact .more (e := last h) (s' := some p) rfl ih

theorem yields_unique {s : Option Error} {l l' : List Error} (h : Yields s l) (h' : Yields s l') : l = l' := by
  induction h generalizing l' with
  | done h =>
    cases h' with
    | done _ => rfl
    | more h' _ => rw [h] at h'; cases h'
  | more h _ ih =>
    cases h' with
    | done h' => rw [h] at h'; cases h'
    | more h' r' =>
      rw [h] at h'
      simp only [Prod.mk.injEq, Option.some.injEq] at h'
      obtain ⟨rfl, rfl⟩ := h'
      rw [ih r']

theorem yields_iff {e : Error} {l : List Error} : Yields (some e) l ↔ l = items e :=
  ⟨fun h => yields_unique h (yields_items e), fun h => h ▸ yields_items e⟩

theorem count_eq (e : Error) : e.count = (items e).length := by
  induction e with
  | last h => rfl
  | cons h p ih => simp [count, items, ih, Nat.add_comm]

theorem items_prev {e x : Error} (h : x ∈ items e) : x.prev = none := by
  induction e with
  | last h' => simp [items] at h; simp [h, prev]
  | cons h' p ih =>
    simp only [items, List.mem_cons] at h
    rcases h with rfl | h
    · rfl
    · exact ih h

theorem items_of_prev_none {e : Error} (h : e.prev = none) : items e = [e] := by
  cases e with
  | last h' => rfl
  | cons h' p => cases h

theorem items_setPrev_some (e p : Error) : items (e.setPrev (some p)) = last e.head :: items p := rfl

theorem items_setPrev_none (e : Error) : items (e.setPrev none) = [last e.head] := rfl

theorem head_setPrev (p : Option Error) (e : Error) : (e.setPrev p).head = e.head := by
  cases p <;> rfl

theorem head_mapHead (f : ErrorHead → ErrorHead) (e : Error) : (e.mapHead f).head = f e.head := by
  cases e <;> rfl

theorem prev_mapHead (f : ErrorHead → ErrorHead) (e : Error) : (e.mapHead f).prev = e.prev := by
  cases e <;> rfl

theorem prev_setPrev (p : Option Error) (e : Error) : (e.setPrev p).prev = p := by
  cases p <;> rfl

theorem prev_retagged (t : Tag) (e : Error) : (e.retagged t).prev = e.prev := by
  rw [retagged]; split
  · exact prev_mapHead _ _
  · rfl

theorem what_retagged (t : Tag) (e : Error) : (e.retagged t).what = e.what := by
  rw [retagged]; split
  · simp [what, head_mapHead]
  · rfl

theorem what_setPrev (p : Option Error) (e : Error) : (e.setPrev p).what = e.what := by
  rw [what, head_setPrev]; rfl

theorem what_last_head (e : Error) : (last e.head).what = e.what := rfl

theorem items_resolved (md : Map Tag Metadata) (pr : Profile) (e : Error) :
    items (e.resolved md pr) = (items e).map (resolved md pr) := by
  induction e with
  | last h => rfl
  | cons h p ih => simp [items, resolved, ih]

end Figment.Error
