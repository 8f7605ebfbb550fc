import Verif.Spec.Local
import Verif.Lemmas.Order
/-! # Lemmas: combining is local -/
namespace Figment

theorem Along.take {keys p : List Str} (h : Along keys p) (n : Nat) : Along keys (p.take n) := by
  rcases h with h | h
  · exact .inl ((List.take_prefix n p).trans h)
  · rcases List.prefix_or_prefix_of_prefix h (List.take_prefix n p) with h' | h'
    · exact .inr h'
    · exact .inl h'

namespace View

/-- The views are the same along the path. -/
def EqAlong (keys : List Str) (A B : View) : Prop := ∀ p, Along keys p → A p = B p

theorem EqAlong.blocked {keys : List Str} {A B : View} (h : EqAlong keys A B) {p : List Str} (hp : Along keys p) :
    View.blocked A p = View.blocked B p := by
  unfold View.blocked
  congr 1
  funext n
  rw [h _ (hp.take n)]

theorem EqAlong.merge {keys : List Str} {A A' B B' : View} (hA : EqAlong keys A A') (hB : EqAlong keys B B') :
    EqAlong keys (View.merge A B) (View.merge A' B') := by
  intro p hp
  unfold View.merge
  rw [hA p hp, hB p hp, hB.blocked hp]

theorem EqAlong.coalesce {keys : List Str} (o : Order) {A A' B B' : View} (hA : EqAlong keys A A')
    (hB : EqAlong keys B B') : EqAlong keys (View.coalesce o A B) (View.coalesce o A' B') := by
  intro p hp
  have h1 := hA p hp
  have h2 := hB p hp
  have h3 := hA.blocked hp
  have h4 := hB.blocked hp
  cases o <;> simp only [View.coalesce, View.merge, View.join, View.adjoin, View.admerge, h1, h2, h3, h4]

/-- What has nothing along the path changes nothing there. -/
theorem EqAlong.nothing {keys : List Str} (o : Order) {A B : View} (hA : A [] = some (.dict Tag.Default))
    (hB : B [] = some (.dict Tag.Default)) (h : ∀ p, p ≠ [] → Along keys p → B p = none) :
    EqAlong keys (View.coalesce o A B) A := by
  intro p hp
  by_cases hne : p = []
  · subst hne
    cases o <;> simp [View.coalesce, View.merge, View.join, View.adjoin, View.admerge, hA, hB]
  · have hb : View.blocked B p = false := by
      cases hb : View.blocked B p with
      | false => rfl
      | true =>
        obtain ⟨n, hn, v, hv⟩ := blocked_iff.1 hb
        by_cases h0 : p.take n = []
        · rw [h0, hB] at hv; cases hv
        · rw [h _ h0 (hp.take n)] at hv; cases hv
    have h1 := h p hne hp
    cases o
    · simp only [View.coalesce, View.merge, h1, hb]; rfl
    · simp only [View.coalesce, View.join, h1]
      cases A p <;> simp
    · simp only [View.coalesce, View.adjoin, View.join, h1]
      cases A p <;> simp
    · simp only [View.coalesce, View.admerge, View.merge, h1, hb]
      split
      · next h => cases h
      · rfl

theorem coalesce_root (o : Order) {A B : View} (hA : A [] = some (.dict Tag.Default))
    (hB : B [] = some (.dict Tag.Default)) : View.coalesce o A B [] = some (.dict Tag.Default) := by
  cases o <;> simp [View.coalesce, View.merge, View.join, View.adjoin, View.admerge, hA, hB]

end View

theorem OpsAlong.views {keys : List Str} {ops ops' : List Op} (h : OpsAlong keys ops ops') (pr : Profile) :
    ∀ A A' : View, A [] = some (.dict Tag.Default) → A' [] = some (.dict Tag.Default) → View.EqAlong keys A A' →
      View.EqAlong keys (ops.foldl (Op.after pr) A) (ops'.foldl (Op.after pr) A') := by
  have root : ∀ m : Data, (m.at pr).strip [] = some (.dict Tag.Default) := fun m => rfl
  have none_strip : ∀ {m : Data}, m.NothingAlong keys → ∀ p, p ≠ [] → Along keys p → (m.at pr).strip p = none := by
    intro m hm p hne hp
    simp [View.strip, hm pr p hne hp]
  induction h with
  | nil => exact fun A A' _ _ h => h
  | select p _ ih => exact fun A A' hA hA' h => ih A A' hA hA' h
  | @add r r' x y a b ho _ hx hy hab _ ih =>
    intro A A' hA hA' h
    simp only [List.foldl_cons]
    rw [Op.after_add hx, Op.after_add hy, ho]
    exact ih _ _ (View.coalesce_root _ hA (root a)) (View.coalesce_root _ hA' (root b))
      (View.EqAlong.coalesce _ h fun p hp => hab pr p hp)
  | @left r r' x a hx _ hn _ ih =>
    intro A A' hA hA' h
    simp only [List.foldl_cons]
    rw [Op.after_add hx]
    refine ih _ _ (View.coalesce_root _ hA (root a)) hA' fun p hp => ?_
    rw [View.EqAlong.nothing _ hA (root a) (none_strip hn) p hp, h p hp]
  | @right r r' y b hy _ hn _ ih =>
    intro A A' hA hA' h
    simp only [List.foldl_cons]
    rw [Op.after_add hy]
    refine ih _ _ hA (View.coalesce_root _ hA' (root b)) fun p hp => ?_
    rw [View.EqAlong.nothing _ hA' (root b) (none_strip hn) p hp, h p hp]

theorem OpsAlong.selected {keys : List Str} {ops ops' : List Op} (h : OpsAlong keys ops ops') :
    ops.filterMap Op.selects = ops'.filterMap Op.selects := by
  induction h with
  | nil => rfl
  | select p _ ih => simp only [List.filterMap_cons, Op.selects, ih]
  | @add r r' x y a b ho hp hx hy hab _ ih =>
    have : (Op.add x).selects = (Op.add y).selects := by simp only [Op.selects, ho, hp]
    simp only [List.filterMap_cons, this, ih]
  | @left r r' x a hx hp hn _ ih =>
    have : (Op.add x).selects = none := by simp only [Op.selects, hp]; split <;> rfl
    simp only [List.filterMap_cons, this, ih]
  | @right r r' x a hx hp hn _ ih =>
    have : (Op.add x).selects = none := by simp only [Op.selects, hp]; split <;> rfl
    simp only [List.filterMap_cons, this, ih]

theorem OpsAlong.result {keys : List Str} {ops ops' : List Op} (h : OpsAlong keys ops ops') :
    View.EqAlong keys (historyResult ops) (historyResult ops') := by
  have hv : ∀ pr, View.EqAlong keys (historyView ops pr) (historyView ops' pr) := fun pr =>
    h.views pr _ _ rfl rfl fun _ _ => rfl
  have hs : historySelected ops = historySelected ops' := by rw [historySelected, historySelected, h.selected]
  unfold historyResult
  rw [hs]
  split
  · exact ((hv _).merge (hv _)).merge (hv _)
  · exact (hv _).merge (hv _)

/-- What is at the path is the same if the views are the same along it. -/
theorem Value.getKeys_along {keys : List Str} {v w : Value} (hv : v.WF) (hw : w.WF)
    (h : View.EqAlong keys v.view w.view) : v.getKeys keys = w.getKeys keys :=
  Value.getKeys_eq_of_view hv hw fun q => h _ (.inr (List.prefix_append keys q))

end Figment
