import Verif.Spec.Order
import Verif.Lemmas.Strip
/-! # Lemmas: when combining may be reordered -/
namespace Figment
namespace View

/-- Where both have something it is the same. -/
def Agree (A B : View) : Prop := ∀ p s t, A p = some s → B p = some t → s = t

theorem Agree.symm {A B : View} (h : Agree A B) : Agree B A := fun p s t hs ht => (h p t s ht hs).symm

theorem Tree.not_blocked {A B : View} (hB : Tree B) (h : Agree A B) {p : List Str} {t : Shape} (hp : B p = some t) :
    View.blocked A p = false := by
  cases hb : View.blocked A p with
  | false => rfl
  | true =>
    obtain ⟨n, hn, v, hv⟩ := blocked_iff.1 hb
    obtain ⟨t', ht'⟩ := hB p n hn (by simp [hp])
    cases h _ _ _ hv ht'

/-- Combining where what comes in decides, but may take up what was there. -/
def layOver (g : Option Shape → Shape → Shape) (A B : View) : View := fun p =>
  match B p with
  | some t => some (g (A p) t)
  | none => if View.blocked B p then none else A p

theorem layOver_swap (g : Option Shape → Shape → Shape) {P A B : View} (hA : Tree A) (hB : Tree B) (h : Agree A B) :
    layOver g (layOver g P A) B = layOver g (layOver g P B) A := by
  funext p
  cases ha : A p with
  | none =>
    cases hb : B p with
    | none =>
      simp only [layOver, ha, hb]
      cases View.blocked A p <;> cases View.blocked B p <;> rfl
    | some t => simp [layOver, ha, hb, Tree.not_blocked hB h hb]
  | some s =>
    cases hb : B p with
    | none => simp [layOver, ha, hb, Tree.not_blocked hA h.symm ha]
    | some t =>
      cases h p s t ha hb
      simp [layOver, ha, hb]

/-- Combining where what was there decides, but may take up what comes in. -/
def layUnder (g : Shape → Option Shape → Shape) (A B : View) : View := fun p =>
  match A p with
  | some s => some (g s (B p))
  | none => if View.blocked A p then none else B p

theorem layUnder_eq (g : Shape → Option Shape → Shape) (A B : View) (p : List Str) :
    layUnder g A B p = match A p with
      | some s => some (g s (B p))
      | none => if View.blocked A p then none else B p := rfl

theorem layUnder_blocked {g : Shape → Option Shape → Shape} (hg : ∀ v x, ∃ w, g (.leaf v) x = .leaf w) {A B : View}
    {p : List Str} (h : View.blocked A p = true) : View.blocked (layUnder g A B) p = true := by
  obtain ⟨n, hn, v, hv⟩ := blocked_iff.1 h
  obtain ⟨w, hw⟩ := hg v (B (p.take n))
  exact blocked_iff.2 ⟨n, hn, w, by simp [layUnder, hv, hw]⟩

theorem layUnder_not_blocked {g : Shape → Option Shape → Shape} (hg : ∀ t x, ∃ t', g (.dict t) x = .dict t') {A B : View}
    {p : List Str} (hA : View.blocked A p = false) (hB : View.blocked B p = false) :
    View.blocked (layUnder g A B) p = false := by
  cases hb : View.blocked (layUnder g A B) p with
  | false => rfl
  | true =>
    obtain ⟨n, hn, v, hv⟩ := blocked_iff.1 hb
    cases ha : A (p.take n) with
    | none =>
      simp only [layUnder, ha, not_blocked_take hA] at hv
      rw [blocked_iff.2 ⟨n, hn, v, hv⟩] at hB
      cases hB
    | some s =>
      cases s with
      | leaf w => rw [blocked_iff.2 ⟨n, hn, w, ha⟩] at hA; cases hA
      | dict t =>
        obtain ⟨t', ht'⟩ := hg t (B (p.take n))
        simp [layUnder, ha, ht'] at hv

theorem layUnder_swap {g : Shape → Option Shape → Shape} (hl : ∀ v x, ∃ w, g (.leaf v) x = .leaf w)
    (hd : ∀ t x, ∃ t', g (.dict t) x = .dict t') (hn : ∀ s, g s none = s)
    {P A B : View} (hA : Tree A) (hB : Tree B) (h : Agree A B) :
    layUnder g (layUnder g P A) B = layUnder g (layUnder g P B) A := by
  funext p
  cases hp : P p with
  | some s =>
    have h1 : layUnder g P A p = some (g s (A p)) := by simp [layUnder, hp]
    have h2 : layUnder g P B p = some (g s (B p)) := by simp [layUnder, hp]
    rw [layUnder_eq g (layUnder g P A), layUnder_eq g (layUnder g P B), h1, h2]
    simp only
    cases ha : A p with
    | none => simp [hn]
    | some a =>
      cases hb : B p with
      | none => simp [hn]
      | some b => cases h p a b ha hb; rfl
  | none =>
    cases hbl : View.blocked P p with
    | true =>
      have h1 : layUnder g P A p = none := by simp [layUnder, hp, hbl]
      have h2 : layUnder g P B p = none := by simp [layUnder, hp, hbl]
      rw [layUnder_eq g (layUnder g P A), layUnder_eq g (layUnder g P B), h1, h2]
      simp [layUnder_blocked hl hbl]
    | false =>
      have h1 : layUnder g P A p = A p := by simp [layUnder, hp, hbl]
      have h2 : layUnder g P B p = B p := by simp [layUnder, hp, hbl]
      rw [layUnder_eq g (layUnder g P A), layUnder_eq g (layUnder g P B), h1, h2]
      cases ha : A p with
      | none =>
        cases hb : B p with
        | none => simp
        | some b => simp [hn, layUnder_not_blocked hd hbl (Tree.not_blocked hB h hb)]
      | some a =>
        cases hb : B p with
        | none => simp [hn, layUnder_not_blocked hd hbl (Tree.not_blocked hA h.symm ha)]
        | some b => cases h p a b ha hb; rfl

/-- What comes in, after what was there if both are arrays. -/
def glueNew : Option Shape → Shape → Shape
  | some (.leaf (.array t a)), .leaf (.array _ b) => .leaf (.array t (a ++ b))
  | _, s => s

/-- What was there, followed by what comes in if both are arrays. -/
def glueOld : Shape → Option Shape → Shape
  | .leaf (.array t a), some (.leaf (.array _ b)) => .leaf (.array t (a ++ b))
  | s, _ => s

theorem merge_over (A B : View) : View.merge A B = layOver (fun _ t => t) A B := by
  funext p; unfold View.merge layOver; cases B p <;> rfl

theorem join_under (A B : View) : View.join A B = layUnder (fun s _ => s) A B := by
  funext p; unfold View.join layUnder; cases A p <;> rfl

theorem admerge_over (A B : View) : View.admerge A B = layOver glueNew A B := by
  funext p
  unfold View.admerge layOver
  split
  · rename_i t a t' b h1 h2
    simp [h1, h2, glueNew]
  · rename_i hne
    rw [View.merge]
    cases hb : B p with
    | none => rfl
    | some s =>
      simp only [Option.some.injEq]
      unfold glueNew
      split
      · rename_i t a t' b h1
        exact (hne _ _ _ _ h1 hb).elim
      · rfl

theorem adjoin_under (A B : View) : View.adjoin A B = layUnder glueOld A B := by
  funext p
  unfold View.adjoin layUnder
  split
  · rename_i t a t' b h1 h2
    simp [h1, h2, glueOld]
  · rename_i hne
    rw [View.join]
    cases ha : A p with
    | none => rfl
    | some s =>
      simp only [Option.some.injEq]
      unfold glueOld
      split
      · rename_i t a t' b h1
        exact (hne _ _ _ _ ha h1).elim
      · rfl

theorem coalesce_swap (o : Order) {P A B : View} (hA : Tree A) (hB : Tree B) (h : Agree A B) :
    View.coalesce o (View.coalesce o P A) B = View.coalesce o (View.coalesce o P B) A := by
  cases o with
  | Merge =>
    simp only [View.coalesce, merge_over]
    exact layOver_swap _ hA hB h
  | Join =>
    simp only [View.coalesce, join_under]
    exact layUnder_swap (fun v _ => ⟨v, rfl⟩) (fun t _ => ⟨t, rfl⟩) (fun _ => rfl) hA hB h
  | Adjoin =>
    simp only [View.coalesce, adjoin_under]
    refine layUnder_swap ?_ (fun t _ => ⟨t, rfl⟩) ?_ hA hB h
    · intro v x
      unfold glueOld
      split
      · exact ⟨_, rfl⟩
      · exact ⟨_, rfl⟩
    · intro s
      unfold glueOld
      split
      · rename_i h; cases h
      · rfl
  | Admerge =>
    simp only [View.coalesce, admerge_over]
    exact layOver_swap _ hA hB h

theorem Tree.strip {A : View} (h : Tree A) : Tree A.strip := by
  intro p n hn hp
  obtain ⟨t, ht⟩ := h p n hn (by simpa [View.strip] using hp)
  exact ⟨Tag.Default, by simp [View.strip, ht, Shape.strip]⟩

/-- A merge and a join, in the two orders, differ exactly where the join brings something below a dictionary that the
merge puts in the place of what is not one. -/
theorem merge_join_iff {P A B : View} (hP : Tree P) (hA : Tree A) (p : List Str) :
    View.join (View.merge P A) B p ≠ View.merge (View.join P B) A p ↔
    A p = none ∧ View.blocked A p = false ∧ B p ≠ none ∧
      ∃ n < p.length, ∃ v t, P (p.take n) = some (.leaf v) ∧ A (p.take n) = some (.dict t) := by
  cases ha : A p with
  | some s => simp [View.join, View.merge, ha]
  | none =>
    cases hb : View.blocked A p with
    | true =>
      have h1 : View.merge P A p = none := by simp [View.merge, ha, hb]
      have h2 : View.blocked (View.merge P A) p = true := by
        obtain ⟨n, hn, v, hv⟩ := blocked_iff.1 hb
        exact blocked_iff.2 ⟨n, hn, v, merge_some hv⟩
      rw [View.join, h1]
      simp [h2, View.merge, ha, hb]
    | false =>
      have h1 : View.merge P A p = P p := by simp [View.merge, ha, hb]
      have h2 : View.merge (View.join P B) A p = View.join P B p := by simp [View.merge, ha, hb]
      rw [h2, View.join, h1, View.join]
      cases hp : P p with
      | some s =>
        simp only [ne_eq, not_true_eq_false, false_iff]
        rintro ⟨_, _, _, n, hn, v, t, hv, _⟩
        obtain ⟨t', ht'⟩ := hP p n hn (by simp [hp])
        rw [hv] at ht'
        cases ht'
      | none =>
        simp only
        have hsame : (∃ n < p.length, ∃ v t, P (p.take n) = some (.leaf v) ∧ A (p.take n) = some (.dict t)) ↔
            View.blocked P p = true ∧ View.blocked (View.merge P A) p = false := by
          constructor
          · rintro ⟨n, hn, v, t, hv, ht⟩
            refine ⟨blocked_iff.2 ⟨n, hn, v, hv⟩, ?_⟩
            cases hm : View.blocked (View.merge P A) p with
            | false => rfl
            | true =>
              obtain ⟨m, hm, w, hw⟩ := blocked_iff.1 hm
              exfalso
              cases ham : A (p.take m) with
              | some s =>
                rw [merge_some ham] at hw
                cases hw
                rw [blocked_iff.2 ⟨m, hm, w, ham⟩] at hb
                cases hb
              | none =>
                have hpm : P (p.take m) = some (.leaf w) := by
                  simpa [View.merge, ham, not_blocked_take hb] using hw
                rcases Nat.lt_trichotomy n m with hlt | heq | hgt
                · obtain ⟨t', ht'⟩ := hP (p.take m) n (by rw [List.length_take]; omega) (by simp [hpm])
                  rw [List.take_take, Nat.min_eq_left (by omega), hv] at ht'
                  cases ht'
                · subst heq
                  rw [ham] at ht
                  cases ht
                · obtain ⟨t', ht'⟩ := hA (p.take n) m (by rw [List.length_take]; omega) (by simp [ht])
                  rw [List.take_take, Nat.min_eq_left (by omega), ham] at ht'
                  cases ht'
          · rintro ⟨h1, h2⟩
            obtain ⟨n, hn, v, hv⟩ := blocked_iff.1 h1
            refine ⟨n, hn, v, ?_⟩
            cases han : A (p.take n) with
            | none =>
              rw [blocked_iff.2 ⟨n, hn, v, by simp [View.merge, han, not_blocked_take hb, hv]⟩] at h2
              cases h2
            | some s =>
              cases s with
              | dict t => exact ⟨t, hv, rfl⟩
              | leaf w => rw [blocked_iff.2 ⟨n, hn, w, han⟩] at hb; cases hb
        rw [hsame]
        have hkeep : View.blocked (View.merge P A) p = true → View.blocked P p = true := by
          intro hm
          obtain ⟨m, hm, w, hw⟩ := blocked_iff.1 hm
          cases ham : A (p.take m) with
          | some s =>
            rw [merge_some ham] at hw
            cases hw
            rw [blocked_iff.2 ⟨m, hm, w, ham⟩] at hb
            cases hb
          | none => exact blocked_iff.2 ⟨m, hm, w, by simpa [View.merge, ham, not_blocked_take hb] using hw⟩
        cases h3 : View.blocked (View.merge P A) p with
        | true => simp [hkeep h3]
        | false =>
          cases h4 : View.blocked P p with
          | true => simp
          | false => simp

theorem Tree.layOver {g : Option Shape → Shape → Shape} (hg : ∀ x t, g x (.dict t) = .dict t) {A B : View} (hA : Tree A)
    (hB : Tree B) : Tree (layOver g A B) := by
  intro p n hn hp
  cases hb : B p with
  | some s =>
    obtain ⟨t, ht⟩ := hB p n hn (by simp [hb])
    exact ⟨t, by simp [View.layOver, ht, hg]⟩
  | none =>
    cases hbl : View.blocked B p with
    | true => simp [View.layOver, hb, hbl] at hp
    | false =>
      obtain ⟨t, ht⟩ := hA p n hn (by simpa [View.layOver, hb, hbl] using hp)
      cases hbn : B (p.take n) with
      | none => exact ⟨t, by simp [View.layOver, hbn, not_blocked_take hbl, ht]⟩
      | some s =>
        cases s with
        | dict t' => exact ⟨t', by simp [View.layOver, hbn, hg]⟩
        | leaf v => rw [blocked_iff.2 ⟨n, hn, v, hbn⟩] at hbl; cases hbl

theorem Tree.layUnder {g : Shape → Option Shape → Shape} (hg : ∀ t x, g (.dict t) x = .dict t) {A B : View} (hA : Tree A)
    (hB : Tree B) : Tree (layUnder g A B) := by
  intro p n hn hp
  cases ha : A p with
  | some s =>
    obtain ⟨t, ht⟩ := hA p n hn (by simp [ha])
    exact ⟨t, by simp [View.layUnder, ht, hg]⟩
  | none =>
    cases hbl : View.blocked A p with
    | true => simp [View.layUnder, ha, hbl] at hp
    | false =>
      obtain ⟨t, ht⟩ := hB p n hn (by simpa [View.layUnder, ha, hbl] using hp)
      cases han : A (p.take n) with
      | none => exact ⟨t, by simp [View.layUnder, han, not_blocked_take hbl, ht]⟩
      | some s =>
        cases s with
        | dict t' => exact ⟨t', by simp [View.layUnder, han, hg]⟩
        | leaf v => rw [blocked_iff.2 ⟨n, hn, v, han⟩] at hbl; cases hbl

theorem Tree.coalesce {A B : View} (o : Order) (hA : Tree A) (hB : Tree B) : Tree (View.coalesce o A B) := by
  cases o with
  | Merge => simp only [View.coalesce, merge_over]; exact Tree.layOver (fun _ _ => rfl) hA hB
  | Join => simp only [View.coalesce, join_under]; exact Tree.layUnder (fun _ _ => rfl) hA hB
  | Adjoin => simp only [View.coalesce, adjoin_under]; exact Tree.layUnder (fun _ _ => rfl) hA hB
  | Admerge =>
    simp only [View.coalesce, admerge_over]
    refine Tree.layOver (fun x t => ?_) hA hB
    unfold glueNew
    split
    · rename_i h; cases h
    · rfl

end View

theorem tree_historyView (ops : List Op) (pr : Profile) : View.Tree (historyView ops pr) := by
  have : ∀ (A : View), View.Tree A → View.Tree (ops.foldl (Op.after pr) A) := by
    induction ops with
    | nil => exact fun A h => h
    | cons x r ih =>
      intro A h
      refine ih _ ?_
      cases x with
      | select p => exact h
      | add c =>
        rw [Op.after]
        split
        · exact View.Tree.coalesce _ h (View.Tree.strip (Data.tree_at _ pr))
        · exact h
  refine this _ fun p n hn hp => ?_
  cases p with
  | nil => cases hn
  | cons k ks => simp at hp

theorem Data.Agree.views {a b : Data} (h : a.Agree b) (pr : Profile) :
    View.Agree (a.at pr).strip (b.at pr).strip := by
  intro p s t hs ht
  simp only [View.strip, Option.map_eq_some_iff] at hs ht
  obtain ⟨s', hs', rfl⟩ := hs
  obtain ⟨t', ht', rfl⟩ := ht
  exact h pr p s' t' hs' ht'

theorem Op.after_add {x : Call} {n : Data} (h : x.provider.data = .ok n) (pr : Profile) (A : View) :
    Op.after pr A (.add x) = View.coalesce x.order A (n.at pr).strip := by
  rw [Op.after, h]
  rfl

theorem Op.after_swap {x y : Call} (ho : x.order = y.order)
    (h : ∀ a b, x.provider.data = .ok a → y.provider.data = .ok b → a.Agree b) (pr : Profile) (A : View) :
    Op.after pr (Op.after pr A (.add x)) (.add y) = Op.after pr (Op.after pr A (.add y)) (.add x) := by
  cases hx : x.provider.data with
  | error e => simp only [Op.after, hx]
  | ok a =>
    cases hy : y.provider.data with
    | error e => simp only [Op.after, hy]
    | ok b =>
      rw [Op.after_add hx, Op.after_add hy, Op.after_add hx, Op.after_add hy, ho]
      exact View.coalesce_swap _ (View.Tree.strip (Data.tree_at _ pr)) (View.Tree.strip (Data.tree_at _ pr))
        ((h a b hx hy).views pr)

theorem historyView_split (pre mid post : List Op) (pr : Profile) :
    historyView (pre ++ mid ++ post) pr = post.foldl (Op.after pr) (mid.foldl (Op.after pr) (historyView pre pr)) := by
  rw [historyView, List.foldl_append, List.foldl_append]
  rfl

theorem opData_perm {l l' : List Op} (h : l.Perm l') : (opData l).Perm (opData l') := by
  induction h with
  | nil => exact List.Perm.nil
  | cons x _ ih => cases x <;> simpa [opData] using ih
  | swap x y l => cases x <;> cases y <;> simp [opData, List.Perm.swap]
  | trans _ _ ih1 ih2 => exact ih1.trans ih2

theorem foldl_swap_perm {α β : Type} {f : β → α → β} {l l' : List α} (h : l.Perm l')
    (hc : ∀ x ∈ l, ∀ y ∈ l, ∀ z, f (f z x) y = f (f z y) x) (z : β) : l.foldl f z = l'.foldl f z := by
  induction h generalizing z with
  | nil => rfl
  | cons x _ ih => exact ih (fun a ha b hb => hc a (List.mem_cons_of_mem _ ha) b (List.mem_cons_of_mem _ hb)) _
  | swap x y l =>
    simp only [List.foldl_cons]
    rw [hc y (by simp) x (by simp)]
  | trans h1 h2 ih1 ih2 =>
    rw [ih1 hc]
    exact ih2 (fun a ha b hb => hc a (h1.mem_iff.2 ha) b (h1.mem_iff.2 hb)) _

theorem perm_const {α : Type} {l l' : List α} (h : l.Perm l') (hc : ∀ x ∈ l, ∀ y ∈ l, x = y) : l = l' := by
  induction h with
  | nil => rfl
  | cons x _ ih => rw [ih fun a ha b hb => hc a (List.mem_cons_of_mem _ ha) b (List.mem_cons_of_mem _ hb)]
  | swap x y l => rw [hc x (by simp) y (by simp)]
  | trans h1 h2 ih1 ih2 =>
    rw [ih1 hc]
    exact ih2 fun a ha b hb => hc a (h1.mem_iff.2 ha) b (h1.mem_iff.2 hb)

theorem historySelected_perm {pre post : List Op} {l l' : List Op} (h : l.Perm l')
    (hc : ∀ x ∈ l, ∀ y ∈ l, ∀ p q, x.selects = some p → y.selects = some q → p = q) :
    historySelected (pre ++ l ++ post) = historySelected (pre ++ l' ++ post) := by
  have : l.filterMap Op.selects = l'.filterMap Op.selects := by
    refine perm_const (h.filterMap _) fun p hp q hq => ?_
    obtain ⟨x, hx, hx'⟩ := List.mem_filterMap.1 hp
    obtain ⟨y, hy, hy'⟩ := List.mem_filterMap.1 hq
    exact hc x hx y hy p q hx' hy'
  simp only [historySelected, List.filterMap_append, this]

/-! ## A check for agreement -/

/-- Data without a key in common agrees. -/
theorem Data.agree_disjoint {a b : Data}
    (h : ∀ pr k, Map.get k (a.dictOf pr) = none ∨ Map.get k (b.dictOf pr) = none) : a.Agree b := by
  intro pr p s t hs ht
  cases p with
  | nil => cases hs; cases ht; rfl
  | cons k ks =>
    rcases h pr k with h | h
    · rw [Data.at, Value.view, h] at hs; cases hs
    · rw [Data.at, Value.view, h] at ht; cases ht

/-- Data agrees if what is at its keys does. -/
theorem Data.agree_keys {a b : Data}
    (h : ∀ pr k v w, Map.get k (a.dictOf pr) = some v → Map.get k (b.dictOf pr) = some w →
      View.Agree v.view.strip w.view.strip) : a.Agree b := by
  intro pr p s t hs ht
  cases p with
  | nil => cases hs; cases ht; rfl
  | cons k ks =>
    simp only [Data.at, Value.view] at hs ht
    cases hv : Map.get k (a.dictOf pr) with
    | none => simp [hv] at hs
    | some v =>
      cases hw : Map.get k (b.dictOf pr) with
      | none => simp [hw] at ht
      | some w =>
        simp only [hv] at hs
        simp only [hw] at ht
        exact h pr k v w hv hw ks _ _ (by simp [View.strip, hs]) (by simp [View.strip, ht])

/-- Dictionaries agree if what is at their keys does. -/
theorem Value.agree_dict {t t' : Tag} {d d' : Dict}
    (h : ∀ k v w, Map.get k d = some v → Map.get k d' = some w → View.Agree v.view.strip w.view.strip) :
    View.Agree (Value.dict t d).view.strip (Value.dict t' d').view.strip := by
  intro p s t hs ht
  cases p with
  | nil => cases hs; cases ht; rfl
  | cons k ks =>
    simp only [View.strip, Value.view] at hs ht
    cases hv : Map.get k d with
    | none => simp [hv] at hs
    | some v =>
      cases hw : Map.get k d' with
      | none => simp [hw] at ht
      | some w =>
        simp only [hv] at hs
        simp only [hw] at ht
        exact h k v w hv hw ks _ _ hs ht


theorem Value.agree_leaf {v w : Value} (h : v.strip = w.strip) :
    View.Agree v.view.strip w.view.strip := by
  intro p s t hs ht
  have : v.view.strip = w.view.strip := by
    funext q
    have h1 := Value.view_strip v q
    have h2 := Value.view_strip w q
    rw [h] at h1
    exact h1.symm.trans h2
  rw [this] at hs
  exact Option.some.inj (hs.symm.trans ht)

mutual
/-- The values agree, as a computation. -/
def Value.agrees : Value → Value → Bool
  | .dict _ d, w =>
    match w with
    | .dict _ d' => Value.agreesD d d'
    | _ => false
  | v, w => w.asDict?.isNone && decide (v.strip = w.strip)
def Value.agreesD : List (Str × Value) → Dict → Bool
  | [], _ => true
  | (k, v) :: r, d' =>
    (match Map.get k d' with
      | some w => Value.agrees v w
      | none => true) && Value.agreesD r d'
end

mutual
theorem Value.agree_of_agrees : ∀ v w : Value, v.agrees w = true → View.Agree v.view.strip w.view.strip
  | .dict _ d, w, h => by
    cases w with
    | dict t' d' =>
      refine Value.agree_dict fun k v w hv hw => ?_
      exact Value.agree_of_agreesD d d' (by simpa [Value.agrees] using h) k v w hv hw
    | _ => simp [Value.agrees] at h
  | .string _ _, w, h => Value.agree_leaf (by simp [Value.agrees] at h; exact h.2)
  | .char _ _, w, h => Value.agree_leaf (by simp [Value.agrees] at h; exact h.2)
  | .bool _ _, w, h => Value.agree_leaf (by simp [Value.agrees] at h; exact h.2)
  | .num _ _, w, h => Value.agree_leaf (by simp [Value.agrees] at h; exact h.2)
  | .empty _ _, w, h => Value.agree_leaf (by simp [Value.agrees] at h; exact h.2)
  | .array _ _, w, h => Value.agree_leaf (by simp [Value.agrees] at h; exact h.2)
theorem Value.agree_of_agreesD : ∀ (d : List (Str × Value)) (d' : Dict), Value.agreesD d d' = true →
    ∀ k v w, Map.get k d = some v → Map.get k d' = some w → View.Agree v.view.strip w.view.strip
  | [], _, _, k, v, w, hv, _ => by cases hv
  | (k', v') :: r, d', h, k, v, w, hv, hw => by
    rw [Value.agreesD, Bool.and_eq_true] at h
    rw [Map.get] at hv
    split at hv
    · rename_i hc
      cases hv
      rw [← Map.get_congr hc, hw] at h
      exact Value.agree_of_agrees v' w h.1
    · exact Value.agree_of_agreesD r d' h.2 k v w hv hw
end

/-- The data agrees, as a computation. -/
def Data.agrees (a b : Data) : Bool := a.all fun e => Value.agreesD e.2 (b.dictOf e.1)

theorem Data.agree_of_agrees {a b : Data} (h : a.agrees b = true) : a.Agree b := by
  refine Data.agree_keys fun pr k v w hv hw => ?_
  rw [Data.dictOf] at hv
  cases hd : Map.get pr a with
  | none => rw [hd] at hv; cases hv
  | some d =>
    rw [hd] at hv
    obtain ⟨pr', hmem, hc⟩ := Map.mem_of_get hd
    have h1 := List.all_eq_true.1 h _ hmem
    have h2 : b.dictOf pr' = b.dictOf pr := by rw [Data.dictOf, Data.dictOf, Map.get_congr hc]
    rw [h2] at h1
    exact Value.agree_of_agreesD d _ h1 k v w hv hw

end Figment
