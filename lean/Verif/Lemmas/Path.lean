import Verif.Base.Path
import Verif.Lemmas.Find
/-! # Lemmas about paths -/
namespace Figment

/-- A name that is one component of a path. -/
def IsName (s : Str) : Prop := s ≠ [] ∧ '/' ∉ s ∧ s ≠ str "." ∧ s ≠ str ".."

instance (s : Str) : Decidable (IsName s) := inferInstanceAs (Decidable (_ ∧ _))

namespace Comp
/-- A component that can stand anywhere but in front. -/
def Inner : Comp → Prop
  | parentDir => True
  | normal s => IsName s
  | _ => False

instance (c : Comp) : Decidable c.Inner := by cases c <;> unfold Inner <;> infer_instance
end Comp

namespace Path

/-- Components as `components` gives them: a root or `.` only in front. -/
def Canon : List Comp → Prop
  | [] => True
  | c :: r => (c = .rootDir ∨ c = .curDir ∨ c.Inner) ∧ ∀ x ∈ r, x.Inner

theorem piece_inner {s : Str} {c : Comp} (hs : '/' ∉ s) (h : piece s = some c) : c.Inner := by
  unfold piece at h
  split at h
  · cases h
  · split at h
    · cases h
    · split at h
      · cases h; trivial
      · cases h; rename_i h1 h2 h3; exact ⟨h1, hs, h2, h3⟩

theorem piece_text {c : Comp} (h : c.Inner) : piece c.text = some c := by
  cases c with
  | rootDir => exact absurd h id
  | curDir => exact absurd h id
  | parentDir => rfl
  | normal s =>
    obtain ⟨h1, h2, h3, h4⟩ := h
    show piece s = _
    rw [piece, if_neg h1, if_neg h3, if_neg h4]

theorem canon_components (p : Str) : Canon (components p) := by
  have h : ∀ l : List Str, (∀ s ∈ l, '/' ∉ s) → ∀ c ∈ l.filterMap piece, c.Inner := by
    intro l hl c hc
    obtain ⟨s, hs, hp⟩ := List.mem_filterMap.1 hc
    exact piece_inner (hl s hs) hp
  have hall : ∀ s ∈ Str.splitOn '/' p, '/' ∉ s := fun s hs => Str.not_mem_of_mem_splitOn hs
  unfold components
  split
  · exact ⟨.inl rfl, h _ hall⟩
  · generalize Str.splitOn '/' p = l at hall
    cases l with
    | nil => trivial
    | cons s r =>
      dsimp only
      split
      · exact ⟨.inr (.inl rfl), h _ fun s hs => hall s (List.mem_cons_of_mem _ hs)⟩
      · have := h _ hall
        generalize List.filterMap piece (s :: r) = cs at this
        cases cs with
        | nil => trivial
        | cons c cs => exact ⟨.inr (.inr (this c (List.mem_cons_self ..))), fun x hx => this x (List.mem_cons_of_mem _ hx)⟩

theorem inner_text {c : Comp} (h : c.Inner) : c.text ≠ [] ∧ '/' ∉ c.text := by
  cases c with
  | rootDir => exact absurd h id
  | curDir => exact absurd h id
  | parentDir => decide
  | normal s => exact ⟨h.1, h.2.1⟩

theorem hasRoot_of_not_mem {s : Str} (h : '/' ∉ s) : hasRoot s = false := by
  cases s with
  | nil => rfl
  | cons c cs =>
    simp only [List.mem_cons, not_or] at h
    simp [hasRoot, Ne.symm h.1]

/-- What joining inner components onto a path gives. -/
theorem foldl_join (cs : List Comp) (h : ∀ c ∈ cs, c.Inner) (a : Str) (ha : a ≠ []) (hl : a.getLast? ≠ some '/') :
    cs.foldl (fun p c => join p c.text) a = cs.foldl (fun p c => p ++ '/' :: c.text) a := by
  induction cs generalizing a with
  | nil => rfl
  | cons c cs ih =>
    have hc := inner_text (h c (List.mem_cons_self ..))
    have h1 : join a c.text = a ++ '/' :: c.text := by
      rw [join, hasRoot_of_not_mem hc.2]
      simp [ha, hl]
    rw [List.foldl_cons, List.foldl_cons, h1]
    refine ih (fun x hx => h x (List.mem_cons_of_mem _ hx)) _ (by simp) ?_
    intro hx
    rw [List.getLast?_append] at hx
    cases ht : c.text with
    | nil => exact hc.1 ht
    | cons y ys =>
      rw [ht, List.getLast?_cons_cons] at hx
      cases hg : (y :: ys).getLast? with
      | none => simp at hg
      | some z =>
        rw [hg] at hx
        have hx' : z = '/' := by simpa using hx
        subst hx'
        exact hc.2 (by rw [ht]; exact List.mem_of_getLast? hg)

theorem foldl_join_text (cs : List Comp) (a : Str) :
    cs.foldl (fun p c => p ++ '/' :: c.text) a = a ++ (cs.map fun c => '/' :: c.text).flatten := by
  induction cs generalizing a with
  | nil => simp
  | cons c cs ih => simp [ih]

theorem join_flatten (c : Str) (cs : List Comp) : c ++ (cs.map fun c => '/' :: c.text).flatten
    = Str.join ['/'] (c :: cs.map Comp.text) := by
  induction cs generalizing c with
  | nil => simp [Str.join]
  | cons d cs ih =>
    rw [List.map_cons, List.flatten_cons, List.map_cons, Str.join, ← ih]
    simp

theorem filterMap_text {cs : List Comp} (h : ∀ c ∈ cs, c.Inner) : (cs.map Comp.text).filterMap piece = cs := by
  induction cs with
  | nil => rfl
  | cons c cs ih =>
    rw [List.map_cons, List.filterMap_cons, piece_text (h c (List.mem_cons_self ..))]
    simp only
    rw [ih fun x hx => h x (List.mem_cons_of_mem _ hx)]

theorem last_ne_slash {s : Str} (h : '/' ∉ s) : s.getLast? ≠ some '/' := by
  intro h'; exact h (List.mem_of_getLast? h')

/-- The text of canonical components, without root. -/
theorem collect_rel {c : Comp} {cs : List Comp} (hc : c = .curDir ∨ c.Inner) (h : ∀ x ∈ cs, x.Inner) :
    collect (c :: cs) = Str.join ['/'] ((c :: cs).map Comp.text) := by
  have h1 : c.text ≠ [] ∧ '/' ∉ c.text := by
    rcases hc with rfl | hc
    · decide
    · exact inner_text hc
  have h2 : join [] c.text = c.text := by
    rw [join, hasRoot_of_not_mem h1.2]; simp
  rw [collect, List.foldl_cons, h2, foldl_join cs h _ h1.1 (last_ne_slash h1.2), foldl_join_text, join_flatten]
  rfl

/-- The text of canonical components, with root. -/
theorem collect_root {cs : List Comp} (h : ∀ x ∈ cs, x.Inner) :
    collect (.rootDir :: cs) = '/' :: Str.join ['/'] (cs.map Comp.text) := by
  have h0 : join [] Comp.rootDir.text = str "/" := by decide
  rw [collect, List.foldl_cons, h0]
  cases cs with
  | nil => rfl
  | cons c cs =>
    have hc := inner_text (h c (List.mem_cons_self ..))
    have h2 : join (str "/") c.text = '/' :: c.text := by
      rw [join, hasRoot_of_not_mem hc.2, if_neg (by simp), if_pos (.inr (by decide))]; rfl
    have h3 : ('/' :: c.text).getLast? ≠ some '/' := by
      cases ht : c.text with
      | nil => exact absurd ht hc.1
      | cons y ys =>
        rw [List.getLast?_cons_cons, ← ht]
        exact last_ne_slash hc.2
    rw [List.foldl_cons, h2, foldl_join cs (fun x hx => h x (List.mem_cons_of_mem _ hx)) _ (by simp) h3,
      foldl_join_text, List.cons_append, join_flatten]
    rfl

/-- Collecting components and taking them again gives the same. -/
theorem components_collect {cs : List Comp} (h : Canon cs) : components (collect cs) = cs := by
  cases cs with
  | nil => decide
  | cons c cs =>
    obtain ⟨hc, h⟩ := h
    by_cases hr : c = .rootDir
    · subst hr
      rw [collect_root h, components, if_pos (show hasRoot _ = true from rfl)]
      congr 1
      have : Str.splitOn '/' ('/' :: Str.join ['/'] (cs.map Comp.text)) =
          [] :: Str.splitOn '/' (Str.join ['/'] (cs.map Comp.text)) := by simp [Str.splitOn]
      rw [this, List.filterMap_cons]
      have hp : piece [] = none := rfl
      rw [hp]
      simp only
      cases cs with
      | nil => rfl
      | cons d cs =>
        rw [Str.splitOn_join (by simp), filterMap_text h]
        intro k hk
        obtain ⟨x, hx, rfl⟩ := List.mem_map.1 hk
        exact (inner_text (h x hx)).2
    · have hc' : c = .curDir ∨ c.Inner := by
        rcases hc with hc | hc | hc
        · exact absurd hc hr
        · exact .inl hc
        · exact .inr hc
      have h1 : c.text ≠ [] ∧ '/' ∉ c.text := by
        rcases hc' with rfl | hc'
        · decide
        · exact inner_text hc'
      have hs : Str.splitOn '/' (collect (c :: cs)) = (c :: cs).map Comp.text := by
        rw [collect_rel hc' h, Str.splitOn_join (by simp)]
        intro k hk
        obtain ⟨x, hx, rfl⟩ := List.mem_map.1 hk
        rcases List.mem_cons.1 hx with rfl | hx
        · exact h1.2
        · exact (inner_text (h x hx)).2
      have hroot : hasRoot (collect (c :: cs)) = false := by
        rw [collect_rel hc' h, hasRoot]
        have : (Str.join ['/'] ((c :: cs).map Comp.text)).head? = c.text.head? := by
          cases ht : c.text with
          | nil => exact absurd ht h1.1
          | cons y ys => cases cs <;> simp [Str.join, ht]
        rw [this]
        exact hasRoot_of_not_mem h1.2
      rw [components, hroot, hs]
      simp only [Bool.false_eq_true, if_false, List.map_cons]
      rcases hc' with rfl | hc'
      · rw [if_pos (show Comp.curDir.text = str "." from rfl), filterMap_text h]
      · have hne : c.text ≠ str "." := by
          cases c with
          | rootDir => exact absurd hc' id
          | curDir => exact absurd hc' id
          | parentDir => decide
          | normal s => exact hc'.2.2.1
        rw [if_neg hne]
        exact filterMap_text (cs := c :: cs) (by
          intro x hx
          rcases List.mem_cons.1 hx with rfl | hx
          · exact hc'
          · exact h x hx)

theorem hasRoot_iff (p : Str) : hasRoot p = true ↔ ∃ cs, components p = .rootDir :: cs := by
  constructor
  · intro h; rw [components, if_pos h]; exact ⟨_, rfl⟩
  · rintro ⟨cs, h⟩
    rw [components] at h
    split at h
    · assumption
    · exfalso
      have : ∀ l : List Str, Comp.rootDir ∉ l.filterMap piece := by
        intro l hl
        obtain ⟨s, _, hs⟩ := List.mem_filterMap.1 hl
        unfold piece at hs
        split at hs
        · cases hs
        · split at hs
          · cases hs
          · split at hs <;> cases hs
      cases hl : Str.splitOn '/' p with
      | nil => rw [hl] at h; cases h
      | cons s r =>
        rw [hl] at h
        dsimp only at h
        split at h
        · cases h
        · exact this (s :: r) (by rw [h]; exact List.mem_cons_self ..)

theorem Canon.take {cs : List Comp} (h : Canon cs) (n : Nat) : Canon (cs.take n) := by
  cases cs with
  | nil => simpa using h
  | cons c cs =>
    cases n with
    | zero => trivial
    | succ n => exact ⟨h.1, fun x hx => h.2 x (List.mem_of_mem_take hx)⟩

theorem Canon.dropLast {cs : List Comp} (h : Canon cs) : Canon cs.dropLast := by
  rw [List.dropLast_eq_take]; exact h.take _

end Path
end Figment
