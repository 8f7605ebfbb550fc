import Verif.Spec.Walk
import Verif.Model.Paths
import Verif.Lemmas.Path
/-! # Lemmas about walking paths -/
namespace Figment
open Path

/-- The components of a joined path lead where the components of both lead, one after the other. -/
theorem Place.walk_components_join (p : Place) (a b : Str) :
    (components (join a b)).foldl Place.step p = (components a ++ components b).foldl Place.step p := by
  unfold Path.join
  split
  · -- `b` replaces
    rename_i h
    obtain ⟨cs, hcs⟩ := (hasRoot_iff b).1 h
    rw [List.foldl_append, hcs]
    simp only [List.foldl_cons]
    rfl
  · rename_i hb
    -- the components of `b`, up to a leading `.`
    have key : ∀ q : Place, (components b).foldl Place.step q = ((Str.splitOn '/' b).filterMap piece).foldl Place.step q := by
      intro q
      unfold components
      rw [if_neg hb]
      cases hs : Str.splitOn '/' b with
      | nil => rfl
      | cons s r =>
        dsimp only
        split
        · rename_i h
          rw [List.foldl_cons, List.filterMap_cons]
          have : piece s = none := by rw [h]; rfl
          rw [this]; rfl
        · rfl
    have comp_eq : ∀ x : Str, hasRoot x = true → components x = .rootDir :: (Str.splitOn '/' x).filterMap piece :=
      fun x hx => by rw [components, if_pos hx]
    by_cases ha : a = []
    · subst ha
      rw [if_pos (.inl rfl), List.nil_append]
      have : components [] = [] := by decide
      rw [this, List.nil_append]
    · -- both remaining cases have the same pieces up to an empty one
      have hroot : ∀ x : Str, hasRoot (a ++ x) = hasRoot a := by
        intro x; cases a with
        | nil => exact absurd rfl ha
        | cons c a => rfl
      have gen : ∀ x : Str, (Str.splitOn '/' x).filterMap piece =
            (Str.splitOn '/' a).filterMap piece ++ (Str.splitOn '/' b).filterMap piece →
          hasRoot x = hasRoot a →
          (components x).foldl Place.step p = (components a ++ components b).foldl Place.step p := by
        intro x hx hr
        have hxx : ∀ y : Str, ∀ q : Place, hasRoot y = false → (components y).foldl Place.step q =
            ((Str.splitOn '/' y).filterMap piece).foldl Place.step q := by
          intro y q hy
          unfold components
          rw [if_neg (by simp [hy])]
          cases hs : Str.splitOn '/' y with
          | nil => rfl
          | cons s r =>
            dsimp only
            split
            · rename_i h
              rw [List.foldl_cons, List.filterMap_cons]
              have : piece s = none := by rw [h]; rfl
              rw [this]; rfl
            · rfl
        rw [List.foldl_append, key]
        cases har : hasRoot a with
        | true =>
          rw [comp_eq a har, comp_eq x (by rw [hr, har]), hx, List.foldl_cons, List.foldl_cons, List.foldl_append]
        | false => rw [hxx a p har, hxx x p (by rw [hr, har]), hx, List.foldl_append]
      split
      · rename_i hl
        have hl : a.getLast? = some '/' := by
          rcases hl with hl | hl
          · exact absurd hl ha
          · exact hl
        obtain ⟨a', rfl⟩ : ∃ a', a = a' ++ ['/'] := by
          rcases List.eq_nil_or_concat a with h | ⟨l, c, h⟩
          · exact absurd h ha
          · rw [List.concat_eq_append] at h
            rw [h, List.getLast?_concat] at hl
            cases hl
            exact ⟨l, h⟩
        have e1 : a' ++ ['/'] ++ b = a' ++ '/' :: b := by simp
        have e2 : Str.splitOn '/' (a' ++ ['/']) = Str.splitOn '/' a' ++ [[]] := by
          rw [Str.splitOn_append]; rfl
        refine gen _ ?_ (hroot b)
        rw [e1, Str.splitOn_append, e2, List.filterMap_append, List.filterMap_append]
        have : List.filterMap piece [[]] = [] := rfl
        rw [this, List.append_nil]
      · refine gen _ ?_ (hroot _)
        rw [Str.splitOn_append, List.filterMap_append]

/-- The components of a path joined with a name. -/
theorem Path.components_join_name (a : Str) {b : Str} (hb : IsName b) :
    components (join a b) = components a ++ [.normal b] := by
  obtain ⟨hne, hns, h1, h2⟩ := hb
  have hr : hasRoot b = false := hasRoot_of_not_mem hns
  have hpb : piece b = some (.normal b) := by unfold piece; rw [if_neg hne, if_neg h1, if_neg h2]
  have hsb : Str.splitOn '/' b = [b] := Str.splitOn_of_not_mem hns
  unfold Path.join
  rw [if_neg (by rw [hr]; decide)]
  by_cases ha : a = []
  · subst ha
    rw [if_pos (.inl rfl), List.nil_append]
    unfold components
    rw [if_neg (by rw [hr]; decide), hsb]
    dsimp only
    rw [if_neg h1]
    rw [List.filterMap_cons, hpb]
    rfl
  · have hroot : ∀ x : Str, hasRoot (a ++ x) = hasRoot a := by
      intro x; cases a with
      | nil => exact absurd rfl ha
      | cons c a => rfl
    have gen : ∀ x : Str, (Str.splitOn '/' x = Str.splitOn '/' a ++ [b] ∨
        (∃ l, Str.splitOn '/' a = l ++ [[]] ∧ l ≠ [] ∧ Str.splitOn '/' x = l ++ [b])) → hasRoot x = hasRoot a →
        components x = components a ++ [.normal b] := by
      intro x hx hxr
      unfold components
      rw [hxr]
      cases hasRoot a with
      | true =>
        simp only [if_true]
        rcases hx with hx | ⟨l, h3, _, hx⟩
        · rw [hx, List.filterMap_append]; simp [hpb]
        · rw [hx, h3, List.filterMap_append, List.filterMap_append]; simp [hpb, show piece [] = none from rfl]
      | false =>
        simp only [Bool.false_eq_true, if_false]
        rcases hx with hx | ⟨l, h3, h4, hx⟩
        · rw [hx]
          cases hs : Str.splitOn '/' a with
          | nil => exact absurd hs (Str.splitOn_ne_nil _ _)
          | cons s r =>
            simp only [List.cons_append]
            split <;> simp [List.filterMap_append, hpb, List.filterMap_cons] <;> cases piece s <;> simp
        · rw [hx, h3]
          cases l with
          | nil => exact absurd rfl h4
          | cons s r =>
            have hp0 : piece [] = none := rfl
            simp only [List.cons_append]
            split <;> simp [List.filterMap_append, hpb, hp0, List.filterMap_cons] <;> cases piece s <;> simp
    split
    · rename_i hl
      have hl : a.getLast? = some '/' := by
        rcases hl with hl | hl
        · exact absurd hl ha
        · exact hl
      obtain ⟨a', rfl⟩ : ∃ a', a = a' ++ ['/'] := by
        rcases List.eq_nil_or_concat a with h | ⟨l, c, h⟩
        · exact absurd h ha
        · rw [List.concat_eq_append] at h
          rw [h, List.getLast?_concat] at hl
          cases hl
          exact ⟨l, h⟩
      refine gen _ (.inr ⟨Str.splitOn '/' a', ?_, Str.splitOn_ne_nil _ _, ?_⟩) (hroot _)
      · rw [Str.splitOn_append]; rfl
      · rw [List.append_assoc, List.cons_append, List.nil_append, Str.splitOn_append, hsb]
    · exact gen _ (.inl (by rw [Str.splitOn_append, hsb])) (hroot _)

theorem Place.walk_join (p : Place) (a b : Str) : p.walk (join a b) = (p.walk a).walk b := by
  rw [Place.walk, Place.walk_components_join, List.foldl_append]; rfl

/-- A component's text leads where the component leads. -/
theorem Place.walk_text (p : Place) (c : Comp) (hc : c = .rootDir ∨ c = .curDir ∨ c.Inner) : p.walk c.text = p.step c := by
  have h : Canon [c] := ⟨hc, by simp⟩
  have h1 := components_collect h
  have h2 : collect [c] = c.text := by
    rcases hc with rfl | rfl | hc
    · rfl
    · rfl
    · rw [collect_rel (.inr hc) (by simp)]; rfl
  rw [h2] at h1
  rw [Place.walk, h1]; rfl

/-- Collected components lead where the components lead. -/
theorem Place.walk_collect (p : Place) (cs : List Comp) (h : ∀ c ∈ cs, c = .rootDir ∨ c = .curDir ∨ c.Inner) :
    p.walk (collect cs) = cs.foldl Place.step p := by
  have : ∀ (cs : List Comp) (a : Str), (∀ c ∈ cs, c = .rootDir ∨ c = .curDir ∨ c.Inner) →
      p.walk (cs.foldl (fun p c => join p c.text) a) = cs.foldl Place.step (p.walk a) := by
    intro cs
    induction cs with
    | nil => intro a _; rfl
    | cons c cs ih =>
      intro a h
      rw [List.foldl_cons, List.foldl_cons, ih _ fun x hx => h x (List.mem_cons_of_mem _ hx), Place.walk_join,
        Place.walk_text _ _ (h c (List.mem_cons_self ..))]
  exact this cs [] h

/-! ## `diff_paths` -/

theorem diffLoop_nil_left (itb comps : List Comp) :
    diffLoop [] itb comps = some (comps ++ List.replicate itb.length .parentDir) := by
  induction itb generalizing comps with
  | nil => simp [diffLoop]
  | cons b itb ih => rw [diffLoop, ih]; simp [List.replicate_succ]

/-- After the common part, with a plain rest of the base: up for each remaining component, then down. -/
theorem diffLoop_split (c ita itb : List Comp) (hne : ∀ a x b y, ita = a :: x → itb = b :: y → a ≠ b)
    (hb : ∀ x ∈ itb, x ≠ .curDir ∧ x ≠ .parentDir) :
    diffLoop (c ++ ita) (c ++ itb) [] = some (List.replicate itb.length .parentDir ++ ita) := by
  induction c with
  | nil =>
    cases ita with
    | nil => rw [List.nil_append, List.nil_append, diffLoop_nil_left]; simp
    | cons a ita =>
      cases itb with
      | nil => simp [diffLoop]
      | cons b itb =>
        have h1 := hne a ita b itb rfl rfl
        have h2 := hb b (List.mem_cons_self ..)
        rw [List.nil_append, List.nil_append, diffLoop]
        simp [h1, h2, List.replicate_succ, List.map_const']
  | cons x c ih =>
    rw [List.cons_append, List.cons_append, diffLoop, if_pos ⟨rfl, rfl⟩, ih]

/-- The longest common part of two lists. -/
theorem common_prefix (a b : List Comp) : ∃ c x y, a = c ++ x ∧ b = c ++ y ∧
    ∀ p p' q q', x = p :: p' → y = q :: q' → p ≠ q := by
  induction a generalizing b with
  | nil => exact ⟨[], [], b, rfl, rfl, by simp⟩
  | cons s a ih =>
    cases b with
    | nil => exact ⟨[], s :: a, [], rfl, rfl, by simp⟩
    | cons t b =>
      by_cases h : s = t
      · subst h
        obtain ⟨c, x, y, h1, h2, h3⟩ := ih b
        exact ⟨s :: c, x, y, by rw [h1]; rfl, by rw [h2]; rfl, h3⟩
      · refine ⟨[], s :: a, t :: b, rfl, rfl, ?_⟩
        rintro p p' q q' ⟨⟩ ⟨⟩; exact h

theorem Place.walk_up (p : Place) (names : List Str) (n : Nat) (hn : names.length = n) :
    (List.replicate n Comp.parentDir).foldl Place.step { p with names := p.names ++ names } = p := by
  subst hn
  induction hl : names.length generalizing names with
  | zero =>
    have : names = [] := List.length_eq_zero_iff.1 hl
    subst this
    simp
  | succ n ih =>
    rcases List.eq_nil_or_concat names with h | ⟨l, x, h⟩
    · subst h; simp at hl
    · rw [List.concat_eq_append] at h
      subst h
      have hl' : l.length = n := by simpa using hl
      rw [List.replicate_succ, List.foldl_cons]
      have : Place.step { p with names := p.names ++ (l ++ [x]) } .parentDir = { p with names := p.names ++ l } := by
        have e : p.names ++ (l ++ [x]) = (p.names ++ l) ++ [x] := by simp
        unfold Place.step
        simp only [e]
        rw [if_neg (by simp)]
        simp
      rw [this]
      exact ih l hl'

/-- Down names and up again. -/
theorem Place.walk_down_up (p : Place) (cs : List Comp) (h : ∀ c ∈ cs, ∃ s, c = .normal s) :
    (List.replicate cs.length Comp.parentDir).foldl Place.step (cs.foldl Place.step p) = p := by
  have : ∀ (cs : List Comp) (p : Place), (∀ c ∈ cs, ∃ s, c = .normal s) →
      ∃ names : List Str, names.length = cs.length ∧ cs.foldl Place.step p = { p with names := p.names ++ names } := by
    intro cs
    induction cs with
    | nil => intro p _; exact ⟨[], rfl, by simp⟩
    | cons c cs ih =>
      intro p h
      obtain ⟨s, rfl⟩ := h c (List.mem_cons_self ..)
      obtain ⟨names, h1, h2⟩ := ih (p.step (.normal s)) fun x hx => h x (List.mem_cons_of_mem _ hx)
      refine ⟨s :: names, by simp [h1], ?_⟩
      rw [List.foldl_cons, h2]
      simp [Place.step]
  obtain ⟨names, h1, h2⟩ := this cs p h
  rw [h2]
  exact Place.walk_up p names _ h1

end Figment
