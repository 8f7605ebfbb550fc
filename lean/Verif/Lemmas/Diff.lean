import Verif.Lemmas.Walk
/-! # Lemmas about `diff_paths` for all bases -/
namespace Figment

namespace Place

/-- Where a list of components leads from a place. -/
abbrev go (p : Place) (cs : List Comp) : Place := cs.foldl step p

theorem go_append (p : Place) (a b : List Comp) : p.go (a ++ b) = (p.go a).go b := List.foldl_append

/-! ## From the root -/

theorem step_rooted {p : Place} (hr : p.rooted = true) {k : Comp} (hk : k ≠ .rootDir) :
    (p.step k).rooted = true ∧ (p.step k).ups = p.ups := by
  cases k with
  | rootDir => exact absurd rfl hk
  | curDir => exact ⟨hr, rfl⟩
  | parentDir =>
    rw [step]
    split
    · exact ⟨hr, rfl⟩
    · exact ⟨hr, rfl⟩
  | normal s => exact ⟨hr, rfl⟩

theorem go_rooted {cs : List Comp} : ∀ {p : Place}, p.rooted = true → (∀ k ∈ cs, k ≠ .rootDir) →
    (p.go cs).rooted = true ∧ (p.go cs).ups = p.ups := by
  induction cs with
  | nil => intro p hr _; exact ⟨hr, rfl⟩
  | cons k cs ih =>
    intro p hr h
    have h1 := step_rooted hr (h k (List.mem_cons_self ..))
    have h2 := ih h1.1 fun x hx => h x (List.mem_cons_of_mem _ hx)
    exact ⟨h2.1, h2.2.trans h1.2⟩

theorem length_parent {p : Place} (hr : p.rooted = true) : (p.step .parentDir).names.length = p.names.length - 1 := by
  rw [step]
  split
  · rename_i h; rw [h]; rfl
  · simp

theorem step_le {p q : Place} (hp : p.rooted = true) (hq : q.rooted = true) {k : Comp} (hk : k ≠ .rootDir)
    (h : q.names.length ≤ p.names.length) : (q.step k).names.length ≤ (p.step k).names.length := by
  cases k with
  | rootDir => exact absurd rfl hk
  | curDir => exact h
  | parentDir => rw [length_parent hp, length_parent hq]; omega
  | normal s => simpa [step] using h

theorem go_le {cs : List Comp} : ∀ {p q : Place}, p.rooted = true → q.rooted = true → (∀ k ∈ cs, k ≠ .rootDir) →
    q.names.length ≤ p.names.length → (q.go cs).names.length ≤ (p.go cs).names.length := by
  induction cs with
  | nil => intro p q _ _ _ h; exact h
  | cons k cs ih =>
    intro p q hp hq hk h
    have h0 := hk k (List.mem_cons_self ..)
    exact ih (step_rooted hp h0).1 (step_rooted hq h0).1 (fun x hx => hk x (List.mem_cons_of_mem _ hx))
      (step_le hp hq h0 h)

/-- A place above another stays above it, as long as the other is not the root. -/
theorem go_lt {cs : List Comp} : ∀ {p q : Place}, p.rooted = true → q.rooted = true → (∀ k ∈ cs, k ≠ .rootDir) →
    q.names.length < p.names.length → (∀ x, x <+: cs → (p.go x).names ≠ []) →
    (q.go cs).names.length < (p.go cs).names.length := by
  induction cs with
  | nil => intro p q _ _ _ h _; exact h
  | cons k cs ih =>
    intro p q hp hq hk h hne
    have h0 := hk k (List.mem_cons_self ..)
    refine ih (step_rooted hp h0).1 (step_rooted hq h0).1 (fun x hx => hk x (List.mem_cons_of_mem _ hx)) ?_
      fun x hx => hne (k :: x) (List.cons_prefix_cons.2 ⟨rfl, hx⟩)
    have h1 := hne [k] (List.cons_prefix_cons.2 ⟨rfl, List.nil_prefix⟩)
    cases k with
    | rootDir => exact absurd rfl h0
    | curDir => exact h
    | parentDir =>
      have h2 : (p.step .parentDir).names.length ≠ 0 := fun e => h1 (List.length_eq_zero_iff.1 e)
      rw [length_parent hp] at h2 ⊢
      rw [length_parent hq]; omega
    | normal s => simpa [step] using h

/-- Once both are at the root they stay together. -/
theorem go_meet {x cs : List Comp} {p q : Place} (hp : p.rooted = true) (hq : q.rooted = true)
    (hk : ∀ k ∈ cs, k ≠ .rootDir) (hu : q.ups = p.ups) (h : q.names.length ≤ p.names.length) (hx : x <+: cs)
    (hn : (p.go x).names = []) : q.go cs = p.go cs := by
  obtain ⟨r, rfl⟩ := hx
  have hk1 : ∀ k ∈ x, k ≠ .rootDir := fun k hkx => hk k (List.mem_append_left _ hkx)
  have h1 := go_le hp hq hk1 h
  have h2 := go_rooted hp hk1
  have h3 := go_rooted hq hk1
  rw [hn] at h1
  have h4 : (q.go x).names = [] := List.length_eq_zero_iff.1 (by simpa using h1)
  rw [go_append, go_append]
  have : q.go x = p.go x := by
    cases e1 : q.go x with
    | mk a b c =>
      cases e2 : p.go x with
      | mk a' b' c' =>
        rw [e2] at hn h2
        rw [e1] at h4 h3
        cases hn; cases h4
        have : a = a' := h3.1.trans h2.1.symm
        have : b = b' := h3.2.trans (hu.trans h2.2.symm)
        simp_all
  rw [this]

theorem go_length_le {cs : List Comp} : ∀ {p : Place}, p.rooted = true → (∀ k ∈ cs, k ≠ .rootDir) →
    (p.go cs).names.length ≤ p.names.length + cs.length := by
  induction cs with
  | nil => intro p _ _; exact Nat.le_refl _
  | cons k cs ih =>
    intro p hp h
    have h0 := h k (List.mem_cons_self ..)
    have h1 := ih (step_rooted hp h0).1 fun x hx => h x (List.mem_cons_of_mem _ hx)
    have h2 : (p.step k).names.length ≤ p.names.length + 1 := by
      cases k with
      | rootDir => exact absurd rfl h0
      | curDir => exact Nat.le_succ _
      | parentDir => rw [length_parent hp]; omega
      | normal s => simp [step]
    rw [List.length_cons]
    show ((p.step k).go cs).names.length ≤ _
    omega

theorem go_length_lt {cs : List Comp} : ∀ {p : Place}, p.rooted = true → (∀ k ∈ cs, k ≠ .rootDir) →
    .parentDir ∈ cs → (p.go cs).names.length < p.names.length + cs.length := by
  induction cs with
  | nil => intro p _ _ h; cases h
  | cons k cs ih =>
    intro p hp h hm
    have h0 := h k (List.mem_cons_self ..)
    have hcs := fun x hx => h x (List.mem_cons_of_mem _ hx)
    rw [List.length_cons]
    show ((p.step k).go cs).names.length < _
    rcases List.mem_cons.1 hm with rfl | hm
    · have h1 := go_length_le (step_rooted hp h0).1 hcs
      rw [length_parent hp] at h1
      omega
    · have h1 := ih (step_rooted hp h0).1 hcs hm
      have h2 : (p.step k).names.length ≤ p.names.length + 1 := by
        cases k with
        | rootDir => exact absurd rfl h0
        | curDir => exact Nat.le_succ _
        | parentDir => rw [length_parent hp]; omega
        | normal s => simp [step]
      omega

theorem go_up_length (n : Nat) : ∀ {p : Place}, p.rooted = true →
    (p.go (List.replicate n .parentDir)).names.length = p.names.length - n := by
  induction n with
  | zero => intro p _; rfl
  | succ n ih =>
    intro p hp
    rw [List.replicate_succ]
    show ((p.step .parentDir).go _).names.length = _
    rw [ih (step_rooted hp (k := .parentDir) nofun).1, length_parent hp]
    omega

/-! ## From anywhere else -/

/-- How deep a place is below where one starts. -/
def depth (p : Place) : Int := p.names.length - p.ups

/-- How much deeper a component leads. -/
def down : Comp → Int
  | .normal _ => 1
  | .parentDir => -1
  | _ => 0

theorem step_free {p : Place} (hr : p.rooted = false) {k : Comp} (hk : k ≠ .rootDir) :
    (p.step k).rooted = false ∧ (p.step k).depth = p.depth + down k := by
  cases k with
  | rootDir => exact absurd rfl hk
  | curDir => exact ⟨hr, by simp [step, down]⟩
  | parentDir =>
    rw [step]
    split
    · rename_i h
      rw [if_neg (by rw [hr]; nofun)]
      refine ⟨rfl, ?_⟩
      simp only [depth, h, down, List.length_nil]; omega
    · rename_i h
      refine ⟨hr, ?_⟩
      have : p.names.length ≠ 0 := fun e => h (List.length_eq_zero_iff.1 e)
      simp only [depth, down, List.length_dropLast]; omega
  | normal s =>
    refine ⟨hr, ?_⟩
    simp only [step, depth, down, List.length_append, List.length_cons, List.length_nil]; omega

theorem go_free {cs : List Comp} : ∀ {p : Place}, p.rooted = false → (∀ k ∈ cs, k ≠ .rootDir) →
    (p.go cs).rooted = false ∧ (p.go cs).depth = p.depth + (cs.map down).sum := by
  induction cs with
  | nil => intro p hr _; exact ⟨hr, by simp⟩
  | cons k cs ih =>
    intro p hr h
    have h1 := step_free hr (h k (List.mem_cons_self ..))
    have h2 := ih h1.1 fun x hx => h x (List.mem_cons_of_mem _ hx)
    refine ⟨h2.1, h2.2.trans ?_⟩
    rw [h1.2, List.map_cons, List.sum_cons]; omega

theorem down_up (n : Nat) : ((List.replicate n Comp.parentDir).map down).sum = -(n : Int) := by
  induction n with
  | zero => rfl
  | succ n ih => rw [List.replicate_succ, List.map_cons, List.sum_cons, ih]; simp only [down]; omega

theorem down_le (cs : List Comp) : (cs.map down).sum ≤ cs.length := by
  induction cs with
  | nil => simp
  | cons k cs ih =>
    rw [List.map_cons, List.sum_cons, List.length_cons]
    have : down k ≤ 1 := by cases k <;> simp [down]
    omega

theorem down_lt {cs : List Comp} (h : ∃ k ∈ cs, ∀ s, k ≠ .normal s) : (cs.map down).sum < cs.length := by
  induction cs with
  | nil => obtain ⟨_, h, _⟩ := h; cases h
  | cons k cs ih =>
    rw [List.map_cons, List.sum_cons, List.length_cons]
    have h1 : down k ≤ 1 := by cases k <;> simp [down]
    obtain ⟨k', hk, hs⟩ := h
    rcases List.mem_cons.1 hk with rfl | hk
    · have h2 := down_le cs
      have h3 : down k' ≤ 0 := by
        cases k' with
        | normal s => exact absurd rfl (hs s)
        | _ => simp [down]
      omega
    · have := ih ⟨k', hk, hs⟩
      omega

end Place

/-! ## `diff_paths` -/

theorem diffLoop_common (c x y : List Comp) : diffLoop (c ++ x) (c ++ y) [] = diffLoop x y [] := by
  induction c with
  | nil => rfl
  | cons k c ih => rw [List.cons_append, List.cons_append, diffLoop, if_pos ⟨rfl, rfl⟩, ih]

/-- Without `.` in the rest of the base: up for each component of it, then down; or no result. -/
theorem diffLoop_plain {x y : List Comp} (hne : ∀ a x' b y', x = a :: x' → y = b :: y' → a ≠ b)
    (hy : Comp.curDir ∉ y) : (∀ comps, diffLoop x y [] = some comps →
      comps = List.replicate y.length .parentDir ++ x) ∧
    (diffLoop x y [] = none ↔ x ≠ [] ∧ y.head? = some .parentDir) := by
  cases x with
  | nil => rw [diffLoop_nil_left]; simp
  | cons a x =>
    cases y with
    | nil => simp [diffLoop]
    | cons b y =>
      have h1 := hne a x b y rfl rfl
      have h2 : b ≠ .curDir := fun e => hy (e ▸ List.mem_cons_self ..)
      rw [diffLoop, if_neg (fun h => h1 h.2), if_neg h2]
      by_cases h3 : b = .parentDir
      · rw [if_pos h3]; simp [h3]
      · rw [if_neg h3]; simp [h3, List.replicate_succ, List.map_const']

/-- With `.` first in the base: the first component of the path comes before going up. -/
theorem diffLoop_dot {x y : List Comp} (hx : x.head? ≠ some .curDir) (hy : Comp.curDir ∉ y) :
    (∀ comps, diffLoop x (.curDir :: y) [] = some comps →
      comps = if x = [] then List.replicate (y.length + 1) .parentDir else
        x.head?.toList ++ (List.replicate y.length .parentDir ++ x.tail)) ∧
    (diffLoop x (.curDir :: y) [] = none ↔ x.tail ≠ [] ∧ y.head? = some .parentDir) := by
  cases x with
  | nil => rw [diffLoop_nil_left]; simp
  | cons a x =>
    have h1 : a ≠ .curDir := fun e => hx (by rw [e]; rfl)
    rw [diffLoop, if_neg (fun h => h1 h.2), if_pos rfl]
    cases x with
    | nil => rw [diffLoop_nil_left]; simp
    | cons b x =>
      cases y with
      | nil => simp [diffLoop]
      | cons k y =>
        have h2 : k ≠ .curDir := fun e => hy (e ▸ List.mem_cons_self ..)
        rw [diffLoop, if_neg (fun h => by simp at h), if_neg h2]
        by_cases h3 : k = .parentDir
        · rw [if_pos h3]; simp [h3]
        · rw [if_neg h3]; simp [h3, List.replicate_succ, List.map_const']

/-- Down the rest of the base, up as often, and down the rest of the path. -/
theorem Place.go_plain {P : Place} {x y : List Comp} (hP : P.rooted = true → P.ups = 0)
    (hx : ∀ k ∈ x, k ≠ .rootDir) (hy : ∀ k ∈ y, k ≠ .rootDir ∧ k ≠ .curDir) :
    P.go (y ++ (List.replicate y.length .parentDir ++ x)) = P.go x ↔
      Comp.parentDir ∉ y ∨ ∃ x1, x1 <+: x ∧ P.go x1 = ⟨true, 0, []⟩ := by
  have hy' : ∀ k ∈ y, k ≠ .rootDir := fun k hk => (hy k hk).1
  have hup : ∀ k ∈ List.replicate y.length Comp.parentDir, k ≠ .rootDir := by
    intro k hk; rw [(List.mem_replicate.1 hk).2]; nofun
  rw [← List.append_assoc, go_append]
  constructor
  · intro h
    by_cases hpar : Comp.parentDir ∈ y
    · refine .inr (Classical.byContradiction fun hno => ?_)
      cases hr : P.rooted with
      | true =>
        have hF := go_rooted hr fun k hk => (List.mem_append.1 hk).elim (hy' k) (hup k)
        have hne : ∀ x1, x1 <+: x → (P.go x1).names ≠ [] := by
          intro x1 h1 h2
          have h3 := go_rooted hr fun k hk => hx k (h1.subset hk)
          refine hno ⟨x1, h1, ?_⟩
          cases e : P.go x1 with
          | mk a b n => rw [e] at h2 h3; cases h2; have ha : a = true := h3.1; have hb : b = 0 := h3.2.trans (hP hr); rw [ha, hb]
        have hlt : (P.go (y ++ List.replicate y.length .parentDir)).names.length < P.names.length := by
          rw [go_append, go_up_length _ (go_rooted hr hy').1]
          have h1 := go_length_lt hr hy' hpar
          have h2 : P.names.length ≠ 0 := fun e => hne [] List.nil_prefix (List.length_eq_zero_iff.1 e)
          omega
        have := go_lt hr hF.1 hx hlt hne
        rw [h] at this
        exact Nat.lt_irrefl _ this
      | false =>
        have h1 := (go_free hr hx).2
        have h2 := go_free hr fun k hk => (List.mem_append.1 hk).elim (hy' k) (hup k)
        have h3 := (go_free h2.1 hx).2
        rw [h, h1, h2.2, List.map_append, List.sum_append, down_up] at h3
        have h4 := down_lt ⟨_, hpar, nofun⟩
        omega
    · exact .inl hpar
  · rintro (hpar | ⟨x1, h1, h2⟩)
    · congr 1
      rw [go_append]
      refine walk_down_up _ _ fun k hk => ?_
      cases k with
      | normal s => exact ⟨s, rfl⟩
      | parentDir => exact absurd hk hpar
      | curDir => exact absurd rfl (hy _ hk).2
      | rootDir => exact absurd rfl (hy _ hk).1
    · have hr : P.rooted = true := by
        cases hr : P.rooted with
        | true => rfl
        | false =>
          have := (go_free hr fun k hk => hx k (h1.subset hk)).1
          rw [h2] at this; cases this
      have hF := go_rooted hr fun k hk => (List.mem_append.1 hk).elim (hy' k) (hup k)
      refine go_meet hr hF.1 hx hF.2 ?_ h1 (by rw [h2])
      rw [go_append, go_up_length _ (go_rooted hr hy').1]
      have h1 := go_length_le hr hy'
      omega

/-- Two places that differ in the first name at most meet exactly if that name is left. -/
theorem Place.go_bottom {cs : List Comp} : ∀ {s t : Str} {l : List Str} {u : Nat}, (∀ k ∈ cs, k ≠ .rootDir) →
    ((⟨false, u, t :: l⟩ : Place).go cs = (⟨false, u, s :: l⟩ : Place).go cs ↔
      s = t ∨ ∃ x, x <+: cs ∧ ((⟨false, u, s :: l⟩ : Place).go x).names = []) := by
  induction cs with
  | nil =>
    intro s t l u _
    constructor
    · intro h
      have h : (⟨false, u, t :: l⟩ : Place) = ⟨false, u, s :: l⟩ := h
      simp only [Place.mk.injEq, List.cons.injEq] at h
      exact .inl h.2.2.1.symm
    · rintro (rfl | ⟨x, h1, h2⟩)
      · rfl
      · rw [List.prefix_nil] at h1; subst h1; cases h2
  | cons k cs ih =>
    intro s t l u hk
    have hcs : ∀ k ∈ cs, k ≠ .rootDir := fun x hx => hk x (List.mem_cons_of_mem _ hx)
    have pre : ∀ p : Place, p.names ≠ [] → ((∃ x, x <+: k :: cs ∧ (p.go x).names = []) ↔
        ∃ x, x <+: cs ∧ ((p.step k).go x).names = []) := by
      intro p hp
      constructor
      · rintro ⟨x, h1, h2⟩
        cases x with
        | nil => exact absurd h2 hp
        | cons a x =>
          obtain ⟨rfl, h3⟩ := List.cons_prefix_cons.1 h1
          exact ⟨x, h3, h2⟩
      · rintro ⟨x, h1, h2⟩; exact ⟨k :: x, List.cons_prefix_cons.2 ⟨rfl, h1⟩, h2⟩
    rw [pre ⟨false, u, s :: l⟩ (by simp)]
    show ((⟨false, u, t :: l⟩ : Place).step k).go cs = ((⟨false, u, s :: l⟩ : Place).step k).go cs ↔ _
    cases k with
    | rootDir => exact absurd rfl (hk _ (List.mem_cons_self ..))
    | curDir => exact ih hcs
    | normal n =>
      have e : ∀ r : Str, (⟨false, u, r :: l⟩ : Place).step (.normal n) = ⟨false, u, r :: (l ++ [n])⟩ := fun _ => rfl
      rw [e, e]; exact ih hcs
    | parentDir =>
      cases l with
      | nil =>
        have e : ∀ r : Str, (⟨false, u, [r]⟩ : Place).step .parentDir = ⟨false, u, []⟩ := fun _ => rfl
        rw [e, e]
        exact ⟨fun _ => .inr ⟨[], List.nil_prefix, rfl⟩, fun _ => rfl⟩
      | cons m l =>
        have e : ∀ r : Str, (⟨false, u, r :: m :: l⟩ : Place).step .parentDir = ⟨false, u, r :: (m :: l).dropLast⟩ :=
          fun _ => rfl
        rw [e, e]; exact ih hcs

theorem Place.go_names {cs : List Comp} : ∀ {names : List Str} {p : Place}, cs = names.map Comp.normal →
    p.go cs = { p with names := p.names ++ names } := by
  intro names
  induction names generalizing cs with
  | nil => rintro p rfl; simp
  | cons n names ih =>
    rintro p rfl
    show (p.step (.normal n)).go (names.map Comp.normal) = _
    rw [ih rfl]; simp [step]

theorem all_normal {cs : List Comp} (h : ∀ k ∈ cs, ∃ s, k = .normal s) : ∃ names : List Str, cs = names.map Comp.normal := by
  induction cs with
  | nil => exact ⟨[], rfl⟩
  | cons k cs ih =>
    obtain ⟨s, rfl⟩ := h k (List.mem_cons_self ..)
    obtain ⟨names, rfl⟩ := ih fun x hx => h x (List.mem_cons_of_mem _ hx)
    exact ⟨s :: names, rfl⟩

/-- With `.` first in the base: the first component of the path is taken before going up. -/
theorem Place.go_dot {x y : List Comp} (hx : ∀ k ∈ x, k ≠ .rootDir ∧ k ≠ .curDir)
    (hy : ∀ k ∈ y, k ≠ .rootDir ∧ k ≠ .curDir) :
    start.go (y ++ (if x = [] then List.replicate (y.length + 1) .parentDir else
        x.head?.toList ++ (List.replicate y.length .parentDir ++ x.tail))) = start.go x ↔
      Comp.parentDir ∉ y ∧ x ≠ [] ∧ (y = [] ∨ x.head? = y.head? ∨
        ∃ x1, x1 ≠ [] ∧ x1 <+: x ∧ (start.go x1).names = []) := by
  have hs : start.rooted = false := rfl
  have hy' : ∀ k ∈ y, k ≠ .rootDir := fun k hk => (hy k hk).1
  have hx' : ∀ k ∈ x, k ≠ .rootDir := fun k hk => (hx k hk).1
  have hup : ∀ n, ∀ k ∈ List.replicate n Comp.parentDir, k ≠ .rootDir := by
    intro n k hk; rw [(List.mem_replicate.1 hk).2]; nofun
  cases x with
  | nil =>
    simp only [if_true, ne_eq, not_true_eq_false, false_and, and_false, iff_false]
    intro h
    have h1 := (go_free hs fun k hk => (List.mem_append.1 hk).elim (hy' k) (hup (y.length + 1) k)).2
    rw [h, List.map_append, List.sum_append, down_up] at h1
    have h2 := down_le y
    have h3 : (start.go []).depth = start.depth := rfl
    omega
  | cons a x =>
    rw [if_neg (by simp)]
    simp only [List.head?_cons, Option.toList_some, List.tail_cons, List.cons_append, List.nil_append]
    have ha := hx a (List.mem_cons_self ..)
    have hx2 : ∀ k ∈ x, k ≠ .rootDir := fun k hk => hx' k (List.mem_cons_of_mem _ hk)
    by_cases hpar : Comp.parentDir ∈ y
    · refine ⟨fun h => ?_, fun h => absurd hpar h.1⟩
      have h1 := (go_free hs (cs := y ++ a :: (List.replicate y.length .parentDir ++ x)) fun k hk => by
        rcases List.mem_append.1 hk with hk | hk
        · exact hy' k hk
        · rcases List.mem_cons.1 hk with rfl | hk
          · exact ha.1
          · exact (List.mem_append.1 hk).elim (hup _ k) (hx2 k)).2
      rw [h, (go_free hs hx').2, List.map_append, List.sum_append, List.map_cons, List.map_cons, List.sum_cons,
        List.sum_cons, List.map_append, List.sum_append, down_up] at h1
      have h4 := down_lt ⟨_, hpar, nofun⟩
      omega
    · have hnorm : ∀ k ∈ y, ∃ s, k = .normal s := by
        intro k hk
        cases k with
        | normal s => exact ⟨s, rfl⟩
        | parentDir => exact absurd hk hpar
        | curDir => exact absurd rfl (hy _ hk).2
        | rootDir => exact absurd rfl (hy _ hk).1
      simp only [hpar, not_false_eq_true, true_and, ne_eq, reduceCtorEq]
      cases y with
      | nil => simp
      | cons b y =>
        obtain ⟨names, hn⟩ := all_normal hnorm
        cases names with
        | nil => cases hn
        | cons t names =>
          rw [List.map_cons, List.cons.injEq] at hn
          obtain ⟨rfl, rfl⟩ := hn
          simp only [List.head?_cons, Option.some.injEq, reduceCtorEq, false_or]
          have e0 : ∀ r, start.go (Comp.normal t :: List.map Comp.normal names ++ r) =
              (⟨false, 0, t :: names⟩ : Place).go r := by
            intro r
            rw [go_append]
            have := go_names (p := start) (names := t :: names) rfl
            rw [List.map_cons] at this
            rw [this]; rfl
          rw [e0]
          cases a with
          | rootDir => exact absurd rfl ha.1
          | curDir => exact absurd rfl ha.2
          | parentDir =>
            refine ⟨fun _ => .inr ⟨[.parentDir], by simp, List.cons_prefix_cons.2 ⟨rfl, List.nil_prefix⟩, rfl⟩, fun _ => ?_⟩
            show (((⟨false, 0, t :: names⟩ : Place).step .parentDir).go _) = (start.step .parentDir).go x
            rw [go_append]
            congr 1
            have h1 := Place.walk_up start (t :: names) (names.length + 1) (by simp)
            simp only [List.length_cons, List.length_map]
            have h2 : ∀ n (p : Place), (p.step .parentDir).go (List.replicate n .parentDir) =
                (p.go (List.replicate n .parentDir)).step .parentDir := by
              intro n
              induction n with
              | zero => intro p; rfl
              | succ n ih => intro p; rw [List.replicate_succ]; exact ih (p.step .parentDir)
            rw [h2]
            exact congrArg (fun q => step q .parentDir) h1
          | normal s =>
            have e1 : (⟨false, 0, t :: names⟩ : Place).go (.normal s :: (List.replicate (Comp.normal t ::
                List.map Comp.normal names).length .parentDir ++ x)) = (⟨false, 0, [t]⟩ : Place).go x := by
              show ((⟨false, 0, t :: names⟩ : Place).step (.normal s)).go _ = _
              rw [go_append]
              congr 1
              exact Place.walk_up ⟨false, 0, [t]⟩ (names ++ [s]) _ (by simp)
            rw [e1]
            show (⟨false, 0, [t]⟩ : Place).go x = (⟨false, 0, [s]⟩ : Place).go x ↔ _
            rw [go_bottom hx2]
            have e2 : Comp.normal s = Comp.normal t ↔ s = t := by simp
            rw [e2]
            refine or_congr Iff.rfl ⟨?_, ?_⟩
            · rintro ⟨x1, h1, h2⟩
              exact ⟨.normal s :: x1, by simp, List.cons_prefix_cons.2 ⟨rfl, h1⟩, h2⟩
            · rintro ⟨x1, h0, h1, h2⟩
              cases x1 with
              | nil => exact absurd rfl h0
              | cons k x1 =>
                obtain ⟨rfl, h3⟩ := List.cons_prefix_cons.1 h1
                exact ⟨x1, h3, h2⟩

end Figment
