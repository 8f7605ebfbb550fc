import Verif.Lemmas.Diff
/-!
# C54, C58: relative paths and displayed sources

`Place.of path` (Spec/Walk.lean) is where a path leads, `Path.join base r` the path `r` taken from `base`.
-/
namespace Figment
open Path

/-! ## C54 -/

/-- **C54**, if after a common part with the path the base has no `.` and no `..` (with an empty common part: if it has
none at all): walking the result from the base arrives at the path. Missing: other bases, for which it is false
(`C54_fails`). -/
theorem C54_way_partial (path base r : Str) (h : diffPaths path base = some r) (c x y : List Comp)
    (hp : components path = c ++ x) (hb : components base = c ++ y)
    (hy : ∀ k ∈ y, k ≠ .curDir ∧ k ≠ .parentDir) : Place.of (join base r) = Place.of path := by
  unfold diffPaths at h
  split at h
  · cases h
  · rename_i hr
    have hr : hasRoot path = hasRoot base := Classical.not_not.1 hr
    obtain ⟨c', x', y', hx, hy', hne⟩ := common_prefix x y
    subst hx; subst hy'
    rw [← List.append_assoc] at hp hb
    have hplain : ∀ k ∈ y', k ≠ .curDir ∧ k ≠ .parentDir := fun k hk => hy k (List.mem_append_right _ hk)
    rw [hp, hb, diffLoop_split _ _ _ hne hplain] at h
    simp only [Option.map_some, Option.some.injEq] at h
    subst h
    have hcp := canon_components path
    have hcb := canon_components base
    -- the rest of the base is names only
    have hnames : ∀ k ∈ y', ∃ s, k = .normal s := by
      intro k hk
      have hkc := hplain k hk
      cases k with
      | normal s => exact ⟨s, rfl⟩
      | curDir => exact absurd rfl hkc.1
      | parentDir => exact absurd rfl hkc.2
      | rootDir =>
        exfalso
        rw [hb] at hcb
        cases hcc : c ++ c' with
        | cons z zs =>
          rw [hcc] at hcb
          exact hcb.2 .rootDir (List.mem_append_right _ hk)
        | nil =>
          rw [hcc, List.nil_append] at hcb hb hp
          cases y' with
          | nil => simp at hk
          | cons w ws =>
            rcases List.mem_cons.1 hk with rfl | hk'
            · have h1 := (hasRoot_iff base).2 ⟨ws, hb⟩
              rw [← hr] at h1
              obtain ⟨cs, h2⟩ := (hasRoot_iff path).1 h1
              rw [hp] at h2
              exact hne _ _ _ _ h2 rfl rfl
            · exact hcb.2 .rootDir hk'
    have hall : ∀ k ∈ List.replicate y'.length Comp.parentDir ++ x', k = .rootDir ∨ k = .curDir ∨ k.Inner := by
      intro k hk
      rcases List.mem_append.1 hk with hk | hk
      · rw [List.mem_replicate] at hk
        rw [hk.2]; exact .inr (.inr trivial)
      · have hkp : k ∈ components path := by rw [hp]; exact List.mem_append_right _ hk
        cases hcs : components path with
        | nil => rw [hcs] at hkp; cases hkp
        | cons z zs =>
          rw [hcs] at hcp hkp
          rcases List.mem_cons.1 hkp with rfl | hkp
          · exact hcp.1
          · exact .inr (.inr (hcp.2 k hkp))
    rw [Place.of, Place.walk_join, Place.walk_collect _ _ hall, Place.of, Place.walk, Place.walk, hp, hb,
      List.foldl_append, List.foldl_append, Place.walk_down_up _ _ hnames, ← List.foldl_append]

/-- **C54**: for a base without `.` and `..` there is a result exactly if both paths are rooted or neither is. -/
theorem C54_result (path base : Str) (hb : ∀ k ∈ components base, k ≠ .curDir ∧ k ≠ .parentDir) :
    (∃ r, diffPaths path base = some r) ↔ hasRoot path = hasRoot base := by
  unfold diffPaths
  constructor
  · rintro ⟨r, h⟩
    split at h
    · cases h
    · rename_i hr; exact Classical.not_not.1 hr
  · intro h
    rw [if_neg (by simp [h])]
    obtain ⟨c, x, y, h1, h2, h3⟩ := common_prefix (components path) (components base)
    rw [h1, h2, diffLoop_split c x y h3 fun k hk => hb k (by rw [h2]; exact List.mem_append_right _ hk)]
    exact ⟨_, rfl⟩

/-- **C54**: where the base goes up by `..` after the common part and the path does not, there is no result. -/
theorem C54_refuses (path base : Str) (c x y : List Comp) (a : Comp) (hp : components path = c ++ a :: x)
    (hb : components base = c ++ .parentDir :: y) (ha : a ≠ .parentDir) : diffPaths path base = none := by
  have h : ∀ c : List Comp, diffLoop (c ++ a :: x) (c ++ .parentDir :: y) [] = none := by
    intro c
    induction c with
    | nil =>
      rw [List.nil_append, List.nil_append, diffLoop, if_neg (fun h => ha h.2), if_neg (by simp), if_pos rfl]
    | cons k c ih => rw [List.cons_append, List.cons_append, diffLoop, if_pos ⟨rfl, rfl⟩, ih]
  unfold diffPaths
  split
  · rfl
  · rw [hp, hb, h]; rfl

example : components (str "/a/b") = [.rootDir, .normal (str "a")] ++ [.normal (str "b")] ∧
    components (str "/a/../c") = [.rootDir, .normal (str "a")] ++ [.parentDir, .normal (str "c")] := by decide

-- A base with a common part and two levels of its own, and one with `..` inside the common part.
example : diffPaths (str "/a/b/c/../d") (str "/a/x/y") = some (str "../../b/c/../d") := by decide
example : components (str "../a/b") = components (str "../a") ++ [.normal (str "b")] ∧
    diffPaths (str "../a/c") (str "../a/b") = some (str "../c") := by decide

/-- C54 fails for other bases, with `..` and with `.`: the result does not lead to the path. -/
theorem C54_fails :
    (∃ r, diffPaths (str "a") (str "a/..") = some r ∧ Place.of (join (str "a/..") r) ≠ Place.of (str "a")) ∧
    (∃ r, diffPaths (str "a") (str "./x/y") = some r ∧ Place.of (join (str "./x/y") r) ≠ Place.of (str "a")) :=
  ⟨⟨str "..", by decide⟩, ⟨str "a/../..", by decide⟩⟩

/-! ### What holds of every base

`c` is the longest common part of path and base, `x` and `y` are what is left of them. -/

/-- What the components left of two paths of which both or none are rooted can be. -/
theorem Path.rest_of {path base : Str} (hr : hasRoot path = hasRoot base) {c x y : List Comp}
    (hp : components path = c ++ x) (hb : components base = c ++ y) (hne : ∀ k, ¬ (x.head? = some k ∧ y.head? = some k)) :
    (∀ k ∈ x, k ≠ .rootDir) ∧ (∀ k ∈ y, k ≠ .rootDir) ∧
    (∀ l, x = l ∨ y = l → ∀ k ∈ l, k = .curDir → c = [] ∧ ∃ l', l = .curDir :: l' ∧ ∀ k ∈ l', k ≠ .curDir) ∧
    ((Place.start.go c).rooted = true → (Place.start.go c).ups = 0) := by
  have hcp := canon_components path
  have hcb := canon_components base
  rw [hp] at hcp
  rw [hb] at hcb
  have inner : ∀ {l : List Comp} {d : List Comp}, Canon (d ++ l) → d ≠ [] → ∀ k ∈ l, k.Inner := by
    intro l d h hd k hk
    cases d with
    | nil => exact absurd rfl hd
    | cons z zs => exact h.2 k (List.mem_append_right _ hk)
  have first : ∀ {l : List Comp}, Canon l → ∀ k ∈ l, ¬ k.Inner → ∃ l', l = k :: l' ∧ ∀ k ∈ l', k.Inner := by
    intro l h k hk hni
    cases l with
    | nil => cases hk
    | cons z zs =>
      rcases List.mem_cons.1 hk with rfl | hk
      · exact ⟨zs, rfl, h.2⟩
      · exact absurd (h.2 k hk) hni
  have both : ∀ {l : List Comp}, Canon (c ++ l) → ∀ k ∈ l, ¬ k.Inner → c = [] ∧ ∃ l', l = k :: l' ∧ ∀ k ∈ l', k.Inner := by
    intro l h k hk hni
    cases c with
    | nil => exact ⟨rfl, first h k hk hni⟩
    | cons z zs => exact absurd (inner h nofun k hk) hni
  have noroot : ∀ k, k ∈ x ∨ k ∈ y → k ≠ .rootDir := by
    rintro k hk rfl
    have : c = [] ∧ (x.head? = some .rootDir ∨ y.head? = some .rootDir) := by
      rcases hk with hk | hk
      · obtain ⟨h1, l', h2, _⟩ := both hcp _ hk nofun
        exact ⟨h1, .inl (by rw [h2]; rfl)⟩
      · obtain ⟨h1, l', h2, _⟩ := both hcb _ hk nofun
        exact ⟨h1, .inr (by rw [h2]; rfl)⟩
    obtain ⟨rfl, h⟩ := this
    rw [List.nil_append] at hp hb
    have hx : ∀ {s : Str} {l : List Comp}, components s = l → (hasRoot s = true ↔ l.head? = some .rootDir) := by
      intro s l hl
      rw [hasRoot_iff, hl]
      cases l <;> simp
    rw [← hx hp, ← hx hb, hr] at h
    have h := h.elim id id
    exact hne .rootDir ⟨(hx hp).1 (hr.trans h), (hx hb).1 h⟩
  refine ⟨fun k hk => noroot k (.inl hk), fun k hk => noroot k (.inr hk), ?_, ?_⟩
  · rintro l hl k hk rfl
    obtain ⟨h1, l', h2, h3⟩ : c = [] ∧ ∃ l', l = .curDir :: l' ∧ ∀ k ∈ l', k.Inner := by
      rcases hl with rfl | rfl
      · exact both hcp _ hk nofun
      · exact both hcb _ hk nofun
    refine ⟨h1, l', h2, ?_⟩
    rintro k hk rfl
    exact h3 _ hk
  · intro hroot
    have hin : ∀ (z : Comp) (zs : List Comp), c = z :: zs → ∀ k ∈ zs, k ≠ .rootDir := by
      rintro z zs rfl k hk rfl
      exact hcp.2 .rootDir (List.mem_append_left _ hk)
    cases c with
    | nil => cases hroot
    | cons z zs =>
      by_cases hz : z = .rootDir
      · subst hz
        exact (Place.go_rooted (p := ⟨true, 0, []⟩) rfl (hin _ zs rfl)).2
      · have : (Place.start.go (z :: zs)).rooted = false := (Place.go_free rfl fun k hk => by
          rcases List.mem_cons.1 hk with rfl | hk
          · exact hz
          · exact hin _ zs rfl k hk).1
        rw [this] at hroot; cases hroot

/-- **C54**, what holds of every base: there is a result unless only one of the two is rooted, or the base goes up by
`..` right after the common part, or after a `.` there, and the path goes on there. -/
theorem C54_none (path base : Str) (c x y : List Comp) (hp : components path = c ++ x) (hb : components base = c ++ y)
    (hne : ∀ k, ¬ (x.head? = some k ∧ y.head? = some k)) :
    diffPaths path base = none ↔ hasRoot path ≠ hasRoot base ∨
      (x ≠ [] ∧ ∃ y', y = .parentDir :: y') ∨ (2 ≤ x.length ∧ ∃ y', y = .curDir :: .parentDir :: y') := by
  unfold diffPaths
  by_cases hr : hasRoot path = hasRoot base
  · rw [if_neg (by simp [hr]), hp, hb, diffLoop_common, Option.map_eq_none_iff]
    simp only [hr, ne_eq, not_true_eq_false, false_or]
    obtain ⟨_, _, hcur, _⟩ := rest_of hr hp hb hne
    have hne' : ∀ a x' b y', x = a :: x' → y = b :: y' → a ≠ b := by
      rintro a x' b y' rfl rfl rfl; exact hne a ⟨rfl, rfl⟩
    by_cases hy : Comp.curDir ∈ y
    · obtain ⟨_, y', rfl, hy'⟩ := hcur y (.inr rfl) _ hy rfl
      rw [(diffLoop_dot (fun h => hne .curDir ⟨h, rfl⟩) fun h => hy' _ h rfl).2]
      cases x with
      | nil => simp
      | cons a x =>
        cases x with
        | nil => simp
        | cons b x => cases y' <;> simp
    · rw [(diffLoop_plain hne' hy).2]
      constructor
      · rintro ⟨h1, h2⟩
        cases y with
        | nil => cases h2
        | cons k y => cases h2; exact .inl ⟨h1, y, rfl⟩
      · rintro (⟨h1, y', rfl⟩ | ⟨_, y', rfl⟩)
        · exact ⟨h1, rfl⟩
        · exact absurd (List.mem_cons_self ..) hy
  · rw [if_pos (by simpa using hr)]; simp [hr]

/-- **C54**, what holds of every base: walking the result from the base arrives at the path exactly if

* what is left of the base has no `.` and no `..`, or
* the path is at the root at the common part or at some point after it, where it does not matter how far up one goes, or
* the base begins with `.`, the path does not but goes on, the base has no `..`, and the `.` is all of the base, or what
  follows it begins as the path does, or the path is at some point back where it starts or above, where it does not
  matter what it went up from. -/
theorem C54_exact (path base r : Str) (h : diffPaths path base = some r) (c x y : List Comp)
    (hp : components path = c ++ x) (hb : components base = c ++ y) (hne : ∀ k, ¬ (x.head? = some k ∧ y.head? = some k)) :
    Place.of (join base r) = Place.of path ↔
      (∀ k ∈ y, k ≠ .curDir ∧ k ≠ .parentDir) ∨
      (∃ x1, x1 <+: x ∧ (c ++ x1).foldl Place.step Place.start = ⟨true, 0, []⟩) ∨
      (∃ y', y = .curDir :: y' ∧ (∀ k ∈ y', k ≠ .parentDir) ∧ x ≠ [] ∧
        (y' = [] ∨ x.head? = y'.head? ∨
          ∃ x1, x1 ≠ [] ∧ x1 <+: x ∧ (x1.foldl Place.step Place.start).names = [])) := by
  have hr : hasRoot path = hasRoot base := by
    refine Classical.byContradiction fun hr => ?_
    rw [(C54_none path base c x y hp hb hne).2 (.inl hr)] at h; cases h
  unfold diffPaths at h
  rw [if_neg (by simp [hr]), hp, hb, diffLoop_common, Option.map_eq_some_iff] at h
  obtain ⟨comps, h, rfl⟩ := h
  obtain ⟨hx, hy, hcur, hroot⟩ := rest_of hr hp hb hne
  have hxall : ∀ k ∈ x, k = .rootDir ∨ k = .curDir ∨ k.Inner := by
    intro k hk
    have hcp := canon_components path
    have hkp : k ∈ components path := by rw [hp]; exact List.mem_append_right _ hk
    cases hcs : components path with
    | nil => rw [hcs] at hkp; cases hkp
    | cons z zs =>
      rw [hcs] at hcp hkp
      rcases List.mem_cons.1 hkp with rfl | hkp
      · exact hcp.1
      · exact .inr (.inr (hcp.2 k hkp))
  have hup : ∀ n, ∀ k ∈ List.replicate n Comp.parentDir, k = .rootDir ∨ k = .curDir ∨ k.Inner := by
    intro n k hk; rw [(List.mem_replicate.1 hk).2]; exact .inr (.inr trivial)
  have hne' : ∀ a x' b y', x = a :: x' → y = b :: y' → a ≠ b := by
    rintro a x' b y' rfl rfl rfl; exact hne a ⟨rfl, rfl⟩
  have way : (∀ k ∈ comps, k = .rootDir ∨ k = .curDir ∨ k.Inner) →
      (Place.of (join base (collect comps)) = Place.of path ↔
        (Place.start.go c).go (y ++ comps) = (Place.start.go c).go x) := by
    intro hall
    rw [Place.of, Place.walk_join, Place.walk_collect _ _ hall, Place.of, Place.walk, Place.walk, hp, hb,
      List.foldl_append, List.foldl_append, ← List.foldl_append]
  by_cases hd : Comp.curDir ∈ y
  · obtain ⟨rfl, y', rfl, hy'⟩ := hcur y (.inr rfl) _ hd rfl
    have hx2 : ∀ k ∈ x, k ≠ .curDir := by
      intro k hk e
      obtain ⟨_, x', rfl, _⟩ := hcur x (.inl rfl) k hk e
      exact hne .curDir ⟨rfl, rfl⟩
    have hcomps := (diffLoop_dot (fun h => hne .curDir ⟨h, rfl⟩) fun h => hy' _ h rfl).1 comps h
    have hall : ∀ k ∈ comps, k = .rootDir ∨ k = .curDir ∨ k.Inner := by
      rw [hcomps]
      intro k hk
      split at hk
      · exact hup _ k hk
      · cases x with
        | nil => rename_i h; exact absurd rfl h
        | cons a x =>
          simp only [List.head?_cons, Option.toList_some, List.tail_cons, List.cons_append, List.nil_append] at hk
          rcases List.mem_cons.1 hk with rfl | hk
          · exact hxall _ (List.mem_cons_self ..)
          · exact (List.mem_append.1 hk).elim (hup _ k) fun hk => hxall _ (List.mem_cons_of_mem _ hk)
    rw [way hall, hcomps]
    have key := Place.go_dot (x := x) (y := y') (fun k hk => ⟨hx k hk, hx2 k hk⟩)
      fun k hk => ⟨hy k (List.mem_cons_of_mem _ hk), hy' k hk⟩
    refine Iff.trans key ⟨?_, ?_⟩
    · rintro ⟨h1, h2, h3⟩
      exact .inr (.inr ⟨y', rfl, fun k hk e => h1 (e ▸ hk), h2, h3⟩)
    · rintro (h1 | ⟨x1, h1, h2⟩ | ⟨y2, h1, h2, h3, h4⟩)
      · exact absurd rfl (h1 .curDir (List.mem_cons_self ..)).1
      · exfalso
        rw [List.nil_append] at h2
        have := (Place.go_free (p := Place.start) rfl fun k hk => hx k (h1.subset hk)).1
        rw [Place.go, h2] at this; cases this
      · cases h1
        exact ⟨fun h => h2 _ h rfl, h3, h4⟩
  · have hcomps := (diffLoop_plain hne' hd).1 comps h
    have hall : ∀ k ∈ comps, k = .rootDir ∨ k = .curDir ∨ k.Inner := by
      rw [hcomps]
      exact fun k hk => (List.mem_append.1 hk).elim (hup _ k) (hxall k)
    rw [way hall, hcomps]
    have key := Place.go_plain (P := Place.start.go c) (x := x) (y := y) hroot hx
      fun k hk => ⟨hy k hk, fun e => hd (e ▸ hk)⟩
    refine Iff.trans key ⟨?_, ?_⟩
    · rintro (h1 | ⟨x1, h1, h2⟩)
      · exact .inl fun k hk => ⟨fun e => hd (e ▸ hk), fun e => h1 (e ▸ hk)⟩
      · exact .inr (.inl ⟨x1, h1, by rw [List.foldl_append]; exact h2⟩)
    · rintro (h1 | ⟨x1, h1, h2⟩ | ⟨y2, h1, _⟩)
      · exact .inl fun h => (h1 _ h).2 rfl
      · exact .inr ⟨x1, h1, by rw [List.foldl_append] at h2; exact h2⟩
      · exact absurd (by rw [h1]; exact List.mem_cons_self ..) hd

/-- Every two paths have a longest common part. -/
theorem C54_common (path base : Str) : ∃ c x y, components path = c ++ x ∧ components base = c ++ y ∧
    ∀ k, ¬ (x.head? = some k ∧ y.head? = some k) := by
  obtain ⟨c, x, y, h1, h2, h3⟩ := common_prefix (components path) (components base)
  refine ⟨c, x, y, h1, h2, ?_⟩
  rintro k ⟨hx, hy⟩
  cases x with
  | nil => cases hx
  | cons a x =>
    cases y with
    | nil => cases hy
    | cons b y => cases hx; cases hy; exact h3 _ _ _ _ rfl rfl rfl

-- The root is passed; the base begins with `.` and the path comes back; and cases in which one does not arrive.
example : diffPaths (str "/a") (str "/a/..") = some (str "..") ∧
    Place.of (join (str "/a/..") (str "..")) ≠ Place.of (str "/a") := by decide
example : diffPaths (str "/a/../b") (str "/a/x/..") = some (str "../../../b") ∧
    Place.of (join (str "/a/x/..") (str "../../../b")) = Place.of (str "/a/../b") := by decide
example : diffPaths (str "/a/..") (str "/a/x/../y") = some (str "../../../..") ∧
    Place.of (join (str "/a/x/../y") (str "../../../..")) = Place.of (str "/a/..") := by decide
example : diffPaths (str "a/../b") (str "./x/y") = some (str "a/../../../b") ∧
    Place.of (join (str "./x/y") (str "a/../../../b")) = Place.of (str "a/../b") := by decide
example : diffPaths (str "a/b") (str "./../y") = none ∧ diffPaths (str "a") (str "./../y") = some (str "a/../..") := by
  decide

/-! ## C58 -/

/-- **C58**: a file is displayed by its path relative to the working directory exactly if there is one and it has fewer
components, else by its path; so never with more components. -/
theorem C58_display (p : Str) (cwd : Option Str) :
    (∀ d r, cwd = some d → diffPaths p d = some r → count r < count p → (Source.file p).display cwd = r) ∧
    ((∀ d r, cwd = some d → diffPaths p d = some r → ¬ count r < count p) → (Source.file p).display cwd = p) ∧
    count ((Source.file p).display cwd) ≤ count p := by
  unfold Source.display
  cases cwd with
  | none => simp
  | some d =>
    simp only [Option.bind_some]
    cases hd : diffPaths p d with
    | none =>
      refine ⟨?_, fun _ => rfl, Nat.le_refl _⟩
      rintro d' r ⟨⟩ h; rw [hd] at h; cases h
    | some r =>
      simp only
      refine ⟨?_, fun h => by rw [if_neg (h d r rfl hd)], ?_⟩
      · rintro d' r' ⟨⟩ h hc
        rw [hd] at h; cases h
        rw [if_pos hc]
      · split
        · omega
        · exact Nat.le_refl _

/-- **C58**: what is displayed, taken from the working directory (which has no `.` and no `..` in it), leads to the same
place as the path itself, taken from the working directory. -/
theorem C58_same_place (p d : Str) (hd : ∀ k ∈ components d, k ≠ .curDir ∧ k ≠ .parentDir) (hr : hasRoot d = true) :
    Place.of (join d ((Source.file p).display (some d))) = Place.of (join d p) := by
  unfold Source.display
  simp only [Option.bind_some]
  cases h : diffPaths p d with
  | none => rfl
  | some r =>
    simp only
    split
    · rw [C54_way_partial p d r h [] _ _ rfl rfl hd]
      have : hasRoot p = hasRoot d := (C54_result p d hd).1 ⟨r, h⟩
      rw [hr] at this
      rw [join, if_pos this]
    · rfl

/-- **C58**: code locations and custom sources are displayed as they are. -/
theorem C58_other (cwd : Option Str) (l : Location) (t : Str) :
    (Source.custom t).display cwd = t ∧
    (Source.code l).display cwd = l.file ++ str ":" ++ (Nat.repr l.line).toList ++ str ":" ++ (Nat.repr l.column).toList :=
  ⟨rfl, rfl⟩

example : (Source.file (str "/home/u/app/Conf.toml")).display (some (str "/home/u/app/src")) = str "../Conf.toml" ∧
    (Source.file (str "/etc/x")).display (some (str "/home/u/app")) = str "/etc/x" := by decide

end Figment
