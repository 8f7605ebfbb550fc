import Verif.Spec.JailData
import Verif.Props.Jail
import Verif.Props.Data
import Verif.Props.Env
/-! # Lemmas: what providers see inside a jail -/
namespace Figment
open Path

/-- Walking components from below the root: the levels up take away names, at most all of them. -/
theorem Place.foldl_from (ps : List Str) : ∀ (cs : List Comp), (∀ c ∈ cs, c ≠ .rootDir) → ∀ (u : Nat) (ns : List Str),
    cs.foldl Place.step ⟨true, 0, ps.take (ps.length - u) ++ ns⟩ =
      ⟨true, 0, ps.take (ps.length - (cs.foldl Place.step ⟨false, u, ns⟩).ups) ++
        (cs.foldl Place.step ⟨false, u, ns⟩).names⟩ := by
  intro cs
  induction cs with
  | nil => intro _ u ns; rfl
  | cons c cs ih =>
    intro h u ns
    have h' : ∀ c ∈ cs, c ≠ .rootDir := fun c hc => h c (List.mem_cons_of_mem _ hc)
    rw [List.foldl_cons, List.foldl_cons]
    cases c with
    | rootDir => exact absurd rfl (h _ (List.mem_cons_self ..))
    | curDir => exact ih h' u ns
    | normal s =>
      have := ih h' u (ns ++ [s])
      rw [← List.append_assoc] at this
      exact this
    | parentDir =>
      rcases List.eq_nil_or_concat ns with hn | ⟨l, x, hn⟩
      · subst hn
        have h1 : Place.step ⟨false, u, []⟩ .parentDir = ⟨false, u + 1, []⟩ := rfl
        have h2 : Place.step ⟨true, 0, ps.take (ps.length - u) ++ []⟩ .parentDir =
            ⟨true, 0, ps.take (ps.length - (u + 1)) ++ []⟩ := by
          simp only [Place.step, List.append_nil, if_true]
          split
          · rename_i he
            have hl : (ps.take (ps.length - u)).length = 0 := by rw [he]; rfl
            rw [List.length_take] at hl
            have : ps.length - (u + 1) = 0 := by omega
            rw [he, this, List.take_zero]
          · rw [List.dropLast_eq_take, List.take_take, List.length_take]
            have : min (min (ps.length - u) ps.length - 1) (ps.length - u) = ps.length - (u + 1) := by omega
            rw [this]
        rw [h1, h2]
        exact ih h' (u + 1) []
      · rw [List.concat_eq_append] at hn
        subst hn
        have h1 : Place.step ⟨false, u, l ++ [x]⟩ .parentDir = ⟨false, u, l⟩ := by
          simp only [Place.step]
          rw [if_neg (by simp), List.dropLast_concat]
        have h2 : Place.step ⟨true, 0, ps.take (ps.length - u) ++ (l ++ [x])⟩ .parentDir =
            ⟨true, 0, ps.take (ps.length - u) ++ l⟩ := by
          simp only [Place.step]
          rw [if_neg (by simp), ← List.append_assoc, List.dropLast_concat]
        rw [h1, h2]
        exact ih h' u l

/-- Of a path without root, no component is the root. -/
theorem Path.components_no_root {path : Str} (h : hasRoot path = false) : ∀ c ∈ components path, c ≠ .rootDir := by
  have hc := canon_components path
  intro c hcm
  cases hcs : components path with
  | nil => rw [hcs] at hcm; cases hcm
  | cons z zs =>
    rw [hcs] at hc hcm
    rcases List.mem_cons.1 hcm with rfl | hm
    · rintro rfl
      have := (hasRoot_iff path).2 ⟨zs, hcs⟩
      rw [h] at this
      cases this
    · rintro rfl
      exact hc.2 _ hm

/-- A relative path from a place below the root. -/
theorem Place.walk_relative (ps : List Str) {path : Str} (h : hasRoot path = false) :
    Place.walk ⟨true, 0, ps⟩ path = ⟨true, 0, ps.take (ps.length - (Place.of path).ups) ++ (Place.of path).names⟩ := by
  have := Place.foldl_from ps (components path) (Path.components_no_root h) 0 []
  rw [List.append_nil, Nat.sub_zero, List.take_length] at this
  exact this

theorem Place.of_join_relative {cwd path : Str} {ps : List Str} (hc : Place.of cwd = ⟨true, 0, ps⟩)
    (h : hasRoot path = false) : Place.of (join cwd path) =
      ⟨true, 0, ps.take (ps.length - (Place.of path).ups) ++ (Place.of path).names⟩ := by
  rw [← Place.walk_relative ps h, ← hc]
  exact Place.walk_join Place.start cwd path

/-- A path with a root leads to the same place from everywhere. -/
theorem Place.of_join_rooted (a : Str) {path : Str} (h : hasRoot path = true) : join a path = path := by
  rw [Path.join, if_pos h]

theorem Path.hasRoot_join {a : Str} (h : hasRoot a = true) (b : Str) : hasRoot (join a b) = true := by
  cases hb : hasRoot b with
  | true => rw [Place.of_join_rooted a hb]; exact hb
  | false =>
    rw [← Jail.of_rooted, Place.of, Place.walk_join, Place.walk]
    have h1 : Place.start.walk a = Place.of a := rfl
    rw [h1, Jail.foldl_rooted_ups _ _ (by rw [Jail.of_rooted, h]) (Jail.of_rooted_ups a h) |>.1]

namespace Jail

/-- What operations do to files: they add some inside. -/
theorem run_files (ops : List Op) (j : Jail) (p : Sys) (names : List Str) (h : j.Begun p names) :
    ∃ new, (j.run p ops).2.files = new ++ p.files ∧ ∀ x ∈ new, ∃ more, x.1 = ⟨true, 0, names ++ more⟩ := by
  induction ops generalizing j p with
  | nil => exact ⟨[], rfl, by simp⟩
  | cons op ops ih =>
    rw [run_cons]
    have hcwd : Inside (j.step p op).2.1.cwd j.dir := (C53_inside j p names h [op]).1
    obtain ⟨hd, _⟩ := step_jail j p op
    have hb : (j.step p op).1.Begun (j.step p op).2.1 names := ⟨h.isName, hd.trans h.dir, by rw [hd]; exact hcwd⟩
    obtain ⟨new, h1, h2⟩ := ih _ _ hb
    have hstep : ∃ new, (j.step p op).2.1.files = new ++ p.files ∧ ∀ x ∈ new, ∃ more, x.1 = ⟨true, 0, names ++ more⟩ := by
      have hsafe : ∀ path q, j.safeJailedPath path = .ok q → ∃ more, Place.of (join p.cwd q) = ⟨true, 0, names ++ more⟩ := by
        intro path q hq
        obtain ⟨n, more, k1, k2⟩ := safe_inside h.isName h.dir hq h.cwd
        rw [h.dir, of_dirPath names h.isName] at k1
        rw [← (Place.mk.inj k1).2.2] at k2
        exact ⟨more, k2⟩
      cases op with
      | setEnv k v => exact ⟨[], (setEnv_jail j p k v).2.2.2.2, by simp⟩
      | clearEnv => exact ⟨[], (clearLoop_jail p.env j p).2.2.2.2, by simp⟩
      | changeDir path ok =>
        refine ⟨[], ?_, by simp⟩
        show (j.changeDir p path ok).1.files = _
        unfold changeDir
        cases j.safeJailedPath path with
        | error e => rfl
        | ok q => cases ok <;> rfl
      | createDir path ok =>
        refine ⟨[], ?_, by simp⟩
        show (j.createDir p path ok).1.files = _
        unfold createDir
        cases j.safeJailedPath path with
        | error e => rfl
        | ok q => cases ok <;> rfl
      | createFile path c ok =>
        show ∃ new, (j.createFile p path c ok).1.files = _ ∧ _
        unfold createFile
        cases hq : j.safeJailedPath path with
        | error e => exact ⟨[], rfl, by simp⟩
        | ok q =>
          obtain ⟨more, hm⟩ := hsafe path q hq
          rcases ok with _ | ⟨e, _ | w⟩
          · refine ⟨[(Place.of (join p.cwd q), c)], rfl, fun x hx => ⟨more, ?_⟩⟩
            rw [List.mem_singleton.1 hx]; exact hm
          · exact ⟨[], rfl, by simp⟩
          · refine ⟨[(Place.of (join p.cwd q), w)], rfl, fun x hx => ⟨more, ?_⟩⟩
            rw [List.mem_singleton.1 hx]; exact hm
    obtain ⟨new', h3, h4⟩ := hstep
    refine ⟨new ++ new', by rw [h1, h3, List.append_assoc], fun x hx => ?_⟩
    rcases List.mem_append.1 hx with hx | hx
    · exact h2 x hx
    · exact h4 x hx

/-- Files at places no operation leads to stay. -/
theorem run_lookup (ops : List Op) (j : Jail) (p : Sys) (pl : Place) :
    ∃ new, (j.run p ops).2.touched = new ++ p.touched ∧
      ((∀ t ∈ new, Place.of t ≠ pl) → (j.run p ops).2.files.lookup pl = p.files.lookup pl) := by
  induction ops generalizing j p with
  | nil => exact ⟨[], rfl, fun _ => rfl⟩
  | cons op ops ih =>
    rw [run_cons]
    obtain ⟨new, h1, h2⟩ := ih (j.step p op).1 (j.step p op).2.1
    have hstep : ∃ new, (j.step p op).2.1.touched = new ++ p.touched ∧
        ((∀ t ∈ new, Place.of t ≠ pl) → (j.step p op).2.1.files.lookup pl = p.files.lookup pl) := by
      cases op with
      | setEnv k v =>
        obtain ⟨_, _, _, h4, h5⟩ := setEnv_jail j p k v
        exact ⟨[], h4, fun _ => congrArg _ h5⟩
      | clearEnv =>
        obtain ⟨_, _, _, h4, h5⟩ := clearLoop_jail p.env j p
        exact ⟨[], h4, fun _ => congrArg _ h5⟩
      | changeDir path ok =>
        show ∃ new, (j.changeDir p path ok).1.touched = _ ∧ (_ → (j.changeDir p path ok).1.files.lookup pl = _)
        unfold changeDir
        cases j.safeJailedPath path with
        | error e => exact ⟨[], rfl, fun _ => rfl⟩
        | ok q => cases ok <;> exact ⟨[join p.cwd q], rfl, fun _ => rfl⟩
      | createDir path ok =>
        show ∃ new, (j.createDir p path ok).1.touched = _ ∧ (_ → (j.createDir p path ok).1.files.lookup pl = _)
        unfold createDir
        cases j.safeJailedPath path with
        | error e => exact ⟨[], rfl, fun _ => rfl⟩
        | ok q => cases ok <;> exact ⟨[join p.cwd q], rfl, fun _ => rfl⟩
      | createFile path c ok =>
        show ∃ new, (j.createFile p path c ok).1.touched = _ ∧ (_ → (j.createFile p path c ok).1.files.lookup pl = _)
        unfold createFile
        have hw : ∀ q w, (∀ t ∈ [join p.cwd q], Place.of t ≠ pl) →
            ((Place.of (join p.cwd q), w) :: p.files).lookup pl = p.files.lookup pl := by
          intro q w hne
          have : (pl == Place.of (join p.cwd q)) = false := by
            rw [beq_eq_false_iff_ne]
            exact fun he => hne _ (List.mem_singleton.2 rfl) he.symm
          rw [List.lookup_cons, this]
        cases j.safeJailedPath path with
        | error e => exact ⟨[], rfl, fun _ => rfl⟩
        | ok q =>
          rcases ok with _ | ⟨e, _ | w⟩
          · exact ⟨[join p.cwd q], rfl, hw q c⟩
          · exact ⟨[join p.cwd q], rfl, fun _ => rfl⟩
          · exact ⟨[join p.cwd q], rfl, hw q w⟩
    obtain ⟨new', h3, h4⟩ := hstep
    refine ⟨new ++ new', by rw [h1, h3, List.append_assoc], fun hne => ?_⟩
    rw [h2 fun t ht => hne t (List.mem_append_left _ ht), h4 fun t ht => hne t (List.mem_append_right _ ht)]

end Jail
end Figment
