import Verif.Lemmas.Jail
/-!
# C52, C53, C62: jails

An `Answers` says what the operating system answers while a jail is made and dropped; each file operation carries its own
answer. A list of operations is what a closure does until it returns, fails or panics, wherever that is.
-/
namespace Figment
open Jail

/-! ## C52 -/

/-- What a call is to end with, if the closure ends with `e`: the error of making or entering the jail, or `e`. -/
def Jail.Answers.ending (a : Answers) (e : Ending) : Ending :=
  match a.tempDir, a.cwd, a.enter with
  | .error m, _, _ => .err m
  | .ok _, some m, _ => .err m
  | .ok _, none, some m => .err m
  | .ok _, none, none => e

/-- **C52**, for variable names the operating system accepts: after any operations, wherever and however they stop and
whatever the operating system answers, the environment is as before; and so is the working directory, if one can go back
to it. Missing: other names, for which it is false (`C52_fails`). -/
theorem C52_restores_partial (a : Answers) (ops : List Op) (e : Ending) (p : Sys) (ho : ∀ l, (a.order l).Perm l)
    (hp : p.Proper) (hc : Path.hasRoot p.cwd = true) (hops : ∀ k v, Op.setEnv k v ∈ ops → Sys.validName k = true) :
    (tryWith a ops e p).1.env = p.env ∧ (a.back = true → (tryWith a ops e p).1.cwd = p.cwd) ∧
    (tryWith a ops e p).2 = a.ending e := by
  have hval : ∀ x ∈ p.env, Sys.validValue x.2 = true := fun x hx => (hp.2 x hx).2
  have hstart : ∀ (dir : Str) (p1 : Sys), p1.env = p.env → Keeps p.env ⟨dir, [], p.cwd⟩ p1 ∧ Names ⟨dir, [], p.cwd⟩ p1 := by
    intro dir p1 h1
    refine ⟨⟨by rw [h1]; exact hp.1, by simp, by simp, fun k _ => by rw [h1]⟩, by simp, ?_⟩
    rw [h1]; exact fun x hx => (hp.2 x hx).1
  unfold tryWith make Answers.ending
  cases a.tempDir with
  | error e => exact ⟨rfl, fun _ => rfl, rfl⟩
  | ok dir =>
    cases a.cwd with
    | some e => exact ⟨rfl, fun _ => rfl, rfl⟩
    | none =>
      cases a.enter with
      | some m =>
        obtain ⟨h1, h2⟩ := hstart dir p rfl
        obtain ⟨p', h3, h4, _, h6⟩ := drop_spec hp.1 hval h1 h2 a.order (ho _) a.back a.removed false hc
        dsimp only
        rw [show p.setCwd (directory ⟨dir, [], p.cwd⟩) false = p from rfl, h3]
        exact ⟨h4, h6, rfl⟩
      | none =>
        obtain ⟨h1, h2⟩ := hstart dir (p.setCwd dir true) rfl
        have hj := run_jail ops ⟨dir, [], p.cwd⟩ (p.setCwd dir true)
        obtain ⟨p', h3, h4, _, h6⟩ := drop_spec hp.1 hval (h1.run ops) (h2.run ops hops) a.order (ho _) a.back a.removed
          (e == .panic) (by rw [hj.2]; exact hc)
        rw [hj.2] at h6
        dsimp only
        rw [show directory ⟨dir, [], p.cwd⟩ = dir from rfl, h3]
        exact ⟨h4, h6, rfl⟩

/-- C52 fails for a variable name the operating system refuses, wherever in the closure it is used: `set_env` panics, and
so does dropping the jail, before it goes back: the working directory stays where the closure left it. If the panic of
`set_env` is what ends the closure, the process is aborted. -/
theorem C52_fails (a : Answers) (ops : List Op) (e : Ending) (p : Sys) (ho : ∀ l, (a.order l).Perm l) (dir k v : Str)
    (h1 : a.tempDir = .ok dir) (h2 : a.cwd = none) (h3 : a.enter = none)
    (hop : Op.setEnv k v ∈ ops) (hk : Sys.validName k = false) :
    (tryWith a ops e p).2 = (if e = .panic then .abort else .panic) ∧
    (tryWith a ops e p).1.cwd = ((Jail.mk dir [] p.cwd).run (p.setCwd dir true) ops).2.cwd := by
  have hkeep : ∀ (ops : List Op) (j : Jail) (p : Sys) (k : Str), k ∈ j.saved.map (·.1) →
      k ∈ (j.run p ops).1.saved.map (·.1) := by
    have hclear : ∀ (l : List (Str × Str)) (j : Jail) (p : Sys) (k : Str), k ∈ j.saved.map (·.1) →
        k ∈ (clearLoop l j p).1.saved.map (·.1) := by
      intro l
      induction l with
      | nil => intro j p k h; exact h
      | cons x l ih =>
        intro j p k h
        rw [clearLoop]
        cases p.removeVar x.1 with
        | none => exact h
        | some p' => exact ih _ _ _ ((saved_any_iff_saveNew ..).2 (.inr h))
    intro ops
    induction ops with
    | nil => intro j p k h; exact h
    | cons op ops ih =>
      intro j p k h
      rw [run_cons]
      apply ih
      cases op with
      | setEnv k' v' =>
        rw [step, setEnv_eq]
        cases p.setVar k' v' <;> exact (saved_any_iff_saveNew ..).2 (.inr h)
      | clearEnv => exact hclear _ _ _ _ h
      | changeDir path ok => exact h
      | createFile path ok => exact h
      | createDir path ok => exact h
  have hset : ∀ (ops : List Op) (j : Jail) (p : Sys), Op.setEnv k v ∈ ops → k ∈ (j.run p ops).1.saved.map (·.1) := by
    intro ops
    induction ops with
    | nil => intro j p h; cases h
    | cons op ops ih =>
      intro j p h
      rw [run_cons]
      rcases List.mem_cons.1 h with rfl | h
      · apply hkeep
        rw [step, setEnv_eq]
        cases p.setVar k v <;> exact (saved_any_iff_saveNew ..).2 (.inl rfl)
      · exact ih _ _ h
  obtain ⟨x, hx, hxk⟩ := List.mem_map.1 (hset ops ⟨dir, [], p.cwd⟩ (p.setCwd dir true) hop)
  unfold tryWith make
  rw [h1, h2, h3]
  dsimp only
  rw [show directory ⟨dir, [], p.cwd⟩ = dir from rfl]
  generalize hr : (Jail.mk dir [] p.cwd).run (p.setCwd dir true) ops = r at hx
  obtain ⟨j, q⟩ := r
  have hpanics := restoreLoop_panics (a.order j.saved) q ⟨x, (ho _).mem_iff.2 hx, by rw [hxk]; exact hk⟩
  have hcwd := (drop_files j q a.order a.back a.removed (e == .panic)).2.2
  have hend : (j.drop q a.order a.back a.removed (e == .panic)).2 = if e = .panic then .aborts else .panics := by
    rw [Jail.drop]
    generalize restoreLoop (a.order j.saved) q = s at hpanics
    obtain ⟨s, c⟩ := s
    cases hpanics
    by_cases he : e = .panic
    · subst he; rfl
    · simp [he]
  refine ⟨?_, hcwd ?_⟩
  · show e.after (j.drop q a.order a.back a.removed (e == .panic)).2 = _
    rw [hend]
    split <;> rfl
  · rw [hend]
    split <;> simp

/-- **C52**, exactly: all is restored and the call gives what the closure gives or the error of making or entering the
jail, if and only if the jail is not entered or every variable name given to `set_env` in it is one the operating system
accepts. -/
theorem C52_exact (a : Answers) (ops : List Op) (e : Ending) (p : Sys) (ho : ∀ l, (a.order l).Perm l)
    (hp : p.Proper) (hc : Path.hasRoot p.cwd = true) :
    ((tryWith a ops e p).1.env = p.env ∧ (a.back = true → (tryWith a ops e p).1.cwd = p.cwd) ∧
      (tryWith a ops e p).2 = a.ending e) ↔
    ((∃ e, a.tempDir = .error e) ∨ a.cwd ≠ none ∨ a.enter ≠ none ∨
      ∀ k v, Op.setEnv k v ∈ ops → Sys.validName k = true) := by
  constructor
  · intro ⟨_, _, h⟩
    cases h1 : a.tempDir with
    | error e => exact .inl ⟨e, rfl⟩
    | ok dir =>
      cases h2 : a.cwd with
      | some e => exact .inr (.inl (by simp))
      | none =>
        cases h3 : a.enter with
        | some e => exact .inr (.inr (.inl (by simp)))
        | none =>
          refine .inr (.inr (.inr fun k v hk => ?_))
          cases hn : Sys.validName k with
          | true => rfl
          | false =>
            rw [(C52_fails a ops e p ho dir k v h1 h2 h3 hk hn).1, Answers.ending, h1, h2, h3] at h
            cases e <;> cases h
  · intro h
    by_cases hops : ∀ k v, Op.setEnv k v ∈ ops → Sys.validName k = true
    · exact C52_restores_partial a ops e p ho hp hc hops
    · have key : tryWith a ops e p = tryWith a [] e p := by
        unfold tryWith make
        rcases h with ⟨e, h⟩ | h | h | h
        · rw [h]
        · cases hcw : a.cwd with
          | none => exact absurd hcw h
          | some e => cases a.tempDir <;> rfl
        · cases he : a.enter with
          | none => exact absurd he h
          | some e => cases a.tempDir with
            | error e => rfl
            | ok d => cases a.cwd <;> rfl
        · exact absurd h hops
      rw [key]
      exact C52_restores_partial a [] e p ho hp hc (by simp)

/-- C52 fails likewise for `expect_with`: with a name in the jail the operating system refuses, it does not return. -/
theorem C52_fails_result (a : Answers) (ops : List Op) (e : Ending) (p : Sys) (ho : ∀ l, (a.order l).Perm l)
    (dir k v : Str) (h1 : a.tempDir = .ok dir) (h2 : a.cwd = none) (h3 : a.enter = none)
    (hop : Op.setEnv k v ∈ ops) (hk : Sys.validName k = false) :
    expectWith a ops e p = false := by
  rw [expectWith, (C52_fails a ops e p ho dir k v h1 h2 h3 hop hk).1]
  split <;> rename_i h <;> first | rfl | (split at h <;> cases h)

/-- **C52** (result): with names the operating system accepts, `expect_with` returns exactly if the jail was made and
entered and the closure returned without error. -/
theorem C52_result (a : Answers) (ops : List Op) (e : Ending) (p : Sys) (ho : ∀ l, (a.order l).Perm l) (hp : p.Proper)
    (hc : Path.hasRoot p.cwd = true) (hops : ∀ k v, Op.setEnv k v ∈ ops → Sys.validName k = true) :
    expectWith a ops e p = true ↔ (∃ dir, a.tempDir = .ok dir) ∧ a.cwd = none ∧ a.enter = none ∧ e = .ok := by
  rw [expectWith, (C52_restores_partial a ops e p ho hp hc hops).2.2, Answers.ending]
  cases a.tempDir with
  | error m => simp
  | ok d =>
    cases a.cwd with
    | some m => simp
    | none =>
      cases a.enter with
      | some m => simp
      | none => cases e <;> simp

/-- **C52** (inside): `set_env` panics exactly if the name is empty, has an `=` or a NUL in it, or the value has a NUL; then
no variable changes. -/
theorem C52_refused (j : Jail) (p : Sys) (k v : Str) :
    ((j.step p (.setEnv k v)).2.2 = .panic ↔ k = [] ∨ '=' ∈ k ∨ Char.ofNat 0 ∈ k ∨ Char.ofNat 0 ∈ v) ∧
    ((j.step p (.setEnv k v)).2.2 = .panic → (j.step p (.setEnv k v)).2.1 = p) := by
  have hiff : (Sys.validName k && Sys.validValue v) = false ↔
      k = [] ∨ '=' ∈ k ∨ Char.ofNat 0 ∈ k ∨ Char.ofNat 0 ∈ v := by
    unfold Sys.validName Sys.validValue
    simp only [Bool.and_eq_false_iff, Bool.not_eq_false', List.isEmpty_iff, List.contains_iff_mem, or_assoc]
  rw [← hiff, step, setEnv_eq, Sys.setVar]
  cases h : Sys.validName k && Sys.validValue v with
  | true => simp
  | false => simp

example : ((⟨str "/t", [], str "/w"⟩ : Jail).step ⟨[], str "/t", [], []⟩ (.setEnv (str "A=B") (str "c"))).2.2 = .panic ∧
    ((⟨str "/t", [], str "/w"⟩ : Jail).step ⟨[], str "/t", [], []⟩ (.setEnv (str "A") (str "b=c"))).2.2 = .unit :=
  ⟨rfl, rfl⟩

/-- **C52** (inside): `set_env` sets that variable and no other; `clear_env` removes all. -/
theorem C52_inside (j : Jail) (p : Sys) (hp : p.Proper) :
    (∀ k v, Sys.validName k = true → Sys.validValue v = true →
      (j.step p (.setEnv k v)).2.2 = .unit ∧
      Map.get k (j.step p (.setEnv k v)).2.1.env = some v ∧
      ∀ k', k' ≠ k → Map.get k' (j.step p (.setEnv k v)).2.1.env = Map.get k' p.env) ∧
    (j.step p .clearEnv).2.2 = .unit ∧ (j.step p .clearEnv).2.1.env = [] := by
  constructor
  · intro k v hk hv
    rw [step, setEnv_eq, Sys.setVar, if_pos (by rw [hk, hv]; rfl)]
    exact ⟨rfl, get_insert_self k v _, fun k' hk' => get_insert_ne v _ hk'⟩
  · have h : ∀ (l : List (Str × Str)) (j : Jail) (p : Sys), Map.Sorted p.env →
        (∀ x ∈ l, Sys.validName x.1 = true) → (∀ k, k ∉ l.map (·.1) → Map.get k p.env = none) →
        (clearLoop l j p).2.2 = .unit ∧ ∀ k, Map.get k (clearLoop l j p).2.1.env = none := by
      intro l
      induction l with
      | nil => intro j p _ _ h; exact ⟨rfl, fun k => h k (by simp)⟩
      | cons x l ih =>
        intro j p hs hv h
        rw [clearLoop, Sys.removeVar, if_pos (hv x (List.mem_cons_self ..))]
        refine ih _ _ (hs.erase _) (fun y hy => hv y (List.mem_cons_of_mem _ hy)) ?_
        intro k hk
        by_cases hkx : k = x.1
        · rw [hkx]; exact get_erase_self _ _
        · show Map.get k (Map.erase x.1 p.env) = none
          rw [get_erase_ne _ hkx]
          exact h k (by rw [List.map_cons, List.mem_cons, not_or]; exact ⟨hkx, hk⟩)
    obtain ⟨h1, h2⟩ := h p.env j p hp.1 (fun x hx => (hp.2 x hx).1) (by
      intro k hk
      cases hg : Map.get k p.env with
      | none => rfl
      | some v =>
        exfalso
        exact hk (Map.mem_keys_iff.2 (by rw [hg]; rfl)))
    refine ⟨h1, ?_⟩
    show (clearLoop p.env j p).2.1.env = []
    cases he : (clearLoop p.env j p).2.1.env with
    | nil => rfl
    | cons x l =>
      exfalso
      have := h2 x.1
      have h3 : (Map.get x.1 (clearLoop p.env j p).2.1.env).isSome :=
        Map.get_isSome_of_mem (v := x.2) (by rw [he]; exact List.mem_cons_self ..)
      rw [this] at h3
      cases h3

/-- A process with two variables, and operations that set one anew, clear all, set another and stop at a panic. -/
def C52_sys : Sys := ⟨[(str "A", str "1"), (str "B", str "2")], str "/home", [], []⟩
def C52_ops : List Op :=
  [.setEnv (str "A") (str "x"), .changeDir (str "sub") none, .clearEnv, .setEnv (str "C") (str "y"),
   .setEnv (str "B") [Char.ofNat 0]]
def C52_answers : Answers := ⟨.ok (str "/tmp/j"), none, none, List.reverse, true, true⟩

example : C52_sys.Proper ∧ Path.hasRoot C52_sys.cwd = true ∧ (∀ l, (C52_answers.order l).Perm l) ∧
    (∀ k v, Op.setEnv k v ∈ C52_ops → Sys.validName k = true) ∧
    ((Jail.mk (str "/tmp/j") [] (str "/home")).run (C52_sys.setCwd (str "/tmp/j") true) C52_ops).2.env =
      [(str "C", str "y")] ∧
    (tryWith C52_answers C52_ops .panic C52_sys).1.env = C52_sys.env := by
  refine ⟨⟨by decide, by decide⟩, by decide, fun l => List.reverse_perm l, ?_, by decide, by decide⟩
  intro k v h
  simp only [C52_ops, List.mem_cons, Op.setEnv.injEq, reduceCtorEq, List.not_mem_nil, false_or, or_false] at h
  rcases h with ⟨rfl, _⟩ | ⟨rfl, _⟩ | ⟨rfl, _⟩ <;> decide

/-! ## C53 -/

/-- The jail's directory is the canonical path of a directory, and the working directory is inside. -/
structure Jail.Begun (j : Jail) (p : Sys) (names : List Str) : Prop where
  isName : ∀ s ∈ names, IsName s
  dir : j.dir = dirPath names
  cwd : Inside p.cwd j.dir

/-- **C53** (operations): after any operations on a jail from a working directory inside, the working directory is
inside, and every path given to the file system leads inside, from where the working directory was at the time. -/
theorem C53_inside (j : Jail) (p : Sys) (names : List Str) (h : j.Begun p names) (ops : List Op) :
    Inside (j.run p ops).2.cwd j.dir ∧ ∀ t ∈ (j.run p ops).2.touched, t ∈ p.touched ∨ Inside t j.dir := by
  have hstep : ∀ (j : Jail) (p : Sys), j.Begun p names → ∀ op,
      Inside (j.step p op).2.1.cwd j.dir ∧ ∀ t ∈ (j.step p op).2.1.touched, t ∈ p.touched ∨ Inside t j.dir := by
    intro j p h op
    have htouch : ∀ path q, j.safeJailedPath path = .ok q → ∀ t ∈ (p.touch q).touched, t ∈ p.touched ∨ Inside t j.dir := by
      intro path q hq t ht
      rcases List.mem_cons.1 ht with rfl | ht
      · exact .inr (safe_inside h.isName h.dir hq h.cwd)
      · exact .inl ht
    cases op with
    | setEnv k v =>
      obtain ⟨_, _, h3, h4, _⟩ := setEnv_jail j p k v
      show Inside (j.setEnv p k v).2.1.cwd j.dir ∧ ∀ t ∈ (j.setEnv p k v).2.1.touched, _
      rw [h3, h4]
      exact ⟨h.cwd, fun t ht => .inl ht⟩
    | clearEnv =>
      obtain ⟨_, _, h3, h4, _⟩ := clearLoop_jail p.env j p
      show Inside (clearLoop p.env j p).2.1.cwd j.dir ∧ ∀ t ∈ (clearLoop p.env j p).2.1.touched, _
      rw [h3, h4]
      exact ⟨h.cwd, fun t ht => .inl ht⟩
    | changeDir path ok =>
      show Inside (j.changeDir p path ok).1.cwd j.dir ∧ ∀ t ∈ (j.changeDir p path ok).1.touched, _
      unfold changeDir
      cases hq : j.safeJailedPath path with
      | error e => exact ⟨h.cwd, fun t ht => .inl ht⟩
      | ok q =>
        cases ok with
        | some e => exact ⟨h.cwd, htouch path q hq⟩
        | none => exact ⟨safe_inside h.isName h.dir hq h.cwd, htouch path q hq⟩
    | createFile path c ok =>
      show Inside (j.createFile p path c ok).1.cwd j.dir ∧ ∀ t ∈ (j.createFile p path c ok).1.touched, _
      unfold createFile
      cases hq : j.safeJailedPath path with
      | error e => exact ⟨h.cwd, fun t ht => .inl ht⟩
      | ok q => rcases ok with _ | ⟨_, _ | _⟩ <;> exact ⟨h.cwd, htouch path q hq⟩
    | createDir path ok =>
      show Inside (j.createDir p path ok).1.cwd j.dir ∧ ∀ t ∈ (j.createDir p path ok).1.touched, _
      unfold createDir
      cases hq : j.safeJailedPath path with
      | error e => exact ⟨h.cwd, fun t ht => .inl ht⟩
      | ok q => cases ok <;> exact ⟨h.cwd, htouch path q hq⟩
  induction ops generalizing j p with
  | nil => exact ⟨h.cwd, fun t ht => .inl ht⟩
  | cons op ops ih =>
    rw [run_cons]
    obtain ⟨h1, h2⟩ := hstep j p h op
    obtain ⟨hd, _⟩ := step_jail j p op
    obtain ⟨h3, h4⟩ := ih (j.step p op).1 (j.step p op).2.1 ⟨h.isName, hd.trans h.dir, by rw [hd]; exact h1⟩
    rw [hd] at h3 h4
    refine ⟨h3, fun t ht => ?_⟩
    rcases h4 t ht with h5 | h5
    · exact h2 t h5
    · exact .inr h5

/-- **C53**: the closure begins in the jail's directory. -/
theorem C53_begins (a : Answers) (p : Sys) (j : Jail) (names : List Str) (hn : ∀ s ∈ names, IsName s)
    (ht : a.tempDir = .ok (dirPath names)) (hj : make a p = .ok j) :
    (p.setCwd j.directory true).cwd = dirPath names ∧ j.Begun (p.setCwd j.directory true) names := by
  unfold make at hj
  rw [ht] at hj
  cases hc : a.cwd with
  | some e => rw [hc] at hj; cases hj
  | none =>
    rw [hc] at hj
    cases hj
    have : (p.setCwd (dirPath names) true).cwd = dirPath names := by
      show Path.join p.cwd (dirPath names) = dirPath names
      rw [Path.join, if_pos (by rfl)]
    refine ⟨this, hn, rfl, ?_⟩
    show Inside (p.setCwd (dirPath names) true).cwd (dirPath names)
    rw [this]
    exact ⟨names, [], of_dirPath names hn, by rw [of_dirPath names hn, List.append_nil]⟩

/-- C52 fails with effect: the working directory afterwards is in the jail's directory or below it, so not as before,
unless that was there too. -/
theorem C52_fails_cwd (a : Answers) (ops : List Op) (e : Ending) (p : Sys) (ho : ∀ l, (a.order l).Perm l)
    (names : List Str) (hn : ∀ s ∈ names, IsName s) (k v : Str)
    (h1 : a.tempDir = .ok (dirPath names)) (h2 : a.cwd = none) (h3 : a.enter = none)
    (hop : Op.setEnv k v ∈ ops) (hk : Sys.validName k = false) :
    Inside (tryWith a ops e p).1.cwd (dirPath names) := by
  rw [(C52_fails a ops e p ho _ k v h1 h2 h3 hop hk).2]
  have hb := C53_begins a p ⟨dirPath names, [], p.cwd⟩ names hn h1 (by rw [make, h1, h2])
  exact (C53_inside _ _ names hb.2 ops).1

/-- **C53** (whole): with `try_with`, every path given to the file system leads inside the jail's directory. -/
theorem C53_try_with (a : Answers) (ops : List Op) (e : Ending) (p : Sys) (names : List Str) (hn : ∀ s ∈ names, IsName s)
    (ht : a.tempDir = .ok (dirPath names)) :
    ∀ t ∈ (tryWith a ops e p).1.touched, t ∈ p.touched ∨ Inside t (dirPath names) := by
  unfold tryWith
  cases hm : make a p with
  | error e => exact fun t ht => .inl ht
  | ok j =>
    have hb := C53_begins a p j names hn ht hm
    cases he : a.enter with
    | some m =>
      dsimp only
      rw [(drop_files ..).1]
      exact fun t ht => .inl ht
    | none =>
      dsimp only
      rw [(drop_files ..).1]
      have := (C53_inside j _ names hb.2 ops).2
      rw [hb.2.dir] at this
      exact this

/-- **C53** (absolute paths): accepted exactly if they lead inside, and kept as a path to the same place. -/
theorem C53_absolute (j : Jail) (names : List Str) (hn : ∀ s ∈ names, IsName s) (hd : j.dir = dirPath names) (path : Str)
    (hr : Path.hasRoot path = true) :
    ((∃ q, j.safeJailedPath path = .ok q) ↔ Inside path j.dir) ∧
    ∀ q, j.safeJailedPath path = .ok q → Place.of q = Place.of path := by
  have hroot : Path.hasRoot (dedot path) = true := by rw [hasRoot_dedot, of_rooted, hr]
  have hplace : Place.of path = ⟨true, 0, (Place.of path).names⟩ := by
    have h1 := of_rooted path
    have h2 := of_rooted_ups path hr
    rw [hr] at h1
    cases hp : Place.of path
    rw [hp] at h1 h2
    simp only at h1 h2
    rw [h1, h2]
  have hsafe : j.safeJailedPath path = if Path.startsWith (dedot path) (dirPath names) = true then .ok (dedot path)
      else .error (str "Jail: input path is outside of jail directory") := by
    unfold safeJailedPath
    simp only [hroot, Bool.true_and, if_true, directory, hd]
  have hin : Path.startsWith (dedot path) (dirPath names) = true ↔ Inside path j.dir := by
    rw [startsWith_dedot path names hn hr, Inside, hd, of_dirPath names hn]
    constructor
    · rintro ⟨m, hm⟩
      exact ⟨names, m, rfl, by rw [hplace, hm]⟩
    · rintro ⟨n, m, h1, h2⟩
      rw [(Place.mk.inj h1).2.2]
      exact ⟨m, by rw [h2]⟩
  rw [hsafe, ← hin]
  constructor
  · constructor
    · rintro ⟨q, hq⟩
      split at hq
      · assumption
      · cases hq
    · intro h
      exact ⟨_, if_pos h⟩
  · intro q hq
    split at hq
    · cases hq
      rw [hplace, Place.of, walk_dedot, of_rooted, hr, if_pos rfl]
    · cases hq

/-- **C53** (relative paths): all are accepted; one that leads above where it is taken from is taken without the levels
up. So from below the jail's directory `..` stays where it is, even if the directory above is inside too. -/
theorem C53_relative (j : Jail) (path : Str) (hr : Path.hasRoot path = false) :
    ∃ q, j.safeJailedPath path = .ok q ∧ ∀ cwd, Place.of (Path.join cwd q) =
      { Place.of cwd with names := (Place.of cwd).names ++ (Place.of path).names } := by
  have hroot : Path.hasRoot (dedot path) = false := by rw [hasRoot_dedot, of_rooted, hr]
  refine ⟨dedot path, ?_, fun cwd => ?_⟩
  · unfold safeJailedPath
    simp [hroot]
  · rw [Place.of, Place.walk_join, walk_dedot, of_rooted, hr]
    rfl

/-- **C53**: a refused path is not given to the file system, and nothing changes. -/
theorem C53_refused (j : Jail) (p : Sys) (path e : Str) (h : j.safeJailedPath path = .error e) (ok : Option Str)
    (c : Str) (made : Option (Str × Option Str)) :
    j.step p (.changeDir path ok) = (j, p, .err e) ∧ j.step p (.createFile path c made) = (j, p, .err e) ∧
    j.step p (.createDir path ok) = (j, p, .err e) := by
  simp only [step, changeDir, createFile, createDir, h, and_self]

/-- **C53**: an accepted path is what the operations use and give back. -/
theorem C53_accepted (j : Jail) (p : Sys) (path q c : Str) (h : j.safeJailedPath path = .ok q) :
    j.step p (.createFile path c none) =
      (j, { p with
        touched := Path.join p.cwd q :: p.touched, files := (Place.of (Path.join p.cwd q), c) :: p.files }, .path q) ∧
    j.step p (.createDir path none) = (j, { p with touched := Path.join p.cwd q :: p.touched }, .path q) ∧
    j.step p (.changeDir path none) =
      (j, { p with cwd := Path.join p.cwd q, touched := Path.join p.cwd q :: p.touched }, .path q) := by
  refine ⟨?_, ?_, ?_⟩ <;> simp only [step, changeDir, createFile, createDir, h] <;> rfl

example : (Jail.mk (str "/tmp/j") [] (str "/")).safeJailedPath (str "/tmp/j/../j/./a") = .ok (str "/tmp/j/a") ∧
    (Jail.mk (str "/tmp/j") [] (str "/")).safeJailedPath (str "/tmp/j/../k") =
      .error (str "Jail: input path is outside of jail directory") ∧
    (Jail.mk (str "/tmp/j") [] (str "/")).safeJailedPath (str "a/../../../b") = .ok (str "b") ∧
    str "/tmp/j" = dirPath [str "tmp", str "j"] := ⟨rfl, rfl, rfl, rfl⟩

end Figment
