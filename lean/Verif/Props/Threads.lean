import Verif.Props.Jail
/-!
# C62, C75: jails in threads
-/
namespace Figment
open Jail

/-- What holds of the threads at every time: only the one with the lock is between taking and releasing it; while nobody
has it the environment and the working directory are as at first; and inside a jail they are as after the operations
done so far, from there. -/
structure Isolated (prog : Program) (p : Sys) (w : World) : Prop where
  holder : ∀ i, w.threads i = .waiting ∨ w.threads i = .done ∨ w.holder = some i
  free : w.holder = none → w.proc.env = p.env ∧ w.proc.cwd = p.cwd
  outside : ∀ i, w.threads i = .locked ∨ w.threads i = .dropped → w.proc.env = p.env ∧ w.proc.cwd = p.cwd
  inside : ∀ i j todo, w.threads i = .inside j todo → ∃ p1 j0, p1.env = p.env ∧ p1.cwd = p.cwd ∧
    make (prog i).answers p1 = .ok j0 ∧
    (((prog i).answers.enter = none ∧ ∃ past, (prog i).ops = past ++ todo ∧
        j0.run (p1.setCwd j0.directory true) past = (j, w.proc)) ∨
      ((∃ e, (prog i).answers.enter = some e) ∧ todo = [] ∧ j = j0 ∧ w.proc = p1))
  alive : ∀ i, w.threads i ≠ .unwinding ∧ w.threads i ≠ .crashed
  running : w.aborted = false

/-- **C62**: threads that each run a jail, under any schedule: at most one is in its jail at a time, each finds there
the environment and the working directory as if it ran alone, and whenever no jail is open they are as at first. Missing: names
the operating system refuses, and a working directory one cannot go back to, for which it is false (`C62_fails`,
`C62_fails_back`). -/
theorem C62_isolated_partial (prog : Program) (p : Sys) (hp : p.Proper) (hc : Path.hasRoot p.cwd = true)
    (ho : ∀ i l, ((prog i).answers.order l).Perm l) (hback : ∀ i, (prog i).answers.back = true)
    (hops : ∀ i k v, Op.setEnv k v ∈ (prog i).ops → Sys.validName k = true) (schedule : List Nat) :
    Isolated prog p (World.after prog p schedule) := by
  have hstep : ∀ w i, Isolated prog p w → Isolated prog p (World.step prog w i) := by
    intro w i h
    have hput : ∀ s k, w.put i s k = if k = i then s else w.threads k := fun _ _ => rfl
    have hal : ∀ s, (s ≠ .unwinding ∧ s ≠ .crashed) → ∀ k, w.put i s k ≠ .unwinding ∧ w.put i s k ≠ .crashed := by
      intro s hs k
      rw [hput]
      by_cases hk : k = i
      · rw [if_pos hk]; exact hs
      · rw [if_neg hk]; exact h.alive k
    unfold World.step
    rw [if_neg (by rw [h.running]; simp)]
    cases hs : w.threads i with
    | waiting =>
      dsimp only
      cases hh : w.holder with
      | some k => exact h
      | none =>
        obtain ⟨f1, f2⟩ := h.free hh
        have hothers : ∀ k, k ≠ i → w.threads k = .waiting ∨ w.threads k = .done := by
          intro k _
          rcases h.holder k with h' | h' | h'
          · exact .inl h'
          · exact .inr h'
          · rw [hh] at h'; cases h'
        refine ⟨?_, ?_, ?_, ?_, ?_, ?_⟩
        · intro k
          show w.put i .locked k = _ ∨ w.put i .locked k = _ ∨ some i = some k
          rw [hput]
          by_cases hk : k = i
          · subst hk; exact .inr (.inr rfl)
          · rw [if_neg hk]
            rcases hothers k hk with h' | h'
            · exact .inl h'
            · exact .inr (.inl h')
        · rintro ⟨⟩
        · intro _ _; exact ⟨f1, f2⟩
        · intro k j todo hk
          change w.put i .locked k = _ at hk
          rw [hput] at hk
          split at hk
          · cases hk
          · rename_i hne
            rcases hothers k hne with h' | h' <;> rw [h'] at hk <;> cases hk
        · exact hal _ (by simp)
        · exact h.running
    | locked =>
      have hhold : w.holder = some i := by
        rcases h.holder i with h' | h' | h'
        · rw [hs] at h'; cases h'
        · rw [hs] at h'; cases h'
        · exact h'
      have hothers : ∀ k, k ≠ i → w.threads k = .waiting ∨ w.threads k = .done := by
        intro k hk
        rcases h.holder k with h' | h' | h'
        · exact .inl h'
        · exact .inr h'
        · rw [hhold] at h'; exact absurd (Option.some.inj h').symm hk
      obtain ⟨f1, f2⟩ := h.outside i (.inl hs)
      dsimp only
      cases hm : make (prog i).answers w.proc with
      | error e =>
        dsimp only
        refine ⟨?_, ?_, ?_, ?_, ?_, ?_⟩
        · intro k
          show w.put i .dropped k = _ ∨ w.put i .dropped k = _ ∨ w.holder = some k
          rw [hput]
          split
          · rename_i e'; rw [e']; exact .inr (.inr hhold)
          · exact h.holder k
        · exact h.free
        · intro _ _; exact ⟨f1, f2⟩
        · intro k j todo hk
          change w.put i .dropped k = _ at hk
          rw [hput] at hk
          split at hk
          · cases hk
          · rename_i hne
            rcases hothers k hne with h' | h' <;> rw [h'] at hk <;> cases hk
        · exact hal _ (by simp)
        · exact h.running
      | ok j0 =>
        dsimp only
        -- both ways lead inside
        have hgo : ∀ (q : Sys) (td : List Op),
            (∃ p1 j0', p1.env = p.env ∧ p1.cwd = p.cwd ∧ make (prog i).answers p1 = .ok j0' ∧
              (((prog i).answers.enter = none ∧ ∃ past, (prog i).ops = past ++ td ∧
                  j0'.run (p1.setCwd j0'.directory true) past = (j0, q)) ∨
                ((∃ e, (prog i).answers.enter = some e) ∧ td = [] ∧ j0 = j0' ∧ q = p1))) →
            Isolated prog p { w with proc := q, threads := w.put i (.inside j0 td) } := by
          intro q td hq
          refine ⟨?_, ?_, ?_, ?_, ?_, ?_⟩
          · intro k
            show w.put i (.inside j0 td) k = _ ∨ w.put i (.inside j0 td) k = _ ∨ w.holder = some k
            rw [hput]
            split
            · rename_i e'; rw [e']; exact .inr (.inr hhold)
            · exact h.holder k
          · intro hn; rw [show w.holder = none from hn] at hhold; cases hhold
          · intro k hk
            change w.put i (.inside j0 td) k = _ ∨ w.put i (.inside j0 td) k = _ at hk
            rw [hput] at hk
            split at hk
            · rcases hk with hk | hk <;> cases hk
            · rename_i hne
              rcases hothers k hne with h' | h' <;> rw [h'] at hk <;> rcases hk with hk | hk <;> cases hk
          · intro k j todo hk
            change w.put i (.inside j0 td) k = _ at hk
            rw [hput] at hk
            split at hk
            · rename_i e'
              cases hk
              rw [e']
              exact hq
            · rename_i hne
              rcases hothers k hne with h' | h' <;> rw [h'] at hk <;> cases hk
          · exact hal _ (by simp)
          · exact h.running
        cases he : (prog i).answers.enter with
        | some e =>
          exact hgo w.proc [] ⟨w.proc, j0, f1, f2, hm, .inr ⟨⟨e, he⟩, rfl, rfl, rfl⟩⟩
        | none =>
          exact hgo _ (prog i).ops ⟨w.proc, j0, f1, f2, hm, .inl ⟨he, [], rfl, rfl⟩⟩
    | inside j todo =>
      have hhold : w.holder = some i := by
        rcases h.holder i with h' | h' | h'
        · rw [hs] at h'; cases h'
        · rw [hs] at h'; cases h'
        · exact h'
      have hothers : ∀ k, k ≠ i → w.threads k = .waiting ∨ w.threads k = .done := by
        intro k hk
        rcases h.holder k with h' | h' | h'
        · exact .inl h'
        · exact .inr h'
        · rw [hhold] at h'; exact absurd (Option.some.inj h').symm hk
      obtain ⟨p1, j0, f1, f2, hm, hrun⟩ := h.inside i j todo hs
      cases todo with
      | cons op todo =>
        dsimp only
        rcases hrun with ⟨he, past, hpast, hrun⟩ | ⟨_, h', _⟩
        · refine ⟨?_, ?_, ?_, ?_, ?_, ?_⟩
          · intro k
            show w.put i (.inside (j.step w.proc op).1 todo) k = _ ∨ w.put i (.inside (j.step w.proc op).1 todo) k = _ ∨ w.holder = some k
            rw [hput]
            split
            · rename_i e'; rw [e']; exact .inr (.inr hhold)
            · exact h.holder k
          · intro hn; rw [show w.holder = none from hn] at hhold; cases hhold
          · intro k hk
            change w.put i (.inside (j.step w.proc op).1 todo) k = _ ∨ w.put i (.inside (j.step w.proc op).1 todo) k = _ at hk
            rw [hput] at hk
            split at hk
            · rcases hk with hk | hk <;> cases hk
            · rename_i hne
              rcases hothers k hne with h' | h' <;> rw [h'] at hk <;> rcases hk with hk | hk <;> cases hk
          · intro k j' todo' hk
            change w.put i (.inside (j.step w.proc op).1 todo) k = _ at hk
            rw [hput] at hk
            split at hk
            · rename_i e'
              cases hk
              subst e'
              refine ⟨p1, j0, f1, f2, hm, .inl ⟨he, past ++ [op], by rw [hpast]; simp, ?_⟩⟩
              rw [run_append, hrun]
              rfl
            · rename_i hne
              rcases hothers k hne with h' | h' <;> rw [h'] at hk <;> cases hk
          · exact hal _ (by simp)
          · exact h.running
        · cases h'
      | nil =>
        -- the drop restores
        have hj0 : j0.saved = [] ∧ j0.savedCwd = p.cwd := by
          unfold make at hm
          cases ht : (prog i).answers.tempDir with
          | error e => rw [ht] at hm; cases hm
          | ok dir =>
            rw [ht] at hm
            cases hcw : (prog i).answers.cwd with
            | some e => rw [hcw] at hm; cases hm
            | none => rw [hcw] at hm; cases hm; exact ⟨rfl, f2⟩
        have hstart : ∀ q : Sys, q.env = p.env → Keeps p.env j0 q ∧ Names j0 q := by
          intro q hq
          refine ⟨⟨by rw [hq]; exact hp.1, by simp [hj0.1], by simp [hj0.1], fun k _ => by rw [hq]⟩, by simp [hj0.1], ?_⟩
          rw [hq]; exact fun x hx => (hp.2 x hx).1
        have hkeep : Keeps p.env j w.proc ∧ Names j w.proc ∧ j.savedCwd = p.cwd := by
          rcases hrun with ⟨he, past, hpast, hrun⟩ | ⟨_, _, rfl, hw⟩
          · obtain ⟨k1, k2⟩ := hstart (p1.setCwd j0.directory true) (by rw [setCwd_env]; exact f1)
            have k3 := k1.run past
            have k4 := k2.run past fun k v hk => hops i k v (by rw [hpast, List.append_nil]; exact hk)
            have k5 := (run_jail past j0 (p1.setCwd j0.directory true)).2
            rw [hrun] at k3 k4 k5
            exact ⟨k3, k4, k5.trans hj0.2⟩
          · obtain ⟨k1, k2⟩ := hstart w.proc (by rw [hw]; exact f1)
            exact ⟨k1, k2, hj0.2⟩
        obtain ⟨q, hd, hq1, _, hq2⟩ := drop_spec hp.1 (fun x hx => (hp.2 x hx).2) hkeep.1 hkeep.2.1 (prog i).answers.order (ho i _)
          (prog i).answers.back (prog i).answers.removed (prog i).unwinds (by rw [hkeep.2.2]; exact hc)
        dsimp only
        split
        · exact h
        rw [hd]
        dsimp only
        have hq3 := hq2 (hback i)
        rw [hkeep.2.2] at hq3
        refine ⟨?_, ?_, ?_, ?_, ?_, ?_⟩
        · intro k
          show w.put i .dropped k = _ ∨ w.put i .dropped k = _ ∨ w.holder = some k
          rw [hput]
          split
          · rename_i e'; rw [e']; exact .inr (.inr hhold)
          · exact h.holder k
        · intro _; exact ⟨hq1, hq3⟩
        · intro _ _; exact ⟨hq1, hq3⟩
        · intro k j' todo hk
          change w.put i .dropped k = _ at hk
          rw [hput] at hk
          split at hk
          · cases hk
          · rename_i hne
            rcases hothers k hne with h' | h' <;> rw [h'] at hk <;> cases hk
        · exact hal _ (by simp)
        · exact h.running
    | dropped =>
      have hhold : w.holder = some i := by
        rcases h.holder i with h' | h' | h'
        · rw [hs] at h'; cases h'
        · rw [hs] at h'; cases h'
        · exact h'
      have hothers : ∀ k, k ≠ i → w.threads k = .waiting ∨ w.threads k = .done := by
        intro k hk
        rcases h.holder k with h' | h' | h'
        · exact .inl h'
        · exact .inr h'
        · rw [hhold] at h'; exact absurd (Option.some.inj h').symm hk
      obtain ⟨f1, f2⟩ := h.outside i (.inr hs)
      dsimp only
      refine ⟨?_, ?_, ?_, ?_, ?_, ?_⟩
      · intro k
        show w.put i .done k = _ ∨ w.put i .done k = _ ∨ none = some k
        rw [hput]
        split
        · exact .inr (.inl rfl)
        · rename_i hne
          rcases hothers k hne with h' | h'
          · exact .inl h'
          · exact .inr (.inl h')
      · intro _; exact ⟨f1, f2⟩
      · intro _ _; exact ⟨f1, f2⟩
      · intro k j' todo hk
        change w.put i .done k = _ at hk
        rw [hput] at hk
        split at hk
        · cases hk
        · rename_i hne
          rcases hothers k hne with h' | h' <;> rw [h'] at hk <;> cases hk
      · exact hal _ (by simp)
      · exact h.running
    | done => exact h
    | unwinding => exact absurd hs (h.alive i).1
    | crashed => exact absurd hs (h.alive i).2
  have hall : ∀ (schedule : List Nat) (w : World), Isolated prog p w →
      Isolated prog p (schedule.foldl (World.step prog) w) := by
    intro schedule
    induction schedule with
    | nil => intro w h; exact h
    | cons i schedule ih => intro w h; exact ih _ (hstep w i h)
  refine hall schedule _ ⟨fun _ => .inl rfl, fun _ => ⟨rfl, rfl⟩, ?_, ?_, ?_, rfl⟩
  · intro i h; rcases h with h | h <;> cases h
  · intro i j todo h; cases h
  · intro i; exact ⟨nofun, nofun⟩

-- Two threads, interleaved: the second waits until the first is out.
example :
    let prog : Program := fun i => ⟨C52_answers, if i = 0 then C52_ops else [.setEnv (str "D") (str "z")], .panic, false⟩
    let w := World.after prog C52_sys [0, 1, 0, 1, 0, 0, 1]
    w.holder = some 0 ∧ w.proc.env = [(str "A", str "x"), (str "B", str "2")] ∧
    (World.after prog C52_sys [0, 1, 0, 1, 0, 0, 1, 0, 0, 0, 0, 0, 1, 1, 1]).holder = some 1 := by decide

/-- A thread that sets a variable with an empty name, goes on after the panic and returns; another that does nothing. -/
def C62_prog : Program := fun i =>
  if i = 0 then ⟨⟨.ok (str "/tmp/j"), none, none, id, true, true⟩, [.setEnv [] (str "x")], .ok, false⟩
  else ⟨⟨.ok (str "/tmp/k"), none, none, id, true, true⟩, [], .ok, false⟩

/-- C62 fails for a variable name the operating system refuses: after the jail with that name is left, the working
directory is still its directory, although no jail is open; and that is what the next thread finds and goes back to. -/
theorem C62_fails : ∃ (p : Sys) (s s' : List Nat), p.Proper ∧ Path.hasRoot p.cwd = true ∧
    (World.after C62_prog p s).holder = none ∧ (World.after C62_prog p s).threads 0 = .crashed ∧
    (World.after C62_prog p s).proc.cwd = str "/tmp/j" ∧
    (∃ j, (World.after C62_prog p (s ++ s')).threads 1 = .inside j [] ∧ j.savedCwd = str "/tmp/j") ∧
    p.cwd = str "/home" :=
  ⟨⟨[], str "/home", [], []⟩, [0, 0, 0, 0, 0], [1, 1], ⟨by decide, by decide⟩, rfl, rfl, rfl, rfl,
    ⟨_, rfl, rfl⟩, rfl⟩

/-- C62 fails if one cannot go back to the working directory: the next thread finds the directory of the jail before. -/
theorem C62_fails_back : ∃ (prog : Program) (p : Sys) (s s' : List Nat), p.Proper ∧ Path.hasRoot p.cwd = true ∧
    (∀ i, (prog i).ops = []) ∧
    (World.after prog p s).holder = none ∧ (World.after prog p s).threads 0 = .done ∧
    (World.after prog p s).proc.cwd = str "/tmp/j" ∧
    (∃ j, (World.after prog p (s ++ s')).threads 1 = .inside j [] ∧ j.savedCwd = str "/tmp/j") ∧
    p.cwd = str "/home" :=
  ⟨fun _ => ⟨⟨.ok (str "/tmp/j"), none, none, id, false, true⟩, [], .ok, false⟩, ⟨[], str "/home", [], []⟩, [0, 0, 0, 0], [1, 1],
    ⟨by decide, by decide⟩, rfl, fun _ => rfl, rfl, rfl, rfl, ⟨_, rfl, rfl⟩, rfl⟩

/-! ## C75 -/

/-- The thread is not between taking and releasing the lock. -/
def Jail.ThreadState.Out (s : ThreadState) : Prop := s = .waiting ∨ s = .done ∨ s = .crashed

/-- The thread has left its jail for good: it has returned or its panic went on. -/
def Jail.ThreadState.Left (s : ThreadState) : Prop := s = .done ∨ s = .crashed

/-- How many steps of its own a thread with the lock needs at most. -/
def Jail.Job.steps (b : Job) : ThreadState → Nat
  | .locked => b.ops.length + 3
  | .inside _ todo => todo.length + 2
  | .dropped => 1
  | .unwinding => 1
  | _ => 0

/-- The thread with the lock is the one in the jail, and no other is. -/
structure Jail.World.Exclusive (w : World) : Prop where
  one : ∀ i, (w.threads i).Out ∨ w.holder = some i
  held : ∀ i, w.holder = some i → ¬ (w.threads i).Out

theorem Jail.World.Exclusive.step {prog : Program} {w : World} (h : w.Exclusive) (i : Nat) :
    (World.step prog w i).Exclusive := by
  have hput : ∀ s k, w.put i s k = if k = i then s else w.threads k := fun _ _ => rfl
  unfold World.step
  split
  · exact h
  -- the thread with the lock goes on, and keeps it
  have keep : ∀ (q : Sys) (s : ThreadState), w.holder = some i → ¬ s.Out →
      World.Exclusive { w with proc := q, threads := w.put i s } := by
    intro q s hh hs
    refine ⟨fun k => ?_, fun k hk => ?_⟩
    · show (w.put i s k).Out ∨ w.holder = some k
      rw [hput]
      by_cases hki : k = i
      · rw [hki]; exact .inr hh
      · rw [if_neg hki]; exact h.one k
    · show ¬ (w.put i s k).Out
      rw [show w.holder = some k from hk] at hh
      cases hh
      rw [hput, if_pos rfl]
      exact hs
  -- or it gives it up
  have give : ∀ s : ThreadState, w.holder = some i → s.Out →
      World.Exclusive { w with holder := none, threads := w.put i s } := by
    intro s hh hs
    refine ⟨fun k => ?_, nofun⟩
    show (w.put i s k).Out ∨ none = some k
    rw [hput]
    by_cases hki : k = i
    · rw [if_pos hki]; exact .inl hs
    · rw [if_neg hki]
      refine .inl ((h.one k).resolve_right ?_)
      rw [hh]
      exact fun e => hki (Option.some.inj e).symm
  have holds : ¬ (w.threads i).Out → w.holder = some i := fun hs => (h.one i).resolve_left hs
  cases hs : w.threads i with
  | waiting =>
    dsimp only
    cases hh : w.holder with
    | some k => exact h
    | none =>
      refine ⟨fun k => ?_, fun k hk => ?_⟩
      · show (w.put i .locked k).Out ∨ some i = some k
        rw [hput]
        by_cases hki : k = i
        · rw [hki]; exact .inr rfl
        · rw [if_neg hki]
          refine .inl ((h.one k).resolve_right ?_)
          rw [hh]; nofun
      · cases hk
        show ¬ (w.put i .locked i).Out
        rw [hput, if_pos rfl]
        simp [ThreadState.Out]
  | locked =>
    have hh := holds (by rw [hs]; simp [ThreadState.Out])
    dsimp only
    split
    · exact keep _ _ hh (by simp [ThreadState.Out])
    · split <;> exact keep _ _ hh (by simp [ThreadState.Out])
  | inside j todo =>
    have hh := holds (by rw [hs]; simp [ThreadState.Out])
    cases todo with
    | cons op todo => exact keep _ _ hh (by simp [ThreadState.Out])
    | nil =>
      dsimp only
      split
      · exact h
      split
      · exact keep _ _ hh (by simp [ThreadState.Out])
      · exact keep _ _ hh (by simp [ThreadState.Out])
      · exact ⟨h.one, h.held⟩
  | dropped => exact give _ (holds (by rw [hs]; simp [ThreadState.Out])) (by simp [ThreadState.Out])
  | unwinding => exact give _ (holds (by rw [hs]; simp [ThreadState.Out])) (by simp [ThreadState.Out])
  | done => exact h
  | crashed => exact h

/-- **C62** (whatever happens): for all names, answers and endings, at most one thread at a time is between taking and
releasing the lock, and it is the one that has it. -/
theorem C62_exclusive (prog : Program) (p : Sys) (schedule : List Nat) : (World.after prog p schedule).Exclusive := by
  have : ∀ (schedule : List Nat) (w : World), w.Exclusive → (schedule.foldl (World.step prog) w).Exclusive := by
    intro schedule
    induction schedule with
    | nil => intro w h; exact h
    | cons i schedule ih => intro w h; exact ih _ (h.step i)
  exact this schedule _ ⟨fun _ => .inl (.inl rfl), nofun⟩

/-- A thread that does not have the lock while another has does nothing. -/
theorem Jail.World.Exclusive.idle {prog : Program} {w : World} (h : w.Exclusive) {i k : Nat} (hi : w.holder = some i)
    (hk : k ≠ i) : World.step prog w k = w := by
  unfold World.step
  split
  · rfl
  rcases (h.one k).resolve_right (by rw [hi]; exact fun e => hk (Option.some.inj e).symm) with hs | hs | hs
  · rw [hs, hi]
  · rw [hs]
  · rw [hs]

/-- A thread that has left stays so. -/
theorem Jail.World.left_step {prog : Program} {w : World} {i : Nat} (h : (w.threads i).Left) (k : Nat) :
    ((World.step prog w k).threads i).Left := by
  have hput : ∀ s, i ≠ k → (w.put k s i).Left := by
    intro s hne
    show ThreadState.Left (if i = k then s else w.threads i)
    rw [if_neg hne]; exact h
  by_cases hk : i = k
  · subst hk
    unfold World.step
    split
    · exact h
    · rcases h with h | h <;> (rw [h]; first | exact .inl h | exact .inr h)
  · unfold World.step
    repeat' split
    all_goals first | exact h | exact hput _ hk

theorem Jail.World.left_steps {prog : Program} {i : Nat} (more : List Nat) (w : World) (h : (w.threads i).Left) :
    ((more.foldl (World.step prog) w).threads i).Left := by
  induction more generalizing w with
  | nil => exact h
  | cons k more ih => exact ih _ (left_step h k)

/-- Nothing happens after an abort. -/
theorem Jail.World.aborted_steps {prog : Program} (more : List Nat) (w : World) (h : w.aborted = true) :
    more.foldl (World.step prog) w = w := by
  induction more with
  | nil => rfl
  | cons k more ih =>
    have : World.step prog w k = w := by unfold World.step; rw [if_pos h]
    rw [List.foldl_cons, this]
    exact ih

/-- The thread with the lock goes on: one step less to do, or it has left, or the process is aborted. -/
theorem Jail.World.Exclusive.own {prog : Program} {w : World} (h : w.Exclusive) {i : Nat} (hi : w.holder = some i)
    (hn : (prog i).nests = false) : (World.step prog w i).aborted = true ∨ ((World.step prog w i).threads i).Left ∨
    ((World.step prog w i).holder = some i ∧
      (prog i).steps ((World.step prog w i).threads i) < (prog i).steps (w.threads i)) := by
  have hput : ∀ s, w.put i s i = s := fun s => if_pos rfl
  have hnot := h.held i hi
  unfold World.step
  split
  · rename_i hab; exact .inl hab
  cases hs : w.threads i with
  | waiting => exact absurd (.inl hs) hnot
  | done => exact absurd (.inr (.inl hs)) hnot
  | crashed => exact absurd (.inr (.inr hs)) hnot
  | locked =>
    dsimp only
    split
    · exact .inr (.inr ⟨hi, by show (prog i).steps (w.put i _ i) < _; rw [hput]; simp [Job.steps]⟩)
    · split
      · exact .inr (.inr ⟨hi, by show (prog i).steps (w.put i _ i) < _; rw [hput]; simp [Job.steps]⟩)
      · exact .inr (.inr ⟨hi, by show (prog i).steps (w.put i _ i) < _; rw [hput]; simp [Job.steps]⟩)
  | inside j todo =>
    cases todo with
    | cons op todo =>
      exact .inr (.inr ⟨hi, by show (prog i).steps (w.put i _ i) < _; rw [hput]; simp [Job.steps]⟩)
    | nil =>
      dsimp only
      rw [hn, Bool.false_and, if_neg Bool.false_ne_true]
      split
      · exact .inr (.inr ⟨hi, by show (prog i).steps (w.put i _ i) < _; rw [hput]; simp [Job.steps]⟩)
      · exact .inr (.inr ⟨hi, by show (prog i).steps (w.put i _ i) < _; rw [hput]; simp [Job.steps]⟩)
      · exact .inl rfl
  | dropped => exact .inr (.inl (by show (w.put i _ i).Left; rw [hput]; exact .inl rfl))
  | unwinding => exact .inr (.inl (by show (w.put i _ i).Left; rw [hput]; exact .inr rfl))

/-- A thread never has more to do than after it has taken the lock. -/
theorem short (prog : Program) (p : Sys) (schedule : List Nat) (i : Nat) :
    (prog i).steps ((World.after prog p schedule).threads i) ≤ (prog i).ops.length + 3 := by
  have hstep : ∀ (w : World) (k : Nat), (prog i).steps (w.threads i) ≤ (prog i).ops.length + 3 →
      (prog i).steps ((World.step prog w k).threads i) ≤ (prog i).ops.length + 3 := by
    intro w k h
    have hput : ∀ s, (i = k → (prog i).steps s ≤ (prog i).ops.length + 3) →
        (prog i).steps (w.put k s i) ≤ (prog i).ops.length + 3 := by
      intro s hs
      show (prog i).steps (if i = k then s else w.threads i) ≤ _
      split
      · rename_i e; exact hs e
      · exact h
    unfold World.step
    split
    · exact h
    cases hs : w.threads k with
    | waiting =>
      dsimp only
      split
      · exact h
      · exact hput _ fun _ => by simp [Job.steps]
    | locked =>
      dsimp only
      split
      · exact hput _ fun _ => by simp [Job.steps]
      · split
        · exact hput _ fun _ => by simp [Job.steps]
        · exact hput _ fun e => by subst e; simp [Job.steps]
    | inside j todo =>
      cases todo with
      | cons op todo =>
        refine hput _ fun e => ?_
        subst e
        rw [hs] at h
        simp [Job.steps] at h ⊢
        omega
      | nil =>
        dsimp only
        split
        · exact h
        split
        · exact hput _ fun _ => by simp [Job.steps]
        · exact hput _ fun _ => by simp [Job.steps]
        · exact h
    | dropped => exact hput _ fun _ => by simp [Job.steps]
    | unwinding => exact hput _ fun _ => by simp [Job.steps]
    | done => exact h
    | crashed => exact h
  have hall : ∀ (schedule : List Nat) (w : World), (prog i).steps (w.threads i) ≤ (prog i).ops.length + 3 →
      (prog i).steps ((schedule.foldl (World.step prog) w).threads i) ≤ (prog i).ops.length + 3 := by
    intro schedule
    induction schedule with
    | nil => intro w h; exact h
    | cons k schedule ih => intro w h; exact ih _ (hstep w k h)
  exact hall schedule _ (by simp [Job.steps])

theorem Jail.Job.nests_false {b : Job} (h : b.nested = true → b.answers.enter ≠ none) : b.nests = false := by
  unfold Job.nests
  cases hb : b.nested with
  | false => rw [Bool.and_false]
  | true =>
    cases he : b.answers.enter with
    | none => exact absurd he (h hb)
    | some e => rfl

theorem Jail.Job.nests_true {b : Job} (h : b.nested = true) (he : b.answers.enter = none) : b.nests = true := by
  unfold Job.nests
  rw [h, he]
  rfl

/-- **C75**: a thread that has the lock has left its jail and released the lock after three steps of its own and one for
each operation, whatever the others do in between, and however its closure ends and the jail is dropped, unless the process
is aborted or the closure uses a jail itself (`C76_stuck`). -/
theorem C75_left (prog : Program) (p : Sys) (schedule more : List Nat) (i : Nat)
    (hn : (prog i).nested = true → (prog i).answers.enter ≠ none)
    (hi : (World.after prog p schedule).holder = some i) (hm : (prog i).ops.length + 3 ≤ more.count i) :
    (World.after prog p (schedule ++ more)).aborted = true ∨
    ((World.after prog p (schedule ++ more)).threads i).Left ∧
      (World.after prog p (schedule ++ more)).holder ≠ some i := by
  have hn := Job.nests_false hn
  have hex := C62_exclusive prog p (schedule ++ more)
  have key : ∀ (more : List Nat) (w : World), w.Exclusive → w.holder = some i →
      (prog i).steps (w.threads i) ≤ more.count i →
      (more.foldl (World.step prog) w).aborted = true ∨ ((more.foldl (World.step prog) w).threads i).Left := by
    intro more
    induction more with
    | nil =>
      intro w hw hh hc
      have := hw.held i hh
      cases hs : w.threads i <;> rw [hs] at hc <;> simp [Job.steps] at hc
      · exact absurd (.inl hs) this
      · exact absurd (.inr (.inl hs)) this
      · exact absurd (.inr (.inr hs)) this
    | cons k more ih =>
      intro w hw hh hc
      rw [List.foldl_cons]
      by_cases hk : k = i
      · subst hk
        rw [List.count_cons_self] at hc
        rcases hw.own (prog := prog) hh hn with h | h | ⟨h, hlt⟩
        · left; rw [World.aborted_steps _ _ h]; exact h
        · exact .inr (World.left_steps _ _ h)
        · exact ih _ (hw.step k) h (by omega)
      · rw [hw.idle hh hk]
        rw [List.count_cons_of_ne hk] at hc
        exact ih w hw hh hc
  have h := key more _ (C62_exclusive prog p schedule) hi (Nat.le_trans (short prog p schedule i) hm)
  rw [World.after, List.foldl_append]
  refine h.imp id fun h => ⟨h, fun hh => ?_⟩
  rw [World.after, List.foldl_append] at hex
  exact hex.held i hh (.inr h)

/-- **C75** (nobody is locked out): wherever the threads are, each can still leave its jail, unless the process is
aborted: with some schedule from there it has left. (With closures that do not use jails themselves, see C76.) -/
theorem C75_possible (prog : Program) (p : Sys) (schedule : List Nat) (i : Nat)
    (hn : ∀ k, (prog k).nested = true → (prog k).answers.enter ≠ none) :
    ∃ more, (World.after prog p (schedule ++ more)).aborted = true ∨
      ((World.after prog p (schedule ++ more)).threads i).Left := by
  -- a thread with the lock gets out of its jail if it goes on alone
  have hold : ∀ (schedule : List Nat) (k : Nat), (World.after prog p schedule).holder = some k →
      ∃ more, (World.after prog p (schedule ++ more)).aborted = true ∨
        ((World.after prog p (schedule ++ more)).threads k).Left ∧
        (World.after prog p (schedule ++ more)).holder = none := by
    intro schedule k hk
    refine ⟨List.replicate ((prog k).ops.length + 3) k, ?_⟩
    refine (C75_left prog p schedule _ k (hn k) hk (by rw [List.count_replicate_self]; exact Nat.le_refl _)).imp id ?_
    refine fun ⟨h1, h2⟩ => ⟨h1, Or.resolve_left ?_ h2⟩
    have hstep : ∀ w : World, (w.holder = some k ∨ w.holder = none) →
        ((World.step prog w k).holder = some k ∨ (World.step prog w k).holder = none) := by
      intro w h
      unfold World.step
      repeat' split
      all_goals first | exact h | exact .inl rfl | exact .inr rfl
    have hall : ∀ (n : Nat) (w : World), (w.holder = some k ∨ w.holder = none) →
        (((List.replicate n k).foldl (World.step prog) w).holder = some k ∨
          ((List.replicate n k).foldl (World.step prog) w).holder = none) := by
      intro n
      induction n with
      | zero => intro w h; exact h
      | succ n ih => intro w h; exact ih _ (hstep w h)
    rw [World.after, List.foldl_append]
    exact hall _ _ (.inl hk)
  -- while nobody has it, a thread can take it
  have free : ∀ schedule : List Nat, (World.after prog p schedule).holder = none →
      ∃ more, (World.after prog p (schedule ++ more)).aborted = true ∨
        ((World.after prog p (schedule ++ more)).threads i).Left := by
    intro schedule hnone
    rcases (C62_exclusive prog p schedule).one i with (h | h) | h
    · cases hab : (World.after prog p schedule).aborted with
      | true => exact ⟨[], .inl (by rw [List.append_nil]; exact hab)⟩
      | false =>
        have : (World.after prog p (schedule ++ [i])).holder = some i := by
          rw [World.after, List.foldl_append]
          show (World.step prog (World.after prog p schedule) i).holder = some i
          unfold World.step
          rw [if_neg (by rw [hab]; simp), h]
          dsimp only
          rw [hnone]
        obtain ⟨more, hm⟩ := hold _ i this
        rw [List.append_assoc] at hm
        exact ⟨_, hm.imp id And.left⟩
    · exact ⟨[], .inr (by rw [List.append_nil]; exact h)⟩
    · rw [hnone] at h; cases h
  cases hh : (World.after prog p schedule).holder with
  | none => exact free schedule hh
  | some k =>
    obtain ⟨more, h | ⟨_, h⟩⟩ := hold schedule k hh
    · exact ⟨more, .inl h⟩
    · obtain ⟨more', h'⟩ := free _ h
      rw [List.append_assoc] at h'
      exact ⟨_, h'⟩

/-- **C75** (aborts): the process is aborted only if a closure ends with a panic. (And, by `C62_isolated_partial`, not with
variable names the operating system accepts.) -/
theorem C75_no_abort (prog : Program) (p : Sys) (schedule : List Nat) (h : ∀ i, (prog i).ending ≠ .panic) :
    (World.after prog p schedule).aborted = false := by
  have hstep : ∀ (w : World) (k : Nat), w.aborted = false → (World.step prog w k).aborted = false := by
    intro w k hw
    unfold World.step
    rw [if_neg (by rw [hw]; simp)]
    split
    · split <;> exact hw
    · split
      · exact hw
      · split <;> exact hw
    · exact hw
    · rename_i j _
      have : (prog k).unwinds = false := by
        unfold Job.unwinds
        rw [Bool.and_eq_false_iff]
        exact .inr (by simpa using h k)
      rw [this, Jail.drop]
      split
      · exact hw
      cases restoreLoop ((prog k).answers.order j.saved) w.proc with
      | mk q c => cases c <;> exact hw
    all_goals exact hw
  have hall : ∀ (schedule : List Nat) (w : World), w.aborted = false →
      (schedule.foldl (World.step prog) w).aborted = false := by
    intro schedule
    induction schedule with
    | nil => intro w h; exact h
    | cons k schedule ih => intro w h; exact ih _ (hstep w k h)
  exact hall schedule _ rfl

-- a thread whose closure fails at a name the operating system refuses gets out, and so does the one that waits for it
example : (World.after C62_prog ⟨[], str "/home", [], []⟩ [0, 1, 0]).holder = some 0 ∧
    [0, 1, 0, 0, 0].count 0 ≥ (C62_prog 0).ops.length + 3 ∧
    (World.after C62_prog ⟨[], str "/home", [], []⟩ ([0, 1, 0] ++ [0, 1, 0, 0, 0])).holder = none ∧
    (World.after C62_prog ⟨[], str "/home", [], []⟩ ([0, 1, 0] ++ [0, 1, 0, 0, 0])).threads 0 = .crashed ∧
    (World.after C62_prog ⟨[], str "/home", [], []⟩ ([0, 1, 0] ++ [0, 1, 0, 0, 0] ++ [1, 1, 1, 1])).threads 1 = .done :=
  ⟨rfl, by decide, rfl, rfl, rfl⟩

-- if it is the panic that ends the closure, the process is aborted
example : (World.after (fun i => { C62_prog i with ending := .panic }) ⟨[], str "/home", [], []⟩ [0, 0, 0, 0]).aborted = true :=
  rfl

/-- What a thread has still to do at most, from waiting for the lock on. -/
def Jail.Job.left (b : Job) : ThreadState → Nat
  | .waiting => b.ops.length + 4
  | s => b.steps s

/-- What the first `n` threads have still to do together at most. -/
def Jail.World.left (prog : Program) (n : Nat) (w : World) : Nat :=
  ((List.range n).map fun i => (prog i).left (w.threads i)).sum

/-- A step of a thread changes nothing, or aborts, or brings the thread on, and no other. -/
theorem Jail.World.progress (prog : Program) (w : World) (k : Nat) :
    World.step prog w k = w ∨ (World.step prog w k).aborted = true ∨
      ((∀ i, i ≠ k → (World.step prog w k).threads i = w.threads i) ∧
        (prog k).left ((World.step prog w k).threads k) < (prog k).left (w.threads k)) := by
  have hput : ∀ s, w.put k s k = s := fun s => if_pos rfl
  have hne : ∀ s i, i ≠ k → w.put k s i = w.threads i := fun s i h => if_neg h
  unfold World.step
  split
  · exact .inl rfl
  cases hs : w.threads k with
  | waiting =>
    dsimp only
    split
    · exact .inl rfl
    · exact .inr (.inr ⟨hne _, by show (prog k).left (w.put k _ k) < _; rw [hput]; simp [Job.left, Job.steps]⟩)
  | locked =>
    dsimp only
    split
    · exact .inr (.inr ⟨hne _, by show (prog k).left (w.put k _ k) < _; rw [hput]; simp [Job.left, Job.steps]⟩)
    · split
      · exact .inr (.inr ⟨hne _, by show (prog k).left (w.put k _ k) < _; rw [hput]; simp [Job.left, Job.steps]⟩)
      · exact .inr (.inr ⟨hne _, by show (prog k).left (w.put k _ k) < _; rw [hput]; simp [Job.left, Job.steps]⟩)
  | inside j todo =>
    cases todo with
    | cons op todo =>
      exact .inr (.inr ⟨hne _, by show (prog k).left (w.put k _ k) < _; rw [hput]; simp [Job.left, Job.steps]⟩)
    | nil =>
      dsimp only
      split
      · exact .inl rfl
      split
      · exact .inr (.inr ⟨hne _, by show (prog k).left (w.put k _ k) < _; rw [hput]; simp [Job.left, Job.steps]⟩)
      · exact .inr (.inr ⟨hne _, by show (prog k).left (w.put k _ k) < _; rw [hput]; simp [Job.left, Job.steps]⟩)
      · exact .inr (.inl rfl)
  | dropped =>
    exact .inr (.inr ⟨hne _, by show (prog k).left (w.put k _ k) < _; rw [hput]; simp [Job.left, Job.steps]⟩)
  | unwinding =>
    exact .inr (.inr ⟨hne _, by show (prog k).left (w.put k _ k) < _; rw [hput]; simp [Job.left, Job.steps]⟩)
  | done => exact .inl rfl
  | crashed => exact .inl rfl

theorem sum_lt {f g : Nat → Nat} {k : Nat} (hk : f k < g k) (hne : ∀ i, i ≠ k → f i = g i) (n : Nat) :
    ((List.range n).map f).sum + (if k < n then 1 else 0) ≤ ((List.range n).map g).sum := by
  induction n with
  | zero => simp
  | succ n ih =>
    simp only [List.range_succ, List.map_append, List.sum_append, List.map_cons, List.map_nil, List.sum_cons,
      List.sum_nil, Nat.add_zero]
    by_cases h : k < n
    · have := hne n (by omega)
      rw [if_pos h] at ih
      rw [if_pos (by omega)]
      omega
    · rw [if_neg h] at ih
      by_cases hkn : k = n
      · subst hkn
        rw [if_pos (by omega)]
        omega
      · have := hne n (by omega)
        rw [if_neg (by omega)]
        omega

theorem sum_zero {f : Nat → Nat} {n : Nat} (h : ((List.range n).map f).sum = 0) {i : Nat} (hi : i < n) : f i = 0 := by
  have hle : ∀ l : List Nat, i ∈ l → f i ≤ (l.map f).sum := by
    intro l
    induction l with
    | nil => intro h; cases h
    | cons k l ih =>
      intro h
      rw [List.map_cons, List.sum_cons]
      rcases List.mem_cons.1 h with rfl | h
      · omega
      · have := ih h; omega
  have := hle _ (List.mem_range.2 hi)
  omega

/-- **C75** (everybody gets their turn): if each of `n` threads goes on at least once in every round, in any order and as
often as one likes, then after as many rounds as they have operations and four for each thread all of them have left their
jails, unless the process is aborted. (With closures that do not use jails themselves, see C76.) -/
theorem C75_fair (prog : Program) (p : Sys) (n : Nat) (rounds : List (List Nat))
    (hn : ∀ k < n, (prog k).nested = true → (prog k).answers.enter ≠ none)
    (hr : ∀ r ∈ rounds, ∀ i, i ∈ r ↔ i < n)
    (hlen : ((List.range n).map fun i => (prog i).ops.length + 4).sum ≤ rounds.length) :
    (World.after prog p rounds.flatten).aborted = true ∨
      ∀ i < n, ((World.after prog p rounds.flatten).threads i).Left := by
  -- a round changes nothing, or aborts, or brings the threads on
  have hround : ∀ (r : List Nat) (w : World), (∀ i ∈ r, i < n) →
      (∀ k ∈ r, World.step prog w k = w) ∨ (r.foldl (World.step prog) w).aborted = true ∨
        (r.foldl (World.step prog) w).left prog n < w.left prog n := by
    intro r
    have hle : ∀ (r : List Nat) (w : World), (∀ i ∈ r, i < n) → (r.foldl (World.step prog) w).aborted = true ∨
        (r.foldl (World.step prog) w).left prog n ≤ w.left prog n := by
      intro r
      induction r with
      | nil => intro w _; exact .inr (Nat.le_refl _)
      | cons k r ih =>
        intro w hw
        rw [List.foldl_cons]
        have hw' : ∀ i ∈ r, i < n := fun i hi => hw i (List.mem_cons_of_mem _ hi)
        rcases World.progress prog w k with h | h | ⟨h1, h2⟩
        · rw [h]; exact ih w hw'
        · left; rw [World.aborted_steps _ _ h]; exact h
        · refine (ih _ hw').imp id fun h => Nat.le_trans h ?_
          have := sum_lt (f := fun i => (prog i).left ((World.step prog w k).threads i))
            (g := fun i => (prog i).left (w.threads i)) h2 (fun i hi => by rw [h1 i hi]) n
          unfold World.left
          omega
    induction r with
    | nil => intro w _; left; intro k hk; cases hk
    | cons k r ih =>
      intro w hw
      rw [List.foldl_cons]
      have hw' : ∀ i ∈ r, i < n := fun i hi => hw i (List.mem_cons_of_mem _ hi)
      rcases World.progress prog w k with h | h | ⟨h1, h2⟩
      · rw [h]
        refine (ih w hw').imp (fun h' i hi => ?_) id
        rcases List.mem_cons.1 hi with rfl | hi
        · exact h
        · exact h' i hi
      · right; left; rw [World.aborted_steps _ _ h]; exact h
      · right
        refine (hle r _ hw').imp id fun h => ?_
        have := sum_lt (f := fun i => (prog i).left ((World.step prog w k).threads i))
          (g := fun i => (prog i).left (w.threads i)) h2 (fun i hi => by rw [h1 i hi]) n
        rw [if_pos (hw k List.mem_cons_self)] at this
        unfold World.left at h ⊢
        omega
  -- where nothing changes any more, all have left
  have hstill : ∀ w : World, w.Exclusive → (∀ i, w.holder = some i → i < n) → (∀ k < n, World.step prog w k = w) →
      w.aborted = true ∨ ∀ i < n, (w.threads i).Left := by
    intro w hw hlt hst
    cases hab : w.aborted with
    | true => exact .inl rfl
    | false =>
      right
      cases hh : w.holder with
      | some k =>
        rcases hw.own (prog := prog) hh (Job.nests_false (hn k (hlt k hh))) with h | h | ⟨_, h⟩
        · rw [hst k (hlt k hh), hab] at h; cases h
        · rw [hst k (hlt k hh)] at h; exact absurd (.inr h) (hw.held k hh)
        · rw [hst k (hlt k hh)] at h; exact absurd h (Nat.lt_irrefl _)
      | none =>
        intro i hi
        rcases (hw.one i).resolve_right (by rw [hh]; nofun) with h | h
        · have := congrArg World.holder (hst i hi)
          unfold World.step at this
          rw [if_neg (by rw [hab]; exact Bool.false_ne_true), h] at this
          dsimp only at this
          rw [hh] at this
          cases this
        · exact h
  -- only these threads take the lock
  have hlt : ∀ (s : List Nat) (w : World), (∀ i ∈ s, i < n) → (∀ i, w.holder = some i → i < n) →
      ∀ i, (s.foldl (World.step prog) w).holder = some i → i < n := by
    intro s
    induction s with
    | nil => intro w _ h; exact h
    | cons k s ih =>
      intro w hs h
      refine ih _ (fun i hi => hs i (List.mem_cons_of_mem _ hi)) ?_
      have hk := hs k List.mem_cons_self
      intro i hi
      unfold World.step at hi
      repeat' split at hi
      all_goals first | exact h i hi | (cases hi <;> exact hk) | cases hi
  have hex : ∀ (s : List Nat) (w : World), w.Exclusive → (s.foldl (World.step prog) w).Exclusive := by
    intro s
    induction s with
    | nil => intro w h; exact h
    | cons k s ih => intro w h; exact ih _ (h.step k)
  have hall : ∀ (rounds : List (List Nat)) (w : World), (∀ r ∈ rounds, ∀ i, i ∈ r ↔ i < n) → w.Exclusive →
      (∀ i, w.holder = some i → i < n) → w.left prog n ≤ rounds.length →
      (rounds.flatten.foldl (World.step prog) w).aborted = true ∨
        ∀ i < n, ((rounds.flatten.foldl (World.step prog) w).threads i).Left := by
    intro rounds
    induction rounds with
    | nil =>
      intro w _ hw _ h0
      right
      intro i hi
      have := sum_zero (Nat.le_zero.1 h0) hi
      cases hs : w.threads i <;> rw [hs] at this <;> simp [Job.left, Job.steps] at this
      · exact .inl hs
      · exact .inr hs
    | cons r rounds ih =>
      intro w hr hw hh hlen
      rw [List.flatten_cons, List.foldl_append]
      have hr0 := hr r List.mem_cons_self
      rcases hround r w (fun i hi => (hr0 i).1 hi) with h | h | h
      · have hst := hstill w hw hh fun k hk => h k ((hr0 k).2 hk)
        rw [← List.foldl_append]
        refine hst.imp (fun h => ?_) fun h i hi => World.left_steps _ _ (h i hi)
        rw [World.aborted_steps _ _ h]; exact h
      · left; rw [World.aborted_steps _ _ h]; exact h
      · refine ih _ (fun r' hr' => hr r' (List.mem_cons_of_mem _ hr')) (hex r w hw)
          (hlt r w (fun i hi => (hr0 i).1 hi) hh) ?_
        rw [List.length_cons] at hlen
        omega
  refine hall rounds _ hr ⟨fun _ => .inl (.inl rfl), nofun⟩ nofun ?_
  exact hlen

-- two threads, the first of which goes on after a panic and panics as it leaves; rounds of different orders
example : let rounds := List.replicate 5 [0, 1, 0] ++ List.replicate 4 [1, 0]
    (∀ k < 2, (C62_prog k).nested = true → (C62_prog k).answers.enter ≠ none) ∧ (∀ r ∈ rounds, ∀ i, i ∈ r ↔ i < 2) ∧
    ((List.range 2).map fun i => (C62_prog i).ops.length + 4).sum ≤ rounds.length ∧
    (World.after C62_prog ⟨[], str "/home", [], []⟩ rounds.flatten).threads 0 = .crashed ∧
    (World.after C62_prog ⟨[], str "/home", [], []⟩ rounds.flatten).threads 1 = .done := by
  refine ⟨by decide, ?_, by decide, rfl, rfl⟩
  intro r hr i
  simp only [List.mem_append, List.mem_replicate] at hr
  rcases hr with ⟨_, rfl⟩ | ⟨_, rfl⟩ <;> simp <;> omega

/-! ## C76 -/

/-- **C76**: once a closure that uses a jail itself has come to that point, nothing ever happens again: neither this thread
nor any other gets on, under any schedule. -/
theorem C76_stuck (prog : Program) (p : Sys) (schedule : List Nat) (i : Nat) (j : Jail)
    (hn : (prog i).nested = true) (he : (prog i).answers.enter = none)
    (hi : (World.after prog p schedule).threads i = .inside j []) (more : List Nat) :
    World.after prog p (schedule ++ more) = World.after prog p schedule := by
  have hn := Job.nests_true hn he
  have hw := C62_exclusive prog p schedule
  have hh : (World.after prog p schedule).holder = some i :=
    (hw.one i).resolve_left (by rw [hi]; simp [ThreadState.Out])
  have hst : ∀ k, World.step prog (World.after prog p schedule) k = World.after prog p schedule := by
    intro k
    by_cases hk : k = i
    · subst hk
      unfold World.step
      split
      · rfl
      · rw [hi]
        dsimp only
        rw [hn, hh]
        rfl
    · exact hw.idle hh hk
  rw [World.after, List.foldl_append]
  show more.foldl (World.step prog) (World.after prog p schedule) = _
  induction more with
  | nil => rfl
  | cons k more ih => rw [List.foldl_cons, hst]; exact ih

/-- What holds of a thread whose closure uses a jail itself: it has not left its jail, nor is it about to. -/
def Jail.ThreadState.Early (s : ThreadState) : Prop := s = .waiting ∨ s = .locked ∨ ∃ j todo, s = .inside j todo

/-- **C76** (never returns): a call whose closure uses a jail itself never returns, under any schedule, if its own jail can
be made and entered. -/
theorem C76_never (prog : Program) (p : Sys) (schedule : List Nat) (i : Nat)
    (hn : (prog i).nested = true) (he : (prog i).answers.enter = none)
    (d : Str) (hd : (prog i).answers.tempDir = .ok d) (hc : (prog i).answers.cwd = none) :
    ¬ ((World.after prog p schedule).threads i).Left := by
  have hn := Job.nests_true hn he
  have hstep : ∀ (w : World) (k : Nat), w.Exclusive → (w.threads i).Early →
      ((World.step prog w k).threads i).Early := by
    intro w k hw h
    have hput : ∀ s, (i = k → s.Early) → (w.put k s i).Early := by
      intro s hs
      show ThreadState.Early (if i = k then s else w.threads i)
      split
      · rename_i e; exact hs e
      · exact h
    unfold World.step
    split
    · exact h
    cases hs : w.threads k with
    | waiting =>
      dsimp only
      split
      · exact h
      · exact hput _ fun _ => .inr (.inl rfl)
    | locked =>
      dsimp only
      split
      · rename_i e he
        refine hput _ fun e => ?_
        subst e
        rw [make, hd, hc] at he
        cases he
      · split
        · exact hput _ fun _ => .inr (.inr ⟨_, _, rfl⟩)
        · exact hput _ fun _ => .inr (.inr ⟨_, _, rfl⟩)
    | inside j todo =>
      cases todo with
      | cons op todo => exact hput _ fun _ => .inr (.inr ⟨_, _, rfl⟩)
      | nil =>
        dsimp only
        by_cases hk : i = k
        · subst hk
          have hh : w.holder = some i := (hw.one i).resolve_left (by rw [hs]; simp [ThreadState.Out])
          rw [hn, hh]
          exact h
        · split
          · exact h
          split
          · exact hput _ fun e => absurd e hk
          · exact hput _ fun e => absurd e hk
          · exact h
    | dropped => exact hput _ fun e => by subst e; rw [hs] at h; rcases h with h | h | ⟨_, _, h⟩ <;> cases h
    | unwinding => exact hput _ fun e => by subst e; rw [hs] at h; rcases h with h | h | ⟨_, _, h⟩ <;> cases h
    | done => exact h
    | crashed => exact h
  have hall : ∀ (schedule : List Nat) (w : World), w.Exclusive → (w.threads i).Early →
      ((schedule.foldl (World.step prog) w).threads i).Early := by
    intro schedule
    induction schedule with
    | nil => intro w _ h; exact h
    | cons k schedule ih => intro w hw h; exact ih _ (hw.step k) (hstep w k hw h)
  have := hall schedule { proc := p, holder := none, threads := fun _ => .waiting, aborted := false }
    ⟨fun _ => .inl (.inl rfl), nofun⟩ (.inl rfl)
  intro hl
  rcases this with h | h | ⟨_, _, h⟩ <;> rcases hl with h' | h' <;> rw [World.after] at h' <;> rw [h] at h' <;> cases h'

/-- A thread whose closure sets a variable and then uses a jail itself; others that do nothing in theirs. -/
def C76_prog : Program := fun i =>
  ⟨⟨.ok (str "/tmp/j"), none, none, id, true, true⟩, if i = 0 then [.setEnv (str "A") (str "x")] else [], .ok, i == 0⟩

-- another thread waits for ever, and the process is left with the variable and in the directory of the jail
example : (C76_prog 0).nested = true ∧ (C76_prog 0).answers.enter = none ∧ (C76_prog 0).answers.tempDir = .ok (str "/tmp/j") ∧ (C76_prog 0).answers.cwd = none ∧
    (∃ j, (World.after C76_prog ⟨[], str "/home", [], []⟩ [0, 1, 0, 0]).threads 0 = .inside j []) ∧
    ∀ more, (World.after C76_prog ⟨[], str "/home", [], []⟩ ([0, 1, 0, 0] ++ more)).threads 1 = .waiting ∧
      (World.after C76_prog ⟨[], str "/home", [], []⟩ ([0, 1, 0, 0] ++ more)).proc.env = [(str "A", str "x")] ∧
      (World.after C76_prog ⟨[], str "/home", [], []⟩ ([0, 1, 0, 0] ++ more)).proc.cwd = str "/tmp/j" := by
  refine ⟨rfl, rfl, rfl, rfl, ⟨_, rfl⟩, fun more => ?_⟩
  rw [C76_stuck C76_prog _ _ 0 _ rfl rfl rfl more]
  exact ⟨rfl, rfl, rfl⟩

end Figment
