import Verif.Props.Threads
/-!
# C62, whatever happens: jails of several threads are as if called one after the other

`C62_isolated_partial` says what each thread finds if nothing goes wrong. This says it without any condition: for every
name of a variable, answer of the system, panic, and schedule there is an order of the threads such that the process is
as after calls of `try_with` in that order, one after the other.
-/
namespace Figment
open Jail

/-- One thread's call of `try_with`, by itself. -/
def Jail.Job.call (b : Job) (p : Sys) : Sys × Ending := tryWith b.answers b.ops b.ending p

/-- The process after the calls of several threads, one after the other. -/
def Jail.Program.serial (prog : Program) (p : Sys) : List Nat → Sys
  | [] => p
  | i :: order => serial prog ((prog i).call p).1 order

/-- How far the call of the thread with the lock is: `base` is the process it found, `now` the process by now. -/
def Jail.Job.At (b : Job) (base now : Sys) : ThreadState → Prop
  | .locked => now = base
  | .inside j todo => ∃ j0, make b.answers base = .ok j0 ∧
    ((b.answers.enter = none ∧ ∃ past, b.ops = past ++ todo ∧
        j0.run (base.setCwd j0.directory true) past = (j, now)) ∨
      ((∃ e, b.answers.enter = some e) ∧ todo = [] ∧ j = j0 ∧ now = base))
  | .dropped => now = (b.call base).1 ∧ (b.call base).2 ≠ .abort
  | .unwinding => now = (b.call base).1 ∧ (b.call base).2 = .panic
  | _ => False

/-- The threads are as if those that have left had called `try_with` one after the other in the order given, and the one
with the lock, if any, after them. -/
structure Jail.Serial (prog : Program) (p : Sys) (w : World) (order : List Nat) : Prop where
  once : order.Nodup
  left : ∀ i, (w.threads i).Left ↔ i ∈ order
  free : w.holder = none → w.aborted = false ∧ w.proc = prog.serial p order
  held : ∀ i, w.holder = some i → w.aborted = false → (prog i).At (prog.serial p order) w.proc (w.threads i)
  aborted : ∀ i, w.holder = some i → w.aborted = true →
    w.proc = ((prog i).call (prog.serial p order)).1 ∧ ((prog i).call (prog.serial p order)).2 = .abort

theorem Jail.Program.serial_append (prog : Program) (i : Nat) : ∀ (order : List Nat) (p : Sys),
    prog.serial p (order ++ [i]) = ((prog i).call (prog.serial p order)).1
  | [], _ => rfl
  | _ :: order, _ => serial_append prog i order _

theorem Jail.Serial.step {prog : Program} {p : Sys} {w : World} {order : List Nat} (hx : w.Exclusive)
    (he : ∀ i, (prog i).ending ≠ .abort)
    (h : Serial prog p w order) (i : Nat) : ∃ later, Serial prog p (World.step prog w i) (order ++ later) := by
  have same : Serial prog p w (order ++ []) := by rw [List.append_nil]; exact h
  have hput : ∀ s k, w.put i s k = if k = i then s else w.threads k := fun _ _ => rfl
  unfold World.step
  by_cases hab : w.aborted = true
  · rw [if_pos hab]; exact ⟨[], same⟩
  rw [if_neg hab]
  have hab' : w.aborted = false := by simpa using hab
  -- the thread with the lock goes on, and keeps it
  have keep : ∀ (q : Sys) (s : ThreadState), w.holder = some i → ¬ s.Left →
      (prog i).At (prog.serial p order) q s →
      ∃ later, Serial prog p { w with proc := q, threads := w.put i s } (order ++ later) := by
    intro q s hh hs hat
    refine ⟨[], ?_⟩
    rw [List.append_nil]
    refine ⟨h.once, fun k => ?_, fun hn => ?_, fun k hk _ => ?_, fun k _ ha => absurd ha hab⟩
    · show (w.put i s k).Left ↔ _
      rw [hput]
      by_cases hki : k = i
      · rw [if_pos hki, ← h.left k, hki]
        refine ⟨fun h' => absurd h' hs, fun h' => absurd ?_ (hx.held i hh)⟩
        exact .inr h'
      · rw [if_neg hki]; exact h.left k
    · rw [show w.holder = none from hn] at hh; cases hh
    · rw [show w.holder = some k from hk] at hh
      cases hh
      show (prog i).At _ q (w.put i s i)
      rw [hput, if_pos rfl]
      exact hat
  -- or gives it up, and has left
  have give : ∀ s : ThreadState, w.holder = some i → s.Left → w.proc = ((prog i).call (prog.serial p order)).1 →
      ∃ later, Serial prog p { w with holder := none, threads := w.put i s } (order ++ later) := by
    intro s hh hs hat
    have hi : i ∉ order := fun hi => hx.held i hh (.inr ((h.left i).2 hi))
    refine ⟨[i], List.nodup_append.2 ⟨h.once, by simp, ?_⟩, fun k => ?_, fun _ => ⟨hab', ?_⟩, nofun, nofun⟩
    · intro a ha b hb e
      rw [List.mem_singleton.1 hb] at e
      exact hi (e ▸ ha)
    · show (w.put i s k).Left ↔ _
      rw [hput, List.mem_append, List.mem_singleton]
      by_cases hki : k = i
      · rw [if_pos hki]; exact ⟨fun _ => .inr hki, fun _ => hs⟩
      · rw [if_neg hki, h.left k]
        exact ⟨.inl, fun h' => h'.resolve_right hki⟩
    · rw [Program.serial_append]; exact hat
  have holds : ¬ (w.threads i).Out → w.holder = some i := fun hs => (hx.one i).resolve_left hs
  cases hs : w.threads i with
  | waiting =>
    dsimp only
    cases hh : w.holder with
    | some k => exact ⟨[], same⟩
    | none =>
      refine ⟨[], ?_⟩
      rw [List.append_nil]
      refine ⟨h.once, fun k => ?_, nofun, fun k hk _ => ?_, fun k _ ha => absurd ha hab⟩
      · show (w.put i .locked k).Left ↔ _
        rw [hput, ← h.left k]
        by_cases hki : k = i
        · rw [if_pos hki, hki, hs]; simp [ThreadState.Left]
        · rw [if_neg hki]
      · cases hk
        show (prog i).At _ w.proc (w.put i .locked i)
        rw [hput, if_pos rfl]
        exact (h.free hh).2
  | locked =>
    have hh := holds (by rw [hs]; simp [ThreadState.Out])
    have hat := h.held i hh hab'
    rw [hs] at hat
    have hat : w.proc = prog.serial p order := hat
    dsimp only
    cases hm : make (prog i).answers w.proc with
    | error e =>
      refine keep _ _ hh (by simp [ThreadState.Left]) ?_
      have : (prog i).call (prog.serial p order) = (prog.serial p order, .err e) := by
        rw [Job.call, tryWith, ← hat, hm]
      exact ⟨by rw [this, hat], by rw [this]; nofun⟩
    | ok j =>
      dsimp only
      rw [hat] at hm
      cases hen : (prog i).answers.enter with
      | some e => exact keep _ _ hh (by simp [ThreadState.Left]) ⟨j, hm, .inr ⟨⟨e, hen⟩, rfl, rfl, hat⟩⟩
      | none =>
        refine keep _ _ hh (by simp [ThreadState.Left]) ⟨j, hm, .inl ⟨hen, [], rfl, ?_⟩⟩
        rw [hat]; rfl
  | inside j todo =>
    have hh := holds (by rw [hs]; simp [ThreadState.Out])
    have hat := h.held i hh hab'
    rw [hs] at hat
    obtain ⟨j0, hm, hat⟩ := hat
    cases todo with
    | cons op todo =>
      refine keep _ _ hh (by simp [ThreadState.Left]) ⟨j0, hm, ?_⟩
      rcases hat with ⟨hen, past, h1, h2⟩ | ⟨_, h1, _⟩
      · refine .inl ⟨hen, past ++ [op], by rw [h1]; simp, ?_⟩
        rw [run_append, h2]
        rfl
      · cases h1
    | nil =>
      dsimp only
      split
      · exact ⟨[], same⟩
      -- what the drop gives is what the call gives
      have hcall : ∀ q d, j.drop w.proc (prog i).answers.order (prog i).answers.back (prog i).answers.removed
          (prog i).unwinds = (q, d) → ∃ e, e ≠ .abort ∧ (prog i).call (prog.serial p order) = (q, Ending.after e d) := by
        intro q d hd
        rcases hat with ⟨hen, past, h1, h2⟩ | ⟨⟨e, hen⟩, _, h1, h2⟩
        · refine ⟨(prog i).ending, he i, ?_⟩
          rw [List.append_nil] at h1
          have hu : (prog i).unwinds = ((prog i).ending == .panic) := by
            rw [Job.unwinds, hen]; rfl
          rw [hu] at hd
          rw [Job.call, tryWith, hm]
          simp only [hen, h1, h2, hd]
        · refine ⟨.err e, nofun, ?_⟩
          have hu : (prog i).unwinds = false := by rw [Job.unwinds, hen]; rfl
          rw [hu] at hd
          subst h1
          rw [Job.call, tryWith, hm]
          simp only [hen]
          rw [show (prog.serial p order).setCwd j.directory false = w.proc from h2.symm, hd]
      cases hd : j.drop w.proc (prog i).answers.order (prog i).answers.back (prog i).answers.removed
          (prog i).unwinds with
      | mk q d =>
        obtain ⟨e, hne, hc⟩ := hcall q d hd
        cases d with
        | fine =>
          refine keep _ _ hh (by simp [ThreadState.Left]) ?_
          exact ⟨by rw [hc], by rw [hc]; exact hne⟩
        | panics =>
          refine keep _ _ hh (by simp [ThreadState.Left]) ?_
          exact ⟨by rw [hc], by rw [hc]; rfl⟩
        | aborts =>
          refine ⟨[], ?_⟩
          rw [List.append_nil]
          refine ⟨h.once, h.left, fun hn => ?_, (fun k _ ha => by cases ha), fun k hk _ => ?_⟩
          · rw [show w.holder = none from hn] at hh; cases hh
          · rw [show w.holder = some k from hk] at hh
            cases hh
            exact ⟨by rw [hc], by rw [hc]; rfl⟩
  | dropped =>
    have hh := holds (by rw [hs]; simp [ThreadState.Out])
    have hat := h.held i hh hab'
    rw [hs] at hat
    exact give _ hh (.inl rfl) hat.1
  | unwinding =>
    have hh := holds (by rw [hs]; simp [ThreadState.Out])
    have hat := h.held i hh hab'
    rw [hs] at hat
    exact give _ hh (.inr rfl) hat.1
  | done => exact ⟨[], same⟩
  | crashed => exact ⟨[], same⟩

/-- **C62** (whatever happens): for all names, answers and endings and under any schedule, the process is as if the
threads that have left their jails had called `try_with` one after the other, in some order, and the one with the lock
after them; and later on this order only gets longer. -/
theorem C62_serial (prog : Program) (p : Sys) (he : ∀ i, (prog i).ending ≠ .abort) (schedule more : List Nat) :
    ∃ order later, Serial prog p (World.after prog p schedule) order ∧
      Serial prog p (World.after prog p (schedule ++ more)) (order ++ later) := by
  have hall : ∀ (s : List Nat) (w : World) (order : List Nat), w.Exclusive → Serial prog p w order →
      ∃ later, Serial prog p (s.foldl (World.step prog) w) (order ++ later) := by
    intro s
    induction s with
    | nil => intro w order _ h; exact ⟨[], by rw [List.append_nil]; exact h⟩
    | cons i s ih =>
      intro w order hx h
      obtain ⟨l1, h1⟩ := h.step hx he i
      obtain ⟨l2, h2⟩ := ih _ _ (hx.step i) h1
      exact ⟨l1 ++ l2, by rw [← List.append_assoc]; exact h2⟩
  obtain ⟨order, h1⟩ := hall schedule { proc := p, holder := none, threads := fun _ => .waiting, aborted := false } []
    ⟨fun _ => .inl (.inl rfl), nofun⟩
    ⟨.nil, fun i => by simp [ThreadState.Left], fun _ => ⟨rfl, rfl⟩, nofun, nofun⟩
  rw [List.nil_append] at h1
  obtain ⟨later, h2⟩ := hall more _ order (C62_exclusive prog p schedule) h1
  exact ⟨order, later, h1, by rw [World.after, List.foldl_append]; exact h2⟩

-- the threads of `C62_fails`: the second call finds what the first left behind
example : (World.after C62_prog ⟨[], str "/home", [], []⟩ [1, 0, 1, 0, 1, 0, 1, 0, 0, 0, 0, 0]).proc =
    C62_prog.serial ⟨[], str "/home", [], []⟩ [1, 0] ∧
    (World.after C62_prog ⟨[], str "/home", [], []⟩ [1, 0, 1, 0, 1, 0, 1, 0, 0, 0, 0, 0]).holder = none ∧
    ((C62_prog 0).call ⟨[], str "/home", [], []⟩).2 = .panic := ⟨rfl, rfl, rfl⟩

end Figment
