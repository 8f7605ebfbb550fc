import Verif.Base.Path
import Verif.Base.Map
import Verif.Spec.Walk
/-!
# Jail (src/jail.rs)

The process has environment variables and a working directory; what the operating system answers to a call is given with
the call. Simplifications: names and values of variables are text; of the file system, only the files and their contents
(as text) are modelled, by the place a path leads to, and which paths are given to it; there are no links, so after a
successful change of directory the working directory is the path taken from the one before.
-/
namespace Figment

/-- The state of the process a jail changes. `touched` lists what the paths given to the file system so far are, taken
from the working directory at the time (an observation, not in the code). `files` lists the files and their contents,
those written last first: of several at one place the first counts. What jail.rs:130-366 changes. -/
structure Sys where
  env : Map Str Str
  cwd : Str
  touched : List Str
  files : List (Place × Str)
deriving DecidableEq, Repr

namespace Sys

/-- Names the operating system accepts for a variable: `setenv` and `unsetenv` fail for an empty name and one with `=`,
and std for one with a NUL. Needed at jail.rs:322, jail.rs:351, jail.rs:359-360. -/
def validName (k : Str) : Bool := !k.isEmpty && !k.contains '=' && !k.contains (Char.ofNat 0)

/-- Values that std accepts. Needed at jail.rs:351, jail.rs:359. -/
def validValue (v : Str) : Bool := !v.contains (Char.ofNat 0)

/-- `std::env::set_var`; `none` if it panics. Called at jail.rs:351, jail.rs:359. -/
def setVar (p : Sys) (k v : Str) : Option Sys :=
  if validName k && validValue v then some { p with env := Map.insert k v p.env } else none

/-- `std::env::remove_var`; `none` if it panics. Called at jail.rs:322, jail.rs:360. -/
def removeVar (p : Sys) (k : Str) : Option Sys :=
  if validName k then some { p with env := Map.erase k p.env } else none

/-- `std::env::set_current_dir`; `ok` is whether the operating system can.
Called at jail.rs:141, jail.rs:285, jail.rs:364. -/
def setCwd (p : Sys) (path : Str) (ok : Bool) : Sys :=
  if ok then { p with cwd := Path.join p.cwd path } else p

/-- A path is given to the file system. At jail.rs:212, jail.rs:248, jail.rs:285. -/
def touch (p : Sys) (path : Str) : Sys := { p with touched := Path.join p.cwd path :: p.touched }

/-- A file is written. At jail.rs:212-215. -/
def write (p : Sys) (path contents : Str) : Sys :=
  { p with files := (Place.of (Path.join p.cwd path), contents) :: p.files }

/-- The contents of the file a path leads to from the working directory, if there is one. What `Path::is_file` and
`fs::read_to_string` say, used at providers/data.rs:341-348, 482. -/
def fileAt (p : Sys) (path : Str) : Option Str := p.files.lookup (Place.of (Path.join p.cwd path))

/-- Whether a place is in a directory or below it. Used by `removeTree`, for jail.rs:60. -/
def below (dir place : Place) : Bool :=
  dir.rooted == place.rooted && dir.ups == place.ups && dir.names.isPrefixOf place.names

/-- `std::fs::remove_dir_all`; `ok` is whether the operating system can. Called as `_directory` (jail.rs:60) is dropped
(crate `tempfile`). Simplification: if it cannot, nothing is removed. -/
def removeTree (p : Sys) (dir : Str) (ok : Bool) : Sys :=
  if ok then { p with files := p.files.filter fun x => !below (Place.of dir) x.1 } else p

end Sys

/-- `struct Jail` (jail.rs:58-63). Simplification: the hash map is a list of entries with different keys. -/
structure Jail where
  dir : Str
  saved : List (Str × Option Str)
  savedCwd : Str
deriving DecidableEq, Repr

/-- The loop of `dedot` (jail.rs:73-82) on the components and those kept so far. -/
def dedotLoop : List Comp → List Comp → List Comp
  | [], comps => comps
  | .rootDir :: r, comps => if comps.isEmpty then dedotLoop r (comps ++ [.rootDir]) else dedotLoop r [.rootDir]
  | .curDir :: r, comps => dedotLoop r comps
  | .parentDir :: r, comps =>
    if comps.all (· == .rootDir) then dedotLoop r comps else dedotLoop r comps.dropLast
  | .normal s :: r, comps => dedotLoop r (comps ++ [.normal s])

/-- `dedot` (jail.rs:69-86). -/
def dedot (path : Str) : Str := Path.collect (dedotLoop (Path.components path) [])

/-- What an operation gives: a path, nothing, an error, or a panic. The result types of jail.rs:190-352. -/
inductive JailResult where
  | path (p : Str)
  | unit
  | err (msg : Str)
  | panic
deriving DecidableEq, Repr

namespace Jail

/-- `Jail::directory` (jail.rs:157-159). -/
def directory (j : Jail) : Str := j.dir

/-- `Jail::safe_jailed_path` (jail.rs:161-172). -/
def safeJailedPath (j : Jail) (path : Str) : Except Str Str :=
  let path := dedot path
  if Path.hasRoot path && Path.startsWith path j.directory then .ok path
  else if Path.hasRoot path then .error (str "Jail: input path is outside of jail directory")
  else .ok path

/-- `entry(key).or_insert(value)` (std) on the saved variables.
Called at jail.rs:323; written out at jail.rs:347-349. -/
def saveNew (j : Jail) (k : Str) (v : Option Str) : Jail :=
  if j.saved.any (·.1 == k) then j else { j with saved := j.saved ++ [(k, v)] }

/-- The loop of `Jail::clear_env` (jail.rs:321-324) over the variables listed; stops where `remove_var` panics. -/
def clearLoop : List (Str × Str) → Jail → Sys → Jail × Sys × JailResult
  | [], j, p => (j, p, .unit)
  | (k, v) :: r, j, p =>
    match p.removeVar k with
    | none => (j, p, .panic)
    | some p => clearLoop r (j.saveNew k (some v)) p

/-- `Jail::clear_env` (jail.rs:320-325). -/
def clearEnv (j : Jail) (p : Sys) : Jail × Sys × JailResult := clearLoop p.env j p

/-- `Jail::set_env` (jail.rs:345-352). -/
def setEnv (j : Jail) (p : Sys) (k v : Str) : Jail × Sys × JailResult :=
  let j := if j.saved.any (·.1 == k) then j else { j with saved := j.saved ++ [(k, Map.get k p.env)] }
  match p.setVar k v with
  | none => (j, p, .panic)
  | some p => (j, p, .unit)

/-- `Jail::create_file`, `Jail::create_binary` (jail.rs:190-216); `ok` is the text of the error of the file system, if
any, and what the file has in it then, if it was made (jail.rs:212) before the error. -/
def createFile (j : Jail) (p : Sys) (path contents : Str) (ok : Option (Str × Option Str)) : Sys × JailResult :=
  match j.safeJailedPath path with
  | .error e => (p, .err e)
  | .ok path =>
    match ok with
    | some (e, none) => (p.touch path, .err e)
    | some (e, some written) => ((p.touch path).write path written, .err e)
    | none => ((p.touch path).write path contents, .path path)

/-- `Jail::create_dir` (jail.rs:246-250). -/
def createDir (j : Jail) (p : Sys) (path : Str) (ok : Option Str) : Sys × JailResult :=
  match j.safeJailedPath path with
  | .error e => (p, .err e)
  | .ok path =>
    match ok with
    | some e => (p.touch path, .err e)
    | none => (p.touch path, .path path)

/-- `Jail::change_dir` (jail.rs:283-287). -/
def changeDir (j : Jail) (p : Sys) (path : Str) (ok : Option Str) : Sys × JailResult :=
  match j.safeJailedPath path with
  | .error e => (p, .err e)
  | .ok path =>
    match ok with
    | some e => ((p.touch path).setCwd path false, .err e)
    | none => ((p.touch path).setCwd path true, .path path)

/-- One operation on a jail, with what the operating system answers. The methods of jail.rs:190-352. -/
inductive Op where
  | setEnv (k v : Str)
  | clearEnv
  | changeDir (path : Str) (ok : Option Str)
  | createFile (path contents : Str) (ok : Option (Str × Option Str))
  | createDir (path : Str) (ok : Option Str)
deriving DecidableEq, Repr

/-- The operation is done. jail.rs:190-352, by operation. -/
def step (j : Jail) (p : Sys) : Op → Jail × Sys × JailResult
  | .setEnv k v => j.setEnv p k v
  | .clearEnv => j.clearEnv p
  | .changeDir path ok => (j, j.changeDir p path ok)
  | .createFile path contents ok => (j, j.createFile p path contents ok)
  | .createDir path ok => (j, j.createDir p path ok)

/-- The operations a closure does until it returns, fails or panics. An operation that panics is the last one or its
panic is caught by the closure. `f(&mut jail)`, jail.rs:142. -/
def run (j : Jail) (p : Sys) : List Op → Jail × Sys
  | [] => (j, p)
  | op :: ops =>
    match j.step p op with
    | (j, p, _) => run j p ops

/-- The loop of `Drop for Jail` (jail.rs:357-362): the process after it, and whether it panicked on the way. -/
def restoreLoop : List (Str × Option Str) → Sys → Sys × Bool
  | [], p => (p, false)
  | (k, some v) :: r, p =>
    match p.setVar k v with
    | none => (p, true)
    | some p => restoreLoop r p
  | (k, none) :: r, p =>
    match p.removeVar k with
    | none => (p, true)
    | some p => restoreLoop r p

/-- How dropping a jail ends: well, with a panic, or by aborting the process, which is what a panic does while another
unwinds (std). The end of jail.rs:355-366. -/
inductive DropEnd where
  | fine
  | panics
  | aborts
deriving DecidableEq, Repr

/-- `Drop for Jail` (jail.rs:355-366), after which the temporary directory `_directory` is dropped (jail.rs:60), also if
there was a panic. `order` is the order the hash map gives its entries in, `ok` whether the operating system can change
back, `removed` whether it can remove the directory, `unwinding` whether a panic of the closure is the reason for the
drop. -/
def drop (j : Jail) (p : Sys) (order : List (Str × Option Str) → List (Str × Option Str)) (ok removed unwinding : Bool) :
    Sys × DropEnd :=
  match restoreLoop (order j.saved) p with
  | (p, false) => ((p.setCwd j.savedCwd ok).removeTree j.dir removed, .fine)
  | (p, true) => if unwinding then (p, .aborts) else (p.removeTree j.dir removed, .panics)

/-- What the operating system answers when a jail is made and dropped: the canonical path of a new temporary directory,
whether the working directory can be read, whether the jail can be entered, whether one can go back, whether the
directory can be removed. The calls of jail.rs:132-141 and jail.rs:364. -/
structure Answers where
  tempDir : Except Str Str
  cwd : Option Str
  enter : Option Str
  order : List (Str × Option Str) → List (Str × Option Str)
  back : Bool
  removed : Bool

/-- The jail `try_with` makes (jail.rs:133-139), or the text of the error. -/
def make (a : Answers) (p : Sys) : Except Str Jail :=
  match a.tempDir with
  | .error e => .error e
  | .ok dir =>
    match a.cwd with
    | some e => .error e
    | none => .ok { dir, savedCwd := p.cwd, saved := [] }

/-- How a closure or a call ends: it returns, returns an error (its text), or panics (jail.rs:131), or the process is
aborted. (Closures that abort are of no interest: nothing happens afterwards.) -/
inductive Ending where
  | ok
  | err (msg : Str)
  | panic
  | abort
deriving DecidableEq, Repr

/-- What a call ends with that would have ended with `e` but for the drop of the jail. For jail.rs:131-143. -/
def Ending.after (e : Ending) : DropEnd → Ending
  | .fine => e
  | .panics => .panic
  | .aborts => .abort

/-- `Jail::try_with` (jail.rs:131-143) without the lock, with a closure that does the operations and then ends as given:
the process afterwards, and what the caller gets: the error of making or entering the jail, else what the closure ends
with, unless dropping the jail panics. (Errors are their texts.) -/
def tryWith (a : Answers) (ops : List Op) (e : Ending) (p : Sys) : Sys × Ending :=
  match make a p with
  | .error m => (p, .err m)
  | .ok j =>
    match a.enter with
    | some m =>
      match j.drop (p.setCwd j.directory false) a.order a.back a.removed false with
      | (p, d) => (p, Ending.after (.err m) d)
    | none =>
      match j.run (p.setCwd j.directory true) ops with
      | (j, p) =>
        match j.drop p a.order a.back a.removed (e == .panic) with
        | (p, d) => (p, e.after d)

/-- `Jail::expect_with` (jail.rs:108-112): whether it returns. It panics on an error. -/
def expectWith (a : Answers) (ops : List Op) (e : Ending) (p : Sys) : Bool :=
  match (tryWith a ops e p).2 with
  | .ok => true
  | .err _ => false
  | .panic => false
  | .abort => false

/-! ## Threads -/

/-- Where a thread that calls `try_with` is: before `LOCK.lock()` (jail.rs:132), after it, inside the closure with the
operations still to do, after the jail is dropped (locals are dropped in reverse order, so the jail is dropped before the
lock is released), after the lock is released; the last two also if dropping the jail panicked, since the lock is
released as that panic unwinds (crate `parking_lot`: locks are not poisoned). -/
inductive ThreadState where
  | waiting
  | locked
  | inside (j : Jail) (todo : List Op)
  | dropped
  | done
  | unwinding
  | crashed
deriving Repr

/-- The process and its threads; `holder` is the thread that has `LOCK` (jail.rs:88); `aborted` if the process is no
more. -/
structure World where
  proc : Sys
  holder : Option Nat
  threads : Nat → ThreadState
  aborted : Bool

/-- Puts a thread into a state. Ghost bookkeeping, for jail.rs:130-143. -/
def World.put (w : World) (i : Nat) (s : ThreadState) : Nat → ThreadState := fun k => if k = i then s else w.threads k

/-- What a thread gives to `try_with`: the operations of its closure and how that ends; and what it is answered.
`nested`: after the operations, the closure itself calls `try_with` (or `expect_with`). The argument of jail.rs:131. -/
structure Job where
  answers : Answers
  ops : List Op
  ending : Ending
  nested : Bool

/-- What each thread gives to `try_with`. The argument of jail.rs:131. -/
abbrev Program := Nat → Job

/-- How the drop of a jail finds the thread: unwinding, if the closure was entered and ended with a panic
(jail.rs:141-142). -/
def Job.unwinds (b : Job) : Bool := b.answers.enter == none && b.ending == .panic

/-- The closure is run (jail.rs:141-142) and calls `try_with` again, on the same thread. -/
def Job.nests (b : Job) : Bool := b.answers.enter == none && b.nested

/-- Thread `i` goes on by one step of `Jail::try_with` (jail.rs:131-143); a thread that waits for the lock while it is
taken does nothing. Operations and the drop are single steps: other threads could only do something in between if they
did not need the lock. A closure that calls `try_with` again waits for the lock (jail.rs:132) if it is taken, by whichever
thread (crate `parking_lot`: the lock is not reentrant); it is taken then, by the thread itself (`C62_exclusive`), so what
would come after is left out. -/
def World.step (prog : Program) (w : World) (i : Nat) : World :=
  if w.aborted then w else
  match w.threads i with
  | .waiting =>
    match w.holder with
    | some _ => w
    | none => { w with holder := some i, threads := w.put i .locked }
  | .locked =>
    match make (prog i).answers w.proc with
    | .error _ => { w with threads := w.put i .dropped }
    | .ok j =>
      match (prog i).answers.enter with
      | some _ => { w with threads := w.put i (.inside j []) }
      | none => { w with proc := w.proc.setCwd j.directory true, threads := w.put i (.inside j (prog i).ops) }
  | .inside j (op :: todo) =>
    match j.step w.proc op with
    | (j, p, _) => { w with proc := p, threads := w.put i (.inside j todo) }
  | .inside j [] =>
    if (prog i).nests && w.holder.isSome then w else
    match j.drop w.proc (prog i).answers.order (prog i).answers.back (prog i).answers.removed (prog i).unwinds with
    | (p, .fine) => { w with proc := p, threads := w.put i .dropped }
    | (p, .panics) => { w with proc := p, threads := w.put i .unwinding }
    | (p, .aborts) => { w with proc := p, aborted := true }
  | .dropped => { w with holder := none, threads := w.put i .done }
  | .unwinding => { w with holder := none, threads := w.put i .crashed }
  | .done => w
  | .crashed => w

/-- The world after the threads have gone on in the order of the schedule, from one where all wait.
Of any number of calls of jail.rs:130-143. -/
def World.after (prog : Program) (p : Sys) (schedule : List Nat) : World :=
  schedule.foldl (World.step prog) { proc := p, holder := none, threads := fun _ => .waiting, aborted := false }

end Jail
end Figment
