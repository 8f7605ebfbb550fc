import Verif.Model.Figment
import Verif.Spec.Path
/-!
# Executions of a process that uses figments

Figments are plain values: `provide`, `select` and `focus` make a new one from old ones, and a figment
may be cloned and sent to another thread. The only shared state is the tag counter (value/tag.rs:19-23),
changed by one atomic `fetch_add` per `provide` call (value/tag.rs:46-53). So an execution of any number
of threads is a sequence of the atomic steps below; a `provide` call is two of them, with any other
steps (also of the same thread, when the provider itself uses figments) in between.
-/
namespace Figment

/-- A completed `provide` call: the tag it obtained, the metadata it recorded, the data the provider
answered, whether the provider was not itself a figment, and the keys to which the figment has been
focused since. (Ghost state, not in the code.). Of figment.rs:142-170. -/
structure Entry where
  tag : Tag
  metadata : Metadata
  data : Except Error Data
  own : Bool
  root : List Str

/-- The entry as a figment focused on `ks` has it. Of figment.rs:416-435. -/
def Entry.below (ks : List Str) (e : Entry) : Entry := { e with root := e.root ++ ks }

/-- A figment made by the process, and (ghost) the `provide` calls that led to it, directly or through
figments provided to it. Of figment.rs:100-104. -/
structure Made where
  fig : Fig
  added : List Entry

/-- The state of the process. `obtained` (ghost) lists the tags given out, in order.
The counter is value/tag.rs:19-23. -/
structure Proc where
  counter : BitVec 64
  pending : List Tag
  made : List Made
  obtained : List Tag

/-- The state at start: value/tag.rs:22. -/
def Proc.init : Proc := { counter := Tag.counterInit, pending := [], made := [], obtained := [] }

/-- The atomic steps. Figments and pending tags are named by position.
The calls are figment.rs:117-170, figment.rs:346-349, figment.rs:416-435. -/
inductive Step where
  /-- `Figment::new()` (figment.rs:117-123). -/
  | new
  /-- Some `provide` call executes `Tag::next()` (figment.rs:154). -/
  | obtain
  /-- A `provide` call (figment.rs:142-170) on figment `i` with a provider that is not a figment, which
  obtained pending tag `k`, completes. -/
  | provide (i k : Nat) (p : Provider) (o : Order) (loc : Location)
  /-- As `provide`, where the provider is figment `j` (figment.rs:856-868). -/
  | provideFig (i j k : Nat) (o : Order) (loc : Location)
  /-- `Figment::select` (figment.rs:346-349). -/
  | select (i : Nat) (p : Profile)
  /-- `Figment::focus` (figment.rs:416-435). -/
  | focus (i : Nat) (key : Str)

/-- One step. A step that names something that is not there does nothing.
The functions of figment.rs:117-170, figment.rs:346-349, figment.rs:416-435. -/
def Proc.step (s : Proc) : Step → Proc
  | .new => { s with made := s.made ++ [⟨Fig.new, []⟩] }
  | .obtain =>
    match Tag.next s.counter with
    | (some t, c) => { s with counter := c, pending := s.pending ++ [t], obtained := s.obtained ++ [t] }
    | (none, c) => { s with counter := c }
  | .provide i k p o loc =>
    match s.made[i]?, s.pending[k]? with
    | some x, some t =>
      { s with
        pending := s.pending.eraseIdx k
        made := s.made ++ [⟨x.fig.provideWith p o loc t,
          x.added ++ [⟨t, { p.metadata with provideLocation := some loc }, p.data, true, []⟩]⟩] }
    | _, _ => s
  | .provideFig i j k o loc =>
    match s.made[i]?, s.made[j]?, s.pending[k]? with
    | some x, some y, some t =>
      { s with
        pending := s.pending.eraseIdx k
        made := s.made ++ [⟨x.fig.provideWith y.fig.toProvider o loc t,
          x.added ++ y.added ++
            [⟨t, { Metadata.Default with provideLocation := some loc }, y.fig.value, false, []⟩]⟩] }
    | _, _, _ => s
  | .select i p =>
    match s.made[i]? with
    | some x => { s with made := s.made ++ [⟨x.fig.select p, x.added⟩] }
    | none => s
  | .focus i key =>
    match s.made[i]? with
    | some x => { s with made := s.made ++ [⟨x.fig.focus key, x.added.map (Entry.below (pathKeys key))⟩] }
    | none => s

/-- The state after a sequence of steps. Of the functions of figment.rs:117-435. -/
def Proc.exec (steps : List Step) : Proc := steps.foldl Proc.step Proc.init

end Figment
