import Verif.Model.DataProvider
import Verif.Model.Env
/-!
# Providers that look outside, while what they see changes (src/figment.rs, src/providers/data.rs, src/providers/env.rs)

Other threads and processes may change files, variables and the working directory at any time. What a thread sees is the
answers to its questions, in turn: whether there is a file at a path, what it reads from a file, which directory is the
working directory, which variables there are. The answers are an arbitrary sequence; each question takes the next one.
Simplification: a file is read, and the variables are listed, in one question.
-/
namespace Figment

/-- What can be asked. The calls at providers/data.rs:341, 344, 349, 482 and providers/env.rs:524. -/
structure Outside extends FileSystem where
  vars : List (Str × Str)

/-- A computation that asks: from the answers and the number of questions asked before, its result and the number of
questions asked after. Not in the code; `std::env` and `std::fs` in figment.rs:142-170 and below. -/
abbrev Ask (α : Type) := (Nat → Outside) → Nat → α × Nat

namespace Ask
/-- No question. Used for figment.rs:142-170. -/
def pure {α : Type} (a : α) : Ask α := fun _ t => (a, t)
/-- One after the other. Used for figment.rs:142-170. -/
def bind {α β : Type} (x : Ask α) (f : α → Ask β) : Ask β := fun ans t => f (x ans t).1 ans (x ans t).2
/-- One question. Used for providers/data.rs:341, 344, 349, 482 and providers/env.rs:524. -/
def ask {α : Type} (q : Outside → α) : Ask α := fun ans t => (q (ans t), t + 1)
end Ask

/-- The four methods of a `Provider` (provider.rs:83-102), each of which may ask. `none` for the data: the method
panicked. -/
structure Asking where
  metadata : Ask Metadata
  data : Ask (Option (Except Error Data))
  profile : Ask (Option Profile)
  metadataMap : Ask (Option (Map Tag Metadata))

/-- `Figment::provide` (figment.rs:142-170), with the methods of the provider called in the order they are called
there. The result has the figment (`none`: the call panicked) and the tag counter after. -/
def Fig.provideAsking (f : Fig) (p : Asking) (o : Order) (loc : Location) (counter : BitVec 64) :
    Ask (Option Fig × BitVec 64) :=
  p.metadataMap.bind fun metadataMap =>
  p.profile.bind fun profile =>
  p.metadata.bind fun metadata =>
  match Tag.next counter with
  | (none, counter) => .pure (none, counter)
  | (some tag, counter) => p.data.bind fun
    | none => .pure (none, counter)
    | some data => .pure (some (f.provideWith { metadata, data, profile, metadataMap } o loc tag), counter)

namespace DataProvider

/-- The loop of `Data::resolve` (providers/data.rs:346-353); see `resolveLoop`. -/
def resolveLoopAsking (path : Str) : Nat → Str → Ask (Except Unit (Option Str))
  | 0, _ => .pure (.error ())
  | n + 1, cwd =>
    let filePath := Path.join cwd path
    (Ask.ask (·.isFile filePath)).bind fun isFile =>
    if isFile then .pure (.ok (some filePath))
    else match Path.parent cwd with
      | none => .pure (.ok none)
      | some cwd => resolveLoopAsking path n cwd

/-- `Data::resolve` (providers/data.rs:339-354). -/
def resolveAsking (path : Str) (search : Bool) : Ask (Option Str) :=
  if Path.hasRoot path || !search then
    (Ask.ask (·.isFile path)).bind fun isFile => .pure (if isFile then some path else none)
  else (Ask.ask (·.cwd)).bind fun
    | none => .pure none
    | some cwd => (resolveLoopAsking path (Path.count cwd + 1) cwd).bind fun
      | .ok r => .pure r
      | .error _ => .pure none

/-- `Format::from_path` (providers/data.rs:481-484), for either type. -/
def fromPathAsking {α : Type} (f : Format) (parse : Str → Except Str α) (path : Str) : Ask (Except Str α) :=
  (Ask.ask (·.read path)).bind fun
    | .error e => .pure (.error (f.custom e))
    | .ok text => .pure (parse text)

/-- The `match` of `Provider::data for Data` (providers/data.rs:371-387); see `read`. -/
def readAsking (d : DataProvider) (f : Format) : Ask (Except Error (Except Str Data)) :=
  match d.source, d.profile with
  | .file path required search, profile =>
    (resolveAsking path search).bind fun
    | some path =>
      match profile with
      | some prof => (fromPathAsking f f.dict path).bind fun v => .pure (.ok (collected prof v))
      | none => (fromPathAsking f f.profiles path).bind fun v => .pure (.ok v)
    | none =>
      if !required then .pure (.ok (.ok []))
      else .pure (.error (Error.ofKind (.message (str "required file `" ++ path ++ str "` not found"))))
  | .string s, none => .pure (.ok (f.profiles s))
  | .string s, some prof => .pure (.ok (collected prof (f.dict s)))

/-- `Provider::data for Data` (providers/data.rs:369-390). -/
def dataAsking (d : DataProvider) (f : Format) : Ask (Except Error Data) :=
  (d.readAsking f).bind fun
  | .error e => .pure (.error e)
  | .ok (.ok map) => .pure (.ok map)
  | .ok (.error msg) => .pure (.error (Error.ofKind (.message msg)))

/-- `Provider::metadata for Data` (providers/data.rs:358-367). -/
def metadataAsking (d : DataProvider) (f : Format) : Ask Metadata :=
  match d.source with
  | .string _ => .pure (Metadata.named (f.name ++ str " source string"))
  | .file path _ search =>
    (resolveAsking path search).bind fun found =>
    .pure (Metadata.from (f.name ++ str " file") (.file (found.getD path)))

/-- The provider as a figment sees it. providers/data.rs:357-393. -/
def asking (d : DataProvider) (f : Format) : Asking where
  metadata := d.metadataAsking f
  data := (d.dataAsking f).bind fun r => .pure (some r)
  profile := .pure none
  metadataMap := .pure none

end DataProvider

/-- The environment provider as a figment sees it. providers/env.rs:615-645. -/
def Env.asking [FloatOps] (e : Env) : Asking where
  metadata := .pure e.metadata
  data := (Ask.ask (·.vars)).bind fun vars =>
    match e.data vars with
    | .ok data => .pure (some (.ok data))
    | _ => .pure none
  profile := .pure none
  metadataMap := .pure none

end Figment
