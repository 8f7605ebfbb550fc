import Verif.Base.Str
/-!
# Paths (std::path on Unix)

A path is its text (simplification: a path that is not valid UTF-8 is taken as its lossy text). On Unix there are no
path prefixes, so `Component::Prefix` does not occur and `is_absolute` is `has_root`.
-/
namespace Figment

/-- `std::path::Component`. Used at util.rs:66-102, jail.rs:69-86. -/
inductive Comp where
  | rootDir | curDir | parentDir | normal (s : Str)
deriving DecidableEq, Repr

namespace Comp
/-- `Component::as_os_str` (std). Used at util.rs:101, jail.rs:85. -/
def text : Comp → Str
  | rootDir => str "/"
  | curDir => str "."
  | parentDir => str ".."
  | normal s => s
end Comp

namespace Path

/-- `Path::has_root`, `Path::is_absolute` (std).
Called at util.rs:70, value/magic.rs:297, providers/data.rs:340, jail.rs:163. -/
def hasRoot (p : Str) : Bool := p.head? == some '/'

/-- A piece between separators as a component: nothing for an empty one and for `.`, which `components` skips (unless
first). Part of `components`, called at util.rs:74-75, jail.rs:73. -/
def piece (s : Str) : Option Comp :=
  if s = [] then none else if s = str "." then none else if s = str ".." then some .parentDir else some (.normal s)

/-- `Path::components` (std). Called at util.rs:74-75, jail.rs:73. -/
def components (p : Str) : List Comp :=
  if hasRoot p then .rootDir :: (Str.splitOn '/' p).filterMap piece
  else match Str.splitOn '/' p with
    | s :: r => if s = str "." then .curDir :: r.filterMap piece else (s :: r).filterMap piece
    | [] => []

/-- `Path::join`, `PathBuf::push` (std): a path with a root replaces; otherwise a separator is put between, unless the
first is empty or ends with one. Called at value/magic.rs:306, providers/data.rs:347. -/
def join (a b : Str) : Str :=
  if hasRoot b then b
  else if a = [] ∨ a.getLast? = some '/' then a ++ b
  else a ++ '/' :: b

/-- `FromIterator for PathBuf` (std) on components: each is pushed onto the empty path.
Called at util.rs:101, jail.rs:85. -/
def collect (cs : List Comp) : Str := cs.foldl (fun p c => join p c.text) []

/-- `Path::parent` (std): without the last component, which must not be the root. Simplification: the result is written
with single separators (the original keeps those of the path; both are the same path).
Called at value/magic.rs:304, providers/data.rs:352. -/
def parent (p : Str) : Option Str :=
  match (components p).getLast? with
  | none => none
  | some .rootDir => none
  | some _ => some (collect (components p).dropLast)

/-- `Path::starts_with` (std): by components. Called at jail.rs:163. -/
def startsWith (p base : Str) : Bool := (components base).isPrefixOf (components p)

/-- `Path::iter().count()` (std). Called at metadata.rs:296. -/
def count (p : Str) : Nat := (components p).length

end Path
end Figment
