import Verif.Base.Path
import Verif.Model.Metadata
/-!
# Relative paths and displayed sources (src/util.rs, src/metadata.rs)
-/
namespace Figment

/-- The loop of `diff_paths` (util.rs:76-98) on the remaining components of both paths and the components pushed so far
(`comps`); `none` is its `return None`. -/
def diffLoop : List Comp → List Comp → List Comp → Option (List Comp)
  | [], [], comps => some comps
  | a :: ita, [], comps => some (comps ++ a :: ita)
  | [], _ :: itb, comps => diffLoop [] itb (comps ++ [.parentDir])
  | a :: ita, b :: itb, comps =>
    if comps.isEmpty ∧ a = b then diffLoop ita itb comps
    else if b = .curDir then diffLoop ita itb (comps ++ [a])
    else if b = .parentDir then none
    else some (comps ++ .parentDir :: (itb.map fun _ => .parentDir) ++ a :: ita)

/-- `diff_paths` (util.rs:66-102). -/
def diffPaths (path base : Str) : Option Str :=
  if Path.hasRoot path ≠ Path.hasRoot base then none
  else (diffLoop (Path.components path) (Path.components base) []).map Path.collect

namespace Source

/-- `Display for Source` (metadata.rs:289-304). The parameter is `current_dir().ok()`; a path is displayed as its text;
a location as `file:line:column` (std). -/
def display (cwd : Option Str) : Source → Str
  | .file p =>
    match cwd.bind fun cwd => diffPaths p cwd with
    | some r => if Path.count r < Path.count p then r else p
    | none => p
  | .code l => l.file ++ str ":" ++ (Nat.repr l.line).toList ++ str ":" ++ (Nat.repr l.column).toList
  | .custom c => c

end Source
end Figment
