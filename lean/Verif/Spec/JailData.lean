import Verif.Spec.Jail
import Verif.Spec.DataProvider
/-!
# Specification: what providers see of a process
-/
namespace Figment

/-- The file system a provider sees in a process: a path leads to a file if one is at its place, from the working
directory. -/
def Sys.fileSystem (p : Sys) : FileSystem where
  isFile path := (p.fileAt path).isSome
  read path :=
    match p.fileAt path with
    | some c => .ok c
    | none => .error (str "No such file or directory (os error 2)")
  cwd := some p.cwd

/-- What a provider sees of the variables: `vars` are those of the process, in some order. -/
def Sys.Vars (p : Sys) (vars : List (Str × Str)) : Prop := vars.Perm p.env

end Figment
