import Verif.Base.Path
import Verif.Model.Types
/-!
# Magic values (src/value/magic.rs)

How `RelativePathBuf` and `Tagged` are read and written is in `Verif.Model.De` and `Verif.Model.Types`.
-/
namespace Figment

/-- `RelativePathBuf` (value/magic.rs:153-158). -/
structure RelPath where
  metadataPath : Option Str
  path : Str
deriving DecidableEq, Repr

namespace RelPath

/-- `From<P: AsRef<Path>> for RelativePathBuf` (value/magic.rs:166-170). -/
def ofPath (p : Str) : RelPath := ⟨none, p⟩

/-- `RelativePathBuf::original` (value/magic.rs:236-238). -/
def original (r : RelPath) : Str := r.path

/-- `RelativePathBuf::relative` (value/magic.rs:296-308). The parameter is `Path::is_dir`. -/
def relative (isDir : Str → Bool) (r : RelPath) : Str :=
  if Path.hasRoot r.original then r.original
  else
    let root := r.metadataPath.bind fun root => if isDir root then some root else Path.parent root
    match root with
    | some root => Path.join root r.original
    | none => r.original

/-- `RelativePathBuf::metadata_path` (value/magic.rs:337-339). -/
def metadataFile (r : RelPath) : Option Str := r.metadataPath

/-- `PartialEq for RelativePathBuf` (value/magic.rs:160-164); paths are compared by components (std). -/
def same (isDir : Str → Bool) (a b : RelPath) : Bool :=
  Path.components (a.relative isDir) == Path.components (b.relative isDir)

/-- The `RelativePathBuf` a value of the type `Ty.relPath` stands for. The fields of value/magic.rs:153-158. -/
def ofVal : Val → Option RelPath
  | .struct [.none, .str p] => some ⟨none, p⟩
  | .struct [.some (.str m), .str p] => some ⟨some m, p⟩
  | _ => none

/-- `RelativePathBuf::serialize_original` (value/magic.rs:354-358): the path is serialised. -/
def serializeOriginal (r : RelPath) : Ser := .str r.original

/-- `RelativePathBuf::serialize_relative` (value/magic.rs:380-384). -/
def serializeRelative (isDir : Str → Bool) (r : RelPath) : Ser := .str (r.relative isDir)

end RelPath

/-- `Tagged<T>` (value/magic.rs:557-562), with what it wraps of any type. -/
structure Tagged (α : Type) where
  tag : Tag
  value : α

namespace Tagged

/-- `From<T> for Tagged<T>` (value/magic.rs:649-653). -/
def of {α : Type} (value : α) : Tagged α := ⟨Tag.Default, value⟩

/-- `PartialEq for Tagged<T>` (value/magic.rs:564-568), given that of `T`. -/
def same {α : Type} (eq : α → α → Bool) (a b : Tagged α) : Bool := eq a.value b.value

/-- `Tagged::tag` (value/magic.rs:618-620). -/
def tagOf {α : Type} (t : Tagged α) : Tag := t.tag

/-- `Tagged::into_inner` (value/magic.rs:636-638), `Deref for Tagged` (value/magic.rs:641-647). -/
def inner {α : Type} (t : Tagged α) : α := t.value

/-- The `Tagged` a value of the type `Ty.tagged t` stands for. The fields of value/magic.rs:557-562. -/
def ofVal : Val → Option (Tagged Val)
  | .struct [.tag t, x] => some ⟨t, x⟩
  | _ => none

end Tagged
end Figment
