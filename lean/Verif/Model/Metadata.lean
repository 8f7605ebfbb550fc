import Verif.Model.Profile
import Verif.Base.Path
/-!
# Metadata (src/metadata.rs)
-/
namespace Figment

/-- `std::panic::Location`. Used at metadata.rs:79, metadata.rs:225, figment.rs:152. -/
structure Location where
  file : Str
  line : Nat
  column : Nat
deriving DecidableEq, Repr

/-- `Source` (metadata.rs:219-228). A path is its text. -/
inductive Source where
  | file (path : Str)
  | code (loc : Location)
  | custom (text : Str)
deriving DecidableEq, Repr

namespace Source
/-- `From<&Path> for Source` (metadata.rs:306-310). -/
def ofPath (p : Str) : Source := .file p
/-- `From<&'static Location<'static>> for Source` (metadata.rs:312-316). -/
def ofLocation (l : Location) : Source := .code l
/-- `From<&str> for Source`, `From<String> for Source` (metadata.rs:318-328). -/
def ofText (s : Str) : Source := .custom s
/-- `Source::file_path` (metadata.rs:242-247). -/
def filePath : Source → Option Str
  | .file p => some p
  | _ => none
/-- `Source::code_location` (metadata.rs:262-267). -/
def codeLocation : Source → Option Location
  | .code l => some l
  | _ => none
/-- `Source::custom` (metadata.rs:278-283). -/
def customText : Source → Option Str
  | .custom c => some c
  | _ => none
/-- Derived `PartialEq for Source` (metadata.rs:220): paths are equal if their components are (std), locations if their
files, lines and columns are (std). -/
def same : Source → Source → Bool
  | .file a, .file b => Path.components a == Path.components b
  | .code a, .code b => a == b
  | .custom a, .custom b => a == b
  | _, _ => false
end Source

/-- `PartialEq for Option` (std). Used at metadata.rs:193, error.rs:88. -/
def sameOption {α : Type} (f : α → α → Bool) : Option α → Option α → Bool
  | some a, some b => f a b
  | none, none => true
  | _, _ => false

/-- `Metadata` (metadata.rs:71-81). The boxed interpolater closure is a function. -/
structure Metadata where
  name : Str
  source : Option Source
  provideLocation : Option Location
  interpolater : Profile → List Str → Str

namespace Metadata

/-- `default_interpolater` (metadata.rs:334-336). -/
def defaultInterpolater (p : Profile) (keys : List Str) : Str :=
  p.name ++ str "." ++ Str.join (str ".") keys

/-- `Default for Metadata` (metadata.rs:197-206). -/
def Default : Metadata :=
  { name := str "Default", source := none, provideLocation := none,
    interpolater := defaultInterpolater }

/-- `Metadata::named` (metadata.rs:114-116). -/
def named (name : Str) : Metadata := { Default with name := name }

/-- `Metadata::source` (metadata.rs:130-133). -/
def withSource (m : Metadata) (s : Source) : Metadata := { m with source := some s }

/-- `Metadata::from` (metadata.rs:96-101). -/
def «from» (name : Str) (s : Source) : Metadata := (named name).withSource s

/-- `Metadata::interpolater` (metadata.rs:157-162). -/
def withInterpolater (m : Metadata) (f : Profile → List Str → Str) : Metadata :=
  { m with interpolater := f }

/-- `Metadata::interpolate` (metadata.rs:185-188). -/
def interpolate (m : Metadata) (p : Profile) (keys : List Str) : Str := m.interpolater p keys

/-- `PartialEq for Metadata` (metadata.rs:191-195). -/
def same (a b : Metadata) : Bool :=
  a.name == b.name && sameOption Source.same a.source b.source

end Metadata
end Figment
