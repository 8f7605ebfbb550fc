import Verif.Base.Path
import Verif.Model.Figment
/-!
# File and string providers (src/providers/data.rs)

The file system, the working directory and the format's parser are parameters. They do not change while a provider is
read; `Model/Asking` is the same with changes in between.
-/
namespace Figment

/-- What the file system and the process say: `Path::is_file`, `fs::read_to_string` (an error by its text) and
`current_dir().ok()`. Used at providers/data.rs:339-354 and providers/data.rs:358-393. -/
structure FileSystem where
  isFile : Str → Bool
  read : Str → Except Str Str
  cwd : Option Str

/-- `Format` (providers/data.rs:438-485): a format's name and parser, at the two types it is used at. Errors are their
text; `custom` is the text of `de::Error::custom`. -/
structure Format where
  name : Str
  dict : Str → Except Str Dict
  profiles : Str → Except Str Data
  custom : Str → Str

/-- `Source` (providers/data.rs:67-71). -/
inductive DataSource where
  | file (path : Str) (required search : Bool)
  | string (text : Str)
deriving DecidableEq, Repr

/-- `Data<F>` (providers/data.rs:59-65), for a format given apart. -/
structure DataProvider where
  source : DataSource
  profile : Option Profile
deriving DecidableEq, Repr

namespace DataProvider

/-- `Data::file` (providers/data.rs:114-120), with `Data::new` (providers/data.rs:74-76). -/
def file (path : Str) : DataProvider :=
  { source := .file path (required := false) (search := true), profile := some Profile.Default }

/-- `Data::string` (providers/data.rs:151-153). -/
def string (text : Str) : DataProvider := { source := .string text, profile := some Profile.Default }

/-- `Data::nested` (providers/data.rs:209-212). -/
def nested (d : DataProvider) : DataProvider := { d with profile := none }

/-- `Data::required` (providers/data.rs:260-266). -/
def required (d : DataProvider) (yes : Bool) : DataProvider :=
  match d.source with
  | .file path _ search => { d with source := .file path yes search }
  | .string _ => d

/-- `Data::search` (providers/data.rs:305-311). -/
def search (d : DataProvider) (enabled : Bool) : DataProvider :=
  match d.source with
  | .file path required _ => { d with source := .file path required enabled }
  | .string _ => d

/-- `Data::profile` (providers/data.rs:330-333). -/
def withProfile (d : DataProvider) (p : Profile) : DataProvider := { d with profile := some p }

/-- `Data::file_exact` (providers/data.rs:160-162), `Format::file_exact` (providers/data.rs:464-466). -/
def fileExact (path : Str) : DataProvider := (file path).search false

/-- The loop of `Data::resolve` (providers/data.rs:346-353), with as many rounds as given; `.error` stands for not
having ended by then. -/
def resolveLoop (fs : FileSystem) (path : Str) : Nat → Str → Except Unit (Option Str)
  | 0, _ => .error ()
  | n + 1, cwd =>
    let filePath := Path.join cwd path
    if fs.isFile filePath then .ok (some filePath)
    else match Path.parent cwd with
      | none => .ok none
      | some cwd => resolveLoop fs path n cwd

/-- `Data::resolve` (providers/data.rs:339-354). The loop ends (`resolveLoop_ends`). -/
def resolve (fs : FileSystem) (path : Str) (search : Bool) : Option Str :=
  if Path.hasRoot path || !search then (if fs.isFile path then some path else none)
  else match fs.cwd with
    | none => none
    | some cwd =>
      match resolveLoop fs path (Path.count cwd + 1) cwd with
      | .ok r => r
      | .error _ => none

/-- `Format::from_path` (providers/data.rs:481-484), for either type. -/
def fromPath {α : Type} (f : Format) (parse : Str → Except Str α) (fs : FileSystem) (path : Str) : Except Str α :=
  match fs.read path with
  | .error e => .error (f.custom e)
  | .ok text => parse text

/-- `prof.collect(v)` under `Result::map` (providers/data.rs:375, 386). -/
def collected (p : Profile) : Except Str Dict → Except Str Data
  | .ok d => .ok (p.collect d)
  | .error e => .error e

/-- The `match` of `Provider::data for Data` (providers/data.rs:371-387); the outer `.error` is its `return Err`, the
inner one the error of the format. -/
def read (d : DataProvider) (f : Format) (fs : FileSystem) : Except Error (Except Str Data) :=
  match d.source, d.profile with
  | .file path required search, profile =>
    match resolve fs path search with
    | some path =>
      match profile with
      | some prof => .ok (collected prof (fromPath f f.dict fs path))
      | none => .ok (fromPath f f.profiles fs path)
    | none =>
      if !required then .ok (.ok [])
      else .error (Error.ofKind (.message (str "required file `" ++ path ++ str "` not found")))
  | .string s, none => .ok (f.profiles s)
  | .string s, some prof => .ok (collected prof (f.dict s))

/-- `Provider::data for Data` (providers/data.rs:369-390). -/
def data (d : DataProvider) (f : Format) (fs : FileSystem) : Except Error Data :=
  match d.read f fs with
  | .error e => .error e
  | .ok (.ok map) => .ok map
  | .ok (.error msg) => .error (Error.ofKind (.message msg))

/-- `Provider::metadata for Data` (providers/data.rs:358-367). -/
def metadata (d : DataProvider) (f : Format) (fs : FileSystem) : Metadata :=
  match d.source with
  | .string _ => Metadata.named (f.name ++ str " source string")
  | .file path _ search => Metadata.from (f.name ++ str " file") (.file ((resolve fs path search).getD path))

/-- The provider as a figment sees it. providers/data.rs:357-393. -/
def provider (d : DataProvider) (f : Format) (fs : FileSystem) : Provider :=
  Provider.plain (d.metadata f fs) (d.data f fs)

end DataProvider
end Figment
