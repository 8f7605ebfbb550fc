import Verif.Base.Str
import Verif.Base.Map
/-!
# Profiles (src/profile.rs)
-/
namespace Figment

/-- `Profile` (profile.rs:9-10): a name of type `Uncased`. Its derived `PartialEq`, `Ord` compare the
names as `uncased` does, i.e. with every character replaced by its ASCII lower case. -/
structure Profile where
  name : Str
deriving DecidableEq, Repr

namespace Profile

/-- Derived `Ord for Profile` (profile.rs:9) via `Ord for UncasedStr` (crate `uncased`):
lexicographic comparison of the ASCII-lowercased characters. -/
instance : Ord Profile := ⟨fun a b => compare (Str.lower a.name) (Str.lower b.name)⟩

instance : Std.TransOrd Profile :=
  inferInstanceAs (Std.TransCmp (compareOn (fun p : Profile => Str.lower p.name)))

/-- Derived `PartialEq for Profile` (profile.rs:9, 264-274): equality up to ASCII case. -/
def same (a b : Profile) : Bool := Str.uncasedEq a.name b.name

/-- `Profile::Default` (profile.rs:62). -/
def Default : Profile := ⟨str "default"⟩

/-- `Profile::Global` (profile.rs:66). -/
def Global : Profile := ⟨str "global"⟩

/-- `Profile::new` (profile.rs:79-81). -/
def new (name : Str) : Profile := ⟨name⟩

/-- `Profile::const_new` (profile.rs:95-97). -/
def constNew (name : Str) : Profile := ⟨name⟩

/-- `Default for Profile` (profile.rs:12-16). -/
def default : Profile := Default

/-- `From<T: AsRef<str>> for Profile` (profile.rs:214-218). -/
def ofText (s : Str) : Profile := new s

/-- `From<Profile> for String` (profile.rs:220-224), `Profile::as_str` (profile.rs:160-162), `Deref for Profile`
(profile.rs:226-232) and `Display for Profile` (profile.rs:234-238): the name as it was given. -/
def toText (p : Profile) : Str := p.name

/-- `PartialEq<str>`, `PartialEq<&str>` for `Profile` (profile.rs:240-250) and `PartialEq<Profile>` for `str`, `&str`
(profile.rs:252-262): equality of `UncasedStr` and `str`, which is up to ASCII case (crate `uncased`). -/
def sameText (p : Profile) (s : Str) : Bool := Str.uncasedEq p.name s

/-- `Profile::is_custom` (profile.rs:193-195). -/
def isCustom (p : Profile) : Bool := !same p Default && !same p Global

/-- `Profile::starts_with` (profile.rs:176-178) via `UncasedStr::starts_with` (crate `uncased`). -/
def startsWith (p : Profile) (pre : Str) : Bool := (Str.lower pre).isPrefixOf (Str.lower p.name)

/-- `Profile::collect` (profile.rs:207-211). -/
def collect {α : Type _} (p : Profile) (d : α) : Map Profile α := Map.insert p d []

/-- `Profile::from_env` (profile.rs:117-126). The parameter `env` is `std::env::vars_os()` after
`to_string_lossy` (simplification: OS strings are taken as their lossy text). -/
def fromEnv (env : List (Str × Str)) (key : Str) : Option Profile :=
  match env with
  | [] => none
  | (k, v) :: r => if Str.uncasedEq (Str.trim k) key then some (new v) else fromEnv r key

/-- `Profile::from_env_or` (profile.rs:146-148). -/
def fromEnvOr (env : List (Str × Str)) (var : Str) (default : Profile) : Profile :=
  (fromEnv env var).getD default

end Profile

/-- `ProfileTag` (profile.rs:19-25). -/
inductive ProfileTag where
  | Default | Global | Custom
deriving DecidableEq, Repr

namespace ProfileTag

/-- The discriminants `0b00`, `0b01`, `0b11` (profile.rs:22-24). -/
def bits : ProfileTag → BitVec 64
  | Default => 0b00#64
  | Global => 0b01#64
  | Custom => 0b11#64

/-- `From<u8> for ProfileTag` (profile.rs:27-37). -/
def ofBits (b : BitVec 8) : ProfileTag :=
  if b = 0b00#8 then Default else if b = 0b01#8 then Global else Custom

/-- `From<ProfileTag> for Option<Profile>` (profile.rs:39-47). -/
def toProfile : ProfileTag → Option Profile
  | Default => some Profile.Default
  | Global => some Profile.Global
  | Custom => none

/-- `From<&Profile> for ProfileTag` (profile.rs:49-57). -/
def ofProfile (p : Profile) : ProfileTag :=
  if p.same Profile.Default then Default else if p.same Profile.Global then Global else Custom

end ProfileTag
end Figment
