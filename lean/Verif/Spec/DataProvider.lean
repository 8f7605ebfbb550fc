import Verif.Model.DataProvider
/-!
# Specification: file and string providers
-/
namespace Figment

/-- The calls on a file or string provider. -/
inductive DataCall where
  | nested
  | profile (p : Profile)
  | required (b : Bool)
  | search (b : Bool)
deriving DecidableEq, Repr

/-- The provider after the call. -/
def DataCall.call (d : DataProvider) : DataCall → DataProvider
  | .nested => d.nested
  | .profile p => d.withProfile p
  | .required b => d.required b
  | .search b => d.search b

/-- The last of `nested()` and `profile(..)` decides where the data goes: `none` if the data are profiles themselves.
Without one of them it goes to the default profile. -/
def targetSaid (calls : List DataCall) : Option Profile :=
  (calls.reverse.findSome? fun
    | .nested => some none
    | .profile p => some (some p)
    | _ => none).getD (some Profile.Default)

/-- The last of `required(..)` decides; without one the file is not required. -/
def requiredSaid (calls : List DataCall) : Bool :=
  (calls.reverse.findSome? fun
    | .required b => some b
    | _ => none).getD false

/-- The last of `search(..)` decides; without one the file is searched for. -/
def searchSaid (calls : List DataCall) : Bool :=
  (calls.reverse.findSome? fun
    | .search b => some b
    | _ => none).getD true

/-- The absolute path of the directory reached by going down the names from the root. -/
def dirPath (names : List Str) : Str := '/' :: Str.join ['/'] names

end Figment
