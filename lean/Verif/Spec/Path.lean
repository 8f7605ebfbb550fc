import Verif.Model.Value
/-!
# Specification: looking up a list of keys
-/
namespace Figment

/-- What is found by following keys through dictionaries. -/
def Value.getKeys : List Str → Value → Option Value
  | [], v => some v
  | k :: ks, .dict _ d =>
    match Map.get k d with
    | some v => getKeys ks v
    | none => none
  | _ :: _, _ => none

/-- The keys a dotted path stands for: its components up to the first empty one. -/
def pathKeys (path : Str) : List Str := (Str.splitOn '.' path).takeWhile fun k => !k.isEmpty

/-- A dotted path that is meant literally: no empty component. -/
def plainPath (path : Str) : Prop := ∀ k ∈ Str.splitOn '.' path, k ≠ []

instance (path : Str) : Decidable (plainPath path) := inferInstanceAs (Decidable (∀ k ∈ _, _))

end Figment
