import Verif.Model.Value
/-!
# Combining (src/coalesce.rs)
-/
namespace Figment

/-- `Order` (coalesce.rs:4-10). -/
inductive Order where
  | Merge | Join | Adjoin | Admerge
deriving DecidableEq, Repr

/-- `Coalescible for Profile` (coalesce.rs:17-24). -/
def Profile.coalesce (self other : Profile) : Order → Profile
  | .Join | .Adjoin => self
  | .Merge | .Admerge => other

namespace Value
mutual
/-- `Coalescible for Value` (coalesce.rs:26-35). -/
def coalesce : Value → Value → Order → Value
  | .dict t a, .dict t' b, o =>
    match o with
    | .Join | .Adjoin => .dict t (coalesceD a b [] o)
    | .Merge | .Admerge => .dict t' (coalesceD a b [] o)
  | .array t a, .array t' b, o =>
    match o with
    | .Adjoin | .Admerge => .array t (a ++ b)
    | .Join => .array t a
    | .Merge => .array t' b
  | self, other, o =>
    match o with
    | .Join | .Adjoin => self
    | .Merge | .Admerge => other
/-- `Coalescible for Map<K, V>` (coalesce.rs:37-51) at `V = Value`, as a loop over `self` with the
remaining `other` and the accumulated `joined`. -/
def coalesceD : List (Str × Value) → Dict → Dict → Order → Dict
  | [], other, joined, _ => Map.extend joined other
  | (k, v) :: r, other, joined, o =>
    match Map.get k other with
    | some b => coalesceD r (Map.erase k other) (Map.insert k (coalesce v b o) joined) o
    | none => coalesceD r other (Map.insert k v joined) o
end
end Value

/-- `Coalescible for Map<K, V>` (coalesce.rs:37-51) for any key type and any `V: Coalescible`, as the
loop over `self` with the remaining `other` and the accumulated `joined`. -/
def Map.coalesceLoop {κ : Type _} [Ord κ] {α : Type _} (f : α → α → α) :
    List (κ × α) → Map κ α → Map κ α → Map κ α
  | [], other, joined => Map.extend joined other
  | (k, v) :: r, other, joined =>
    match Map.get k other with
    | some b => coalesceLoop f r (Map.erase k other) (Map.insert k (f v b) joined)
    | none => coalesceLoop f r other (Map.insert k v joined)

/-- `Coalescible for Map<K, V>` (coalesce.rs:37-51). -/
def Map.coalesce {κ : Type _} [Ord κ] {α : Type _} (f : α → α → α) (a b : Map κ α) : Map κ α :=
  Map.coalesceLoop f a b []

/-- `Dict::coalesce` (coalesce.rs:37-51 at `V = Value`). -/
def Dict.coalesce (a b : Dict) (o : Order) : Dict := Value.coalesceD a b [] o

/-- `Dict::merge` (coalesce.rs:14). -/
def Dict.merge (a b : Dict) : Dict := Dict.coalesce a b .Merge

/-- Configuration data, `Map<Profile, Dict>` (figment.rs:103, provider.rs:90). -/
abbrev Data := Map Profile Dict

/-- `Map<Profile, Dict>::coalesce` (coalesce.rs:37-51 at `K = Profile`, `V = Dict`), figment.rs:165. -/
def coalesceProfiles (a b : Data) (o : Order) : Data :=
  Map.coalesce (fun x y => Dict.coalesce x y o) a b

end Figment
