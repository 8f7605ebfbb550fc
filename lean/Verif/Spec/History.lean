import Verif.Spec.Data
/-!
# Specification: sequences of operations on one figment
-/
namespace Figment

/-- One `merge`/`join`/`adjoin`/`admerge` call: the strategy, the provider, the caller's location. -/
structure Call where
  order : Order
  provider : Provider
  loc : Location

/-- A figment to which providers are added one after the other, starting with the given value of the
process-wide counter. `none` if some call panicked. -/
def Fig.provideAll : Fig → List Call → BitVec 64 → Option Fig × BitVec 64
  | f, [], c => (some f, c)
  | f, x :: r, c =>
    match f.provide x.provider x.order x.loc c with
    | (some g, c') => provideAll g r c'
    | (none, c') => (none, c')

/-- An operation on a figment: adding a provider (which may be a figment) or `select`. -/
inductive Op where
  | add (c : Call)
  | select (p : Profile)

/-- A figment after a sequence of operations, starting with the given value of the process-wide counter.
`none` if some call panicked. -/
def Fig.run : Fig → List Op → BitVec 64 → Option Fig × BitVec 64
  | f, [], c => (some f, c)
  | f, .add x :: r, c =>
    match f.provide x.provider x.order x.loc c with
    | (some g, c') => run g r c'
    | (none, c') => (none, c')
  | f, .select p :: r, c => run (f.select p) r c

/-- What the added providers answered, in order. -/
def opData : List Op → List (Except Error Data)
  | [] => []
  | .add c :: r => c.provider.data :: opData r
  | .select _ :: r => opData r

/-- The data the providers answered consists of well-formed maps. -/
def OpsWF (ops : List Op) : Prop := ∀ n, Except.ok n ∈ opData ops → Data.WF n

/-- The errors the failing providers gave, in order. -/
def opErrors (ops : List Op) : List Error :=
  (opData ops).filterMap fun
    | .error e => some e
    | .ok _ => none

/-- The profile an operation selects, if any: `select` does, and merging or admerging a provider that
names a profile. -/
def Op.selects : Op → Option Profile
  | .select p => some p
  | .add c =>
    match c.order with
    | .Merge | .Admerge => c.provider.profile
    | .Join | .Adjoin => none

/-- What is extracted, path by path: the global profile over the selected one (if it is custom) over the
default one. -/
def Data.layered (m : Data) (selected : Profile) : View :=
  if selected.isCustom then
    View.merge (View.merge (m.at Profile.Default) (m.at selected)) (m.at Profile.Global)
  else View.merge (m.at Profile.Default) (m.at Profile.Global)

/-- The profile holds a non-dictionary at or above the key. -/
def Data.hides (m : Data) (pr : Profile) (keys : List Str) : Prop :=
  ∃ n ≤ keys.length, ∃ w, m.at pr (keys.take n) = some (.leaf w)

/-- The profile has nothing at a path below the key, and no non-dictionary between the two. -/
def Data.silent (m : Data) (pr : Profile) (keys path : List Str) : Prop :=
  m.at pr (keys ++ path) = none ∧
  ∀ n, 0 < n → n < path.length → ∀ w, m.at pr (keys ++ path.take n) ≠ some (.leaf w)

end Figment
