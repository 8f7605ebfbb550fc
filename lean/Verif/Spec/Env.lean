import Verif.Model.Env
import Verif.Spec.Path
import Verif.Spec.View
/-!
# Specification: the environment provider

A provider is described by what was written to make it: `raw()` or `prefixed(..)`, then calls. What happens to one
variable is said call by call.
-/
namespace Figment

/-- The two ways to begin. -/
inductive EnvStart where
  | raw
  | prefixed (pre : Str)

/-- The calls that can follow. -/
inductive EnvStep where
  | filter (p : Str → Bool)
  | map (f : Str → Str)
  | filterMap (f : Str → Option Str)
  | only (keys : List Str)
  | ignore (keys : List Str)
  | split (pattern : Str)
  | lowercase (b : Bool)
  | profile (p : Profile)
  | global

/-- The provider the start makes. -/
def EnvStart.env : EnvStart → Env
  | .raw => Env.raw
  | .prefixed pre => Env.prefixed pre

/-- The provider after the call. -/
def EnvStep.call (e : Env) : EnvStep → Env
  | .filter p => e.filter p
  | .map f => e.map f
  | .filterMap f => e.filterMapWith f
  | .only keys => e.only keys
  | .ignore keys => e.ignore keys
  | .split pattern => e.split pattern
  | .lowercase b => e.withLowercase b
  | .profile p => e.withProfile p
  | .global => e.global

/-- The provider that is written as a start and calls. -/
def EnvStart.thenCalls (s : EnvStart) (steps : List EnvStep) : Env := steps.foldl EnvStep.call s.env

/-- Equal up to ASCII case. -/
def SameUncased (a b : Str) : Prop := Str.lower a = Str.lower b

instance (a b : Str) : Decidable (SameUncased a b) := inferInstanceAs (Decidable (_ = _))

/-- `SplitsAt p s parts`: looking from left to right for `p` in `s`, each time after the end of the last occurrence,
`parts` is what is between the occurrences. -/
inductive SplitsAt (p : Str) : Str → List Str → Prop
  | last {s : Str} (h : ∀ a b, s ≠ a ++ (p ++ b)) : SplitsAt p s [s]
  | cons {a r : Str} {parts : List Str} (h : ∀ x y, a ++ (p ++ r) = x ++ (p ++ y) → a.length ≤ x.length)
      (hr : SplitsAt p r parts) : SplitsAt p (a ++ (p ++ r)) (a :: parts)

/-- What the start does to a name: `KeyStart s k k'` if the name `k` goes on as `k'`. A prefix matches up to ASCII case
and is taken away. -/
inductive EnvStart.Key : EnvStart → Str → Str → Prop
  | raw (k : Str) : Key .raw k k
  | prefixed {pre q : Str} (k : Str) (h : SameUncased q pre) : Key (.prefixed pre) (q ++ k) k

/-- What a call does to a key: `step.Key k k'` if the key `k` goes on as `k'`. -/
inductive EnvStep.Key : EnvStep → Str → Str → Prop
  | filter {p : Str → Bool} {k : Str} (h : p k = true) : Key (.filter p) k k
  | map {f : Str → Str} (k : Str) : Key (.map f) k (f k)
  | filterMap {f : Str → Option Str} {k k' : Str} (h : f k = some k') : Key (.filterMap f) k k'
  | only {keys : List Str} {k a : Str} (h : a ∈ keys) (ha : SameUncased a k) : Key (.only keys) k k
  | ignore {keys : List Str} {k : Str} (h : ∀ a ∈ keys, ¬ SameUncased a k) : Key (.ignore keys) k k
  | split {p k : Str} {parts : List Str} (hp : p ≠ []) (h : SplitsAt p k parts) :
      Key (.split p) k (Str.join (str ".") parts)
  | splitEmpty (k : Str) : Key (.split []) k ('.' :: k.flatMap fun c => [c, '.'])
  | lowercase (b : Bool) (k : Str) : Key (.lowercase b) k k
  | profile (p : Profile) (k : Str) : Key (.profile p) k k
  | global (k : Str) : Key .global k k

/-- What calls do to a key, one after the other in the order written. -/
inductive EnvSteps.Key : List EnvStep → Str → Str → Prop
  | nil (k : Str) : Key [] k k
  | cons {s : EnvStep} {r : List EnvStep} {k k' k'' : Str} (h : s.Key k k') (hr : Key r k' k'') : Key (s :: r) k k''

/-- The last call to `lowercase` says whether keys are lowercased; without one they are. -/
def lowercaseSaid : List EnvStep → Bool → Bool
  | [], b => b
  | .lowercase b :: r, _ => lowercaseSaid r b
  | _ :: r, b => lowercaseSaid r b

/-- A call that goes through the keys (and, in the code, turns lowercasing on again). -/
def EnvStep.onKeys : EnvStep → Bool
  | .lowercase _ | .profile _ | .global => false
  | _ => true

/-- The last call of `profile` or `global` names the profile; without one it is the default profile. -/
def profileSaid : List EnvStep → Profile → Profile
  | [], p => p
  | .profile p :: r, _ => profileSaid r p
  | .global :: r, _ => profileSaid r Profile.Global
  | _ :: r, p => profileSaid r p

/-- A view put below a list of keys. -/
def View.under (ks : List Str) (B : View) : View := fun p =>
  if ks.isPrefixOf p then B (p.drop ks.length) else if p.isPrefixOf ks then some (.dict Tag.Default) else none

/-- The view of an empty dictionary. -/
def View.empty : View := fun p => if p = [] then some (.dict Tag.Default) else none

/-- One of the paths is the other or goes on from it. -/
def Overlap (a b : Str) : Prop :=
  Str.splitOn '.' a <+: Str.splitOn '.' b ∨ Str.splitOn '.' b <+: Str.splitOn '.' a

instance (a b : Str) : Decidable (Overlap a b) := inferInstanceAs (Decidable (_ ∨ _))

end Figment
