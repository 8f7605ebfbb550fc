import Verif.Spec.Result
import Verif.Spec.Path
import Verif.Spec.Errors
/-!
# Specification: figments built in any way

A figment begins empty; providers are added to it, also other figments; profiles are selected in it; it is focused on a
key. All of these in any order, to any depth.
-/
namespace Figment

/-- How a figment is built. -/
inductive Build where
  /-- `Figment::new()` -/
  | new
  /-- `merge`, `join`, `adjoin` or `admerge` of a provider -/
  | add (b : Build) (x : Call)
  /-- the same of a figment, which is built next -/
  | put (b : Build) (o : Order) (other : Build) (loc : Location)
  /-- `select` -/
  | select (b : Build) (p : Profile)
  /-- `focus` -/
  | focus (b : Build) (key : Str)

/-- Building the figment, with the process-wide counter before and after. `none` if some call panicked. -/
def Build.make : Build → BitVec 64 → Option Fig × BitVec 64
  | .new, c => (some Fig.new, c)
  | .add b x, c =>
    match b.make c with
    | (some f, c1) => f.provide x.provider x.order x.loc c1
    | (none, c1) => (none, c1)
  | .put b o other loc, c =>
    match b.make c with
    | (none, c1) => (none, c1)
    | (some f, c1) =>
      match other.make c1 with
      | (some g, c2) => f.provide g.toProvider o loc c2
      | (none, c2) => (none, c2)
  | .select b p, c =>
    match b.make c with
    | (some f, c1) => (some (f.select p), c1)
    | (none, c1) => (none, c1)
  | .focus b key, c =>
    match b.make c with
    | (some f, c1) => (some (f.focus key), c1)
    | (none, c1) => (none, c1)

/-- What the providers answered. -/
def Build.answers : Build → List (Except Error Data)
  | .new => []
  | .add b x => b.answers ++ [x.provider.data]
  | .put b _ other _ => b.answers ++ other.answers
  | .select b _ => b.answers
  | .focus b _ => b.answers

/-- No provider failed, and what they answered is well-formed. -/
def Build.Fine (b : Build) : Prop := ∀ d ∈ b.answers, ∃ n : Data, d = .ok n ∧ n.WF

/-- What is below the keys, as a view of its own. Its root is a dictionary, always. -/
def View.below (keys : List Str) (A : View) : View := fun p =>
  if p = [] then some (.dict Tag.Default) else A (keys ++ p)

/-- What a provider has in the profile, path by path, without provenance; nothing if it failed. -/
def answerView (pr : Profile) : Except Error Data → View
  | .ok n => fun p => (n.at pr p).map Shape.strip
  | .error _ => fun p => if p = [] then some (.dict Tag.Default) else none

/-- What is at each path of a profile. -/
def Build.view : Build → Profile → View
  | .new, _ => fun p => if p = [] then some (.dict Tag.Default) else none
  | .add b x, pr => View.coalesce x.order (b.view pr) (answerView pr x.provider.data)
  | .put b o other _, pr => View.coalesce o (b.view pr) (other.view pr)
  | .select b _, pr => b.view pr
  | .focus b key, pr => View.below (pathKeys key) (b.view pr)

/-- The profile that is selected: a merged or admerged provider that names one selects it; a figment names the one that is
selected in it. -/
def Build.selected : Build → Profile
  | .new => Profile.Default
  | .add b x =>
    match x.order with
    | .Merge | .Admerge => x.provider.profile.getD b.selected
    | .Join | .Adjoin => b.selected
  | .put b o other _ =>
    match o with
    | .Merge | .Admerge => other.selected
    | .Join | .Adjoin => b.selected
  | .select _ p => p
  | .focus b _ => b.selected

/-- What is extracted. -/
def Build.result (b : Build) : View :=
  if b.selected.isCustom then
    View.merge (View.merge (b.view Profile.Default) (b.view b.selected)) (b.view Profile.Global)
  else View.merge (b.view Profile.Default) (b.view Profile.Global)

/-- The kinds and paths of the errors of a chain, in the order in which they are iterated over. -/
def Error.whats : Error → List (Kind × List Str)
  | .last h => [(h.kind, h.path)]
  | .cons h p => (h.kind, h.path) :: Error.whats p

/-- The errors reported when some were, and more come: of those that were, only the first is kept. -/
def firstThen {α : Type} : List α → List α → List α
  | [], new => new
  | old, [] => old
  | first :: _, new => first :: new

/-- The kinds and paths of the errors that are reported. -/
def Build.reported : Build → List (Kind × List Str)
  | .new => []
  | .add b x => firstThen b.reported
      (match x.provider.data with
      | .ok _ => []
      | .error e => e.whats)
  | .put b _ other _ => firstThen b.reported other.reported
  | .select b _ => b.reported
  | .focus b _ => b.reported

/-- The providers leave the hidden method `__metadata_map` alone, and fail with one error that says nothing of where it is
from. -/
def Build.Ordinary : Build → Prop
  | .new => True
  | .add b x => b.Ordinary ∧ x.provider.metadataMap = none ∧
      ∀ e, x.provider.data = .error e → e.prev = none ∧ e.head.tag = Tag.Default
  | .put b _ other _ => b.Ordinary ∧ other.Ordinary
  | .select b _ => b.Ordinary
  | .focus b _ => b.Ordinary

/-- The metadata of what was added, in the order in which it was added: of providers, with the place of the call; of
figments, that of what was added to them, and then the default one, with the place of the call. -/
def Build.sources : Build → List Metadata
  | .new => []
  | .add b x => b.sources ++ [{ x.provider.metadata with provideLocation := some x.loc }]
  | .put b _ other loc => b.sources ++ other.sources ++ [{ Metadata.Default with provideLocation := some loc }]
  | .select b _ => b.sources
  | .focus b _ => b.sources

/-- As `Build.reported`, with the metadata of the provider that failed. -/
def Build.failures : Build → List ((Kind × List Str) × Metadata)
  | .new => []
  | .add b x => firstThen b.failures
      (match x.provider.data with
      | .ok _ => []
      | .error e => [(e.what, { x.provider.metadata with provideLocation := some x.loc })])
  | .put b _ other _ => firstThen b.failures other.failures
  | .select b _ => b.failures
  | .focus b _ => b.failures

/-- There is data for the profile: some provider had any, also if it is empty. After focusing on a key only if the profile
has a dictionary there. -/
def Build.Has : Build → Profile → Prop
  | .new, _ => False
  | .add b x, pr => b.Has pr ∨ ∃ n, x.provider.data = .ok n ∧ ∃ q ∈ Map.keys n, q.same pr = true
  | .put b _ other _, pr => b.Has pr ∨ other.Has pr
  | .select b _, pr => b.Has pr
  | .focus b key, pr => b.Has pr ∧ b.view pr (pathKeys key) = some (.dict Tag.Default)

end Figment
