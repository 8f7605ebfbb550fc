import Verif.Spec.Result
/-!
# Specification: the whole outcome of a history, with provenance

Like Spec/Result, but each value keeps the tag that names the call by which it was provided. The calls take the tags in
order, from the number the process is at.
-/
namespace Figment

/-- The operations, those that add a provider each with the tag it takes, the first with number `c`. -/
def numbered : BitVec 64 → List Op → List (Tag × Op)
  | _, [] => []
  | c, .add x :: r => (Tag.new c .Default, .add x) :: numbered (c + 1#64) r
  | c, .select p :: r => (Tag.Default, .select p) :: numbered c r

/-- What an operation, with its tag, makes of what is at each path of a profile. -/
def Op.outcome (pr : Profile) (A : View) : Tag × Op → View
  | (tag, .add x) =>
    match x.provider.data with
    | .ok n => View.coalesce x.order A (n.given tag pr)
    | .error _ => A
  | (_, .select _) => A

/-- What is at each path of a profile after the operations. -/
def outcomeView (c : BitVec 64) (ops : List Op) (pr : Profile) : View :=
  (numbered c ops).foldl (Op.outcome pr) fun p => if p = [] then some (.dict Tag.Default) else none

/-- What is extracted after the operations, path by path. -/
def outcome (c : BitVec 64) (ops : List Op) : View :=
  if (historySelected ops).isCustom then
    View.merge (View.merge (outcomeView c ops Profile.Default) (outcomeView c ops (historySelected ops)))
      (outcomeView c ops Profile.Global)
  else View.merge (outcomeView c ops Profile.Default) (outcomeView c ops Profile.Global)

/-- What is known about the tag `t` after an operation: if it names this call, the provider's metadata and where it was
called; else what the provider, if a figment, knows; else what was known. -/
def Op.knows (M : Tag → Option Metadata) : Tag × Op → Tag → Option Metadata
  | (tag, .add x), t =>
    if t.same tag then some { x.provider.metadata with provideLocation := some x.loc }
    else (x.provider.metadataMap.bind (Map.get t)).or (M t)
  | (_, .select _), t => M t

/-- What is known about each tag after the operations. -/
def outcomeMetadata (c : BitVec 64) (ops : List Op) : Tag → Option Metadata :=
  (numbered c ops).foldl Op.knows fun _ => none

/-- The file each tag stands for after the operations. -/
def outcomeFile (c : BitVec 64) (ops : List Op) (t : Tag) : Option Str :=
  (outcomeMetadata c ops t).bind fun m => m.source.bind Source.filePath

/-- The metadata maps that providers which are figments hand over are well-formed. -/
def MapsWF (ops : List Op) : Prop :=
  ∀ x M, Op.add x ∈ ops → x.provider.metadataMap = some M → Map.Sorted M

end Figment
