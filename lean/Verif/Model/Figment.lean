import Verif.Model.Coalesce
import Verif.Model.Find
import Verif.Model.Error
/-!
# Figments and providers (src/figment.rs, src/provider.rs)
-/
namespace Figment

/-- What a `Provider` (provider.rs:83-102) answers. A provider is any value of a type with these four
methods; the model is their four answers during one `provide` call. -/
structure Provider where
  metadata : Metadata
  data : Except Error Data
  profile : Option Profile
  metadataMap : Option (Map Tag Metadata)

/-- A provider that relies on the trait's default methods (provider.rs:93-101). -/
def Provider.plain (metadata : Metadata) (data : Except Error Data) : Provider :=
  { metadata, data, profile := none, metadataMap := none }

/-- `struct Figment` (figment.rs:100-104). -/
structure Fig where
  profile : Profile
  metadata : Map Tag Metadata
  value : Except Error Data

namespace Fig

/-- `Figment::new` (figment.rs:117-123). -/
def new : Fig := { metadata := [], profile := Profile.Default, value := .ok [] }

/-- `Default for Figment` (figment.rs:870-874). -/
def default : Fig := new

/-- The retagging of provided data (figment.rs:161-163). -/
def retagData (tag : Tag) (data : Data) : Data :=
  data.map fun (p, dict) => (p, dict.map fun (k, v) => (k, v.mapTag fun _ => tag.forProfile p))

/-- The combination of old and new data (figment.rs:156-167). -/
def combine (tag : Tag) (o : Order) : Except Error Data → Except Error Data →
    Except Error Data
  | .ok _, .error e => .error e
  | .error e, .ok _ => .error (e.retagged tag)
  | .error e, .error prev => .error ((e.retagged tag).chain prev)
  | .ok new, .ok old => .ok (coalesceProfiles old (retagData tag new) o)

/-- `Figment::provide` (figment.rs:142-170) once `Tag::next()` (figment.rs:154) has given `tag`; `loc`
is the caller's location. -/
def provideWith (f : Fig) (p : Provider) (o : Order) (loc : Location) (tag : Tag) : Fig :=
  let metadata := match p.metadataMap with
    | some map => Map.extend f.metadata map
    | none => f.metadata
  let profile := match p.profile with
    | some q => f.profile.coalesce q o
    | none => f.profile
  { profile := profile
    metadata := Map.insert tag { p.metadata with provideLocation := some loc } metadata
    value := combine tag o p.data f.value }

/-- `Figment::provide` (figment.rs:142-170). `counter` is the process-wide tag counter before; the
result has the figment (`none`: the call panicked) and the counter after. -/
def provide (f : Fig) (p : Provider) (o : Order) (loc : Location) (counter : BitVec 64) :
    Option Fig × BitVec 64 :=
  let (tag, counter') := Tag.next counter
  (tag.map (provideWith f p o loc), counter')

/-- `Figment::join` (figment.rs:209-211). -/
def join (f : Fig) (p : Provider) := provide f p .Join
/-- `Figment::adjoin` (figment.rs:250-252). -/
def adjoin (f : Fig) (p : Provider) := provide f p .Adjoin
/-- `Figment::merge` (figment.rs:291-293). -/
def merge (f : Fig) (p : Provider) := provide f p .Merge
/-- `Figment::admerge` (figment.rs:332-334). -/
def admerge (f : Fig) (p : Provider) := provide f p .Admerge

/-- `Figment::from` (figment.rs:137-139). -/
def «from» (p : Provider) (loc : Location) (counter : BitVec 64) : Option Fig × BitVec 64 :=
  merge new p loc counter

/-- `Figment::select` (figment.rs:346-349). -/
def select (f : Fig) (p : Profile) : Fig := { f with profile := p }

/-- `self.value.clone().map_err(|e| e.resolved(self))` (figment.rs:353, 418). -/
def resolvedValue (f : Fig) : Except Error Data :=
  match f.value with
  | .ok m => .ok m
  | .error e => .error (e.resolved f.metadata f.profile)

/-- `Figment::merged` (figment.rs:352-363). -/
def merged (f : Fig) : Except Error Value :=
  match f.resolvedValue with
  | .error e => .error e
  | .ok map =>
    let deft := (Map.get Profile.Default map).getD []
    let map := Map.erase Profile.Default map
    let glob := (Map.get Profile.Global map).getD []
    let map := Map.erase Profile.Global map
    let m := match Map.get f.profile map with
      | some v =>
        if f.profile.isCustom then Dict.merge (Dict.merge deft v) glob else Dict.merge deft glob
      | none => Dict.merge deft glob
    .ok (.dict Tag.Default m)

/-- The closure of `focus` (figment.rs:420-424): what of a profile's data is kept. -/
def focusDict (key : Str) (d : Dict) : Option Dict :=
  ((Value.dict Tag.Default d).find key).bind Value.asDict?

/-- `Figment::focus` (figment.rs:416-435). -/
def focus (f : Fig) (key : Str) : Fig :=
  { profile := f.profile
    metadata := f.metadata
    value := match f.resolvedValue with
      | .error e => .error e
      | .ok map => .ok (Map.ofList (map.filterMap fun (k, v) => (focusDict key v).map fun d => (k, d))) }

/-- `Figment::metadata` (figment.rs:635-637). (`Figment::profile`, figment.rs:652-654, is the field.) -/
def metadataList (f : Fig) : List Metadata := f.metadata.map (·.2)

/-- `Figment::profiles` (figment.rs:687-693). -/
def profiles (f : Fig) : List Profile :=
  match f.value with
  | .ok v => Map.keys v
  | .error _ => []

/-- `Figment::find_value` (figment.rs:741-745). -/
def findValue (f : Fig) (path : Str) : Except Error Value :=
  match f.merged with
  | .error e => .error e
  | .ok v =>
    match v.find path with
    | some v => .ok v
    | none => .error (Error.ofKind (.missingField path))

/-- `Figment::contains` (figment.rs:786-788). -/
def contains (f : Fig) (path : Str) : Bool :=
  match f.merged with
  | .error _ => false
  | .ok v => (v.findRef path).isSome

/-- `Figment::get_metadata` (figment.rs:851-853). -/
def getMetadata (f : Fig) (tag : Tag) : Option Metadata := Map.get tag f.metadata

/-- `Figment::find_metadata` (figment.rs:818-820). -/
def findMetadata (f : Fig) (key : Str) : Option Metadata :=
  match f.findValue key with
  | .ok v => Map.get v.tag f.metadata
  | .error _ => none

/-- `impl Provider for Figment` (figment.rs:856-868); a reference to a figment answers the same
(provider.rs:105-118). -/
def toProvider (f : Fig) : Provider :=
  { metadata := Metadata.Default
    data := f.value
    profile := some f.profile
    metadataMap := some f.metadata }

end Fig
end Figment
