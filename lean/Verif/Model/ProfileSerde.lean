import Verif.Model.Extract
import Verif.Model.Types
/-!
# Profiles in configuration (src/profile.rs:276-302)
-/
namespace Figment.Profile

/-- The visitor of `Deserialize for Profile` (profile.rs:280-292). -/
def visitor : Visitor Profile where
  expecting := str "a string"
  visitStr s := .ok (ofText s)

/-- `Deserialize for Profile` (profile.rs:276-296): `deserialize_str`, which is forwarded to `deserialize_any`
(value/de.rs:176-180, value/de.rs:325-329). -/
def de (de : De) (v : Value) : R Profile := de.deserializeAny visitor v

/-- `Serialize for Profile` (profile.rs:298-302). -/
def ser (p : Profile) : Ser := .str p.toText

end Figment.Profile

namespace Figment.Fig

/-- `Figment::extract_inner::<Profile>` (figment.rs:569-573). -/
def extractInnerProfile (f : Fig) (path : Str) : R Profile :=
  f.extractInnerWith (fun f v => Profile.de (De.strict f) v) path

/-- `Figment::extract_inner_lossy::<Profile>` (figment.rs:603-607). -/
def extractInnerLossyProfile (f : Fig) (path : Str) : R Profile :=
  f.extractInnerWith (fun f v => Profile.de (De.lossyOf f) v) path

end Figment.Fig
