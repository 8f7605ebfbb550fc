import Verif.Model.Profile
/-!
# Tags (src/value/tag.rs)
-/
namespace Figment

/-- `Tag(u64)` (value/tag.rs:16-17). Lean's `=` on `Tag` compares all 64 bits; Rust's `==` is
`Tag.same`. -/
structure Tag where
  raw : BitVec 64
deriving DecidableEq, Repr

namespace Tag

/-- `Tag::Default` (value/tag.rs:30). -/
def Default : Tag := ⟨0#64⟩

/-- `PROFILE_TAG_SHIFT` (value/tag.rs:32). -/
def profileTagShift : Nat := 62
/-- `PROFILE_TAG_MASK` (value/tag.rs:33). -/
def profileTagMask : BitVec 64 := 0b11#64 <<< profileTagShift
/-- `METADATA_ID_SHIFT` (value/tag.rs:35). -/
def metadataIdShift : Nat := 0
/-- `METADATA_ID_MASK` (value/tag.rs:36). -/
def metadataIdMask : BitVec 64 := (~~~ profileTagMask) <<< metadataIdShift

/-- `Tag::new` (value/tag.rs:38-43). -/
def new (metadataId : BitVec 64) (p : ProfileTag) : Tag :=
  ⟨((metadataId <<< metadataIdShift) &&& metadataIdMask)
    ||| ((p.bits <<< profileTagShift) &&& profileTagMask)⟩

/-- `Tag::next` (value/tag.rs:46-53). The argument is the value of `COUNTER` before the call; the
result is the tag, or `none` for the panic, and the counter after the (wrapping) `fetch_add`. -/
def next (counter : BitVec 64) : Option Tag × BitVec 64 :=
  let id := counter
  (if id.toNat > metadataIdMask.toNat then none else some (new id .Default), counter + 1#64)

/-- The initial value of `COUNTER` (value/tag.rs:19-23). -/
def counterInit : BitVec 64 := 1#64

/-- `Tag::metadata_id` (value/tag.rs:55-57). -/
def metadataId (t : Tag) : BitVec 64 := (t.raw &&& metadataIdMask) >>> metadataIdShift

/-- `Tag::profile_tag` (value/tag.rs:59-62). -/
def profileTag (t : Tag) : ProfileTag :=
  ProfileTag.ofBits (((t.raw &&& profileTagMask) >>> profileTagShift).setWidth 8)

/-- `Tag::for_profile` (value/tag.rs:64-66). -/
def forProfile (t : Tag) (p : Profile) : Tag := new t.metadataId (ProfileTag.ofProfile p)

/-- `Tag::is_default` (value/tag.rs:77-79). -/
def isDefault (t : Tag) : Bool := t.raw == Default.raw

/-- `Tag::profile` (value/tag.rs:92-94). -/
def profile (t : Tag) : Option Profile := t.profileTag.toProfile

/-- `PartialEq for Tag` (value/tag.rs:103-107). -/
def same (a b : Tag) : Bool := a.metadataId == b.metadataId

/-- `Ord for Tag` (value/tag.rs:111-115). -/
instance : Ord Tag := ⟨fun a b => compare a.metadataId.toNat b.metadataId.toNat⟩

instance : Std.TransOrd Tag :=
  inferInstanceAs (Std.TransCmp (compareOn (fun t : Tag => t.metadataId.toNat)))

/-- `PartialOrd for Tag` (value/tag.rs:117-121). -/
def partialCmp (a b : Tag) : Option Ordering := some (compare a b)

/-- `Hash for Tag` (value/tag.rs:123-127): what is written into the hasher. -/
def hashed (t : Tag) : BitVec 64 := t.metadataId

/-- `Default for Tag` (value/tag.rs:97-101). -/
def default : Tag := Default

end Tag
end Figment
