import Verif.Model.Metadata
import Verif.Model.Value
/-!
# Errors (src/error.rs)
-/
namespace Figment

/-- `Kind` (error.rs:104-141). -/
inductive Kind where
  | message (m : Str)
  | invalidType (a : Actual) (expected : Str)
  | invalidValue (a : Actual) (expected : Str)
  | invalidLength (n : Nat) (expected : Str)
  | unknownVariant (v : Str) (expected : List Str)
  | unknownField (v : Str) (expected : List Str)
  | missingField (f : Str)
  | duplicateField (f : Str)
  | isizeOutOfRange (n : Int)
  | usizeOutOfRange (n : Nat)
  | unsupported (a : Actual)
  | unsupportedKey (a : Actual) (must : Str)
deriving DecidableEq, Repr

/-- Derived `PartialEq for Kind` (error.rs:104). -/
def Kind.same : Kind → Kind → Bool
  | .invalidType a x, .invalidType b y => a.same b && x == y
  | .invalidValue a x, .invalidValue b y => a.same b && x == y
  | .unsupported a, .unsupported b => a.same b
  | .unsupportedKey a x, .unsupportedKey b y => a.same b && x == y
  | a, b => decide (a = b)

/-- The fields of `Error` (error.rs:88-101) other than `prev`. -/
structure ErrorHead where
  tag : Tag
  profile : Option Profile
  metadata : Option Metadata
  path : List Str
  kind : Kind

/-- `Error` (error.rs:88-101): a head and the boxed previous error, if any. -/
inductive Error where
  | last (head : ErrorHead)
  | cons (head : ErrorHead) (prev : Error)

namespace Error

/-- All fields but `prev`. Of error.rs:88-101. -/
def head : Error → ErrorHead
  | last h => h
  | cons h _ => h

/-- The field `prev` (error.rs:100). -/
def prev : Error → Option Error
  | last _ => none
  | cons _ p => some p

/-- Derived `PartialEq for Error` (error.rs:88), without `prev`. -/
def sameHead (a b : ErrorHead) : Bool :=
  a.tag.same b.tag &&
    sameOption Profile.same a.profile b.profile && sameOption Metadata.same a.metadata b.metadata &&
    a.path == b.path && a.kind.same b.kind

/-- Derived `PartialEq for Error` (error.rs:88). -/
def same : Error → Error → Bool
  | .last a, .last b => sameHead a b
  | .cons a p, .cons b q => sameHead a b && same p q
  | _, _ => false

/-- Replaces the fields other than `prev`. Written `self.field = ..` at error.rs:144-168, error.rs:199-206. -/
def mapHead (f : ErrorHead → ErrorHead) : Error → Error
  | last h => last (f h)
  | cons h p => cons (f h) p

/-- Assigns the field `prev`. Written `e.prev = ..` at error.rs:236-239. -/
def setPrev (p : Option Error) (e : Error) : Error :=
  match p with
  | none => last e.head
  | some p => cons e.head p

/-- `From<Kind> for Error` (error.rs:413-424). -/
def ofKind (k : Kind) : Error :=
  last { tag := Tag.Default, path := [], profile := none, metadata := none, kind := k }

/-- `From<&str> for Error`, `From<String> for Error` (error.rs:426-436), `de::Error::custom` (error.rs:374-376) and
`ser::Error::custom` (error.rs:407-411). -/
def ofText (s : Str) : Error := ofKind (.message s)

/-- `Error::prefixed` (error.rs:144-147). -/
def prefixed (key : Str) (e : Error) : Error := e.mapHead fun h => { h with path := key :: h.path }

/-- `Error::retagged` (error.rs:149-155). -/
def retagged (tag : Tag) (e : Error) : Error :=
  if e.head.tag.isDefault then e.mapHead fun h => { h with tag := tag } else e

/-- `Error::resolved` (error.rs:157-168): every error of the chain gets the metadata the figment has
for its tag and its tag's profile, or the figment's. -/
def resolved (metadata : Map Tag Metadata) (profile : Profile) : Error → Error
  | last h => last (resolveHead h)
  | cons h p => cons (resolveHead h) (resolved metadata profile p)
where
  /-- One round of the loop at error.rs:159-165. -/
  resolveHead (h : ErrorHead) : ErrorHead :=
    { h with
      metadata := Map.get h.tag metadata
      profile := h.tag.profile.or (some profile) }

/-- `Error::missing` (error.rs:182-184). -/
def missing (e : Error) : Bool :=
  match e.head.kind with
  | .missingField _ => true
  | _ => false

/-- `Error::with_path` (error.rs:199-206). -/
def withPath (path : Str) (e : Error) : Error :=
  let paths := (Str.splitOn '.' path).filter (fun v => !v.isEmpty)
  e.mapHead fun h => { h with path := h.path ++ paths }

/-- `Error::chain` (error.rs:236-239). -/
def chain (self error : Error) : Error := setPrev (some self) error

/-- `Error::count` (error.rs:268-270). -/
def count : Error → Nat
  | last _ => 1
  | cons _ p => 1 + count p

/-- `IntoIter::next` (error.rs:279-287), from `into_iter` (error.rs:289-296): the item and the iterator after. -/
def iterNext : Option Error → Option Error × Option Error
  | some error =>
    let rest := error.prev
    (some (error.setPrev none), rest)
  | none => (none, none)

end Error
end Figment
