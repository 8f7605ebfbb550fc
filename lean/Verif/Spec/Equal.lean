import Verif.Model.De
import Verif.Spec.Num
import Verif.Model.Error
/-!
# Specification: what is equal
-/
namespace Figment

/-- What a floating point number is: not a number, an infinity, or a multiple of the smallest positive `f64`. -/
inductive FloatVal where
  | nan
  | inf (negative : Bool)
  | fin (negative : Bool) (n : Nat)
deriving DecidableEq

/-- IEEE 754: NaN is equal to nothing, the two zeros are equal. -/
inductive FloatVal.Equal : FloatVal → FloatVal → Prop
  | inf (s : Bool) : Equal (.inf s) (.inf s)
  | fin (s : Bool) (n : Nat) : Equal (.fin s n) (.fin s n)
  | zero (s t : Bool) : Equal (.fin s 0) (.fin t 0)

/-- IEEE 754 binary64: a sign, 11 bits of exponent, 52 bits of mantissa. The unit is `2 ^ -1074`. -/
def F64.val (x : F64) : FloatVal :=
  let e := x.toNat / 2 ^ 52 % 2048
  let m := x.toNat % 2 ^ 52
  let s := decide (2 ^ 63 ≤ x.toNat)
  if e = 2047 then (if m = 0 then .inf s else .nan)
  else if e = 0 then .fin s m
  else .fin s ((2 ^ 52 + m) * 2 ^ (e - 1))

/-- IEEE 754 binary32: a sign, 8 bits of exponent, 23 bits of mantissa. Its unit is `2 ^ -149`. -/
def F32.val (x : F32) : FloatVal :=
  let e := x.toNat / 2 ^ 23 % 256
  let m := x.toNat % 2 ^ 23
  let s := decide (2 ^ 31 ≤ x.toNat)
  if e = 255 then (if m = 0 then .inf s else .nan)
  else if e = 0 then .fin s (m * 2 ^ 925)
  else .fin s ((2 ^ 23 + m) * 2 ^ (e - 1) * 2 ^ 925)

/-- What a number is, if it is a floating point number. -/
def Num.floatVal : Num → Option FloatVal
  | .f32 x => some x.val
  | .f64 x => some x.val
  | _ => none

/-- Numbers are equal if both are unsigned, or both signed, and the same integer, or both floating point and equal as
these. -/
inductive Num.Equal : Num → Num → Prop
  | int {a b : Num} {i : Int} (hs : a.isSigned = b.isSigned) (ha : a.intVal = some i) (hb : b.intVal = some i) :
      Equal a b
  | float {a b : Num} {x y : FloatVal} (ha : a.floatVal = some x) (hb : b.floatVal = some y) (h : x.Equal y) : Equal a b

/-- Values are equal if they are of the same kind and have the same content; tags play no role. -/
inductive Value.Equal : Value → Value → Prop
  | string (t u : Tag) (s : Str) : Equal (.string t s) (.string u s)
  | char (t u : Tag) (c : Char) : Equal (.char t c) (.char u c)
  | bool (t u : Tag) (b : Bool) : Equal (.bool t b) (.bool u b)
  | num (t u : Tag) {a b : Num} (h : a.Equal b) : Equal (.num t a) (.num u b)
  | empty (t u : Tag) (e : Empty) : Equal (.empty t e) (.empty u e)
  | array (t u : Tag) {a b : List Value} (hl : a.length = b.length)
      (h : ∀ (i : Nat) v w, a[i]? = some v → b[i]? = some w → Equal v w) : Equal (.array t a) (.array u b)
  | dict (t u : Tag) {a b : List (Str × Value)} (hk : a.map (·.1) = b.map (·.1))
      (h : ∀ (i : Nat) v w, a[i]? = some v → b[i]? = some w → Equal v.2 w.2) : Equal (.dict t a) (.dict u b)

/-- What was found, in an error: the same; floating point numbers as these. -/
inductive Actual.Equal : Actual → Actual → Prop
  | refl (a : Actual) (h : ∀ x, a ≠ .float x) : Equal a a
  | float {x y : F64} (h : x.val.Equal y.val) : Equal (.float x) (.float y)

/-- Kinds of errors: the same, up to what was found. -/
inductive Kind.Equal : Kind → Kind → Prop
  | refl (k : Kind) (h : ∀ a x, k ≠ .invalidType a x ∧ k ≠ .invalidValue a x ∧ k ≠ .unsupported a ∧
      k ≠ .unsupportedKey a x) : Equal k k
  | type {a b : Actual} (x : Str) (h : a.Equal b) : Equal (.invalidType a x) (.invalidType b x)
  | value {a b : Actual} (x : Str) (h : a.Equal b) : Equal (.invalidValue a x) (.invalidValue b x)
  | unsupported {a b : Actual} (h : a.Equal b) : Equal (.unsupported a) (.unsupported b)
  | key {a b : Actual} (x : Str) (h : a.Equal b) : Equal (.unsupportedKey a x) (.unsupportedKey b x)

/-- Both are absent, or both are there and related. -/
inductive Both {α : Type} (r : α → α → Prop) : Option α → Option α → Prop
  | none : Both r none none
  | some {a b : α} (h : r a b) : Both r (some a) (some b)

/-- What is between the separators of a path, without nothing and without `.`. -/
def pathParts (p : Str) : List Str := (Str.splitOn '/' p).filter fun s => s ≠ [] ∧ s ≠ str "."

/-- A path that begins with the directory `.`. -/
def dotFirst (p : Str) : Prop := p = str "." ∨ ∃ r, p = '.' :: '/' :: r

/-- Paths are equal if both have a root or none has, if both begin with `.` or none does, and if the parts are the same.
Repeated and trailing separators and `.` after the beginning play no role. -/
def PathEqual (p q : Str) : Prop :=
  (p.head? = some '/' ↔ q.head? = some '/') ∧ (dotFirst p ↔ dotFirst q) ∧ pathParts p = pathParts q

/-- Sources are equal if they are of the same kind and are equal paths, locations or texts. -/
inductive Source.Equal : Source → Source → Prop
  | file {p q : Str} (h : PathEqual p q) : Equal (.file p) (.file q)
  | code (l : Location) : Equal (.code l) (.code l)
  | custom (s : Str) : Equal (.custom s) (.custom s)

/-- Metadata is equal if its names and sources are: neither the interpolater nor where it was provided matters. -/
def Metadata.Equal (a b : Metadata) : Prop := a.name = b.name ∧ Both Source.Equal a.source b.source

/-- The errors of a chain, first to last. -/
def Error.heads : Error → List ErrorHead
  | .last h => [h]
  | .cons h p => h :: p.heads

/-- One error of the chains is equal to the other: of values with the same tag, profiles that differ in case only, equal
metadata, the same path, and of equal kinds. -/
structure ErrorHead.Equal (a b : ErrorHead) : Prop where
  tag : a.tag.metadataId = b.tag.metadataId
  profile : Both (fun p q => p.name.lower = q.name.lower) a.profile b.profile
  metadata : Both Metadata.Equal a.metadata b.metadata
  path : a.path = b.path
  kind : a.kind.Equal b.kind

/-- Errors are equal if their chains are, one by one. -/
def Error.Equal (a b : Error) : Prop :=
  a.heads.length = b.heads.length ∧ ∀ (i : Nat) x y, a.heads[i]? = some x → b.heads[i]? = some y → x.Equal y

/-- The two are the same but for the profile. -/
structure ErrorHead.Alike (r : Profile → Profile → Prop) (a b : ErrorHead) : Prop where
  tag : a.tag = b.tag
  profile : Both r a.profile b.profile
  metadata : a.metadata = b.metadata
  path : a.path = b.path
  kind : a.kind = b.kind

/-- The two errors, and those chained to them, are the same but for their profiles, which are related as given. -/
inductive Error.Alike (r : Profile → Profile → Prop) : Error → Error → Prop
  | last {a b : ErrorHead} (h : a.Alike r b) : Error.Alike r (.last a) (.last b)
  | cons {a b : ErrorHead} {p q : Error} (h : a.Alike r b) (h' : Error.Alike r p q) : Error.Alike r (.cons a p) (.cons b q)

/-- Two results are the same but for the case of the profiles' names in errors. -/
inductive AlikeResult {α : Type} : R α → R α → Prop
  | ok (x : α) : AlikeResult (.ok x) (.ok x)
  | error {e e' : Error} (h : e.Alike (fun p q => Str.lower p.name = Str.lower q.name) e') :
      AlikeResult (.error e) (.error e')

end Figment
