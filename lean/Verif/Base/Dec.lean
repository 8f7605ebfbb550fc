import Verif.Base.Str
/-!
# Decimal and hexadecimal text of integers (std)
-/
namespace Figment

namespace Dec

/-- `char::is_ascii_digit` (std). Used through `str::parse`: value/value.rs:524-528, value/parse.rs:168-170. -/
def isDigit (c : Char) : Bool := '0' ≤ c && c ≤ '9'

/-- The value of a decimal digit. Used through `str::parse`: value/value.rs:524-528. -/
def digitVal (c : Char) : Nat := c.toNat - 48

/-- The value of a sequence of decimal digits, after `acc`.
Used through `str::parse`: value/value.rs:524-528, value/parse.rs:168-170. -/
def digitsVal (acc : Nat) : Str → Nat
  | [] => acc
  | c :: r => digitsVal (acc * 10 + digitVal c) r

/-- One or more decimal digits and nothing else.
Used through `str::parse`: value/value.rs:524-528, value/parse.rs:168-170. -/
def parseDigits (s : Str) : Option Nat :=
  if s ≠ [] ∧ s.all isDigit = true then some (digitsVal 0 s) else none

/-- An optional `+` and decimal digits. Used through `str::parse`: value/value.rs:528, value/parse.rs:168. -/
def unsignedVal : Str → Option Nat
  | '+' :: r => parseDigits r
  | s => parseDigits s

/-- An optional `+` or `-` and decimal digits. Used through `str::parse`: value/value.rs:524, value/parse.rs:170. -/
def signedVal : Str → Option Int
  | '+' :: r => (parseDigits r).map Int.ofNat
  | '-' :: r => (parseDigits r).map fun n => -Int.ofNat n
  | s => (parseDigits s).map Int.ofNat

/-- `str::parse::<u{w}>().ok()` (std): an optional `+`, decimal digits, in range. (Reading digit by digit
with overflow checks gives the same.). Called at value/value.rs:367, value/value.rs:528, value/parse.rs:168. -/
def parseUnsigned (w : Nat) (s : Str) : Option (BitVec w) :=
  match unsignedVal s with
  | some n => if n < 2 ^ w then some (BitVec.ofNat w n) else none
  | none => none

/-- `str::parse::<i{w}>().ok()` (std): an optional `+` or `-`, decimal digits, in range.
Called at value/value.rs:524, value/parse.rs:170. -/
def parseSigned (w : Nat) (s : Str) : Option (BitVec w) :=
  match signedVal s with
  | some n => if -(2 ^ (w - 1) : Int) ≤ n ∧ n < 2 ^ (w - 1) then some (BitVec.ofInt w n) else none
  | none => none

/-- The decimal text of a natural number (std `Display`). Used at value/de.rs:251 and error.rs:438-504. -/
def ofNat (n : Nat) : Str := (Nat.toDigits 10 n)

/-- The decimal text of an integer (std `Display`). Used at error.rs:438-504. -/
def ofInt : Int → Str
  | .ofNat n => ofNat n
  | .negSucc n => '-' :: ofNat (n + 1)

end Dec

namespace Hex

/-- `char::is_ascii_hexdigit` (std). Used at value/escape.rs:67. -/
def isDigit (c : Char) : Bool :=
  ('0' ≤ c && c ≤ '9') || ('a' ≤ c && c ≤ 'f') || ('A' ≤ c && c ≤ 'F')

/-- The value of a hexadecimal digit. Used at value/escape.rs:73. -/
def digitVal (c : Char) : Nat :=
  if '0' ≤ c && c ≤ '9' then c.toNat - 48 else if 'a' ≤ c && c ≤ 'f' then c.toNat - 87 else c.toNat - 55

/-- `u32::from_str_radix(.., 16)` (std) for up to eight hexadecimal digits, which is always in range.
Called at value/escape.rs:73. -/
def val (acc : Nat) : Str → Nat
  | [] => acc
  | c :: r => val (acc * 16 + digitVal c) r

end Hex

/-- `std::char::from_u32` (std). Called at value/escape.rs:74. -/
def charOfNat (n : Nat) : Option Char :=
  if h : n.isValidChar then some (Char.ofNatAux n h) else none

end Figment
