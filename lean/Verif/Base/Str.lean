/-!
# Strings

Rust `String`/`&str` as lists of Unicode scalar values. `Char` is exactly Rust's `char`.
The functions of `std` and of the `uncased` crate that the code uses are defined here; they are
part of the trusted description of `std`.
-/

namespace Figment

/-- A Rust string. Used everywhere, e.g. for `Value::String`, value/value.rs:27-42. -/
abbrev Str := List Char

/-- A string literal as a `Str`. For the literals in the code, e.g. profile.rs:62. -/
abbrev str (x : String) : Str := x.toList

namespace Str

/-- `char::to_ascii_lowercase` (std). Part of `to_ascii_lowercase`, called at providers/env.rs:533. -/
def lowerChar (c : Char) : Char :=
  if 'A' ≤ c ∧ c ≤ 'Z' then Char.ofNat (c.toNat + 32) else c

/-- `char::to_ascii_uppercase` (std). Part of `to_ascii_uppercase`, called at providers/env.rs:620. -/
def upperChar (c : Char) : Char :=
  if 'a' ≤ c ∧ c ≤ 'z' then Char.ofNat (c.toNat - 32) else c

/-- `str::to_ascii_lowercase` (std). Called at providers/env.rs:533. -/
def lower (s : Str) : Str := s.map lowerChar

/-- `str::to_ascii_uppercase` (std). Called at providers/env.rs:620, providers/env.rs:627. -/
def upper (s : Str) : Str := s.map upperChar

/-- `uncased::eq`, equality of `UncasedStr` (crate `uncased`): equality up to ASCII case.
Called at profile.rs:120, providers/env.rs:588, value/value.rs:331-333, util.rs:148-149. -/
def uncasedEq (a b : Str) : Bool := lower a == lower b

/-- `str::split(char)` (std): the pieces between separators; at least one piece.
Called at value/value.rs:147, value/value.rs:187, providers/env.rs:530, util.rs:283, error.rs:200. -/
def splitOn (sep : Char) : Str → List Str
  | [] => [[]]
  | c :: cs =>
    if c = sep then [] :: splitOn sep cs
    else match splitOn sep cs with
      | [] => [[c]]
      | h :: t => (c :: h) :: t

/-- `[&str]::join(sep)` (std). Called at metadata.rs:335, providers/env.rs:623. -/
def join (sep : Str) : List Str → Str
  | [] => []
  | [a] => a
  | a :: b :: r => a ++ sep ++ join sep (b :: r)

/-- `char::is_whitespace` (std): Unicode `White_Space`.
Used through `trim` and `trim_start`: value/parse.rs:61, value/parse.rs:158. -/
def isWs (c : Char) : Bool :=
  let n := c.toNat
  (0x9 ≤ n && n ≤ 0xd) || n == 0x20 || n == 0x85 || n == 0xa0 || n == 0x1680
    || (0x2000 ≤ n && n ≤ 0x200a) || n == 0x2028 || n == 0x2029 || n == 0x202f
    || n == 0x205f || n == 0x3000

/-- `str::trim_start` (std). Called at value/parse.rs:61. -/
def trimStart (s : Str) : Str := s.dropWhile isWs

/-- `str::trim_end` (std). Part of `trim`: value/parse.rs:158. -/
def trimEnd (s : Str) : Str := (s.reverse.dropWhile isWs).reverse

/-- `str::trim` (std).
Called at value/parse.rs:158, value/parse.rs:189, value/value.rs:516, profile.rs:120, providers/env.rs:528-529. -/
def trim (s : Str) : Str := trimEnd (trimStart s)

/-- `char::len_utf8` (std). Called at value/parse.rs:44, value/parse.rs:69. -/
def utf8Len (c : Char) : Nat :=
  if c.toNat < 0x80 then 1 else if c.toNat < 0x800 then 2 else if c.toNat < 0x10000 then 3 else 4

/-- `str::len` (std): number of bytes. Called at value/value.rs:518, providers/env.rs:201. -/
def byteLen (s : Str) : Nat := (s.map utf8Len).sum

/-- `&s[..n]` (std) for a byte offset `n`: `none` stands for the panic when `n` is out of range or
not on a character boundary. Used at value/escape.rs:28. -/
def sliceTo : Str → Nat → Option Str
  | _, 0 => some []
  | [], _ + 1 => none
  | c :: cs, n + 1 =>
    if utf8Len c ≤ n + 1 then (sliceTo cs (n + 1 - utf8Len c)).map (c :: ·) else none

end Str
end Figment
