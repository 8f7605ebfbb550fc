import Verif.Model.Value
import Verif.Base.Dec
import Verif.Spec.Equal
/-!
# Specification: a printer of values

Not part of the code: the witness for "every value can be written so that it parses back".
-/
namespace Figment

/-- A hexadecimal digit. -/
def hexChar (n : Nat) : Char := (str "0123456789abcdef").getD n '0'

/-- Eight hexadecimal digits. -/
def hex8 (n : Nat) : Str :=
  [hexChar (n / 0x10000000 % 16), hexChar (n / 0x1000000 % 16), hexChar (n / 0x100000 % 16), hexChar (n / 0x10000 % 16),
   hexChar (n / 0x1000 % 16), hexChar (n / 0x100 % 16), hexChar (n / 0x10 % 16), hexChar (n % 16)]

/-- A character inside double quotes: printable ASCII as it is, all else escaped. -/
def writeChar (c : Char) : Str :=
  if c = '"' then ['\\', '"']
  else if c = '\\' then ['\\', '\\']
  else if 32 ≤ c.toNat ∧ c.toNat < 127 then [c]
  else '\\' :: 'U' :: hex8 c.toNat

/-- A string in double quotes. -/
def writeStr (s : Str) : Str := '"' :: (s.flatMap writeChar ++ ['"'])

/-- A floating point number: it is `n` times `2 ^ -1074`, which is `n * 5 ^ 1074` times `10 ^ -1074`. NaN cannot be written. -/
def writeFloat (v : FloatVal) : Str :=
  let sign (s : Bool) := if s then str "-" else []
  match v with
  | .nan => []
  | .inf s => sign s ++ str "1.0e999"
  | .fin s n => sign s ++ (Dec.ofNat (n * 5 ^ 1074) ++ str ".0e-1074")

namespace Value

mutual
/-- The text of a value. Only values that are `writable` matter. -/
def write : Value → Str
  | .string _ s => writeStr s
  | .char _ c => ['\'', c, '\'']
  | .bool _ b => if b then str "true" else str "false"
  | .num _ (.usize n) => Dec.ofNat n.toNat
  | .num _ (.isize n) => if n = 0 then str "-0" else Dec.ofInt n.toInt
  | .num _ (.f64 x) => writeFloat x.val
  | .num _ _ => []
  | .empty _ _ => []
  | .array _ a => '[' :: (writeA a ++ [']'])
  | .dict _ d => '{' :: (writeD d ++ ['}'])
/-- The items of an array, each with a comma after it. -/
def writeA : List Value → Str
  | [] => []
  | v :: r => write v ++ ',' :: writeA r
/-- The entries of a dictionary, each with a comma after it. -/
def writeD : List (Str × Value) → Str
  | [] => []
  | (k, v) :: r => writeStr k ++ '=' :: (write v ++ ',' :: writeD r)
end

mutual
/-- Strings, characters, booleans, unsigned machine-size integers, signed ones that are not positive, `f64` but NaN, arrays
and dictionaries. -/
def writable : Value → Bool
  | .string _ _ | .char _ _ | .bool _ _ => true
  | .num _ (.usize _) => true
  | .num _ (.isize n) => decide (n.toInt ≤ 0)
  | .num _ (.f64 x) => decide (x.val ≠ .nan)
  | .num _ _ | .empty _ _ => false
  | .array _ a => writableA a
  | .dict _ d => writableD d
/-- The same for all items. -/
def writableA : List Value → Bool
  | [] => true
  | v :: r => writable v && writableA r
/-- The same for all entries. -/
def writableD : List (Str × Value) → Bool
  | [] => true
  | (_, v) :: r => writable v && writableD r
end

end Value
end Figment
