import Verif.Base.Dec
import Verif.Model.Error
import Verif.Model.Paths
/-!
# Error messages (src/error.rs)
-/
namespace Figment

/-- What the code uses of `std`'s formatting and is not modelled. Every theorem holds for every instance.
Used at error.rs:438-504, metadata.rs:289-304. -/
class TextOps where
  /-- `Display for f64` -/
  float : F64 → Str
  /-- `Debug for str`: quoted and escaped -/
  debugStr : Str → Str
  /-- `Debug for char` -/
  debugChar : Char → Str
  /-- `Debug for [u8]` -/
  debugBytes : List (BitVec 8) → Str

variable [TextOps]

/-- `Display for Actual` (error.rs:323-346). -/
def Actual.display : Actual → Str
  | .bool b => Figment.str "bool " ++ (if b then Figment.str "true" else Figment.str "false")
  | .unsigned n => Figment.str "unsigned int `" ++ Dec.ofNat n.toNat ++ Figment.str "`"
  | .signed n => Figment.str "signed int `" ++ Dec.ofInt n.toInt ++ Figment.str "`"
  | .float f => Figment.str "float `" ++ TextOps.float f ++ Figment.str "`"
  | .char c => Figment.str "char " ++ TextOps.debugChar c
  | .str s => Figment.str "string " ++ TextOps.debugStr s
  | .bytes b => Figment.str "bytes " ++ TextOps.debugBytes b
  | .unit => Figment.str "unit"
  | .option => Figment.str "option"
  | .newtypeStruct => Figment.str "new-type struct"
  | .seq => Figment.str "sequence"
  | .map => Figment.str "map"
  | .enum => Figment.str "enum"
  | .unitVariant => Figment.str "unit variant"
  | .newtypeVariant => Figment.str "new-type variant"
  | .tupleVariant => Figment.str "tuple variant"
  | .structVariant => Figment.str "struct variant"
  | .other s => s

/-- The loop of `Display for OneOf` (error.rs:518-521) from index `i`. -/
def OneOf.loop (i : Nat) : List Str → Str
  | [] => []
  | alt :: r => (if i > 0 then str ", " else []) ++ str "`" ++ alt ++ str "`" ++ OneOf.loop (i + 1) r

/-- `Display for OneOf` (error.rs:510-527). -/
def OneOf.display : List Str → Str
  | [] => str "none"
  | [a] => str "`" ++ a ++ str "`"
  | [a, b] => str "`" ++ a ++ str "` or `" ++ b ++ str "`"
  | l => str "one of " ++ OneOf.loop 0 l

/-- `Display for Kind` (error.rs:438-477). -/
def Kind.display : Kind → Str
  | .message m => m
  | .invalidType a e => str "invalid type: found " ++ a.display ++ str ", expected " ++ e
  | .invalidValue a e => str "invalid value " ++ a.display ++ str ", expected " ++ e
  | .invalidLength n e => str "invalid length " ++ Dec.ofNat n ++ str ", expected " ++ e
  | .unknownVariant v e => str "unknown variant: found `" ++ v ++ str "`, expected `" ++ OneOf.display e ++ str "`"
  | .unknownField v e => str "unknown field: found `" ++ v ++ str "`, expected `" ++ OneOf.display e ++ str "`"
  | .missingField v => str "missing field `" ++ v ++ str "`"
  | .duplicateField v => str "duplicate field `" ++ v ++ str "`"
  | .isizeOutOfRange n => str "signed integer `" ++ Dec.ofInt n ++ str "` is out of range"
  | .usizeOutOfRange n => str "unsigned integer `" ++ Dec.ofNat n ++ str "` is out of range"
  | .unsupported a => str "unsupported type `" ++ a.display ++ str "`"
  | .unsupportedKey a e => str "unsupported type `" ++ a.display ++ str "` for key: must be `" ++ e ++ str "`"

/-- `Display for Error` (error.rs:480-497), without the previous errors. The parameter is `current_dir().ok()`, which
displaying a file source asks for. -/
def ErrorHead.display (cwd : Option Str) (h : ErrorHead) : Str :=
  h.kind.display ++
  (match h.profile, h.metadata with
    | some profile, some md =>
      if h.path ≠ [] then str " for key " ++ TextOps.debugStr (md.interpolate profile h.path) else []
    | _, _ => []) ++
  (match h.metadata with
    | some md =>
      match md.source with
      | some source => str " in " ++ source.display cwd ++ str " " ++ md.name
      | none => str " in " ++ md.name
    | none => [])

/-- `Display for Error` (error.rs:479-504). -/
def Error.display (cwd : Option Str) : Error → Str
  | .last h => h.display cwd
  | .cons h prev => h.display cwd ++ str "\n" ++ prev.display cwd

end Figment
