import Verif.Base.Dec
import Verif.Model.Value
/-!
# Parsing numbers (src/value/value.rs:504-533) and the lossy conversions (src/value/value.rs:319-370)
-/
namespace Figment

namespace Num

/-- `try_convert![uint => u8, u16, u32, u64]`, then the conversion of `uint` itself (value/value.rs:528-530). -/
def ofUInt (n : BitVec 128) : Num :=
  if n.toNat < 2 ^ 8 then .u8 (n.setWidth 8)
  else if n.toNat < 2 ^ 16 then .u16 (n.setWidth 16)
  else if n.toNat < 2 ^ 32 then .u32 (n.setWidth 32)
  else if n.toNat < 2 ^ 64 then .u64 (n.setWidth 64)
  else .u128 n

/-- `<iW as TryFrom<i128>>::try_from` succeeds (std). Called at value/value.rs:524-532. -/
def fits (w : Nat) (n : BitVec 128) : Bool := -(2 ^ (w - 1) : Int) ≤ n.toInt && n.toInt < 2 ^ (w - 1)

/-- `try_convert![int => i8, i16, i32, i64]`, then the conversion of `int` itself (value/value.rs:524-526). -/
def ofSInt (n : BitVec 128) : Num :=
  if fits 8 n then .i8 (n.setWidth 8)
  else if fits 16 n then .i16 (n.setWidth 16)
  else if fits 32 n then .i32 (n.setWidth 32)
  else if fits 64 n then .i64 (n.setWidth 64)
  else .i128 n

/-- `FromStr for Num` (value/value.rs:512-533); `none` for the error. `f32::DIGITS` is 6. -/
def parse [FloatOps] (string : Str) : Option Num :=
  let string := Str.trim string
  if string.contains '.' then
    if Str.byteLen string ≤ 6 + 1 then (FloatOps.parse32 string).map .f32
    else (FloatOps.parse64 string).map .f64
  else if string.head? = some '-' then (Dec.parseSigned 128 string).map ofSInt
  else (Dec.parseUnsigned 128 string).map ofUInt

end Num

namespace Value

/-- `Value::to_bool_lossy` (value/value.rs:319-341). -/
def toBoolLossy : Value → Option Bool
  | .bool _ b => some b
  | .num _ n =>
    match n.toU128Lossy with
    | some m => if m = 0#128 then some false else if m = 1#128 then some true else none
    | none => none
  | .string _ s =>
    if [str "true", str "yes", str "1", str "on"].any (Str.uncasedEq · s) then some true
    else if [str "false", str "no", str "0", str "off"].any (Str.uncasedEq · s) then some false
    else none
  | _ => none

/-- `Value::to_num_lossy` (value/value.rs:364-370). -/
def toNumLossy [FloatOps] : Value → Option Num
  | .num _ n => some n
  | .string _ s => Num.parse s
  | _ => none

end Value
end Figment
