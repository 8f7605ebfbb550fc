import Verif.Base.Str
/-!
# Numbers (src/value/value.rs:504-783) and the `Actual` type (src/error.rs:300-321)

Integers are bit vectors of the width of their Rust type. `usize`/`isize` are 64 bits wide
(assumption: 64-bit target). Floats are IEEE 754 bit patterns.
-/
namespace Figment

/-- `f32` (std): IEEE 754 binary32 bits. The content of `Num::F32`, value/value.rs:570. -/
abbrev F32 := BitVec 32
/-- `f64` (std): IEEE 754 binary64 bits. The content of `Num::F64`, value/value.rs:572. -/
abbrev F64 := BitVec 64

namespace F64
/-- `f64::is_nan` (std). Part of `==`, used in `Num::eq`, value/value.rs:734-738. -/
def isNan (x : F64) : Bool := (x &&& 0x7fffffffffffffff#64) > 0x7ff0000000000000#64
/-- `+0.0` or `-0.0`. Part of `==`, used in `Num::eq`, value/value.rs:734-738. -/
def isZero (x : F64) : Bool := (x &&& 0x7fffffffffffffff#64) == 0#64
/-- IEEE `==` on `f64` (std): NaN is different from everything, the two zeros are equal.
Used in `Num::eq`, value/value.rs:734-738. -/
def eq (x y : F64) : Bool := !isNan x && !isNan y && (x == y || (isZero x && isZero y))
end F64

namespace F32
/-- `f32::is_nan` (std). Part of `==`, used in `Num::eq`, value/value.rs:734-738. -/
def isNan (x : F32) : Bool := (x &&& 0x7fffffff#32) > 0x7f800000#32

/-- `v as f64` for `v : f32` (std): exact widening, including subnormals; NaN stays NaN.
Used at value/value.rs:689, value/value.rs:728. -/
def toF64 (x : F32) : F64 :=
  let n := x.toNat
  let s := n / 2 ^ 31
  let e := n / 2 ^ 23 % 2 ^ 8
  let m := n % 2 ^ 23
  let body : Nat :=
    if e = 255 then 2047 * 2 ^ 52 + m * 2 ^ 29
    else if e = 0 then
      if m = 0 then 0
      else
        let k := Nat.log2 m
        (k + 874) * 2 ^ 52 + (m * 2 ^ (52 - k) - 2 ^ 52)
    else (e + 896) * 2 ^ 52 + m * 2 ^ 29
  BitVec.ofNat 64 (s * 2 ^ 63 + body)
end F32

/-- What the code uses of `std`'s floating point and is not modelled bit by bit: parsing of text and
rounding conversions. Every theorem holds for every instance.
Used at value/value.rs:519-521, value/parse.rs:163, value/value.rs:367, value/de.rs:355-356. -/
class FloatOps where
  /-- `str::parse::<f32>().ok()` -/
  parse32 : Str → Option F32
  /-- `str::parse::<f64>().ok()` -/
  parse64 : Str → Option F64
  /-- `v as f32` for an integer `v` -/
  ofInt32 : Int → F32
  /-- `v as f64` for an integer `v` -/
  ofInt64 : Int → F64
  /-- `v as f32` for `v : f64` -/
  narrow : F64 → F32

/-- `Actual` (error.rs:300-321). -/
inductive Actual where
  | bool (b : Bool) | unsigned (n : BitVec 128) | signed (n : BitVec 128) | float (f : F64)
  | char (c : Char) | str (s : Str) | bytes (b : List (BitVec 8)) | unit | option | newtypeStruct
  | seq | map | enum | unitVariant | newtypeVariant | tupleVariant | structVariant | other (s : Str)
deriving DecidableEq, Repr

/-- Derived `PartialEq for Actual` (error.rs:301): structural, with IEEE equality on floats. -/
def Actual.same : Actual → Actual → Bool
  | .float a, .float b => F64.eq a b
  | a, b => decide (a = b)

/-- `Num` (value/value.rs:543-573). -/
inductive Num where
  | u8 (v : BitVec 8) | u16 (v : BitVec 16) | u32 (v : BitVec 32) | u64 (v : BitVec 64)
  | u128 (v : BitVec 128) | usize (v : BitVec 64)
  | i8 (v : BitVec 8) | i16 (v : BitVec 16) | i32 (v : BitVec 32) | i64 (v : BitVec 64)
  | i128 (v : BitVec 128) | isize (v : BitVec 64)
  | f32 (v : F32) | f64 (v : F64)
deriving DecidableEq, Repr

namespace Num

/-- `Num::to_u32` (value/value.rs:590-597). -/
def toU32 : Num → Option (BitVec 32)
  | u8 v => some (v.setWidth 32)
  | u16 v => some (v.setWidth 32)
  | u32 v => some v
  | _ => none

/-- `Num::to_u128` (value/value.rs:609-619). -/
def toU128 : Num → Option (BitVec 128)
  | u8 v => some (v.setWidth 128)
  | u16 v => some (v.setWidth 128)
  | u32 v => some (v.setWidth 128)
  | u64 v => some (v.setWidth 128)
  | u128 v => some v
  | usize v => some (v.setWidth 128)
  | _ => none

/-- `Num::to_u128_lossy` (value/value.rs:635-651). `v as u128` of a non-negative signed integer is
sign extension. -/
def toU128Lossy : Num → Option (BitVec 128)
  | u8 v => some (v.setWidth 128)
  | u16 v => some (v.setWidth 128)
  | u32 v => some (v.setWidth 128)
  | u64 v => some (v.setWidth 128)
  | u128 v => some v
  | usize v => some (v.setWidth 128)
  | i8 v => if v.toInt ≥ 0 then some (v.signExtend 128) else none
  | i16 v => if v.toInt ≥ 0 then some (v.signExtend 128) else none
  | i32 v => if v.toInt ≥ 0 then some (v.signExtend 128) else none
  | i64 v => if v.toInt ≥ 0 then some (v.signExtend 128) else none
  | i128 v => if v.toInt ≥ 0 then some v else none
  | isize v => if v.toInt ≥ 0 then some (v.signExtend 128) else none
  | _ => none

/-- `Num::to_i128` (value/value.rs:664-674). -/
def toI128 : Num → Option (BitVec 128)
  | i8 v => some (v.signExtend 128)
  | i16 v => some (v.signExtend 128)
  | i32 v => some (v.signExtend 128)
  | i64 v => some (v.signExtend 128)
  | i128 v => some v
  | isize v => some (v.signExtend 128)
  | _ => none

/-- `Num::to_f64` (value/value.rs:687-693). -/
def toF64 : Num → Option F64
  | f32 v => some (F32.toF64 v)
  | f64 v => some v
  | _ => none

/-- `Num::to_actual` (value/value.rs:714-731). -/
def toActual : Num → Actual
  | u8 v => .unsigned (v.setWidth 128)
  | u16 v => .unsigned (v.setWidth 128)
  | u32 v => .unsigned (v.setWidth 128)
  | u64 v => .unsigned (v.setWidth 128)
  | u128 v => .unsigned v
  | usize v => .unsigned (v.setWidth 128)
  | i8 v => .signed (v.signExtend 128)
  | i16 v => .signed (v.signExtend 128)
  | i32 v => .signed (v.signExtend 128)
  | i64 v => .signed (v.signExtend 128)
  | i128 v => .signed v
  | isize v => .signed (v.signExtend 128)
  | f32 v => .float (F32.toF64 v)
  | f64 v => .float v

/-- `PartialEq for Num` (value/value.rs:734-738). -/
def same (a b : Num) : Bool := a.toActual.same b.toActual

end Num

/-- `Empty` (value/value.rs:757-763). -/
inductive Empty where
  | none | unit
deriving DecidableEq, Repr

/-- `Empty::to_actual` (value/value.rs:776-781). -/
def Empty.toActual : Empty → Actual
  | .none => .option
  | .unit => .unit

end Figment
