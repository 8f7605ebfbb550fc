import Verif.Model.Value
/-!
# Specification: what a number is
-/
namespace Figment

/-- The integer a number is, if it is not a floating point number. -/
def Num.intVal : Num → Option Int
  | .u8 v => some v.toNat | .u16 v => some v.toNat | .u32 v => some v.toNat | .u64 v => some v.toNat
  | .u128 v => some v.toNat | .usize v => some v.toNat
  | .i8 v => some v.toInt | .i16 v => some v.toInt | .i32 v => some v.toInt | .i64 v => some v.toInt
  | .i128 v => some v.toInt | .isize v => some v.toInt
  | .f32 _ | .f64 _ => none

/-- Is the number of a signed integer type? -/
def Num.isSigned : Num → Bool
  | .i8 _ | .i16 _ | .i32 _ | .i64 _ | .i128 _ | .isize _ => true
  | _ => false

/-- The number of bits of an integer type of fixed width. -/
def Num.width : Num → Option Nat
  | .u8 _ | .i8 _ => some 8
  | .u16 _ | .i16 _ => some 16
  | .u32 _ | .i32 _ => some 32
  | .u64 _ | .i64 _ => some 64
  | .u128 _ | .i128 _ => some 128
  | .usize _ | .isize _ | .f32 _ | .f64 _ => none

/-- The number is of an integer type of fixed width, and no narrower type of the same signedness has the integer. -/
def Num.Narrowest (n : Num) : Prop :=
  ∃ w, n.width = some w ∧ ∀ (m : Num) (w' : Nat), m.width = some w' → m.isSigned = n.isSigned → m.intVal = n.intVal → w ≤ w'

/-- Is the number a floating point number that is not a number? -/
def Num.isNan : Num → Bool
  | .f32 v => F32.isNan v
  | .f64 v => F64.isNan v
  | _ => false

mutual
/-- The value has no NaN in it, at any depth. -/
def Value.noNan : Value → Bool
  | .num _ n => !n.isNan
  | .dict _ d => noNanD d
  | .array _ a => noNanA a
  | _ => true
/-- No NaN in a dictionary. -/
def Value.noNanD : List (Str × Value) → Bool
  | [] => true
  | (_, v) :: r => v.noNan && noNanD r
/-- No NaN in an array. -/
def Value.noNanA : List Value → Bool
  | [] => true
  | v :: r => v.noNan && noNanA r
end

/-- `usize` and `isize` as the 64-bit types. -/
def Num.fixed : Num → Num
  | .usize v => .u64 v
  | .isize v => .i64 v
  | n => n

namespace Value
mutual
/-- The value with tags reset and `usize`/`isize` numbers as `u64`/`i64`. -/
def norm : Value → Value
  | .string _ v => .string Tag.Default v
  | .char _ v => .char Tag.Default v
  | .bool _ v => .bool Tag.Default v
  | .num _ v => .num Tag.Default v.fixed
  | .empty _ v => .empty Tag.Default v
  | .dict _ d => .dict Tag.Default (normD d)
  | .array _ a => .array Tag.Default (normA a)
/-- See `norm`. -/
def normD : List (Str × Value) → List (Str × Value)
  | [] => []
  | (k, v) :: r => (k, v.norm) :: normD r
/-- See `norm`. -/
def normA : List Value → List Value
  | [] => []
  | v :: r => v.norm :: normA r
end
end Value

/-- The words of a truth value. -/
def boolWords : Bool → List Str
  | true => [str "true", str "yes", str "1", str "on"]
  | false => [str "false", str "no", str "0", str "off"]

end Figment
