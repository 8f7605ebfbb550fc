import Verif.Model.Types
/-!
# `Value::from` (src/value/value.rs:453-541)

`Into<Value>` of the types that have it, in the universe of `Model/Types`.
-/
namespace Figment

/-- `From<$T> for Num` (value/value.rs:741-755): the variant of the same name. -/
def IntTy.into : IntTy → Int → Num
  | u8, n => .u8 (BitVec.ofInt 8 n) | u16, n => .u16 (BitVec.ofInt 16 n) | u32, n => .u32 (BitVec.ofInt 32 n)
  | u64, n => .u64 (BitVec.ofInt 64 n) | u128, n => .u128 (BitVec.ofInt 128 n) | usize, n => .usize (BitVec.ofInt 64 n)
  | i8, n => .i8 (BitVec.ofInt 8 n) | i16, n => .i16 (BitVec.ofInt 16 n) | i32, n => .i32 (BitVec.ofInt 32 n)
  | i64, n => .i64 (BitVec.ofInt 64 n) | i128, n => .i128 (BitVec.ofInt 128 n) | isize, n => .isize (BitVec.ofInt 64 n)

/-- The types that convert into a `Value` (value/value.rs:467-501, 535-540; `Value` itself by `From<T> for T`). -/
def Ty.convertible : Ty → Bool
  | .bool | .int _ | .f32 | .f64 | .char | .string | .value => true
  | .seq t => t.convertible
  | .map t => t.convertible
  | _ => false

/-- `From<T> for Value` (value/value.rs:467-501, 535-540). Arbitrary for types without one. Maps are collected
(value/value.rs:488-490); their keys are strings (simplification: any `AsRef<str>` in the code). -/
def Ty.into : Ty → Val → Value
  | .bool, .bool b => Value.ofBool b
  | .int t, .int n => Value.ofNum (t.into n)
  | .f32, .f32 x => Value.ofNum (.f32 x)
  | .f64, .f64 x => Value.ofNum (.f64 x)
  | .char, .char c => Value.ofChar c
  | .string, .str s => Value.ofStr s
  | .seq t, .seq l => Value.ofArray (l.map fun x => t.into x)
  | .map t, .map l => Value.ofDict (Map.ofList (l.map fun e => (e.1, t.into e.2)))
  | .value, .value v => v
  | _, _ => Value.ofEmpty .unit

end Figment
