import Verif.Model.Num
import Verif.Base.Dec
/-!
# Floating point numbers (std)

What the code uses of `std`'s floating point, as it is documented: text and numbers are rounded to the nearest number of
the format, to the even one of two, as IEEE 754 has it. (How `std` computes it is not modelled.) `FloatOps.std` is the
instance of `FloatOps` for it; theorems that do not name it hold for every instance.
-/
namespace Figment

/-- A binary floating point format: the bits of its mantissa, how many binary orders of magnitude its smallest number is
above that of `f64`, and the bits of its infinity. For `f32` and `f64` (std), value/value.rs:570, 572. -/
structure Fmt where
  mant : Nat
  shift : Nat
  inf : Nat

/-- `f32` (std), value/value.rs:570. -/
def Fmt.f32 : Fmt := ⟨23, 925, 255 * 2 ^ 23⟩
/-- `f64` (std), value/value.rs:572. -/
def Fmt.f64 : Fmt := ⟨52, 0, 2047 * 2 ^ 52⟩

/-- The natural number nearest to `a / d`, the even one of two. Part of what std does at value/value.rs:519-521. -/
def roundEven (a d : Nat) : Nat :=
  if 2 * (a % d) < d then a / d
  else if 2 * (a % d) = d ∧ a / d % 2 = 0 then a / d
  else a / d + 1

/-- The bits, without the sign, of the number nearest to `n / d` times the smallest `f64` (`2 ^ -1074`). Part of what std
does at value/value.rs:519-521, value/parse.rs:163 and in its conversions of numbers. -/
def Fmt.round (f : Fmt) (n d : Nat) : Nat :=
  let d := d * 2 ^ f.shift
  let s := Nat.log2 (n / d) - f.mant
  min f.inf (s * 2 ^ f.mant + roundEven n (d * 2 ^ s))

/-- A sign and bits without a sign. The `f32` of value/value.rs:570. -/
def F32.ofBits (neg : Bool) (b : Nat) : F32 := BitVec.ofNat 32 ((if neg then 2 ^ 31 else 0) + b)
/-- A sign and bits without a sign. The `f64` of value/value.rs:572. -/
def F64.ofBits (neg : Bool) (b : Nat) : F64 := BitVec.ofNat 64 ((if neg then 2 ^ 63 else 0) + b)

/-- An exponent at the end of decimal text. Part of `str::parse::<f64>` (std), value/value.rs:519-521. -/
def Dec.exponent : Str → Option Int
  | [] => some 0
  | c :: r => if c = 'e' ∨ c = 'E' then Dec.signedVal r else none

/-- A sign, if there is one, and the text after it. Part of `str::parse::<f64>` (std), value/value.rs:519-521. -/
def Dec.sign : Str → Bool × Str
  | '-' :: r => (true, r)
  | '+' :: r => (false, r)
  | s => (false, s)

/-- Decimal text with a dot, after the sign: its digits and its exponent, counted from the last digit. The text of
`str::parse::<f64>` (std), value/value.rs:519-521; simplification: that is only asked for text with a dot
(value/value.rs:517, value/parse.rs:162), so integers, `inf` and `nan` are left out. -/
def Dec.fraction (s : Str) : Option (Nat × Int) :=
  let whole := s.takeWhile Dec.isDigit
  match s.dropWhile Dec.isDigit with
  | '.' :: r =>
    let part := r.takeWhile Dec.isDigit
    if whole = [] ∧ part = [] then none
    else
      match Dec.exponent (r.dropWhile Dec.isDigit) with
      | some e => some (Dec.digitsVal 0 (whole ++ part), e - part.length)
      | none => none
  | _ => none

/-- The bits of the number nearest to `n * 10 ^ e`. Part of `str::parse::<f64>` (std), value/value.rs:519-521. -/
def Fmt.decimal (f : Fmt) (n : Nat) : Int → Nat
  | .ofNat e => f.round (n * 10 ^ e * 2 ^ 1074) 1
  | .negSucc e => f.round (n * 2 ^ 1074) (10 ^ (e + 1))

/-- `v as f32` for `v : f64` (std): the nearest; NaN is one that std does not say. In serde's `visit_f64` for `f32`, called
at value/de.rs:356. -/
def F64.narrow (x : F64) : F32 :=
  let neg := decide (2 ^ 63 ≤ x.toNat)
  let b := x.toNat % 2 ^ 63
  let e := b / 2 ^ 52
  let m := b % 2 ^ 52
  F32.ofBits neg <|
    if e = 2047 then (if m = 0 then Fmt.f32.inf else 0x7fc00000)
    else Fmt.f32.round (if e = 0 then m else (2 ^ 52 + m) * 2 ^ (e - 1)) 1

/-- The floating point of `std`. Used at value/value.rs:519-521, value/parse.rs:163, value/value.rs:367,
value/de.rs:355-356. -/
@[instance_reducible]
def FloatOps.std : FloatOps where
  parse32 s := (Dec.fraction (Dec.sign s).2).map fun p => F32.ofBits (Dec.sign s).1 (Fmt.f32.decimal p.1 p.2)
  parse64 s := (Dec.fraction (Dec.sign s).2).map fun p => F64.ofBits (Dec.sign s).1 (Fmt.f64.decimal p.1 p.2)
  ofInt32 i := F32.ofBits (decide (i < 0)) (Fmt.f32.round (i.natAbs * 2 ^ 1074) 1)
  ofInt64 i := F64.ofBits (decide (i < 0)) (Fmt.f64.round (i.natAbs * 2 ^ 1074) 1)
  narrow := F64.narrow

end Figment
