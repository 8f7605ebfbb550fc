import Verif.Props.Convert
import Verif.Props.Means
import Verif.Lemmas.Print
/-!
# C80, C81: floating point numbers

Here floating point is that of `std` (`FloatOps.std`). `x.Nearest neg n d` (Spec/Float): of all numbers of the type, `x` is
nearest to `n / d`, or `- n / d`, the even one of two. `Decimal s neg n d`: the text `s` is a decimal number with a dot, and
is that fraction.
-/
namespace Figment
attribute [local instance] FloatOps.std

/-- **C80** (there is only one): a text is at most one fraction, and a fraction has just one nearest number. -/
theorem C80_unique (s : Str) (neg neg' : Bool) (n d n' d' : Nat) (h : Decimal s neg n d) (h' : Decimal s neg' n' d') :
    (neg = neg' ∧ n = n' ∧ d = d') ∧ (∃ x : F64, x.Nearest neg n d ∧ ∀ y : F64, y.Nearest neg n d → y = x) ∧
    (∃ x : F32, x.Nearest neg n d ∧ ∀ y : F32, y.Nearest neg n d → y = x) :=
  ⟨h.unique h', ⟨_, F64.ofBits_nearest neg n d h.pos, fun _ hy => hy.unique h.pos (F64.ofBits_nearest neg n d h.pos)⟩,
    ⟨_, F32.ofBits_nearest neg n d h.pos, fun _ hy => hy.unique h.pos (F32.ofBits_nearest neg n d h.pos)⟩⟩

/-- **C80** (values): parsing text as a value gives a floating point number if and only if the text, without the white space
around it, is a decimal number with a dot; it is then the nearest `f64`. -/
theorem C80_value (s : Str) (x : F64) : Value.parse s = .ok (.ofNum (.f64 x)) ↔
    ∃ neg n d, Decimal (Str.trim s) neg n d ∧ x.Nearest neg n d := by
  constructor
  · intro h
    have hs : ¬ Ws s := by
      intro hs
      rw [Value.parse_ws hs] at h
      cases h
    by_cases hr : ∃ v, Reads Parser.CodeQuoted (Str.trim s) v
    · obtain ⟨w, hw⟩ := hr
      rw [Value.parse_reads hw] at h
      cases h
      generalize ht : Str.trim s = t at hw
      generalize hv : Value.ofNum (.f64 x) = v at hw
      cases hw with
      | @bare a u b _ ha hb _ _ _ _ h3 h4 h =>
        have : u = a ++ (u ++ b) := by
          rw [← ht, ← Str.trim_trim, ht, Str.trim_of_split ha hb h3 h4]
        rw [← this]
        cases h with
        | float _ h =>
          cases hv
          exact (parse64_iff _ _).1 h
        | tt | ff | dotted | unsigned | signed | text => cases hv
      | string | char | array | dict => cases hv
    · rcases Value.parse_text hs hr with h' | h' <;> rw [h'] at h <;> cases h
  · rintro ⟨neg, n, d, h, hx⟩
    obtain ⟨h1, h2⟩ := h.chars
    exact Value.parse_reads (Reads.simple (List.ne_nil_of_mem h1) h2 (.float h1 ((parse64_iff _ _).2 ⟨neg, n, d, h, hx⟩)))

/-- **C80** (numbers in strings, as lossy extraction reads them): text with a dot is a number if and only if it is a decimal
number; it is then the nearest `f32` if it is at most seven bytes, and the nearest `f64` otherwise. -/
theorem C80_number (s : Str) (hs : '.' ∈ Str.trim s) (m : Num) : Num.parse s = some m ↔
    ∃ neg n d, Decimal (Str.trim s) neg n d ∧
      ((Str.byteLen (Str.trim s) ≤ 7 ∧ ∃ x : F32, m = .f32 x ∧ x.Nearest neg n d) ∨
        (7 < Str.byteLen (Str.trim s) ∧ ∃ x : F64, m = .f64 x ∧ x.Nearest neg n d)) := by
  have h0 : Num.parse s = if Str.byteLen (Str.trim s) ≤ 7 then (FloatOps.parse32 (Str.trim s)).map Num.f32
      else (FloatOps.parse64 (Str.trim s)).map Num.f64 := by
    rw [Num.parse]
    simp only [List.contains_eq_mem, decide_eq_true_eq]
    rw [if_pos hs]
  rw [h0]
  split
  · rename_i hl
    rw [Option.map_eq_some_iff]
    constructor
    · rintro ⟨x, h, rfl⟩
      obtain ⟨neg, n, d, h1, h2⟩ := (parse32_iff _ _).1 h
      exact ⟨neg, n, d, h1, .inl ⟨hl, x, rfl, h2⟩⟩
    · rintro ⟨neg, n, d, h1, ⟨_, x, rfl, h2⟩ | ⟨h, _⟩⟩
      · exact ⟨x, (parse32_iff _ _).2 ⟨neg, n, d, h1, h2⟩, rfl⟩
      · omega
  · rename_i hl
    rw [Option.map_eq_some_iff]
    constructor
    · rintro ⟨x, h, rfl⟩
      obtain ⟨neg, n, d, h1, h2⟩ := (parse64_iff _ _).1 h
      exact ⟨neg, n, d, h1, .inr ⟨by omega, x, rfl, h2⟩⟩
    · rintro ⟨neg, n, d, h1, ⟨h, _⟩ | ⟨_, x, rfl, h2⟩⟩
      · omega
      · exact ⟨x, (parse64_iff _ _).2 ⟨neg, n, d, h1, h2⟩, rfl⟩

/-! ## Extraction -/

theorem number_means (f : Fig) (lossy : Bool) (at_ : Option Str) (v : Value) (hv : f.sourceOf at_ = .ok v) (n : Num)
    (hn : v.IsNum lossy n) (t : Ty) (ht : t.proper false = true) (y : Val) :
    f.extractBy lossy at_ t = .ok y ↔ t.Means lossy f.fileAt v y := by
  have hw : v.WF := by
    rcases hn with ⟨_, rfl⟩ | ⟨_, _, _, rfl, _⟩ <;> exact Value.wf_of_scalar rfl rfl
  rw [Fig.extractBy_iff]
  constructor
  · rintro ⟨w, h1, h2⟩
    rw [hv] at h1
    cases h1
    exact (Ty.means (some f) lossy false nofun t ht v ⟨hw, nofun⟩ y).1 h2
  · exact fun h => ⟨v, hv, (Ty.means (some f) lossy false nofun t ht v ⟨hw, nofun⟩ y).2 h⟩

theorem isNum_functional {v : Value} {lossy : Bool} {a b : Num} (h : v.IsNum lossy a) (h' : v.IsNum lossy b) : a = b := by
  rcases h with ⟨_, rfl⟩ | ⟨_, _, _, rfl, h⟩ <;> rcases h' with ⟨_, h'⟩ | ⟨_, _, _, h', h2⟩ <;> cases h'
  · rfl
  · rw [h] at h2; exact Option.some.inj h2

theorem extract_f64 {f : Fig} {lossy : Bool} {at_ : Option Str} {v : Value} (hv : f.sourceOf at_ = .ok v) {n : Num}
    (hn : v.IsNum lossy n) (y : F64) : f.extractBy lossy at_ .f64 = .ok (.f64 y) ↔
      (n = .f64 y ∨ (∃ z, n = .f32 z ∧ y = z.toF64) ∨ ∃ i, n.IsInt i ∧ y = FloatOps.std.ofInt64 i) := by
  rw [number_means f lossy at_ v hv n hn .f64 rfl, Ty.Means]
  constructor
  · rintro ⟨n', y', h1, h2, h3⟩
    cases h2
    rw [isNum_functional hn h1]
    exact h3
  · exact fun h => ⟨n, y, hn, rfl, h⟩

theorem extract_f32 {f : Fig} {lossy : Bool} {at_ : Option Str} {v : Value} (hv : f.sourceOf at_ = .ok v) {n : Num}
    (hn : v.IsNum lossy n) (y : F32) : f.extractBy lossy at_ .f32 = .ok (.f32 y) ↔
      (n = .f32 y ∨ (∃ z, n = .f64 z ∧ y = F64.narrow z) ∨ ∃ i, n.IsInt i ∧ y = FloatOps.std.ofInt32 i) := by
  rw [number_means f lossy at_ v hv n hn .f32 rfl, Ty.Means]
  constructor
  · rintro ⟨n', y', h1, h2, h3⟩
    cases h2
    rw [isNum_functional hn h1]
    exact h3
  · exact fun h => ⟨n, y, hn, rfl, h⟩

/-- **C80** (lossy extraction of a string that is a decimal number with a dot): at most seven bytes give the nearest `f32`,
more give the nearest `f64`. Missing: more than seven bytes as `f32` and at most seven as `f64`, for which it is false
(`C80_fails`). -/
theorem C80_lossy_partial (f : Fig) (at_ : Option Str) (tag : Tag) (s : Str) (hv : f.sourceOf at_ = .ok (.string tag s))
    (neg : Bool) (n d : Nat) (hs : Decimal (Str.trim s) neg n d) :
    (Str.byteLen (Str.trim s) ≤ 7 → ∀ y, f.extractBy true at_ .f32 = .ok (.f32 y) ↔ y.Nearest neg n d) ∧
    (7 < Str.byteLen (Str.trim s) → ∀ y, f.extractBy true at_ .f64 = .ok (.f64 y) ↔ y.Nearest neg n d) := by
  have hdot := hs.chars.1
  constructor
  · intro hl y
    have hx := F32.ofBits_nearest neg n d hs.pos
    have hn : (Value.string tag s).IsNum true (.f32 _) :=
      .inr ⟨rfl, tag, s, rfl, (C80_number s hdot _).2 ⟨neg, n, d, hs, .inl ⟨hl, _, rfl, hx⟩⟩⟩
    rw [extract_f32 hv hn]
    constructor
    · rintro (h | ⟨_, h, _⟩ | ⟨_, ⟨h, _⟩, _⟩)
      · cases h; exact hx
      · cases h
      · cases h
    · intro h
      rw [h.unique hs.pos hx]
      exact .inl rfl
  · intro hl y
    have hx := F64.ofBits_nearest neg n d hs.pos
    have hn : (Value.string tag s).IsNum true (.f64 _) :=
      .inr ⟨rfl, tag, s, rfl, (C80_number s hdot _).2 ⟨neg, n, d, hs, .inr ⟨hl, _, rfl, hx⟩⟩⟩
    rw [extract_f64 hv hn]
    constructor
    · rintro (h | ⟨_, h, _⟩ | ⟨_, ⟨h, _⟩, _⟩)
      · cases h; exact hx
      · cases h
      · cases h
    · intro h
      rw [h.unique hs.pos hx]
      exact .inl rfl

/-- **C80**, what is missing of `C80_lossy_partial`: at most seven bytes as `f64` give the number that the nearest `f32` is,
and more as `f32` give what the nearest `f64` is as an `f32` (`C81_narrow`). -/
theorem C80_lossy_exact (f : Fig) (at_ : Option Str) (tag : Tag) (s : Str) (hv : f.sourceOf at_ = .ok (.string tag s))
    (neg : Bool) (n d : Nat) (hs : Decimal (Str.trim s) neg n d) :
    (Str.byteLen (Str.trim s) ≤ 7 → ∀ y, f.extractBy true at_ .f64 = .ok (.f64 y) ↔
      ∃ z : F32, z.Nearest neg n d ∧ y.val = z.val) ∧
    (7 < Str.byteLen (Str.trim s) → ∀ y, f.extractBy true at_ .f32 = .ok (.f32 y) ↔
      ∃ z : F64, z.Nearest neg n d ∧
        ((∃ k, z.val = .fin neg k ∧ y.Nearest neg k (2 ^ 1074)) ∨ (z.val = .inf neg ∧ y.val = .inf neg))) := by
  have hdot := hs.chars.1
  constructor
  · intro hl y
    have hx := F32.ofBits_nearest neg n d hs.pos
    generalize F32.ofBits neg (Fmt.f32.round (n * 2 ^ 1074) d) = x at hx
    have hn : (Value.string tag s).IsNum true (.f32 x) :=
      .inr ⟨rfl, tag, s, rfl, (C80_number s hdot _).2 ⟨neg, n, d, hs, .inl ⟨hl, _, rfl, hx⟩⟩⟩
    rw [extract_f64 hv hn]
    constructor
    · rintro (h | ⟨z, h, rfl⟩ | ⟨_, ⟨h, _⟩, _⟩)
      · cases h
      · cases h; exact ⟨x, hx, F32.toF64_val x⟩
      · cases h
    · rintro ⟨z, hz, h⟩
      refine .inr (.inl ⟨x, rfl, ?_⟩)
      rw [hz.unique hs.pos hx, ← F32.toF64_val] at h
      refine F64.val_inj h ?_
      rw [h, F32.toF64_val]
      exact hx.ne_nan
  · intro hl y
    have hx := F64.ofBits_nearest neg n d hs.pos
    generalize F64.ofBits neg (Fmt.f64.round (n * 2 ^ 1074) d) = x at hx
    have hn : (Value.string tag s).IsNum true (.f64 x) :=
      .inr ⟨rfl, tag, s, rfl, (C80_number s hdot _).2 ⟨neg, n, d, hs, .inr ⟨hl, _, rfl, hx⟩⟩⟩
    rw [extract_f32 hv hn]
    constructor
    · rintro (h | ⟨z, h, rfl⟩ | ⟨_, ⟨h, _⟩, _⟩)
      · cases h
      · cases h
        refine ⟨x, hx, ?_⟩
        obtain ⟨k, h | ⟨h, _⟩, _⟩ := hx
        · exact .inl ⟨k, h, narrow_nearest x neg k h⟩
        · exact .inr ⟨h, narrow_inf x neg h⟩
      · cases h
    · rintro ⟨z, hz, h⟩
      refine .inr (.inl ⟨x, rfl, ?_⟩)
      rw [hz.unique hs.pos hx] at h
      rcases h with ⟨k, h1, h2⟩ | ⟨h1, h2⟩
      · exact h2.unique (Nat.two_pow_pos _) (narrow_nearest x neg k h1)
      · have h3 := narrow_inf x neg h1
        rw [← h3] at h2
        refine F32.val_inj h2 ?_
        rw [h2, h3]
        nofun

/-! ## C81 -/

/-- **C81** (integers): a number that is the integer `i`, of at most 64 bits, is extracted as the `f64` and as the `f32`
nearest to `i`. -/
theorem C81_integer (f : Fig) (lossy : Bool) (at_ : Option Str) (v : Value) (hv : f.sourceOf at_ = .ok v) (n : Num)
    (hn : v.IsNum lossy n) (i : Int) (hi : n.IsInt i) :
    (∀ y, f.extractBy lossy at_ .f64 = .ok (.f64 y) ↔ y.Nearest (decide (i < 0)) i.natAbs 1) ∧
    (∀ y, f.extractBy lossy at_ .f32 = .ok (.f32 y) ↔ y.Nearest (decide (i < 0)) i.natAbs 1) := by
  constructor
  · intro y
    rw [extract_f64 hv hn]
    constructor
    · rintro (rfl | ⟨_, rfl, _⟩ | ⟨j, ⟨h, _⟩, rfl⟩)
      · cases hi.1
      · cases hi.1
      · rw [hi.1] at h
        cases h
        exact ofInt64_nearest i
    · exact fun h => .inr (.inr ⟨i, hi, h.unique (by decide) (ofInt64_nearest i)⟩)
  · intro y
    rw [extract_f32 hv hn]
    constructor
    · rintro (rfl | ⟨_, rfl, _⟩ | ⟨j, ⟨h, _⟩, rfl⟩)
      · cases hi.1
      · cases hi.1
      · rw [hi.1] at h
        cases h
        exact ofInt32_nearest i
    · exact fun h => .inr (.inr ⟨i, hi, h.unique (by decide) (ofInt32_nearest i)⟩)

/-- **C81** (integers that are exact): an integer of at most 53 binary digits, or `2 ^ 53`, times a power of two, is
extracted as `f64` unchanged; one of at most 24, or `2 ^ 24`, as `f32`. -/
theorem C81_exact (f : Fig) (lossy : Bool) (at_ : Option Str) (v : Value) (hv : f.sourceOf at_ = .ok v) (n : Num)
    (hn : v.IsNum lossy n) (i : Int) (hi : n.IsInt i) (q s : Nat) (hq : i.natAbs = q * 2 ^ s) (hs : s ≤ 64) :
    (q ≤ 2 ^ 53 → ∃ y, f.extractBy lossy at_ .f64 = .ok (.f64 y) ∧ y.val = .fin (decide (i < 0)) (i.natAbs * 2 ^ 1074)) ∧
    (q ≤ 2 ^ 24 → ∃ y, f.extractBy lossy at_ .f32 = .ok (.f32 y) ∧ y.val = .fin (decide (i < 0)) (i.natAbs * 2 ^ 1074)) := by
  obtain ⟨h1, h2⟩ := C81_integer f lossy at_ v hv n hn i hi
  constructor
  · intro h
    have h3 := ofInt64_nearest i
    refine ⟨_, (h1 _).2 h3, ?_⟩
    rw [hq] at h3 ⊢
    exact h3.exact h hs
  · intro h
    have h3 := ofInt32_nearest i
    refine ⟨_, (h2 _).2 h3, ?_⟩
    rw [hq] at h3 ⊢
    exact h3.exact h hs

/-- **C81** (floating point numbers): an `f64` is extracted as `f64` bit by bit, an `f32` as `f32` too, and an `f32` as `f64`
is the same number. -/
theorem C81_float (f : Fig) (lossy : Bool) (at_ : Option Str) (v : Value) (hv : f.sourceOf at_ = .ok v) :
    (∀ x, v.IsNum lossy (.f64 x) → f.extractBy lossy at_ .f64 = .ok (.f64 x)) ∧
    (∀ x, v.IsNum lossy (.f32 x) → f.extractBy lossy at_ .f32 = .ok (.f32 x)) ∧
    (∀ x, v.IsNum lossy (.f32 x) → ∃ y, f.extractBy lossy at_ .f64 = .ok (.f64 y) ∧ y.val = x.val) :=
  ⟨fun x hn => (extract_f64 hv hn x).2 (.inl rfl), fun x hn => (extract_f32 hv hn x).2 (.inl rfl),
    fun x hn => ⟨x.toF64, (extract_f64 hv hn _).2 (.inr (.inl ⟨x, rfl, rfl⟩)), F32.toF64_val x⟩⟩

/-- **C81** (`f64` as `f32`): a finite number gives the nearest `f32`; infinity and NaN stay what they are. -/
theorem C81_narrow (f : Fig) (lossy : Bool) (at_ : Option Str) (v : Value) (hv : f.sourceOf at_ = .ok v) (x : F64)
    (hn : v.IsNum lossy (.f64 x)) : ∃ y, f.extractBy lossy at_ .f32 = .ok (.f32 y) ∧
      (∀ neg k, x.val = .fin neg k → y.Nearest neg k (2 ^ 1074)) ∧ (∀ neg, x.val = .inf neg → y.val = .inf neg) ∧
      (x.val = .nan → y.val = .nan) :=
  ⟨F64.narrow x, (extract_f32 hv hn _).2 (.inr (.inl ⟨x, rfl, rfl⟩)), narrow_nearest x, narrow_inf x, narrow_nan x⟩

/-! ## Examples, and where C80 fails -/

/-- Two strings and two numbers: `{ a = "0.1", b = "0.123456789", c = 16777217, d = 1.000000059604644775390626 }`, the last
as it is read from an environment variable. -/
def Ex.floats : Fig :=
  ⟨Profile.Default, [(⟨1⟩, Metadata.named (str "one"))],
    .ok [(Profile.Default, [(str "a", .string ⟨1⟩ (str "0.1")), (str "b", .string ⟨1⟩ (str "0.123456789")),
      (str "c", .num ⟨1⟩ (.u32 16777217)), (str "d", .num ⟨1⟩ (.f64 0x3ff0000010000000#64))])]⟩

theorem Ex.decimal_a : Decimal (Str.trim (str "0.1")) false 1 10 :=
  ⟨[], str "0", str "1", [], 0, rfl, .inl ⟨.inl rfl, rfl⟩, by decide, by decide, by decide, .inl ⟨rfl, rfl⟩, rfl, rfl⟩
theorem Ex.decimal_b : Decimal (Str.trim (str "0.123456789")) false 123456789 1000000000 :=
  ⟨[], str "0", str "123456789", [], 0, rfl, .inl ⟨.inl rfl, rfl⟩, by decide, by decide, by decide, .inl ⟨rfl, rfl⟩, rfl, rfl⟩

example : Decimal (str "-12.5e3") true 12500 1 ∧ Decimal (str "+.5E-1") false 5 100 ∧ Decimal (str "3.") false 3 1 :=
  ⟨⟨str "-", str "12", str "5", str "e3", 3, rfl, .inr ⟨rfl, rfl⟩, by decide, by decide, by decide,
      .inr ⟨'e', str "3", rfl, .inl rfl, str "3", by decide, by decide, .inl ⟨rfl, rfl⟩⟩, rfl, rfl⟩,
    ⟨str "+", [], str "5", str "E-1", -1, rfl, .inl ⟨.inr rfl, rfl⟩, by decide, by decide, by decide,
      .inr ⟨'E', str "-1", rfl, .inr rfl, str "1", by decide, by decide, .inr (.inr ⟨rfl, rfl⟩)⟩, rfl, rfl⟩,
    ⟨[], str "3", [], [], 0, rfl, .inl ⟨.inl rfl, rfl⟩, by decide, by decide, by decide, .inl ⟨rfl, rfl⟩, rfl, rfl⟩⟩

-- Text as a value: the nearest `f64`; text that is almost a decimal number is a string.
example : Value.parse (str " 0.1 ") = .ok (.ofNum (.f64 0x3fb999999999999a#64)) ∧
    Value.parse (str "9007199254740993.0") = .ok (.ofNum (.f64 0x4340000000000000#64)) ∧
    Value.parse (str "4.9e-324") = .ok (.ofNum (.f64 1#64)) ∧ Value.parse (str "2.4e-324") = .ok (.ofNum (.f64 0#64)) ∧
    Value.parse (str "1.2.3") = .ok (.ofStr (str "1.2.3")) ∧ Value.parse (str ".") = .ok (.ofStr (str ".")) ∧
    Value.parse (str "1.5e") = .ok (.ofStr (str "1.5e")) := by decide +kernel

-- Extraction: the hypotheses of the theorems are met.
example : Ex.floats.sourceOf (some (str "a")) = .ok (.string ⟨1⟩ (str "0.1")) ∧ Str.byteLen (Str.trim (str "0.1")) ≤ 7 ∧
    Ex.floats.sourceOf (some (str "b")) = .ok (.string ⟨1⟩ (str "0.123456789")) ∧
    7 < Str.byteLen (Str.trim (str "0.123456789")) := ⟨rfl, by decide, rfl, by decide⟩
theorem Ex.number_a : (Value.string ⟨1⟩ (str "0.1")).IsNum true (.f32 0x3dcccccd#32) :=
  .inr ⟨rfl, _, _, rfl, by decide +kernel⟩
theorem Ex.number_b : (Value.string ⟨1⟩ (str "0.123456789")).IsNum true (.f64 0x3fbf9add3739635f#64) :=
  .inr ⟨rfl, _, _, rfl, by decide +kernel⟩
theorem Ex.number_c : (Value.num ⟨1⟩ (.u32 16777217)).IsNum false (.u32 16777217) := .inl ⟨_, rfl⟩
theorem Ex.number_d : (Value.num ⟨1⟩ (.f64 0x3ff0000010000000#64)).IsNum false (.f64 0x3ff0000010000000#64) := .inl ⟨_, rfl⟩
example : Ex.floats.extractInnerLossy (str "a") .f32 = .ok (.f32 0x3dcccccd#32) ∧
    Ex.floats.extractInnerLossy (str "b") .f64 = .ok (.f64 0x3fbf9add3739635f#64) ∧
    Ex.floats.extractInnerLossy (str "b") .f32 = .ok (.f32 0x3dfcd6ea#32) :=
  ⟨(C81_float Ex.floats true (some (str "a")) _ rfl).2.1 _ Ex.number_a,
    (C81_float Ex.floats true (some (str "b")) _ rfl).1 _ Ex.number_b,
    (extract_f32 (f := Ex.floats) (at_ := some (str "b")) rfl Ex.number_b 0x3dfcd6ea#32).2 (.inr (.inl ⟨_, rfl, by decide +kernel⟩))⟩

-- `2 ^ 24 + 1` is an `f64` but no `f32`.
example : Ex.floats.extractInner (str "c") .f64 = .ok (.f64 0x4170000010000000#64) ∧
    Ex.floats.extractInner (str "c") .f32 = .ok (.f32 0x4b800000#32) :=
  ⟨(extract_f64 (f := Ex.floats) (at_ := some (str "c")) (lossy := false) rfl Ex.number_c 0x4170000010000000#64).2
      (.inr (.inr ⟨16777217, ⟨rfl, by decide⟩, by decide +kernel⟩)),
    (extract_f32 (f := Ex.floats) (at_ := some (str "c")) (lossy := false) rfl Ex.number_c 0x4b800000#32).2
      (.inr (.inr ⟨16777217, ⟨rfl, by decide⟩, by decide +kernel⟩))⟩
example : (Num.u32 16777217).IsInt 16777217 ∧ (16777217 : Int).natAbs = 16777217 * 2 ^ 0 ∧ 16777217 ≤ 2 ^ 53 :=
  ⟨⟨rfl, by decide⟩, rfl, by decide⟩

/-- C80 fails for lossy extraction of short strings as `f64`: `"0.1"` is not the `f64` nearest to 0.1, which it is as a value. -/
theorem C80_fails : ∃ x y : F64, Decimal (Str.trim (str "0.1")) false 1 10 ∧
    Ex.floats.sourceOf (some (str "a")) = .ok (.string ⟨1⟩ (str "0.1")) ∧
    Ex.floats.extractInnerLossy (str "a") .f64 = .ok (.f64 x) ∧ ¬ x.Nearest false 1 10 ∧
    Value.parse (str "0.1") = .ok (.ofNum (.f64 y)) ∧ y.Nearest false 1 10 := by
  have hy : Value.parse (str "0.1") = .ok (.ofNum (.f64 0x3fb999999999999a#64)) := by decide +kernel
  obtain ⟨neg, n, d, h1, h2⟩ := (C80_value _ _).1 hy
  obtain ⟨rfl, rfl, rfl⟩ := h1.unique Ex.decimal_a
  refine ⟨0x3fb99999a0000000#64, _, Ex.decimal_a, rfl,
    (extract_f64 (f := Ex.floats) (at_ := some (str "a")) rfl Ex.number_a 0x3fb99999a0000000#64).2 (.inr (.inl ⟨_, rfl, by decide +kernel⟩)), fun h => ?_, hy, h2⟩
  exact absurd (h.unique (by decide) h2) (by decide)

/-- C80 fails for `f32`: a decimal number that is read as a value is rounded to `f64`, and that to `f32`, which is not the
`f32` nearest to the number. -/
theorem C80_fails_f32 : ∃ (s : Str) (n d : Nat) (x y : F32), Decimal s false n d ∧
    Value.parse s = .ok (.ofNum (.f64 0x3ff0000010000000#64)) ∧
    Ex.floats.sourceOf (some (str "d")) = .ok (.num ⟨1⟩ (.f64 0x3ff0000010000000#64)) ∧
    Ex.floats.extractInner (str "d") .f32 = .ok (.f32 x) ∧ y.Nearest false n d ∧ x ≠ y := by
  refine ⟨str "1.000000059604644775390626", 1000000059604644775390626, 10 ^ 24, 0x3f800000#32, 0x3f800001#32,
    ⟨[], str "1", str "000000059604644775390626", [], 0, rfl, .inl ⟨.inl rfl, rfl⟩, by decide, by decide, by decide,
      .inl ⟨rfl, rfl⟩, by decide +kernel, by decide +kernel⟩, by decide +kernel, rfl,
    (extract_f32 (f := Ex.floats) (at_ := some (str "d")) (lossy := false) rfl Ex.number_d 0x3f800000#32).2 (.inr (.inl ⟨_, rfl, by decide +kernel⟩)),
    ?_, by decide⟩
  have h := F32.ofBits_nearest false 1000000059604644775390626 (10 ^ 24) (by decide)
  have h1 : F32.ofBits false (Fmt.f32.round (1000000059604644775390626 * 2 ^ 1074) (10 ^ 24)) = 0x3f800001#32 := by
    decide +kernel
  rw [h1] at h
  exact h

end Figment
