import Verif.Lemmas.Grammar
import Verif.Lemmas.Figment
import Verif.Spec.Print
import Verif.Spec.Data
import Verif.Lemmas.Float
/-! # Lemmas about the printer -/
namespace Figment

namespace Dec

theorem digitsVal_eq (acc : Nat) (s : Str) : digitsVal acc s = Nat.ofDigitChars 10 s acc := by
  induction s generalizing acc with
  | nil => rfl
  | cons c r ih =>
    have h : acc * 10 + digitVal c = 10 * acc + (c.toNat - '0'.toNat) := by
      rw [Nat.mul_comm]; rfl
    show digitsVal (acc * 10 + digitVal c) r = _
    rw [h]
    exact ih _

theorem digitsVal_ofNat (n : Nat) : digitsVal 0 (ofNat n) = n := by
  rw [digitsVal_eq, ofNat]
  exact Nat.ofDigitChars_toDigits (by decide) (by decide)

theorem digitsVal_append (acc : Nat) (a b : Str) : digitsVal acc (a ++ b) = digitsVal (digitsVal acc a) b := by
  induction a generalizing acc with
  | nil => rfl
  | cons c a ih => exact ih _

theorem isDigit_ofNat (n : Nat) : ∀ c ∈ ofNat n, isDigit c = true := by
  intro c hc
  have := Nat.isDigit_of_mem_toDigits (by decide) (by decide) hc
  simp only [Char.isDigit, Bool.and_eq_true, decide_eq_true_eq, ge_iff_le] at this
  simp only [isDigit, Bool.and_eq_true, decide_eq_true_eq]
  exact this

theorem ofNat_ne_nil (n : Nat) : ofNat n ≠ [] := by
  rw [ofNat, Nat.toDigits_eq_if (by decide)]
  split <;> simp

theorem ofNat_intText (n : Nat) : IntText (ofNat n) n :=
  ⟨_, ofNat_ne_nil n, isDigit_ofNat n, .inl ⟨rfl, by rw [digitsVal_ofNat]⟩⟩

theorem ofInt_intText (n : Int) : IntText (ofInt n) n := by
  cases n with
  | ofNat n => exact ofNat_intText n
  | negSucc n =>
    refine ⟨_, ofNat_ne_nil (n + 1), isDigit_ofNat (n + 1), .inr (.inr ⟨rfl, ?_⟩)⟩
    rw [digitsVal_ofNat]; rfl

theorem ofNat_head (n : Nat) : (ofNat n).head? ≠ some '-' := by
  intro h
  exact absurd (isDigit_ofNat n '-' (List.mem_of_head? h)) (by decide)

theorem ofInt_head {n : Int} (h : n < 0) : (ofInt n).head? = some '-' := by
  cases n with
  | ofNat n => exact absurd h (by simp)
  | negSucc n => rfl

theorem ofInt_inj {a b : Int} (h : ofInt a = ofInt b) : a = b := by
  have nat : ∀ {m n : Nat}, ofNat m = ofNat n → m = n := by
    intro m n h
    rw [← digitsVal_ofNat m, h, digitsVal_ofNat]
  have neg : ∀ m n : Nat, ofNat m ≠ '-' :: ofNat n := by
    intro m n h
    have := isDigit_ofNat m '-' (by rw [h]; exact List.mem_cons_self ..)
    revert this
    decide
  cases a with
  | ofNat m =>
    cases b with
    | ofNat n => rw [nat h]
    | negSucc n => exact absurd h (neg _ _)
  | negSucc m =>
    cases b with
    | ofNat n => exact absurd h.symm (neg _ _)
    | negSucc n => rw [Nat.succ.inj (nat (List.cons.inj h).2)]

end Dec

theorem IntText.not_special {s : Str} {n : Int} (h : IntText s n) :
    ∀ c ∈ s, c ∉ separators ∧ c ≠ '"' ∧ c ≠ '\'' ∧ Str.isWs c = false ∧ c ≠ '.' := by
  intro c hc
  rcases h.chars c hc with h | rfl | rfl
  · refine ⟨?_, ?_, ?_, ?_, ?_⟩
    · intro hs
      simp only [separators, List.mem_cons, List.not_mem_nil, or_false] at hs
      rcases hs with rfl | rfl | rfl | rfl | rfl <;> exact absurd h (by decide)
    · rintro rfl; exact absurd h (by decide)
    · rintro rfl; exact absurd h (by decide)
    · simp only [Dec.isDigit, Bool.and_eq_true, decide_eq_true_eq, Char.le_def, UInt32.le_iff_toNat_le] at h
      have e5 : '0'.val.toNat = 48 := rfl
      have e6 : '9'.val.toNat = 57 := rfl
      have e9 : c.val.toNat = c.toNat := rfl
      rw [e5, e6, e9] at h
      by_cases hw : Str.isWs c = true
      · simp only [Str.isWs, Bool.or_eq_true, Bool.and_eq_true, decide_eq_true_eq, beq_iff_eq] at hw
        omega
      · simpa using hw
    · rintro rfl; exact absurd h (by decide)
  · decide
  · decide

/-! ## Strings -/

theorem hexChar_digit {n : Nat} (h : n < 16) : Hex.isDigit (hexChar n) = true ∧ Hex.digitVal (hexChar n) = n ∧
    (hexChar n).toNat < 128 := by
  have : ∀ k : Fin 16, Hex.isDigit (hexChar k.val) = true ∧ Hex.digitVal (hexChar k.val) = k.val ∧
      (hexChar k.val).toNat < 128 := by decide
  exact this ⟨n, h⟩

theorem hex8_spec {n : Nat} (h : n < 0x100000000) :
    (hex8 n).length = 8 ∧ (∀ c ∈ hex8 n, Hex.isDigit c = true) ∧ Hex.val 0 (hex8 n) = n ∧
      ∀ c ∈ hex8 n, c.toNat < 128 := by
  refine ⟨rfl, ?_, ?_, ?_⟩
  · intro c hc
    simp only [hex8, List.mem_cons, List.not_mem_nil, or_false] at hc
    rcases hc with rfl | rfl | rfl | rfl | rfl | rfl | rfl | rfl <;>
      exact (hexChar_digit (Nat.mod_lt _ (by decide))).1
  · have hm : ∀ k, Hex.digitVal (hexChar (k % 16)) = k % 16 := fun k => (hexChar_digit (Nat.mod_lt _ (by decide))).2.1
    simp only [hex8, Hex.val, hm]
    omega
  · intro c hc
    simp only [hex8, List.mem_cons, List.not_mem_nil, or_false] at hc
    rcases hc with rfl | rfl | rfl | rfl | rfl | rfl | rfl | rfl <;>
      exact (hexChar_digit (Nat.mod_lt _ (by decide))).2.2

theorem writeChar_unescapes (c : Char) {s t : Str} (h : Unescapes false s t) : Unescapes false (writeChar c ++ s) (c :: t) := by
  rw [writeChar]
  split
  · rename_i hc; subst hc; exact .named (by decide) h
  · rename_i h1
    split
    · rename_i hc; subst hc; exact .named (by decide) h
    · rename_i h2
      split
      · rename_i h3
        refine .plain h2 ?_ (fun e => absurd e h1) h
        rintro (⟨h4, _⟩ | h4) <;> omega
      · obtain ⟨e1, e2, e3, _⟩ := hex8_spec (n := c.toNat) (by
          have : c.val.toNat < 4294967296 := c.val.toNat_lt
          exact this)
        exact .hex8 e1 e2 e3 h

theorem writeChar_ascii (c : Char) : ∀ x ∈ writeChar c, x.toNat < 128 := by
  rw [writeChar]
  split
  · decide
  · split
    · decide
    · split
      · rename_i h3
        intro x hx
        rw [List.mem_singleton.1 hx]; omega
      · obtain ⟨_, _, _, e4⟩ := hex8_spec (n := c.toNat) (by
          have : c.val.toNat < 4294967296 := c.val.toNat_lt
          exact this)
        intro x hx
        rcases List.mem_cons.1 hx with rfl | hx
        · decide
        · rcases List.mem_cons.1 hx with rfl | hx
          · decide
          · exact e4 x hx

/-- Quoted text that is all ASCII. -/
def AsciiQuoted (s t : Str) : Prop := Unescapes false s t ∧ ∀ c ∈ s, c.toNat < 128

theorem AsciiQuoted.code {s t : Str} (h : AsciiQuoted s t) : Parser.CodeQuoted s t :=
  .of_spec (by rintro a b rfl _ c hc; exact h.2 c (by simp [hc])) h.1

theorem write_quoted (s : Str) : AsciiQuoted (s.flatMap writeChar) s := by
  induction s with
  | nil => exact ⟨.nil, by simp⟩
  | cons c s ih =>
    refine ⟨?_, ?_⟩
    · rw [List.flatMap_cons]; exact writeChar_unescapes c ih.1
    · intro x hx
      rw [List.flatMap_cons, List.mem_append] at hx
      rcases hx with hx | hx
      · exact writeChar_ascii c x hx
      · exact ih.2 x hx

section
variable [FloatOps]

theorem Reads.simple {Q : Str → Str → Prop} {s : Str} {v : Value} (hne : s ≠ [])
    (hs : ∀ c ∈ s, c ∉ separators ∧ c ≠ '"' ∧ c ≠ '\'' ∧ Str.isWs c = false) (h : Bare s v) : Reads Q s v := by
  have := Reads.bare (Q := Q) (a := []) (b := []) Ws.nil Ws.nil hne (fun c hc => (hs c hc).1)
    (fun e => (hs _ (List.mem_of_head? e)).2.1 rfl) (fun e => (hs _ (List.mem_of_head? e)).2.2.1 rfl)
    (fun c e => (hs c (List.mem_of_head? e)).2.2.2) (fun c e => (hs c (List.mem_of_getLast? e)).2.2.2) h
  simpa using this

omit [FloatOps] in
theorem Value.stripD_sorted : ∀ {d : List (Str × Value)}, Map.Sorted d → Map.Sorted (Value.stripD d)
  | [], _ => List.Pairwise.nil
  | (k, v) :: r, h => by
    rw [Value.stripD]
    obtain ⟨h1, h2⟩ := List.pairwise_cons.1 h
    refine List.pairwise_cons.2 ⟨?_, stripD_sorted h2⟩
    have keys : ∀ (r : List (Str × Value)) (e : Str × Value), e ∈ Value.stripD r → ∃ w, (e.1, w) ∈ r := by
      intro r
      induction r with
      | nil => intro e he; simp [Value.stripD] at he
      | cons x r ih =>
        intro e he
        simp only [Value.stripD, List.mem_cons] at he
        rcases he with rfl | he
        · exact ⟨x.2, by simp⟩
        · obtain ⟨w, hw⟩ := ih e he; exact ⟨w, by simp [hw]⟩
    intro e he
    obtain ⟨w, hw⟩ := keys r e he
    have := h1 _ hw
    exact this

end

/-! ## Floating point numbers -/

theorem F64.eq_inf {x : F64} {s : Bool} (h : x.val = .inf s) : x = F64.ofBits s Fmt.f64.inf := by
  have h0 : x.val.Size (2 ^ (1024 + 1074)) s (2 ^ (1024 + 1074)) := .inr ⟨h, rfl⟩
  obtain ⟨h1, h2, _⟩ := (F64.size_iff _ _ _).1 h0
  obtain ⟨h3, h4⟩ := F64.ofBits_toNat (neg := s) (Nat.le_refl Fmt.f64.inf)
  have h5 := x.isLt
  unfold F64.val at h
  dsimp only at h
  have h6 : x.toNat / 2 ^ 52 % 2048 = 2047 ∧ x.toNat % 2 ^ 52 = 0 := by
    split at h
    · rename_i a
      split at h
      · rename_i b; exact ⟨a, b⟩
      · cases h
    · split at h <;> cases h
  rw [← h3, decide_eq_decide] at h1
  refine BitVec.eq_of_toNat_eq ?_
  have h7 := (F64.ofBits s Fmt.f64.inf).isLt
  generalize (F64.ofBits s Fmt.f64.inf).toNat = y at *
  unfold Fmt.f64 at h4
  dsimp only at h4
  omega

theorem writeFloat_decimal (v : FloatVal) (h : v ≠ .nan) : ∃ neg n d, Decimal (writeFloat v) neg n d ∧
    ((v = .inf neg ∧ n = 10 ^ 999 ∧ d = 1) ∨ ∃ k, v = .fin neg k ∧ k * d = n * 2 ^ 1074) := by
  have hsign : ∀ s : Bool, SignText (if s then str "-" else []) s := by
    intro s
    cases s
    · exact .inl ⟨.inl rfl, rfl⟩
    · exact .inr ⟨rfl, rfl⟩
  cases v with
  | nan => exact absurd rfl h
  | inf s =>
    refine ⟨s, _, _, ⟨_, str "1", str "0", str "e999", 999, rfl, hsign s, by decide, by decide, by decide,
      .inr ⟨'e', str "999", rfl, .inl rfl, ⟨str "999", by decide, by decide, .inl ⟨rfl, rfl⟩⟩⟩, rfl, rfl⟩, .inl ⟨rfl, ?_, ?_⟩⟩
    · decide +kernel
    · decide +kernel
  | fin s k =>
    refine ⟨s, _, _, ⟨_, Dec.ofNat (k * 5 ^ 1074), str "0", str "e-1074", -1074, rfl, hsign s, Dec.isDigit_ofNat _, by decide,
      ?_, .inr ⟨'e', str "-1074", rfl, .inl rfl, ⟨str "1074", by decide, by decide, .inr (.inr ⟨rfl, rfl⟩)⟩⟩, rfl, rfl⟩,
      .inr ⟨k, rfl, ?_⟩⟩
    · intro h
      exact Dec.ofNat_ne_nil _ (List.append_eq_nil_iff.1 h).1
    · have h1 : ∀ m, Dec.digitsVal 0 (Dec.ofNat m ++ str "0") = m * 10 := by
        intro m
        rw [Dec.digitsVal_append, Dec.digitsVal_ofNat]
        rfl
      have h2 : ((-1074 : Int) - ((str "0").length : Nat)).toNat = 0 := rfl
      have h3 : (((str "0").length : Nat) - (-1074 : Int)).toNat = 1074 + 1 := rfl
      rw [h1, h2, h3, Nat.pow_zero, Nat.mul_one, Nat.pow_succ, show (10 : Nat) = 5 * 2 from rfl, Nat.mul_pow]
      generalize 1074 = e
      generalize 5 ^ e = a
      generalize 2 ^ e = b
      rw [Nat.mul_assoc k a, Nat.mul_assoc k, Nat.mul_assoc a b, Nat.mul_assoc a (5 * 2), Nat.mul_comm b]

theorem round_big (n : Nat) (h : n = 10 ^ 999) : Fmt.f64.round (n * 2 ^ 1074) 1 = Fmt.f64.inf := by
  rw [h]
  decide +kernel

theorem parse64_writeFloat (x : F64) (h : x.val ≠ .nan) : FloatOps.std.parse64 (writeFloat x.val) = some x := by
  rw [parse64_iff]
  obtain ⟨neg, n, d, hd, h1⟩ := writeFloat_decimal _ h
  refine ⟨neg, n, d, hd, ?_⟩
  rcases h1 with ⟨h1, hn, rfl⟩ | ⟨k, h1, h2⟩
  · have h2 := F64.ofBits_nearest neg n 1 (by decide)
    rw [round_big n hn, ← F64.eq_inf h1] at h2
    exact h2
  · exact F64.nearest_exact h1 hd.pos h2

theorem writeFloat_chars (v : FloatVal) : ∀ c ∈ writeFloat v, c ∉ separators ∧ c ≠ '"' ∧ c ≠ '\'' ∧ Str.isWs c = false := by
  have hsign : ∀ (s : Bool), ∀ c ∈ (if s then str "-" else []), c ∉ separators ∧ c ≠ '"' ∧ c ≠ '\'' ∧ Str.isWs c = false := by
    decide
  have h1 : ∀ c ∈ str "1.0e999", c ∉ separators ∧ c ≠ '"' ∧ c ≠ '\'' ∧ Str.isWs c = false := by decide
  have h2 : ∀ c ∈ str ".0e-1074", c ∉ separators ∧ c ≠ '"' ∧ c ≠ '\'' ∧ Str.isWs c = false := by decide
  intro c hc
  unfold writeFloat at hc
  dsimp only at hc
  cases v with
  | nan => cases hc
  | inf s =>
    rcases List.mem_append.1 hc with hc | hc
    · exact hsign s c hc
    · exact h1 c hc
  | fin s k =>
    rcases List.mem_append.1 hc with hc | hc
    · exact hsign s c hc
    · rcases List.mem_append.1 hc with hc | hc
      · obtain ⟨h1, h2, h3, h4, _⟩ := (Dec.ofNat_intText _).not_special c hc
        exact ⟨h1, h2, h3, h4⟩
      · exact h2 c hc

theorem writeFloat_dot (v : FloatVal) (h : v ≠ .nan) : '.' ∈ writeFloat v := by
  obtain ⟨_, _, _, ⟨_, _, _, _, _, h, _⟩, _⟩ := writeFloat_decimal v h
  rw [h]
  simp

section
attribute [local instance] FloatOps.std

mutual
theorem Value.write_reads : ∀ (v : Value), v.writable = true → v.wf = true → Reads AsciiQuoted v.write v.strip
  | .string _ s, _, _ => by
    have := Reads.string (Q := AsciiQuoted) (a := []) (b := []) Ws.nil Ws.nil (write_quoted s)
    simpa [Value.write, writeStr, Value.strip, Value.ofStr] using this
  | .char _ c, _, _ => by
    have := Reads.char (Q := AsciiQuoted) (a := []) (b := []) c Ws.nil Ws.nil
    simpa [Value.write, Value.strip, Value.ofChar] using this
  | .bool _ b, _, _ => by
    cases b
    · exact Reads.simple (s := str "false") (by decide) (by decide) .ff
    · exact Reads.simple (s := str "true") (by decide) (by decide) .tt
  | .num _ (.usize n), _, _ => by
    have hi := Dec.ofNat_intText n.toNat
    exact Reads.simple (Dec.ofNat_ne_nil _) (fun c hc => ⟨(hi.not_special c hc).1, (hi.not_special c hc).2.1,
      (hi.not_special c hc).2.2.1, (hi.not_special c hc).2.2.2.1⟩)
      (.unsigned (fun h => (hi.not_special _ h).2.2.2.2 rfl) (Dec.ofNat_head _) hi)
  | .num _ (.isize n), hw, _ => by
    have hn : n.toInt ≤ 0 := by simpa [Value.writable] using hw
    rw [Value.write, Value.strip]
    split
    · rename_i h0
      subst h0
      exact Reads.simple (by decide) (by decide) (.signed (n := 0) (by decide) (by decide)
        ⟨str "0", by decide, by decide, .inr (.inr ⟨rfl, rfl⟩)⟩)
    · rename_i h0
      have hn : n.toInt < 0 := by
        rcases Int.lt_or_eq_of_le hn with h | h
        · exact h
        · exact absurd (BitVec.eq_of_toInt_eq h) h0
      have hi := Dec.ofInt_intText n.toInt
      have hh := Dec.ofInt_head hn
      exact Reads.simple (by intro e; rw [e] at hh; cases hh)
        (fun c hc => ⟨(hi.not_special c hc).1, (hi.not_special c hc).2.1,
        (hi.not_special c hc).2.2.1, (hi.not_special c hc).2.2.2.1⟩)
        (.signed (fun h => (hi.not_special _ h).2.2.2.2 rfl) hh hi)
  | .num _ (.f64 x), hw, _ => by
    have hn : x.val ≠ .nan := by simpa [Value.writable] using hw
    exact Reads.simple (List.ne_nil_of_mem (writeFloat_dot _ hn)) (writeFloat_chars _)
      (.float (writeFloat_dot _ hn) (parse64_writeFloat x hn))
  | .num _ (.u8 _), h, _ | .num _ (.u16 _), h, _ | .num _ (.u32 _), h, _ | .num _ (.u64 _), h, _
  | .num _ (.u128 _), h, _ | .num _ (.i8 _), h, _ | .num _ (.i16 _), h, _ | .num _ (.i32 _), h, _
  | .num _ (.i64 _), h, _ | .num _ (.i128 _), h, _ | .num _ (.f32 _), h, _ => by
    simp [Value.writable] at h
  | .empty _ _, h, _ => by simp [Value.writable] at h
  | .array _ a, hw, hf => by
    have := Reads.array (Q := AsciiQuoted) (a := []) (b := []) Ws.nil Ws.nil
      (Value.writeA_reads a (by simpa [Value.writable] using hw) (by simpa [Value.wf] using hf))
    simpa [Value.write, Value.strip, Value.ofArray] using this
  | .dict _ d, hw, hf => by
    simp only [Value.wf, Bool.and_eq_true, decide_eq_true_eq] at hf
    have := Reads.dict (Q := AsciiQuoted) (a := []) (b := []) Ws.nil Ws.nil
      (Value.writeD_reads d (by simpa [Value.writable] using hw) hf.2)
    rw [Map.ofList_sorted (Value.stripD_sorted hf.1)] at this
    simpa [Value.write, Value.strip, Value.ofDict] using this
theorem Value.writeA_reads : ∀ (a : List Value), Value.writableA a = true → Value.wfA a = true →
    Items AsciiQuoted (Value.writeA a) (Value.stripA a)
  | [], _, _ => .nil Ws.nil
  | v :: r, hw, hf => by
    simp only [Value.writableA, Bool.and_eq_true] at hw
    simp only [Value.wfA, Bool.and_eq_true] at hf
    exact .cons (Value.write_reads v hw.1 hf.1) (Value.writeA_reads r hw.2 hf.2)
theorem Value.writeD_reads : ∀ (d : List (Str × Value)), Value.writableD d = true → Value.wfD d = true →
    Entries AsciiQuoted (Value.writeD d) (Value.stripD d)
  | [], _, _ => .nil Ws.nil
  | (k, v) :: r, hw, hf => by
    simp only [Value.writableD, Bool.and_eq_true] at hw
    simp only [Value.wfD, Bool.and_eq_true] at hf
    have := Entries.cons (Q := AsciiQuoted) (a := []) (b := []) Ws.nil (.quoted (write_quoted k)) Ws.nil
      (Value.write_reads v hw.1 hf.1) (Value.writeD_reads r hw.2 hf.2)
    simpa [Value.writeD, writeStr, Value.stripD] using this
end

/-! ## Decimal numbers as values -/

theorem Decimal.chars {s : Str} {neg : Bool} {n d : Nat} (h : Decimal s neg n d) :
    '.' ∈ s ∧ ∀ c ∈ s, c ∉ separators ∧ c ≠ '"' ∧ c ≠ '\'' ∧ Str.isWs c = false := by
  obtain ⟨sign, a, b, ex, x, rfl, hs, ha, hb, hne, hx, _, _⟩ := h
  have hdig : ∀ t, Digits t → ∀ c ∈ t, c ∉ separators ∧ c ≠ '"' ∧ c ≠ '\'' ∧ Str.isWs c = false := by
    intro t ht c hc
    have : IntText t (Dec.digitsVal 0 t) := ⟨t, List.ne_nil_of_mem hc, ht, .inl ⟨rfl, rfl⟩⟩
    obtain ⟨h1, h2, h3, h4, _⟩ := this.not_special c hc
    exact ⟨h1, h2, h3, h4⟩
  have hdot : '.' ∉ separators ∧ '.' ≠ '"' ∧ '.' ≠ '\'' ∧ Str.isWs '.' = false := by decide
  refine ⟨by simp, fun c hc => ?_⟩
  rw [List.mem_append, List.mem_append, List.mem_cons, List.mem_append] at hc
  rcases hc with hc | hc | rfl | hc | hc
  · rcases hs with ⟨rfl | rfl, _⟩ | ⟨rfl, _⟩
    · cases hc
    · revert c; decide
    · revert c; decide
  · exact hdig a ha c hc
  · exact hdot
  · exact hdig b hb c hc
  · rcases hx with ⟨rfl, _⟩ | ⟨e, t, rfl, he, ht⟩
    · cases hc
    · rcases List.mem_cons.1 hc with rfl | hc
      · rcases he with rfl | rfl <;> decide
      · obtain ⟨h1, h2, h3, h4, _⟩ := ht.not_special c hc
        exact ⟨h1, h2, h3, h4⟩

/-! ## The values that have a text -/

theorem Bare.writable {s : Str} {v : Value} (h : Bare s v) : v.writable = true ∧ v.strip = v := by
  cases h with
  | tt | ff | dotted | text => exact ⟨rfl, rfl⟩
  | float _ h =>
    obtain ⟨_, _, _, _, h⟩ := (parse64_iff _ _).1 h
    exact ⟨decide_eq_true h.ne_nan, rfl⟩
  | unsigned => exact ⟨rfl, rfl⟩
  | @signed s n _ hs h =>
    refine ⟨decide_eq_true ?_, rfl⟩
    obtain ⟨ds, hne, hd, ⟨rfl, _⟩ | ⟨rfl, _⟩ | ⟨rfl, h⟩⟩ := h
    · exact absurd (hd _ (List.mem_of_head? hs)) (by decide)
    · cases hs
    · omega

theorem Value.insert_writable {k : Str} {v : Value} (hv : v.writable = true ∧ v.strip = v) : ∀ {d : List (Str × Value)},
    (Value.writableD d = true ∧ Value.stripD d = d) →
      Value.writableD (Map.insert k v d) = true ∧ Value.stripD (Map.insert k v d) = Map.insert k v d
  | [], _ => by
    simp only [Map.insert, Value.writableD, Value.stripD, hv.1, hv.2, Bool.and_self, and_self]
  | (k', v') :: d, h => by
    simp only [Value.writableD, Value.stripD, Bool.and_eq_true, List.cons.injEq, Prod.mk.injEq, true_and] at h
    obtain ⟨⟨h1, h2⟩, h3, h4⟩ := h
    have ih := insert_writable (k := k) hv (d := d) ⟨h2, h4⟩
    rw [Map.insert]
    split
    · simp only [Value.writableD, Value.stripD, hv.1, hv.2, h1, h2, h3, h4, Bool.and_self, and_self]
    · simp only [Value.writableD, Value.stripD, hv.1, hv.2, h2, h4, Bool.and_self, and_self]
    · simp only [Value.writableD, Value.stripD, ih.1, ih.2, h1, h3, Bool.and_self, and_self]

theorem Value.ofList_writable {es : List (Str × Value)} (h : ∀ e ∈ es, e.2.writable = true ∧ e.2.strip = e.2) :
    Value.writableD (Map.ofList es) = true ∧ Value.stripD (Map.ofList es) = Map.ofList es := by
  have : ∀ (es : List (Str × Value)), (∀ e ∈ es, e.2.writable = true ∧ e.2.strip = e.2) → ∀ d : List (Str × Value),
      (Value.writableD d = true ∧ Value.stripD d = d) →
      (Value.writableD (es.foldl (fun m e => Map.insert e.1 e.2 m) d) = true ∧
        Value.stripD (es.foldl (fun m e => Map.insert e.1 e.2 m) d) = es.foldl (fun m e => Map.insert e.1 e.2 m) d) := by
    intro es
    induction es with
    | nil => intro _ d hd; exact hd
    | cons e es ih =>
      intro h d hd
      exact ih (fun x hx => h x (List.mem_cons_of_mem _ hx)) _
        (Value.insert_writable (h e (List.mem_cons_self ..)) hd)
  exact this es h [] ⟨rfl, rfl⟩

theorem Value.writableA_of {vs : List Value} (h : ∀ v ∈ vs, v.writable = true ∧ v.strip = v) :
    Value.writableA vs = true ∧ Value.stripA vs = vs := by
  induction vs with
  | nil => exact ⟨rfl, rfl⟩
  | cons v vs ih =>
    obtain ⟨h1, h2⟩ := h v (List.mem_cons_self ..)
    obtain ⟨h3, h4⟩ := ih fun x hx => h x (List.mem_cons_of_mem _ hx)
    simp only [Value.writableA, Value.stripA, h1, h2, h3, h4, Bool.and_self, and_self]

mutual
theorem Reads.writable {Q : Str → Str → Prop} : ∀ {s : Str} {v : Value}, Reads Q s v → v.writable = true ∧ v.strip = v
  | _, _, .bare _ _ _ _ _ _ _ _ h => h.writable
  | _, _, .string _ _ _ => ⟨rfl, rfl⟩
  | _, _, .char _ _ _ => ⟨rfl, rfl⟩
  | _, _, .array _ _ h => by
    obtain ⟨h1, h2⟩ := Value.writableA_of (Items.writable h)
    exact ⟨by rw [Value.ofArray, Value.writable, h1], by rw [Value.ofArray, Value.strip, h2]⟩
  | _, _, .dict _ _ h => by
    obtain ⟨h1, h2⟩ := Value.ofList_writable (Entries.writable h)
    exact ⟨by rw [Value.ofDict, Value.writable, h1], by rw [Value.ofDict, Value.strip, h2]⟩
theorem Items.writable {Q : Str → Str → Prop} : ∀ {s : Str} {vs : List Value}, Items Q s vs →
    ∀ v ∈ vs, v.writable = true ∧ v.strip = v
  | _, _, .nil _ => by simp
  | _, _, .last h => by have := Reads.writable h; simpa using this
  | _, _, .cons h hr => by
    have h1 := Reads.writable h
    have h2 := Items.writable hr
    intro v hv
    rcases List.mem_cons.1 hv with rfl | hv
    · exact h1
    · exact h2 v hv
  | _, _, .skip _ hr => by
    have h2 := Items.writable hr
    intro v hv
    rcases List.mem_cons.1 hv with rfl | hv
    · exact ⟨rfl, rfl⟩
    · exact h2 v hv
theorem Entries.writable {Q : Str → Str → Prop} : ∀ {s : Str} {es : List (Str × Value)}, Entries Q s es →
    ∀ e ∈ es, e.2.writable = true ∧ e.2.strip = e.2
  | _, _, .nil _ => by simp
  | _, _, .last _ _ _ h => by have := Reads.writable h; simpa using this
  | _, _, .lastEmpty _ _ _ _ => by
    intro e he
    rw [List.mem_singleton.1 he]
    exact ⟨rfl, rfl⟩
  | _, _, .cons _ _ _ h hr => by
    have h1 := Reads.writable h
    have h2 := Entries.writable hr
    intro e he
    rcases List.mem_cons.1 he with rfl | he
    · exact h1
    · exact h2 e he
  | _, _, .consEmpty _ _ _ _ hr => by
    have h2 := Entries.writable hr
    intro e he
    rcases List.mem_cons.1 he with rfl | he
    · exact ⟨rfl, rfl⟩
    · exact h2 e he
end

end
end Figment
