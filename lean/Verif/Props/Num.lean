import Verif.Lemmas.NumParse
import Verif.Props.Value
/-!
# C43: parsing numbers; C44: the lossy conversions of values
-/
namespace Figment
variable [FloatOps]

/-- **C43** (integers): text without a dot parses as the number `n` exactly if, trimmed, it is an integer in decimal, `n`
is that integer, `n` is signed exactly if the text starts with a minus sign, and no narrower type would do. -/
theorem C43_integer (s : Str) (hs : '.' ∉ Str.trim s) (n : Num) : Num.parse s = some n ↔
    ∃ i : Int, IntText (Str.trim s) i ∧ n.intVal = some i ∧
      (n.isSigned = true ↔ (Str.trim s).head? = some '-') ∧ n.Narrowest := by
  rw [Num.parse_int hs]
  generalize Str.trim s = t
  split
  · rename_i hh
    constructor
    · intro h
      obtain ⟨b, hb, rfl⟩ := Option.map_eq_some_iff.1 h
      obtain ⟨h1, h2, h3⟩ := Num.ofSInt_spec b
      exact ⟨_, (Dec.parseSigned_some (by decide)).1 hb, h1, ⟨fun _ => hh, fun _ => h2⟩, h3⟩
    · rintro ⟨i, h1, h2, h3, h4⟩
      have hsg : n.isSigned = true := h3.2 hh
      have hr : -(2 ^ 127) ≤ i ∧ i < 2 ^ 127 := by
        cases n <;> simp only [Num.isSigned, Num.intVal, Option.some.injEq, reduceCtorEq] at hsg h2
        all_goals
          rename_i v
          have h5 := BitVec.le_two_mul_toInt (x := v)
          have h6 := BitVec.two_mul_toInt_lt (x := v)
          omega
      have hp : Dec.parseSigned 128 t = some (BitVec.ofInt 128 i) := by
        refine (Dec.parseSigned_some (by decide)).2 ?_
        rw [BitVec.toInt_ofInt, Int.bmod_eq_of_le (by omega) (by omega)]
        exact h1
      rw [hp]
      obtain ⟨g1, g2, g3⟩ := Num.ofSInt_spec (BitVec.ofInt 128 i)
      rw [BitVec.toInt_ofInt, Int.bmod_eq_of_le (by omega) (by omega)] at g1
      exact congrArg some (Num.Narrowest.unique g3 h4 (by rw [g2, hsg]) (by rw [g1, h2]))
  · rename_i hh
    constructor
    · intro h
      obtain ⟨b, hb, rfl⟩ := Option.map_eq_some_iff.1 h
      obtain ⟨h1, h2, h3⟩ := Num.ofUInt_spec b
      refine ⟨_, (Dec.parseUnsigned_some.1 hb).2, h1, ?_, h3⟩
      rw [h2]
      exact ⟨fun h => (by cases h), fun h => absurd h hh⟩
    · rintro ⟨i, h1, h2, h3, h4⟩
      have hsg : n.isSigned = false := by
        cases hc : n.isSigned with
        | false => rfl
        | true => exact absurd (h3.1 hc) hh
      have hr : 0 ≤ i ∧ i < 2 ^ 128 := by
        cases n <;> simp only [Num.isSigned, Num.intVal, Option.some.injEq, reduceCtorEq] at hsg h2
        all_goals
          rename_i v
          have h5 := v.isLt
          omega
      have e : ((BitVec.ofNat 128 i.toNat).toNat : Int) = i := by
        rw [BitVec.toNat_ofNat, Nat.mod_eq_of_lt (by omega), Int.toNat_of_nonneg hr.1]
      have hp : Dec.parseUnsigned 128 t = some (BitVec.ofNat 128 i.toNat) := by
        refine Dec.parseUnsigned_some.2 ⟨hh, ?_⟩
        rw [e]; exact h1
      rw [hp]
      obtain ⟨g1, g2, g3⟩ := Num.ofUInt_spec (BitVec.ofNat 128 i.toNat)
      rw [e] at g1
      exact congrArg some (Num.Narrowest.unique g3 h4 (by rw [g2, hsg]) (by rw [g1, h2]))

/-- **C43**: such text fails to parse exactly if, trimmed, it is not an integer in decimal, of at most 128 bits. -/
theorem C43_fails (s : Str) (hs : '.' ∉ Str.trim s) : Num.parse s = none ↔
    ¬ ∃ i : Int, IntText (Str.trim s) i ∧ if (Str.trim s).head? = some '-' then -(2 ^ 127) ≤ i else i < 2 ^ 128 := by
  rw [Num.parse_int hs]
  generalize Str.trim s = t
  split
  · rename_i hh
    rw [Option.map_eq_none_iff]
    constructor
    · rintro h ⟨i, h1, h2⟩
      have h3 := h1.nonpos hh
      have hp : Dec.parseSigned 128 t = some (BitVec.ofInt 128 i) := by
        refine (Dec.parseSigned_some (by decide)).2 ?_
        rw [BitVec.toInt_ofInt, Int.bmod_eq_of_le (by omega) (by omega)]
        exact h1
      rw [hp] at h; cases h
    · intro h
      cases hp : Dec.parseSigned 128 t with
      | none => rfl
      | some b =>
        refine absurd ⟨_, (Dec.parseSigned_some (by decide)).1 hp, ?_⟩ h
        have h5 := BitVec.le_two_mul_toInt (x := b)
        omega
  · rename_i hh
    rw [Option.map_eq_none_iff]
    constructor
    · rintro h ⟨i, h1, h2⟩
      have h3 := h1.nonneg hh
      have hp : Dec.parseUnsigned 128 t = some (BitVec.ofNat 128 i.toNat) := by
        refine Dec.parseUnsigned_some.2 ⟨hh, ?_⟩
        rw [BitVec.toNat_ofNat, Nat.mod_eq_of_lt (by omega), Int.toNat_of_nonneg h3]
        exact h1
      rw [hp] at h; cases h
    · intro h
      cases hp : Dec.parseUnsigned 128 t with
      | none => rfl
      | some b =>
        refine absurd ⟨_, (Dec.parseUnsigned_some.1 hp).2, ?_⟩ h
        have h5 := b.isLt
        omega

omit [FloatOps] in
theorem C43_trim {s : Str} {n : Int} (h : IntText s n) : Str.trim s = s := by
  have := Str.trim_of_split (a := []) (b := []) (s := s) Ws.nil Ws.nil
    (fun c hc => (h.not_special c (List.mem_of_head? hc)).2.2.2.1)
    (fun c hc => (h.not_special c (List.mem_of_getLast? hc)).2.2.2.1)
  simpa using this

/-- **C43** (round trip): printing any 128-bit integer in decimal and parsing it gives that integer, in the narrowest
type. -/
theorem C43_round_trip (n : BitVec 128) :
    (∃ m, Num.parse (Dec.ofNat n.toNat) = some m ∧ m.intVal = some (n.toNat : Int) ∧ m.Narrowest) ∧
    ∃ m, Num.parse (Dec.ofInt n.toInt) = some m ∧ m.intVal = some n.toInt ∧ m.Narrowest := by
  have key : ∀ (s : Str) (i : Int), IntText s i →
      (if s.head? = some '-' then -(2 ^ 127) ≤ i else i < 2 ^ 128) →
      ∃ m, Num.parse s = some m ∧ m.intVal = some i ∧ m.Narrowest := by
    intro s i h hr
    have ht := C43_trim h
    have hd : '.' ∉ Str.trim s := by rw [ht]; exact fun hm => (h.not_special _ hm).2.2.2.2 rfl
    cases hp : Num.parse s with
    | none =>
      exact absurd ⟨i, by rw [ht]; exact h, by rw [ht]; exact hr⟩ ((C43_fails s hd).1 hp)
    | some m =>
      obtain ⟨j, h1, h2, _, h3⟩ := (C43_integer s hd m).1 hp
      rw [ht] at h1
      rw [Dec.IntText.functional h h1]
      exact ⟨m, rfl, h2, h3⟩
  constructor
  · refine key _ _ (Dec.ofNat_intText _) ?_
    rw [if_neg (Dec.ofNat_head _)]
    have := n.isLt
    omega
  · refine key _ _ (Dec.ofInt_intText _) ?_
    have h5 := BitVec.le_two_mul_toInt (x := n)
    have h6 := BitVec.two_mul_toInt_lt (x := n)
    split <;> omega

/-- **C43** (floats): text with a dot is read by the standard library: as `f32` up to seven bytes, else as `f64`. -/
theorem C43_float (s : Str) (hs : '.' ∈ Str.trim s) : Num.parse s =
    if Str.byteLen (Str.trim s) ≤ 7 then (FloatOps.parse32 (Str.trim s)).map .f32
    else (FloatOps.parse64 (Str.trim s)).map .f64 := by
  rw [Num.parse]
  simp only [List.contains_eq_mem, decide_eq_true_eq]
  rw [if_pos hs]

example : '.' ∉ Str.trim (str " -129\n") ∧ Num.parse (str " -129\n") = some (.i16 (-129)) := ⟨by decide, by rfl⟩
example : Num.parse (str "340282366920938463463374607431768211456") = none := by rfl
example : Num.parse (str "+65536") = some (.u32 65536#32) := by rfl

omit [FloatOps] in
theorem C44_lossy_int (n : Num) (k : Nat) (hk : k < 2 ^ 128) : n.toU128Lossy = some (BitVec.ofNat 128 k) ↔ n.intVal = some (k : Int) := by
  obtain ⟨_, _, _, _, _, _, h1, h2, _⟩ := C42_conversions n
  constructor
  · intro h
    have := h1 _ h
    rwa [BitVec.toNat_ofNat, Nat.mod_eq_of_lt hk] at this
  · intro h
    have h3 := h2.2 ⟨(k : Int), h, Int.natCast_nonneg k⟩
    obtain ⟨m, hm⟩ := Option.isSome_iff_exists.1 h3
    have h4 := h1 m hm
    rw [h] at h4
    have h5 : k = m.toNat := Int.ofNat.inj (Option.some.inj h4)
    rw [hm]
    congr 1
    refine BitVec.eq_of_toNat_eq ?_
    rw [BitVec.toNat_ofNat, Nat.mod_eq_of_lt hk, h5]

omit [FloatOps] in
/-- **C44** (bool): a value is the truth value `b` lossily exactly if it is the boolean, the integer 0 or 1, or one of the
eight words, in any case. -/
theorem C44_bool (v : Value) (b : Bool) : v.toBoolLossy = some b ↔
    (∃ t, v = .bool t b) ∨ (∃ t n, v = .num t n ∧ n.intVal = some (if b then 1 else 0)) ∨
    (∃ t s, v = .string t s ∧ Str.lower s ∈ boolWords b) := by
  have words : ∀ (b : Bool) (s : Str), (boolWords b).any (Str.uncasedEq · s) = true ↔ Str.lower s ∈ boolWords b := by
    intro b s
    rw [List.any_eq_true]
    have hl : ∀ w ∈ boolWords b, Str.lower w = w := by cases b <;> decide
    constructor
    · rintro ⟨w, hw, he⟩
      rw [Str.uncasedEq, hl w hw, beq_iff_eq] at he
      rwa [← he]
    · intro h
      exact ⟨_, h, by rw [Str.uncasedEq, hl _ h]; simp⟩
  have disj : ∀ w ∈ boolWords false, w ∉ boolWords true := by decide
  cases v with
  | bool t c => simp [Value.toBoolLossy]
  | num t n =>
    have h0 := C44_lossy_int n 0 (by decide)
    have h1 := C44_lossy_int n 1 (by decide)
    have e : (Value.num t n).toBoolLossy = some b ↔ n.intVal = some (if b then 1 else 0) := by
      rw [Value.toBoolLossy]
      cases b with
      | false =>
        refine Iff.trans ?_ h0
        cases n.toU128Lossy with
        | none => simp
        | some m => simp only [Option.some.injEq]; split <;> simp_all
      | true =>
        refine Iff.trans ?_ h1
        cases n.toU128Lossy with
        | none => simp
        | some m =>
          simp only [Option.some.injEq]
          split
          · rename_i h; subst h; simp
          · split <;> simp_all
    rw [e]
    constructor
    · intro h; exact .inr (.inl ⟨t, n, rfl, h⟩)
    · rintro (⟨_, h⟩ | ⟨_, _, h, h'⟩ | ⟨_, _, h, _⟩)
      · cases h
      · cases h; exact h'
      · cases h
  | string t s =>
    have e : (Value.string t s).toBoolLossy = some b ↔ Str.lower s ∈ boolWords b := by
      have ht := words true s
      have hf := words false s
      rw [Value.toBoolLossy]
      show (if (boolWords true).any (Str.uncasedEq · s) = true then some true
        else if (boolWords false).any (Str.uncasedEq · s) = true then some false else none) = some b ↔ _
      cases b with
      | true => rw [← ht]; split <;> simp_all
      | false =>
        rw [← hf]
        split
        · rename_i h
          have := ht.1 h
          simp only [Option.some.injEq, Bool.true_eq_false, false_iff]
          exact fun h' => disj _ (hf.1 h') this
        · split <;> simp_all
    rw [e]
    constructor
    · intro h; exact .inr (.inr ⟨t, s, rfl, h⟩)
    · rintro (⟨_, h⟩ | ⟨_, _, h, _⟩ | ⟨_, _, h, h'⟩)
      · cases h
      · cases h
      · cases h; exact h'
  | char | empty | dict | array =>
    constructor
    · intro h; cases h
    · rintro (⟨_, h⟩ | ⟨_, _, h, _⟩ | ⟨_, _, h, _⟩) <;> cases h

omit [FloatOps] in
example : (Value.ofStr (str "yES")).toBoolLossy = some true ∧ (Value.ofNum (.i8 0#8)).toBoolLossy = some false ∧
    (Value.ofStr (str "y")).toBoolLossy = none ∧ (Value.ofNum (.u16 2#16)).toBoolLossy = none := by decide

/-- **C44** (number): a value is a number lossily exactly if it is the number or text that parses as the number. -/
theorem C44_num (v : Value) (n : Num) : v.toNumLossy = some n ↔
    (∃ t, v = .num t n) ∨ ∃ t s, v = .string t s ∧ Num.parse s = some n := by
  constructor
  · intro h
    cases v with
    | num t m => exact .inl ⟨t, by rw [Value.toNumLossy] at h; rw [Option.some.inj h]⟩
    | string t s => exact .inr ⟨t, s, rfl, h⟩
    | _ => cases h
  · rintro (⟨t, rfl⟩ | ⟨t, s, rfl, h⟩)
    · rfl
    · exact h

end Figment
