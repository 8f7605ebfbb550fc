import Verif.Lemmas.From
import Verif.Props.Means
import Verif.Props.Num
/-!
# C68: the accessors of a value, and `Value::from`
-/
namespace Figment

/-! ## Accessors -/

/-- **C68**: an accessor gives the content of a value exactly if the value is of its kind, the kind that errors about the
value name; so for a value at most one of them gives something. -/
theorem C68_kinds (v : Value) :
    (∀ s, v.asStr? = some s ↔ v.toActual = .str s) ∧
    (∀ c, v.toChar? = some c ↔ v.toActual = .char c) ∧
    (∀ b, v.toBool? = some b ↔ v.toActual = .bool b) ∧
    (∀ n, v.toU128 = some n ↔ v.toActual = .unsigned n) ∧
    (∀ n, v.toI128 = some n ↔ v.toActual = .signed n) ∧
    (∀ x, v.toF64 = some x ↔ v.toActual = .float x) ∧
    (∀ n, v.toNum? = some n ↔ v = .num v.tag n) ∧
    (∀ e, v.toEmpty? = some e ↔ v.toActual = e.toActual) ∧
    (∀ d, v.asDict? = some d ↔ v = .dict v.tag d) ∧ (v.asDict?.isSome ↔ v.toActual = .map) ∧
    (∀ a, v.asArray? = some a ↔ v = .array v.tag a) ∧ (v.asArray?.isSome ↔ v.toActual = .seq) := by
  cases v with
  | num t n =>
    cases n <;> simp [Value.asStr?, Value.toChar?, Value.toBool?, Value.toU128, Value.toI128, Value.toF64, Value.toNum?,
      Value.toEmpty?, Value.asDict?, Value.asArray?, Value.toActual, Value.tag, Num.toU128, Num.toI128, Num.toF64,
      Num.toActual] <;> intro e <;> cases e <;> simp [Empty.toActual]
  | empty t e =>
    cases e <;> simp [Value.asStr?, Value.toChar?, Value.toBool?, Value.toU128, Value.toI128, Value.toF64, Value.toNum?,
      Value.toEmpty?, Value.asDict?, Value.asArray?, Value.toActual, Value.tag, Empty.toActual] <;>
      intro e <;> cases e <;> simp
  | string | char | bool | dict | array =>
    simp [Value.asStr?, Value.toChar?, Value.toBool?, Value.toU128, Value.toI128, Value.toF64, Value.toNum?,
      Value.toEmpty?, Value.asDict?, Value.asArray?, Value.toActual, Value.tag] <;>
      (try intro e) <;> (try cases e) <;> simp [Empty.toActual]

/-- **C68**: `to_u128` gives the integer of every unsigned number and of nothing else, `to_i128` that of every signed
number, and `to_f64` gives every floating point number, an `f32` widened. -/
theorem C68_numbers (v : Value) :
    (∀ i, v.toU128 = some i ↔ ∃ t n, v = .num t n ∧ n.isSigned = false ∧ n.intVal = some (i.toNat : Int)) ∧
    (∀ i, v.toI128 = some i ↔ ∃ t n, v = .num t n ∧ n.isSigned = true ∧ n.intVal = some i.toInt) ∧
    (∀ x, v.toF64 = some x ↔ ∃ t, v = .num t (.f64 x) ∨ ∃ y, v = .num t (.f32 y) ∧ x = y.toF64) := by
  by_cases h : ∃ t n, v = .num t n
  · obtain ⟨t, n, rfl⟩ := h
    obtain ⟨_, _, hu, hu', hi, hi', _, _, _⟩ := C42_conversions n
    refine ⟨fun i => ⟨fun h => ⟨t, n, rfl, (hu'.1 (Option.isSome_iff_exists.2 ⟨i, h⟩)).2, hu i h⟩, ?_⟩,
      fun i => ⟨fun h => ⟨t, n, rfl, (hi'.1 (Option.isSome_iff_exists.2 ⟨i, h⟩)).2, hi i h⟩, ?_⟩, fun x => ?_⟩
    · rintro ⟨_, _, h, hs, he⟩
      cases h
      obtain ⟨j, hj⟩ := Option.isSome_iff_exists.1 (hu'.2 ⟨by rw [he]; rfl, hs⟩)
      have := hu j hj
      rw [he, Option.some.injEq, Int.natCast_inj, BitVec.toNat_inj] at this
      rw [this]; exact hj
    · rintro ⟨_, _, h, hs, he⟩
      cases h
      obtain ⟨j, hj⟩ := Option.isSome_iff_exists.1 (hi'.2 ⟨by rw [he]; rfl, hs⟩)
      have := hi j hj
      rw [he, Option.some.injEq, BitVec.toInt_inj] at this
      rw [this]; exact hj
    · constructor
      · intro h
        cases n <;> simp only [Value.toF64, Value.toNum?, Num.toF64, Option.bind_some, reduceCtorEq, Option.some.injEq] at h
        · exact ⟨t, .inr ⟨_, rfl, h.symm⟩⟩
        · exact ⟨t, .inl (by rw [h])⟩
      · rintro ⟨_, h | ⟨y, h, rfl⟩⟩ <;> cases h <;> rfl
  · have hn : v.toNum? = none := by
      cases v <;> first | rfl | exact absurd ⟨_, _, rfl⟩ h
    simp only [Value.toU128, Value.toI128, Value.toF64, hn, Option.bind_none, reduceCtorEq, false_iff]
    refine ⟨fun i hx => ?_, fun i hx => ?_, fun x hx => ?_⟩
    · obtain ⟨t, n, rfl, _⟩ := hx; exact h ⟨_, _, rfl⟩
    · obtain ⟨t, n, rfl, _⟩ := hx; exact h ⟨_, _, rfl⟩
    · obtain ⟨t, rfl | ⟨y, rfl, _⟩⟩ := hx <;> exact h ⟨_, _, rfl⟩

example : (Value.num ⟨3⟩ (.u16 7#16)).toU128 = some 7#128 ∧ (Value.num ⟨3⟩ (.i16 7#16)).toU128 = none ∧
    (Value.num ⟨3⟩ (.i16 (-7))).toI128 = some (-7) ∧ (Value.num ⟨3⟩ (.u16 7#16)).toActual = .unsigned 7#128 := by decide

variable [FloatOps]

/-- **C68**: accessors and deserialisation agree: `to_bool` is what is read as a `bool`, `to_bool_lossy` what a lossy
extraction reads; `as_str` or the one character of `to_char` is what is read as a `String`; what is read as an integer is
what `to_u128` or `to_i128` give, and what `to_f64` gives is what is read as an `f64`. -/
theorem C68_extract (v : Value) (hv : v.WF) :
    (∀ b, v.toBool? = some b ↔ v.deserialize .bool = .ok (.bool b)) ∧
    (∀ b (f : Fig), v.toBoolLossy = some b ↔ Ty.bool.de (De.lossyOf f) v = .ok (.bool b)) ∧
    (∀ s, v.deserialize .string = .ok (.str s) ↔ v.asStr? = some s ∨ ∃ c, v.toChar? = some c ∧ s = [c]) ∧
    (∀ c, v.deserialize .char = .ok (.char c) ↔ v.asStr? = some [c] ∨ v.toChar? = some c) ∧
    (∀ (t : IntTy) i, v.deserialize (.int t) = .ok (.int i) →
      t.min ≤ i ∧ i ≤ t.max ∧ ((∃ n, v.toU128 = some n ∧ (n.toNat : Int) = i) ∨ ∃ n, v.toI128 = some n ∧ n.toInt = i)) ∧
    (∀ x, v.toF64 = some x → v.deserialize .f64 = .ok (.f64 x)) := by
  refine ⟨fun b => ?_, fun b f => ?_, fun s => ?_, fun c => ?_, fun t i h => ?_, fun x h => ?_⟩
  · rw [C63_deserialize .bool rfl v hv]
    constructor
    · intro h
      cases v <;> simp only [Value.toBool?, reduceCtorEq, Option.some.injEq] at h
      subst h
      exact ⟨_, rfl, .inl ⟨_, rfl⟩⟩
    · rintro ⟨_, h, ⟨t, rfl⟩ | ⟨h, _⟩⟩
      · cases h; rfl
      · cases h
  · rw [(C63_value f false .bool rfl v hv nofun _).2, C44_bool]
    constructor
    · intro h
      refine ⟨b, rfl, ?_⟩
      rcases h with h | h | h
      · exact .inl h
      · exact .inr ⟨rfl, .inl h⟩
      · exact .inr ⟨rfl, .inr h⟩
    · rintro ⟨_, h, h1 | ⟨_, h1 | h1⟩⟩ <;> cases h
      · exact .inl h1
      · exact .inr (.inl h1)
      · exact .inr (.inr h1)
  · rw [C63_deserialize .string rfl v hv]
    constructor
    · rintro ⟨_, h, h1⟩
      cases h
      cases v <;> simp only [Value.text?, reduceCtorEq, Option.some.injEq] at h1
      · exact .inl (congrArg some h1)
      · exact .inr ⟨_, rfl, h1.symm⟩
    · rintro (h | ⟨c, h, rfl⟩)
      · refine ⟨s, rfl, ?_⟩
        cases v <;> simp only [Value.asStr?, reduceCtorEq, Option.some.injEq] at h
        subst h; rfl
      · refine ⟨_, rfl, ?_⟩
        cases v <;> simp only [Value.toChar?, reduceCtorEq, Option.some.injEq] at h
        subst h; rfl
  · rw [C63_deserialize .char rfl v hv]
    constructor
    · rintro ⟨_, h, h1⟩
      cases h
      cases v <;> simp only [Value.text?, reduceCtorEq, Option.some.injEq] at h1
      · exact .inl (congrArg some h1)
      · cases h1; exact .inr rfl
    · rintro (h | h)
      · refine ⟨c, rfl, ?_⟩
        cases v <;> simp only [Value.asStr?, reduceCtorEq, Option.some.injEq] at h
        subst h; rfl
      · refine ⟨c, rfl, ?_⟩
        cases v <;> simp only [Value.toChar?, reduceCtorEq, Option.some.injEq] at h
        subst h; rfl
  · rw [C63_deserialize (.int t) rfl v hv] at h
    obtain ⟨_, _, n, j, hn, ⟨hj, _⟩, h0, h1, h2⟩ := h
    cases h2
    rcases hn with ⟨tag, rfl⟩ | ⟨h, _⟩
    · refine ⟨h0, h1, ?_⟩
      obtain ⟨_, _, hu, hu', hi, hi', _, _, _⟩ := C42_conversions n
      cases hs : n.isSigned with
      | false =>
        obtain ⟨k, hk⟩ := Option.isSome_iff_exists.1 (hu'.2 ⟨by rw [hj]; rfl, hs⟩)
        have := hu k hk
        rw [hj, Option.some.injEq] at this
        exact .inl ⟨k, hk, this.symm⟩
      | true =>
        obtain ⟨k, hk⟩ := Option.isSome_iff_exists.1 (hi'.2 ⟨by rw [hj]; rfl, hs⟩)
        have := hi k hk
        rw [hj, Option.some.injEq] at this
        exact .inr ⟨k, hk, this.symm⟩
    · cases h
  · rw [C63_deserialize .f64 rfl v hv]
    obtain ⟨t, rfl | ⟨y, rfl, rfl⟩⟩ := ((C68_numbers v).2.2 x).1 h
    · exact ⟨_, x, .inl ⟨_, rfl⟩, rfl, .inl rfl⟩
    · exact ⟨_, _, .inl ⟨_, rfl⟩, rfl, .inr (.inl ⟨y, rfl, rfl⟩)⟩

example : (Value.num ⟨3⟩ (.i16 7#16)).deserialize (.int .u8) = .ok (.int 7) ∧
    (Value.char ⟨3⟩ 'x').deserialize .string = .ok (.str ['x']) ∧
    Ty.bool.de (De.lossyOf Fig.new) (Value.num ⟨3⟩ (.i16 1#16)) = .ok (.bool true) := ⟨rfl, rfl, rfl⟩

/-! ## `Value::from` -/

omit [FloatOps] in
/-- **C68**: `Value::from` gives a value whose accessors give back the original: for booleans, characters, text, floats
and integers the very same, for vectors and maps the values of the elements, and of the entries. -/
theorem C68_from :
    (∀ b, (Ty.bool.into (.bool b)).toBool? = some b) ∧
    (∀ c, (Ty.char.into (.char c)).toChar? = some c) ∧
    (∀ s, (Ty.string.into (.str s)).asStr? = some s) ∧
    (∀ x, (Ty.f64.into (.f64 x)).toF64 = some x) ∧
    (∀ x, (Ty.f32.into (.f32 x)).toF64 = some x.toF64) ∧
    (∀ (t : IntTy) i, t.min ≤ i → i ≤ t.max →
      if t.min < 0 then ∃ n, ((Ty.int t).into (.int i)).toI128 = some n ∧ n.toInt = i
      else ∃ n, ((Ty.int t).into (.int i)).toU128 = some n ∧ (n.toNat : Int) = i) ∧
    (∀ (t : Ty) l, ∃ a, ((Ty.seq t).into (.seq l)).asArray? = some a ∧ a.length = l.length ∧
      ∀ i : Nat, a[i]? = l[i]?.map t.into) ∧
    (∀ (t : Ty) l, Map.Sorted l → ∃ d, ((Ty.map t).into (.map l)).asDict? = some d ∧ Map.Sorted d ∧
      ∀ k, Map.get k d = (Map.get k l).map t.into) := by
  refine ⟨fun _ => rfl, fun _ => rfl, fun _ => rfl, fun _ => rfl, fun _ => rfl, fun t i h0 h1 => ?_,
    fun t l => ⟨_, rfl, by simp, fun i => by rw [List.getElem?_map]⟩, fun t l h => ?_⟩
  · obtain ⟨hv, hs⟩ := IntTy.into_val h0 h1
    obtain ⟨_, _, hu, hu', hi, hi', _, _, _⟩ := C42_conversions (t.into i)
    split
    · rename_i h
      obtain ⟨k, hk⟩ := Option.isSome_iff_exists.1 (hi'.2 ⟨by rw [hv]; rfl, hs.2 h⟩)
      have := hi k hk
      rw [hv, Option.some.injEq] at this
      exact ⟨k, hk, this.symm⟩
    · rename_i h
      have hf : (t.into i).isSigned = false := by
        cases hc : (t.into i).isSigned with
        | false => rfl
        | true => exact absurd (hs.1 hc) h
      obtain ⟨k, hk⟩ := Option.isSome_iff_exists.1 (hu'.2 ⟨by rw [hv]; rfl, hf⟩)
      have := hu k hk
      rw [hv, Option.some.injEq] at this
      exact ⟨k, hk, this.symm⟩
  · refine ⟨_, rfl, Map.Sorted.ofList _, fun k => ?_⟩
    rw [Map.ofList_map_snd (fun y => t.into y) l h, Map.get_map_snd]

/-- **C68**: `Value::from(x)` and `Value::serialize(x)` succeed and are equal (unless there is a NaN inside), and what is
extracted from `Value::from(x)`, strictly or lossily, from any figment or without one, is `x`. (Reading excepts the 128-bit
integers, which serde does not read, and `Value` itself.) -/
theorem C68_serialize (t : Ty) (ht : t.convertible = true) (x : Val) (hx : t.Has x) :
    (t.into x).WF ∧
    (∃ w, (t.ser x).serialize = .ok w ∧ ((t.into x).noNan = true → (t.into x).same w = true)) ∧
    (t.faithful = true → (t.into x).deserialize t = .ok x ∧
      ∀ f, t.de (De.strict f) (t.into x) = .ok x ∧ t.de (De.lossyOf f) (t.into x) = .ok x) := by
  obtain ⟨hw, hs⟩ := Ty.into_ser t ht x hx
  refine ⟨hw, ⟨_, hs, fun hn => ?_⟩, fun hf => ?_⟩
  · rw [Value.same_symm, Value.same_norm, Value.same_refl, hn]
  · have hp := Ty.convertible_proper t ht hf
    refine ⟨(C63_deserialize t hp _ hw x).2 (Ty.into_means _ _ t ht hf x hx), fun f => ?_⟩
    obtain ⟨h1, h2⟩ := C63_value f false t hp _ hw nofun x
    exact ⟨h1.2 (Ty.into_means _ _ t ht hf x hx), h2.2 (Ty.into_means _ _ t ht hf x hx)⟩

/-- A map of vectors of `usize`. -/
def Ex.fromTy : Ty := .map (.seq (.int .usize))
def Ex.fromVal : Val := .map [(str "a", .seq [.int 1, .int 300]), (str "b", .seq [])]

omit [FloatOps] in
example : Ex.fromTy.convertible = true ∧ Ex.fromTy.faithful = true ∧ Ex.fromTy.Has Ex.fromVal := by
  refine ⟨rfl, rfl, _, rfl, by decide, ?_⟩
  simp only [List.forall_mem_cons, List.not_mem_nil, false_imp_iff, implies_true, and_true]
  refine ⟨⟨_, rfl, ?_⟩, ⟨_, rfl, nofun⟩⟩
  simp only [List.forall_mem_cons, List.not_mem_nil, false_imp_iff, implies_true, and_true]
  exact ⟨⟨_, rfl, by decide, by decide⟩, ⟨_, rfl, by decide, by decide⟩⟩

example : (Ex.fromTy.into Ex.fromVal).deserialize Ex.fromTy = .ok Ex.fromVal ∧
    (Ex.fromTy.ser Ex.fromVal).serialize ≠ .ok (Ex.fromTy.into Ex.fromVal) ∧
    (Ex.fromTy.into Ex.fromVal).noNan = true := ⟨rfl, by
      intro h
      have : (.ok (Value.dict ⟨0⟩ [(str "a", .array ⟨0⟩ [.num ⟨0⟩ (.u64 1), .num ⟨0⟩ (.u64 300)]), (str "b", .array ⟨0⟩ [])]) :
        Except Error Value) = .ok (Value.dict ⟨0⟩ [(str "a", .array ⟨0⟩ [.num ⟨0⟩ (.usize 1), .num ⟨0⟩ (.usize 300)]), (str "b", .array ⟨0⟩ [])]) := h
      simp at this, rfl⟩

end Figment
