import Verif.Lemmas.Equal
import Verif.Props.Value
import Verif.Model.Error
/-!
# C42, C59, C73: what equality of numbers, values, sources, metadata and errors means
-/
namespace Figment

/-! ## C42 -/

/-- **C42**: the conversion of an `f32` to an `f64` changes nothing about the number, and floating point numbers are
equal as in IEEE 754. -/
theorem C42_widen (x : F32) (y z : F64) :
    (F32.toF64 x).val = x.val ∧ (F64.eq y z = true ↔ y.val.Equal z.val) :=
  ⟨F32.toF64_val x, F64.eq_iff y z⟩

/-- **C42**: what a number is found to be, in an error, and what it is as an `f64`: the same number. -/
theorem C42_float (x : Num) (v : FloatVal) (h : x.floatVal = some v) :
    ∃ y : F64, x.toF64 = some y ∧ x.toActual = .float y ∧ y.val = v := by
  cases x <;> simp only [Num.floatVal, Option.some.injEq, reduceCtorEq] at h
  · exact ⟨_, rfl, rfl, (F32.toF64_val _).trans h⟩
  · exact ⟨_, rfl, rfl, h⟩

-- the smallest positive `f32`; 1.5; 0 and -0; not a number
example : F32.toF64 1#32 = 0x36a0000000000000#64 ∧ F32.toF64 0x3fc00000#32 = 0x3ff8000000000000#64 := by decide
example : F64.val 0x8000000000000000#64 = .fin true 0 ∧ F64.val 0#64 = .fin false 0 := ⟨rfl, rfl⟩
example : F32.val 0x7fc00000#32 = .nan ∧ F32.val 0xff800000#32 = .inf true := ⟨rfl, rfl⟩

/-- **C42**: numbers are equal exactly if both are unsigned, or both signed, and the same integer, whatever their widths,
or both floating point and equal as these. -/
theorem C42_meaning (a b : Num) : a.same b = true ↔ a.Equal b := by
  cases ha : a.intVal with
  | some i =>
    rw [(C42_equality a b i ha).2.2]
    constructor
    · rintro ⟨hb, hs⟩
      exact .int hs.symm ha hb
    · intro h
      cases h with
      | int hs ha' hb =>
        rw [ha] at ha'
        cases ha'
        exact ⟨hb, hs.symm⟩
      | float ha' => cases a <;> first | (cases ha'; done) | cases ha
  | none =>
    cases hb : b.intVal with
    | some j =>
      rw [Num.same_symm, (C42_equality b a j hb).2.2, ha]
      constructor
      · rintro ⟨h, _⟩; cases h
      · intro h
        cases h with
        | int _ ha' _ => rw [ha] at ha'; cases ha'
        | float _ hb' => cases b <;> first | (cases hb'; done) | cases hb
    | none =>
      have flt : ∀ z : Num, z.intVal = none → ∃ v, z.floatVal = some v := by
        intro z hz
        cases z <;> first | (cases hz; done) | exact ⟨_, rfl⟩
      obtain ⟨v, hv⟩ := flt a ha
      obtain ⟨w, hw⟩ := flt b hb
      obtain ⟨x, _, hx, hxv⟩ := C42_float a v hv
      obtain ⟨y, _, hy, hyw⟩ := C42_float b w hw
      rw [Num.same, hx, hy]
      change F64.eq x y = true ↔ _
      rw [F64.eq_iff, hxv, hyw]
      constructor
      · exact fun h => .float hv hw h
      · intro h
        cases h with
        | int _ ha' _ => rw [ha] at ha'; cases ha'
        | float ha' hb' h =>
          rw [hv] at ha'; rw [hw] at hb'
          cases ha'; cases hb'
          exact h

example : (Num.f32 0x3fc00000#32).same (.f64 0x3ff8000000000000#64) = true := by decide
example : (Num.f32 0#32).same (.f64 0x8000000000000000#64) = true ∧
    (Num.f32 0#32).same (.u8 0#8) = false ∧ (Num.i8 1#8).same (.u8 1#8) = false := by decide

/-! ## C59 -/

namespace Value
mutual
theorem same_iff : ∀ v w : Value, v.same w = true ↔ v.Equal w
  | .string t a, w => by
    cases w
    case string u b => exact ⟨fun h => eq_of_beq h ▸ .string t u a, fun h => by cases h; exact beq_self_eq_true a⟩
    all_goals exact ⟨nofun, nofun⟩
  | .char t a, w => by
    cases w
    case char u b => exact ⟨fun h => eq_of_beq h ▸ .char t u a, fun h => by cases h; exact beq_self_eq_true a⟩
    all_goals exact ⟨nofun, nofun⟩
  | .bool t a, w => by
    cases w
    case bool u b => exact ⟨fun h => eq_of_beq h ▸ .bool t u a, fun h => by cases h; exact beq_self_eq_true a⟩
    all_goals exact ⟨nofun, nofun⟩
  | .empty t a, w => by
    cases w
    case empty u b => exact ⟨fun h => eq_of_beq h ▸ .empty t u a, fun h => by cases h; exact beq_self_eq_true a⟩
    all_goals exact ⟨nofun, nofun⟩
  | .num t a, w => by
    cases w
    case num u b =>
      exact ⟨fun h => .num t u ((C42_meaning a b).1 h), fun h => by cases h; rename_i h; exact (C42_meaning a b).2 h⟩
    all_goals exact ⟨nofun, nofun⟩
  | .dict t a, w => by
    cases w
    case dict u b =>
      refine ⟨fun h => ?_, fun h => ?_⟩
      · exact .dict t u ((sameD_iff a b).1 h).1 ((sameD_iff a b).1 h).2
      · cases h
        rename_i h1 h2
        exact (sameD_iff a b).2 ⟨h1, h2⟩
    all_goals exact ⟨nofun, nofun⟩
  | .array t a, w => by
    cases w
    case array u b =>
      refine ⟨fun h => ?_, fun h => ?_⟩
      · exact .array t u ((sameA_iff a b).1 h).1 ((sameA_iff a b).1 h).2
      · cases h
        rename_i h1 h2
        exact (sameA_iff a b).2 ⟨h1, h2⟩
    all_goals exact ⟨nofun, nofun⟩
theorem sameD_iff : ∀ a b : List (Str × Value), sameD a b = true ↔ a.map (·.1) = b.map (·.1) ∧
      ∀ (i : Nat) v w, a[i]? = some v → b[i]? = some w → v.2.Equal w.2
  | [], b => by
    cases b with
    | nil => exact ⟨fun _ => ⟨rfl, nofun⟩, fun _ => rfl⟩
    | cons e b => exact ⟨nofun, fun h => nomatch h.1⟩
  | (k, v) :: a, b => by
    cases b with
    | nil => exact ⟨nofun, fun h => nomatch h.1⟩
    | cons e b =>
      obtain ⟨k', v'⟩ := e
      rw [sameD, Bool.and_eq_true, Bool.and_eq_true, beq_iff_eq, same_iff v v', sameD_iff a b]
      constructor
      · rintro ⟨⟨h1, h2⟩, h3, h4⟩
        refine ⟨by rw [List.map_cons, List.map_cons, h3, h1], fun i x y hx hy => ?_⟩
        cases i with
        | zero => cases hx; cases hy; exact h2
        | succ i => exact h4 i x y hx hy
      · rintro ⟨h1, h2⟩
        rw [List.map_cons, List.map_cons, List.cons.injEq] at h1
        exact ⟨⟨h1.1, h2 0 (k, v) (k', v') rfl rfl⟩, h1.2, fun i x y hx hy => h2 (i + 1) x y hx hy⟩
theorem sameA_iff : ∀ a b : List Value, sameA a b = true ↔ a.length = b.length ∧
      ∀ (i : Nat) v w, a[i]? = some v → b[i]? = some w → v.Equal w
  | [], b => by
    cases b with
    | nil => exact ⟨fun _ => ⟨rfl, nofun⟩, fun _ => rfl⟩
    | cons e b => exact ⟨nofun, fun h => nomatch h.1⟩
  | v :: a, b => by
    cases b with
    | nil => exact ⟨nofun, fun h => nomatch h.1⟩
    | cons v' b =>
      rw [sameA, Bool.and_eq_true, same_iff v v', sameA_iff a b]
      constructor
      · rintro ⟨h2, h3, h4⟩
        refine ⟨by rw [List.length_cons, List.length_cons, h3], fun i x y hx hy => ?_⟩
        cases i with
        | zero => cases hx; cases hy; exact h2
        | succ i => exact h4 i x y hx hy
      · rintro ⟨h1, h2⟩
        rw [List.length_cons, List.length_cons, Nat.add_right_cancel_iff] at h1
        exact ⟨h2 0 v v' rfl rfl, h1, fun i x y hx hy => h2 (i + 1) x y hx hy⟩
end
end Value

/-- **C59**: two values are equal exactly if they are of the same kind and have the same content, at every depth; tags
play no role. -/
theorem C59_meaning (v w : Value) : v.same w = true ↔ v.Equal w := Value.same_iff v w

example : (Value.array ⟨7⟩ [.num ⟨8⟩ (.u8 1#8), .string ⟨9⟩ (str "a")]).same
    (.array ⟨1⟩ [.num ⟨2⟩ (.u64 1#64), .string ⟨3⟩ (str "a")]) = true := by decide
example : (Value.dict ⟨7⟩ [(str "a", .bool ⟨8⟩ true)]).same (.dict ⟨7⟩ [(str "b", .bool ⟨8⟩ true)]) = false := by decide

/-! ## C73 -/

theorem Actual.same_iff (a b : Actual) : a.same b = true ↔ a.Equal b := by
  constructor
  · intro h
    by_cases hf : ∃ x y, a = .float x ∧ b = .float y
    · obtain ⟨x, y, rfl, rfl⟩ := hf
      exact .float ((F64.eq_iff x y).1 h)
    · have h' : a = b := by
        unfold Actual.same at h
        split at h
        · exact absurd ⟨_, _, rfl, rfl⟩ hf
        · exact of_decide_eq_true h
      subst h'
      exact .refl _ fun x hx => hf ⟨x, x, hx, hx⟩
  · intro h
    cases h with
    | refl _ h =>
      unfold Actual.same
      split
      · exact absurd rfl (h _)
      · exact decide_eq_true rfl
    | float h => exact (F64.eq_iff _ _).2 h

/-- **C73**: kinds of errors are equal exactly if they are the same, with numbers found compared as numbers. -/
theorem C73_kind (a b : Kind) : a.same b = true ↔ a.Equal b := by
  constructor
  · intro h
    unfold Kind.same at h
    split at h
    · rw [Bool.and_eq_true, beq_iff_eq] at h
      obtain ⟨h1, rfl⟩ := h
      exact .type _ ((Actual.same_iff _ _).1 h1)
    · rw [Bool.and_eq_true, beq_iff_eq] at h
      obtain ⟨h1, rfl⟩ := h
      exact .value _ ((Actual.same_iff _ _).1 h1)
    · exact .unsupported ((Actual.same_iff _ _).1 h)
    · rw [Bool.and_eq_true, beq_iff_eq] at h
      obtain ⟨h1, rfl⟩ := h
      exact .key _ ((Actual.same_iff _ _).1 h1)
    · rename_i h1 h2 h3 h4
      have := of_decide_eq_true h
      subst this
      exact .refl _ fun c x => ⟨fun e => h1 c x c x e e, fun e => h2 c x c x e e, fun e => h3 c c e e,
        fun e => h4 c x c x e e⟩
  · intro h
    cases h with
    | refl _ h =>
      unfold Kind.same
      split
      · exact absurd rfl (h _ _).1
      · exact absurd rfl (h _ _).2.1
      · exact absurd rfl (h _ []).2.2.1
      · exact absurd rfl (h _ _).2.2.2
      · exact decide_eq_true rfl
    | type x h => simp [Kind.same, (Actual.same_iff _ _).2 h]
    | value x h => simp [Kind.same, (Actual.same_iff _ _).2 h]
    | unsupported h => simp [Kind.same, (Actual.same_iff _ _).2 h]
    | key x h => simp [Kind.same, (Actual.same_iff _ _).2 h]

/-- **C73**: sources are equal exactly if they are of the same kind and equal paths, locations or texts. -/
theorem C73_source (a b : Source) : a.same b = true ↔ a.Equal b := by
  constructor
  · intro h
    cases a <;> cases b <;> simp only [Source.same, beq_iff_eq, Bool.false_eq_true] at h
    · exact .file ((components_same _ _).1 h)
    · subst h; exact .code _
    · subst h; exact .custom _
  · intro h
    cases h with
    | file h => simp only [Source.same, beq_iff_eq]; exact (components_same _ _).2 h
    | code l => simp only [Source.same, beq_iff_eq]
    | custom s => simp only [Source.same, beq_iff_eq]

/-- Two options compared. -/
theorem both_iff {α : Type} {f : α → α → Bool} {r : α → α → Prop} (h : ∀ a b, f a b = true ↔ r a b) (a b : Option α) :
    sameOption f a b = true ↔ Both r a b := by
  cases a <;> cases b
  · exact ⟨fun _ => .none, fun _ => rfl⟩
  · exact ⟨nofun, nofun⟩
  · exact ⟨nofun, nofun⟩
  · exact ⟨fun e => .some ((h _ _).1 e), fun e => by cases e; rename_i e; exact (h _ _).2 e⟩

/-- **C73**: metadata is equal exactly if its names are the same and its sources equal: neither the interpolater nor the
location where it was provided matters. -/
theorem C73_metadata (a b : Metadata) : a.same b = true ↔ a.Equal b := by
  unfold Metadata.same Metadata.Equal
  rw [Bool.and_eq_true, beq_iff_eq]
  exact and_congr_right fun _ => both_iff C73_source _ _

theorem Error.sameHead_iff (a b : ErrorHead) : Error.sameHead a b = true ↔ a.Equal b := by
  unfold Error.sameHead
  simp only [Bool.and_eq_true, beq_iff_eq]
  rw [both_iff (r := fun p q => p.name.lower = q.name.lower) (fun p q => by simp [Profile.same, Str.uncasedEq]),
    both_iff C73_metadata, C73_kind, Tag.same, beq_iff_eq]
  exact ⟨fun ⟨⟨⟨⟨h1, h2⟩, h3⟩, h4⟩, h5⟩ => ⟨h1, h2, h3, h4, h5⟩, fun ⟨h1, h2, h3, h4, h5⟩ => ⟨⟨⟨⟨h1, h2⟩, h3⟩, h4⟩, h5⟩⟩

/-- **C73**: errors are equal exactly if their chains are, one by one: of values with the same tag, profiles that differ
in case only, equal metadata, the same path, equal kinds. -/
theorem C73_error (a b : Error) : a.same b = true ↔ a.Equal b := by
  induction a generalizing b with
  | last h =>
    cases b with
    | last k =>
      rw [Error.same, Error.sameHead_iff]
      constructor
      · refine fun e => ⟨rfl, fun i x y hx hy => ?_⟩
        cases i with
        | zero => cases hx; cases hy; exact e
        | succ i => cases hx
      · exact fun e => e.2 0 h k rfl rfl
    | cons k q =>
      refine ⟨nofun, fun e => ?_⟩
      have := e.1
      cases q <;> simp [Error.heads] at this
  | cons h p ih =>
    cases b with
    | last k =>
      refine ⟨nofun, fun e => ?_⟩
      have := e.1
      cases p <;> simp [Error.heads] at this
    | cons k q =>
      rw [Error.same, Bool.and_eq_true, Error.sameHead_iff, ih]
      constructor
      · rintro ⟨e, el, er⟩
        refine ⟨by simp only [Error.heads, List.length_cons, el], fun i x y hx hy => ?_⟩
        cases i with
        | zero => cases hx; cases hy; exact e
        | succ i => exact er i x y hx hy
      · rintro ⟨el, er⟩
        exact ⟨er 0 h k rfl rfl, by simpa [Error.heads] using el, fun i x y hx hy => er (i + 1) x y hx hy⟩

/-- The error was caused by a number that is not a number. -/
def Kind.foundNan (k : Kind) : Prop :=
  ∃ (x : F64) (e : Str), x.val = .nan ∧
    (k = .invalidType (.float x) e ∨ k = .invalidValue (.float x) e ∨ k = .unsupported (.float x) ∨
      k = .unsupportedKey (.float x) e)

theorem Kind.same_refl (k : Kind) : k.same k = true ↔ ¬ k.foundNan := by
  have act : ∀ a : Actual, a.same a = true ↔ ∀ x, a = .float x → x.val ≠ .nan := by
    intro a
    cases a
    case float x =>
      change F64.eq x x = true ↔ _
      rw [F64.eq_refl, Bool.not_eq_true']
      constructor
      · intro h y hy hv
        cases hy
        rw [(F64.val_nan _).1 hv] at h
        cases h
      · intro h
        cases hc : F64.isNan x with
        | false => rfl
        | true => exact absurd ((F64.val_nan x).2 hc) (h x rfl)
    all_goals exact ⟨fun _ => nofun, fun _ => by simp [Actual.same]⟩
  cases k
  case invalidType a e =>
    rw [Kind.same, Bool.and_eq_true, act]
    refine ⟨fun ⟨h, _⟩ ⟨x, e', hx, h'⟩ => ?_, fun h => ⟨fun x hx hv => h ⟨x, e, hv, .inl (by rw [hx])⟩, beq_self_eq_true _⟩⟩
    rcases h' with h' | h' | h' | h' <;> cases h'
    exact h x rfl hx
  case invalidValue a e =>
    rw [Kind.same, Bool.and_eq_true, act]
    refine ⟨fun ⟨h, _⟩ ⟨x, e', hx, h'⟩ => ?_,
      fun h => ⟨fun x hx hv => h ⟨x, e, hv, .inr (.inl (by rw [hx]))⟩, beq_self_eq_true _⟩⟩
    rcases h' with h' | h' | h' | h' <;> cases h'
    exact h x rfl hx
  case unsupported a =>
    rw [Kind.same, act]
    refine ⟨fun h ⟨x, e', hx, h'⟩ => ?_, fun h x hx hv => h ⟨x, [], hv, .inr (.inr (.inl (by rw [hx])))⟩⟩
    rcases h' with h' | h' | h' | h' <;> cases h'
    exact h x rfl hx
  case unsupportedKey a e =>
    rw [Kind.same, Bool.and_eq_true, act]
    refine ⟨fun ⟨h, _⟩ ⟨x, e', hx, h'⟩ => ?_,
      fun h => ⟨fun x hx hv => h ⟨x, e, hv, .inr (.inr (.inr (by rw [hx])))⟩, beq_self_eq_true _⟩⟩
    rcases h' with h' | h' | h' | h' <;> cases h'
    exact h x rfl hx
  all_goals
    refine ⟨fun _ ⟨x, e, _, h⟩ => ?_, fun _ => decide_eq_true rfl⟩
    rcases h with h | h | h | h <;> cases h

theorem FloatVal.Equal.symm {x y : FloatVal} (h : x.Equal y) : y.Equal x := by
  cases h with
  | inf s => exact .inf s
  | fin s n => exact .fin s n
  | zero s t => exact .zero t s

theorem FloatVal.Equal.trans {x y z : FloatVal} (h : x.Equal y) (h' : y.Equal z) : x.Equal z := by
  cases h with
  | inf s => exact h'
  | fin s n => exact h'
  | zero s t =>
    cases h' with
    | fin => exact .zero s t
    | zero _ u => exact .zero s u

theorem Actual.Equal.symm {x y : Actual} (h : x.Equal y) : y.Equal x := by
  cases h with
  | refl _ h => exact .refl _ h
  | float h => exact .float h.symm

theorem Actual.Equal.trans {x y z : Actual} (h : x.Equal y) (h' : y.Equal z) : x.Equal z := by
  cases h with
  | refl _ h => exact h'
  | float h =>
    cases h' with
    | refl _ h'' => exact absurd rfl (h'' _)
    | float h' => exact .float (h.trans h')

theorem Kind.Equal.symm {x y : Kind} (h : x.Equal y) : y.Equal x := by
  cases h with
  | refl _ h => exact .refl _ h
  | type x h => exact .type x h.symm
  | value x h => exact .value x h.symm
  | unsupported h => exact .unsupported h.symm
  | key x h => exact .key x h.symm

theorem Kind.Equal.trans {x y z : Kind} (h : x.Equal y) (h' : y.Equal z) : x.Equal z := by
  cases h with
  | refl _ h => exact h'
  | type x h =>
    cases h' with
    | refl _ h'' => exact absurd rfl (h'' _ _).1
    | type _ h' => exact .type x (h.trans h')
  | value x h =>
    cases h' with
    | refl _ h'' => exact absurd rfl (h'' _ _).2.1
    | value _ h' => exact .value x (h.trans h')
  | unsupported h =>
    cases h' with
    | refl _ h'' => exact absurd rfl (h'' _ []).2.2.1
    | unsupported h' => exact .unsupported (h.trans h')
  | key x h =>
    cases h' with
    | refl _ h'' => exact absurd rfl (h'' _ _).2.2.2
    | key _ h' => exact .key x (h.trans h')

theorem Both.symm {α : Type} {r : α → α → Prop} (hr : ∀ a b, r a b → r b a) {a b : Option α} (h : Both r a b) :
    Both r b a := by
  cases h with
  | none => exact .none
  | some h => exact .some (hr _ _ h)

theorem Both.trans {α : Type} {r : α → α → Prop} (hr : ∀ a b c, r a b → r b c → r a c) {a b c : Option α}
    (h : Both r a b) (h' : Both r b c) : Both r a c := by
  cases h with
  | none => exact h'
  | some h => cases h' with | some h' => exact .some (hr _ _ _ h h')

theorem Both.refl {α : Type} {r : α → α → Prop} (hr : ∀ a, r a a) (a : Option α) : Both r a a := by
  cases a with
  | none => exact .none
  | some a => exact .some (hr a)

theorem Source.Equal.symm {a b : Source} (h : a.Equal b) : b.Equal a := by
  cases h with
  | file h => exact .file ⟨h.1.symm, h.2.1.symm, h.2.2.symm⟩
  | code l => exact .code l
  | custom s => exact .custom s

theorem Source.Equal.trans {a b c : Source} (h : a.Equal b) (h' : b.Equal c) : a.Equal c := by
  cases h with
  | file h =>
    cases h' with
    | file h' => exact .file ⟨h.1.trans h'.1, h.2.1.trans h'.2.1, h.2.2.trans h'.2.2⟩
  | code l => exact h'
  | custom s => exact h'

theorem Source.Equal.refl (a : Source) : a.Equal a := by
  cases a with
  | file p => exact .file ⟨.rfl, .rfl, rfl⟩
  | code l => exact .code l
  | custom s => exact .custom s

/-- **C73**: equality of metadata is an equivalence. -/
theorem C73_metadata_equivalence (a b c : Metadata) :
    a.same a = true ∧ (a.same b = b.same a) ∧ (a.same b = true → b.same c = true → a.same c = true) := by
  have sym : ∀ a b : Metadata, a.same b = true → b.same a = true := fun a b h => by
    rw [C73_metadata] at h ⊢
    exact ⟨h.1.symm, h.2.symm fun _ _ e => Source.Equal.symm e⟩
  refine ⟨(C73_metadata a a).2 ⟨rfl, .refl Source.Equal.refl _⟩, Bool.eq_iff_iff.2 ⟨sym a b, sym b a⟩, fun h h' => ?_⟩
  rw [C73_metadata] at h h' ⊢
  exact ⟨h.1.trans h'.1, Both.trans (r := Source.Equal) (fun _ _ _ e e' => e.trans e') h.2 h'.2⟩

/-- **C73**: equality of errors is symmetric and transitive, and an error is equal to itself unless it, or one of its
chain, was caused by a number that is not a number. -/
theorem C73_equivalence (a b c : Error) :
    (a.same b = b.same a) ∧ (a.same b = true → b.same c = true → a.same c = true) ∧
    (a.same a = true ↔ ∀ h ∈ a.heads, ¬ h.kind.foundNan) := by
  have hsym : ∀ {x y : ErrorHead}, x.Equal y → y.Equal x := fun h =>
    ⟨h.tag.symm, h.profile.symm fun _ _ => Eq.symm,
      h.metadata.symm fun _ _ e => ⟨e.1.symm, e.2.symm fun _ _ e => Source.Equal.symm e⟩, h.path.symm, h.kind.symm⟩
  have htrans : ∀ {x y z : ErrorHead}, x.Equal y → y.Equal z → x.Equal z := fun h h' =>
    ⟨h.tag.trans h'.tag, Both.trans (r := fun p q : Profile => p.name.lower = q.name.lower)
        (fun _ _ _ e e' => e.trans e') h.profile h'.profile,
      h.metadata.trans (fun _ _ _ e e' =>
        ⟨e.1.trans e'.1, Both.trans (r := Source.Equal) (fun _ _ _ e e' => e.trans e') e.2 e'.2⟩) h'.metadata,
      h.path.trans h'.path, h.kind.trans h'.kind⟩
  have sym : ∀ a b : Error, a.same b = true → b.same a = true := by
    intro a b h
    rw [C73_error] at h ⊢
    exact ⟨h.1.symm, fun i x y hx hy => hsym (h.2 i y x hy hx)⟩
  refine ⟨Bool.eq_iff_iff.2 ⟨sym a b, sym b a⟩, fun h h' => ?_, ?_⟩
  · rw [C73_error] at h h' ⊢
    refine ⟨h.1.trans h'.1, fun i x z hx hz => ?_⟩
    have hi : i < b.heads.length := by
      rw [← h.1]
      exact (List.getElem?_eq_some_iff.1 hx).1
    exact htrans (h.2 i x _ hx (List.getElem?_eq_getElem hi)) (h'.2 i _ z (List.getElem?_eq_getElem hi) hz)
  · rw [C73_error]
    constructor
    · intro h x hx
      obtain ⟨i, hi⟩ := List.getElem?_of_mem hx
      exact (Kind.same_refl _).1 ((C73_kind _ _).2 (h.2 i x x hi hi).kind)
    · refine fun h => ⟨rfl, fun i x y hx hy => ?_⟩
      rw [hx] at hy
      cases hy
      exact ⟨rfl, .refl (r := fun p q : Profile => p.name.lower = q.name.lower) (fun _ => rfl) _,
        .refl (fun _ => ⟨rfl, .refl Source.Equal.refl _⟩) _, rfl,
        (C73_kind _ _).1 ((Kind.same_refl _).2 (h x (List.mem_of_getElem? hx)))⟩

-- the same file, written in another way; a file that is another one; a location in the code
example : (Source.file (str "/a//b/./c/")).same (.file (str "/a/b/c")) = true ∧
    (Source.file (str "./a")).same (.file (str "a")) = false ∧
    (Source.file (str "a/../b")).same (.file (str "b")) = false ∧
    (Source.file (str "a")).same (.custom (str "a")) = false := by decide
example : PathEqual (str "/a//b/./c/") (str "/a/b/c") := (components_same _ _).1 (by decide)
example : (Kind.invalidType (.float 0#64) (str "a")).same (.invalidType (.float 0x8000000000000000#64) (str "a")) = true ∧
    (Kind.invalidType (.unsigned 1#128) (str "a")).same (.invalidType (.signed 1#128) (str "a")) = false := by decide
example : (Kind.invalidType (.float 0x7ff8000000000000#64) (str "a")).foundNan := ⟨_, _, rfl, .inl rfl⟩
example : ((Error.ofKind (.message (str "a"))).chain (Error.ofKind (.message (str "b")))).same
    ((Error.ofKind (.message (str "a"))).chain (Error.ofKind (.message (str "b")))) = true ∧
    ((Error.ofKind (.message (str "a"))).chain (Error.ofKind (.message (str "b")))).same
    (Error.ofKind (.message (str "a"))) = false := by decide

end Figment
