import Verif.Lemmas.Same
import Verif.Lemmas.Means
import Verif.Model.From
/-!
# Lemmas: conversions into values
-/
namespace Figment

theorem Map.ofList_map_snd {α β : Type} (g : α → β) (l : List (Str × α)) (h : Map.Sorted l) :
    Map.ofList (l.map fun e => (e.1, g e.2)) = l.map fun e => (e.1, g e.2) := by
  apply Map.ofList_sorted
  exact sorted_of_keys (l := l) (by simp) h

theorem IntTy.into_fixed (t : IntTy) (n : Int) : (t.into n).fixed = t.num n := by
  cases t <;> rfl

theorem Value.normA_eq (a : List Value) : normA a = a.map norm := by
  induction a with
  | nil => rfl
  | cons v r ih => simp [normA, ih]

theorem IntTy.into_val {t : IntTy} {n : Int} (h0 : t.min ≤ n) (h1 : n ≤ t.max) :
    (t.into n).intVal = some n ∧ ((t.into n).isSigned = true ↔ t.min < 0) := by
  cases t <;> simp only [IntTy.min, IntTy.max] at h0 h1 <;> simp only [IntTy.into, Num.intVal, Num.isSigned, IntTy.min]
  all_goals first
    | exact ⟨congrArg some (BitVec.toNat_ofInt_of (by omega) (by omega)), by decide⟩
    | refine ⟨congrArg some ?_, by decide⟩
      rw [BitVec.toInt_ofInt, Int.bmod_eq_of_le (by omega) (by omega)]

theorem IntTy.into_width (t : IntTy) (n : Int) (hu : t ≠ .u128) (hi : t ≠ .i128) : (t.into n).width ≠ some 128 := by
  cases t <;> first | exact absurd rfl hu | exact absurd rfl hi | (simp [IntTy.into, Num.width])

/-- What `Value::from` gives is what serialising gives, but for `usize` and `isize`. -/
theorem Ty.into_ser : (t : Ty) → t.convertible = true → ∀ x, t.Has x →
    (t.into x).WF ∧ (t.ser x).serialize = .ok (t.into x).norm
  | .bool, _, _, ⟨b, rfl⟩ => ⟨rfl, rfl⟩
  | .int t, _, _, ⟨n, rfl, _, _⟩ => by
    refine ⟨rfl, ?_⟩
    show Except.ok (Value.ofNum (t.num n)) = .ok (Value.num Tag.Default (t.into n).fixed)
    rw [IntTy.into_fixed]; rfl
  | .f32, _, _, ⟨_, rfl⟩ => ⟨rfl, rfl⟩
  | .f64, _, _, ⟨_, rfl⟩ => ⟨rfl, rfl⟩
  | .char, _, _, ⟨_, rfl⟩ => ⟨rfl, rfl⟩
  | .string, _, _, ⟨_, rfl⟩ => ⟨rfl, rfl⟩
  | .value, _, _, ⟨v, rfl, hv⟩ => ⟨hv, Value.serialize_ser v hv⟩
  | .seq t, ht, _, ⟨l, rfl, hl⟩ => by
    have ih := fun y hy => Ty.into_ser t ht y (hl y hy)
    refine ⟨Value.wf_array.2 fun w hw => ?_, ?_⟩
    · obtain ⟨y, hy, rfl⟩ := List.mem_map.1 hw
      exact (ih y hy).1
    · have : Ser.serializeSeq (l.map fun x => t.ser x) = .ok ((l.map fun x => t.into x).map Value.norm) := by
        clear hl
        induction l with
        | nil => rfl
        | cons y r ihl =>
          simp only [List.map_cons, Ser.serializeSeq]
          rw [(ih y (List.mem_cons_self ..)).2, ihl fun z hz => ih z (List.mem_cons_of_mem _ hz)]
      show Ser.serialize (.seq (l.map fun x => t.ser x)) = .ok (Value.array Tag.Default (Value.normA (l.map fun x => t.into x)))
      rw [Ser.serialize, this, Value.normA_eq]
      rfl
  | .map t, ht, _, ⟨l, rfl, hs, hl⟩ => by
    have ih := fun e he => Ty.into_ser t ht (Prod.snd e) (hl e he)
    have hsrt : Map.Sorted (l.map fun e => (e.1, t.into e.2)) := sorted_of_keys (l := l) (by simp) hs
    have hm : Map.ofList (l.map fun e => (e.1, t.into e.2)) = l.map fun e => (e.1, t.into e.2) := Map.ofList_sorted hsrt
    have e : (Ty.map t).into (.map l) = .ofDict (l.map fun e => (e.1, t.into e.2)) := by
      rw [Ty.into, hm]
    rw [e]
    refine ⟨Value.wf_dict.2 ⟨hsrt, fun w hw => ?_⟩, ?_⟩
    · obtain ⟨y, hy, rfl⟩ := List.mem_map.1 hw
      exact (ih y hy).1
    · have : Ser.serializeMap (l.map fun e => (Ser.str e.1, t.ser e.2)) =
          .ok ((l.map fun e => (e.1, t.into e.2)).map fun e => (e.1, e.2.norm)) := by
        clear hl hs hsrt hm e
        induction l with
        | nil => rfl
        | cons y r ihl =>
          simp only [List.map_cons, Ser.serializeMap, Ser.serialize]
          rw [(ih y (List.mem_cons_self ..)).2, ihl fun z hz => ih z (List.mem_cons_of_mem _ hz)]
          rfl
      show Ser.serialize (.map (l.map fun e => (Ser.str e.1, t.ser e.2))) =
        .ok (Value.dict Tag.Default (Value.normD (l.map fun e => (e.1, t.into e.2))))
      rw [Ser.serialize, this, Value.normD_eq]
      show Except.ok (Value.ofDict (Map.ofList _)) = _
      rw [Map.ofList_sorted (sorted_of_keys (l := l) (by simp) hs)]
      rfl

theorem Ty.convertible_proper : (t : Ty) → t.convertible = true → t.faithful = true → t.proper false = true
  | .bool, _, _ | .int _, _, _ | .f32, _, _ | .f64, _, _ | .char, _, _ | .string, _, _ => rfl
  | .seq t, h, h' => Ty.convertible_proper t h h'
  | .map t, h, h' => Ty.convertible_proper t h h'

variable [FloatOps]

/-- What `Value::from` gives means the thing it was made from. -/
theorem Ty.into_means (lossy : Bool) (file : Tag → Option Str) : (t : Ty) → t.convertible = true → t.faithful = true →
    ∀ x, t.Has x → t.Means lossy file (t.into x) x
  | .bool, _, _, _, ⟨b, rfl⟩ => ⟨b, rfl, .inl ⟨_, rfl⟩⟩
  | .int t, _, hf, _, ⟨n, rfl, h0, h1⟩ => by
    have hf' : t ≠ .u128 ∧ t ≠ .i128 := by
      have : (t != .u128 && t != .i128) = true := hf
      simpa using this
    exact ⟨hf'.1, hf'.2, t.into n, n, .inl ⟨_, rfl⟩, ⟨(IntTy.into_val h0 h1).1, IntTy.into_width t n hf'.1 hf'.2⟩, h0, h1, rfl⟩
  | .f32, _, _, _, ⟨y, rfl⟩ => ⟨_, y, .inl ⟨_, rfl⟩, rfl, .inl rfl⟩
  | .f64, _, _, _, ⟨y, rfl⟩ => ⟨_, y, .inl ⟨_, rfl⟩, rfl, .inl rfl⟩
  | .char, _, _, _, ⟨c, rfl⟩ => ⟨c, rfl, rfl⟩
  | .string, _, _, _, ⟨s, rfl⟩ => ⟨s, rfl, rfl⟩
  | .value, _, hf, _, _ => by cases hf
  | .seq t, ht, hf, _, ⟨l, rfl, hl⟩ => by
    refine ⟨_, _, l, rfl, rfl, by simp, fun i w y hw hy => ?_⟩
    rw [List.getElem?_map, hy] at hw
    cases hw
    exact Ty.into_means lossy file t ht hf y (hl y (List.mem_of_getElem? hy))
  | .map t, ht, hf, _, ⟨l, rfl, hs, hl⟩ => by
    refine ⟨Tag.Default, l.map fun e => (e.1, t.into e.2), l, ?_, rfl, by simp, fun i k w y hw hy => ?_⟩
    · rw [Ty.into, Map.ofList_map_snd (fun y => t.into y) l hs]
      rfl
    · rw [List.getElem?_map, hy] at hw
      cases hw
      exact Ty.into_means lossy file t ht hf y (hl _ (List.mem_of_getElem? hy))

end Figment
