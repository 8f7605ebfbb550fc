import Verif.Model.Ser
import Verif.Lemmas.Figment
/-! # Lemmas about serialisation -/
namespace Figment

/-- Well-formed and without provenance. -/
def Value.Fresh (v : Value) : Prop := v.WF ∧ v.tagsAll (fun t => t == Tag.Default) = true

namespace Value.Fresh

theorem wrap {t : Str} {v : Value} (h : v.Fresh) : (Ser.wrap t v).Fresh := by
  refine ⟨?_, ?_⟩
  · rw [Ser.wrap, Value.ofDict, Value.wf_dict]
    exact ⟨List.pairwise_singleton .., by simpa using h.1⟩
  · rw [Ser.wrap, Value.ofDict, Value.tagsAll_dict]
    exact ⟨by simp, by simpa using h.2⟩

theorem array {l : List Value} (h : ∀ v ∈ l, v.Fresh) : (Value.ofArray l).Fresh :=
  ⟨Value.wf_array.2 fun v hv => (h v hv).1, Value.tagsAll_array.2 ⟨by simp, fun v hv => (h v hv).2⟩⟩

theorem dict {l : List (Str × Value)} (h : ∀ e ∈ l, e.2.Fresh) : (Value.ofDict (Map.ofList l)).Fresh := by
  have hmem : ∀ e ∈ Map.ofList l, e.2.Fresh := by
    have : ∀ (l : List (Str × Value)) (m : Dict), (∀ e ∈ m, e.2.Fresh) → (∀ e ∈ l, e.2.Fresh) →
        ∀ e ∈ Map.extend m l, e.2.Fresh := by
      intro l
      induction l with
      | nil => intro m hm _; exact hm
      | cons x r ih =>
        intro m hm hl
        rw [Map.extend_cons]
        refine ih _ ?_ fun e he => hl e (List.mem_cons_of_mem _ he)
        intro e he
        rcases Map.mem_insert he with h | h
        · rw [h.1]; exact hl x (List.mem_cons_self ..)
        · exact hm e h
    exact this l [] (by simp) h
  refine ⟨Value.wf_dict.2 ⟨Map.Sorted.ofList l, fun e he => (hmem e he).1⟩,
    Value.tagsAll_dict.2 ⟨by simp, fun e he => (hmem e he).2⟩⟩

end Value.Fresh

namespace Ser
mutual
theorem serialize_fresh : ∀ (x : Ser) (w : Value), x.serialize = .ok w → w.Fresh
  | .bool b, w, h => by cases h; exact ⟨rfl, by simp [Value.ofBool, Value.tagsAll]⟩
  | .num b, w, h => by cases h; exact ⟨rfl, by simp [Value.ofNum, Value.tagsAll]⟩
  | .char b, w, h => by cases h; exact ⟨rfl, by simp [Value.ofChar, Value.tagsAll]⟩
  | .str b, w, h => by cases h; exact ⟨rfl, by simp [Value.ofStr, Value.tagsAll]⟩
  | .none, w, h => by cases h; exact ⟨rfl, by simp [Value.ofEmpty, Value.tagsAll]⟩
  | .unit, w, h => by cases h; exact ⟨rfl, by simp [Value.ofEmpty, Value.tagsAll]⟩
  | .unitStruct, w, h => by cases h; exact ⟨rfl, by simp [Value.ofEmpty, Value.tagsAll]⟩
  | .unitVariant b, w, h => by cases h; exact ⟨rfl, by simp [Value.ofStr, Value.tagsAll]⟩
  | .bytes b, w, h => by
    cases h
    refine Value.Fresh.array fun v hv => ?_
    obtain ⟨x, _, rfl⟩ := List.mem_map.1 hv
    exact ⟨rfl, by simp [Value.ofNum, Value.tagsAll]⟩
  | .some x, w, h => serialize_fresh x w (by simpa only [serialize] using h)
  | .newtypeStruct x, w, h => serialize_fresh x w (by simpa only [serialize] using h)
  | .newtypeVariant t x, w, h => by
    rw [serialize] at h
    cases hx : serialize x with
    | error e => rw [hx] at h; cases h
    | ok y => rw [hx] at h; cases h; exact (serialize_fresh x y hx).wrap
  | .seq l, w, h => by
    rw [serialize] at h
    cases hx : serializeSeq l with
    | error e => rw [hx] at h; cases h
    | ok y => rw [hx] at h; cases h; exact .array (serializeSeq_fresh l y hx)
  | .tuple l, w, h => by
    rw [serialize] at h
    cases hx : serializeSeq l with
    | error e => rw [hx] at h; cases h
    | ok y => rw [hx] at h; cases h; exact .array (serializeSeq_fresh l y hx)
  | .tupleStruct l, w, h => by
    rw [serialize] at h
    cases hx : serializeSeq l with
    | error e => rw [hx] at h; cases h
    | ok y => rw [hx] at h; cases h; exact .array (serializeSeq_fresh l y hx)
  | .tupleVariant t l, w, h => by
    rw [serialize] at h
    cases hx : serializeSeq l with
    | error e => rw [hx] at h; cases h
    | ok y => rw [hx] at h; cases h; exact (Value.Fresh.array (serializeSeq_fresh l y hx)).wrap
  | .map l, w, h => by
    rw [serialize] at h
    cases hx : serializeMap l with
    | error e => rw [hx] at h; cases h
    | ok y => rw [hx] at h; cases h; exact .dict (serializeMap_fresh l y hx)
  | .struct l, w, h => by
    rw [serialize] at h
    cases hx : serializeFields l with
    | error e => rw [hx] at h; cases h
    | ok y => rw [hx] at h; cases h; exact .dict (serializeFields_fresh l y hx)
  | .structVariant t l, w, h => by
    rw [serialize] at h
    cases hx : serializeFields l with
    | error e => rw [hx] at h; cases h
    | ok y => rw [hx] at h; cases h; exact (Value.Fresh.dict (serializeFields_fresh l y hx)).wrap
  | .fail e, w, h => by cases h
theorem serializeSeq_fresh : ∀ (l : List Ser) (vs : List Value), serializeSeq l = .ok vs → ∀ v ∈ vs, v.Fresh
  | [], vs, h => by cases h; simp
  | x :: r, vs, h => by
    rw [serializeSeq] at h
    cases hx : serialize x with
    | error e => rw [hx] at h; cases h
    | ok y =>
      cases hr : serializeSeq r with
      | error e => rw [hx, hr] at h; cases h
      | ok ys =>
        rw [hx, hr] at h; cases h
        intro v hv
        rcases List.mem_cons.1 hv with rfl | hv
        · exact serialize_fresh x _ hx
        · exact serializeSeq_fresh r ys hr v hv
theorem serializeMap_fresh : ∀ (l : List (Ser × Ser)) (vs : List (Str × Value)), serializeMap l = .ok vs →
    ∀ e ∈ vs, e.2.Fresh
  | [], vs, h => by cases h; simp
  | (k, x) :: r, vs, h => by
    rw [serializeMap] at h
    cases hk : serialize k with
    | error e => rw [hk] at h; cases h
    | ok kv =>
      cases kv with
      | string t s =>
        cases hx : serialize x with
        | error e => rw [hk, hx] at h; cases h
        | ok y =>
          cases hr : serializeMap r with
          | error e => rw [hk, hx, hr] at h; cases h
          | ok ys =>
            rw [hk, hx, hr] at h; cases h
            intro v hv
            rcases List.mem_cons.1 hv with rfl | hv
            · exact serialize_fresh x _ hx
            · exact serializeMap_fresh r ys hr v hv
      | _ => rw [hk] at h; cases h
theorem serializeFields_fresh : ∀ (l : List (Str × Ser)) (vs : List (Str × Value)), serializeFields l = .ok vs →
    ∀ e ∈ vs, e.2.Fresh
  | [], vs, h => by cases h; simp
  | (k, x) :: r, vs, h => by
    rw [serializeFields] at h
    cases hx : serialize x with
    | error e => rw [hx] at h; cases h
    | ok y =>
      cases hr : serializeFields r with
      | error e => rw [hx, hr] at h; cases h
      | ok ys =>
        rw [hx, hr] at h; cases h
        intro v hv
        rcases List.mem_cons.1 hv with rfl | hv
        · exact serialize_fresh x _ hx
        · exact serializeFields_fresh r ys hr v hv
end
end Ser
end Figment
