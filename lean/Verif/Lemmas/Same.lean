import Verif.Lemmas.Num
import Verif.Lemmas.Ser
import Verif.Spec.Num
/-! # Lemmas about equality of values -/
namespace Figment.Value

mutual
theorem same_strip : ∀ v w : Value, v.strip.same w.strip = v.same w
  | .string .., w => by cases w <;> simp only [strip, same]
  | .char .., w => by cases w <;> simp only [strip, same]
  | .bool .., w => by cases w <;> simp only [strip, same]
  | .num .., w => by cases w <;> simp only [strip, same]
  | .empty .., w => by cases w <;> simp only [strip, same]
  | .dict _ d, w => by cases w <;> simp only [strip, same]; exact sameD_strip ..
  | .array _ a, w => by cases w <;> simp only [strip, same]; exact sameA_strip ..
theorem sameD_strip : ∀ d d' : List (Str × Value), sameD (stripD d) (stripD d') = sameD d d'
  | [], d' => by cases d' <;> rfl
  | (k, v) :: r, d' => by
    cases d' with
    | nil => rfl
    | cons e r' => simp only [stripD, sameD, same_strip v e.2, sameD_strip r r']
theorem sameA_strip : ∀ a a' : List Value, sameA (stripA a) (stripA a') = sameA a a'
  | [], d' => by cases d' <;> rfl
  | v :: r, d' => by
    cases d' with
    | nil => rfl
    | cons e r' => simp only [stripA, sameA, same_strip v e, sameA_strip r r']
end

theorem normD_eq (d : List (Str × Value)) : normD d = d.map (fun e => (e.1, e.2.norm)) := by
  induction d with
  | nil => rfl
  | cons e r ih => simp [normD, ih]

mutual
theorem serialize_ser : ∀ v : Value, v.WF → v.ser.serialize = .ok v.norm
  | .string .., _ => rfl
  | .char .., _ => rfl
  | .bool .., _ => rfl
  | .num _ n, _ => by cases n <;> rfl
  | .empty _ e, _ => by cases e <;> rfl
  | .dict _ d, h => by
    rw [ser, Ser.serialize, serialize_serD d (wf_dict.1 h).2, norm]
    simp only
    rw [Map.ofList_sorted]
    · rfl
    · rw [normD_eq]; exact Map.Sorted.map_snd (wf_dict.1 h).1 _
  | .array _ a, h => by
    rw [ser, Ser.serialize, serialize_serA a (wf_array.1 h), norm]
    rfl
theorem serialize_serD : ∀ d : List (Str × Value), (∀ e ∈ d, e.2.WF) → Ser.serializeMap (serD d) = .ok (normD d)
  | [], _ => rfl
  | (k, v) :: r, h => by
    rw [serD, Ser.serializeMap, serialize_ser v (h _ (List.mem_cons_self ..)),
      serialize_serD r fun e he => h e (List.mem_cons_of_mem _ he)]
    rfl
theorem serialize_serA : ∀ a : List Value, (∀ v ∈ a, v.WF) → Ser.serializeSeq (serA a) = .ok (normA a)
  | [], _ => rfl
  | v :: r, h => by
    rw [serA, Ser.serializeSeq, serialize_ser v (h _ (List.mem_cons_self ..)),
      serialize_serA r fun e he => h e (List.mem_cons_of_mem _ he)]
    rfl
end

theorem _root_.Figment.Num.toActual_fixed (n : Num) : n.fixed.toActual = n.toActual := by cases n <;> rfl

mutual
theorem same_norm : ∀ v w : Value, v.norm.same w = v.same w
  | .string .., w => by cases w <;> simp only [norm, same]
  | .char .., w => by cases w <;> simp only [norm, same]
  | .bool .., w => by cases w <;> simp only [norm, same]
  | .num .., w => by cases w <;> simp only [norm, same, Num.same, Num.toActual_fixed]
  | .empty .., w => by cases w <;> simp only [norm, same]
  | .dict _ d, w => by cases w <;> simp only [norm, same]; exact sameD_norm ..
  | .array _ a, w => by cases w <;> simp only [norm, same]; exact sameA_norm ..
theorem sameD_norm : ∀ d d' : List (Str × Value), sameD (normD d) d' = sameD d d'
  | [], d' => by cases d' <;> rfl
  | (k, v) :: r, d' => by
    cases d' with
    | nil => rfl
    | cons e r' => simp only [normD, sameD, same_norm v e.2, sameD_norm r r']
theorem sameA_norm : ∀ a a' : List Value, sameA (normA a) a' = sameA a a'
  | [], d' => by cases d' <;> rfl
  | v :: r, d' => by
    cases d' with
    | nil => rfl
    | cons e r' => simp only [normA, sameA, same_norm v e, sameA_norm r r']
end

mutual
theorem strip_norm : ∀ v : Value, v.norm.strip = v.norm
  | .string .. | .char .. | .bool .. | .num .. | .empty .. => rfl
  | .dict _ d => by rw [norm, strip, strip_normD d]
  | .array _ a => by rw [norm, strip, strip_normA a]
theorem strip_normD : ∀ d : List (Str × Value), stripD (normD d) = normD d
  | [] => rfl
  | (k, v) :: r => by rw [normD, stripD, strip_norm v, strip_normD r]
theorem strip_normA : ∀ a : List Value, stripA (normA a) = normA a
  | [] => rfl
  | v :: r => by rw [normA, stripA, strip_norm v, strip_normA r]
end

mutual
theorem strip_of_untagged : ∀ v : Value, v.tagsAll (fun t => t == Tag.Default) = true → v.strip = v
  | .string .., h | .char .., h | .bool .., h | .num .., h | .empty .., h => by
    simp only [tagsAll, beq_iff_eq] at h; rw [h]; rfl
  | .dict _ d, h => by
    rw [tagsAll_dict] at h
    rw [strip, stripD_of_untagged d h.2, eq_of_beq h.1]
  | .array _ a, h => by
    rw [tagsAll_array] at h
    rw [strip, stripA_of_untagged a h.2, eq_of_beq h.1]
theorem stripD_of_untagged : ∀ d : List (Str × Value),
    (∀ e ∈ d, e.2.tagsAll (fun t => t == Tag.Default) = true) → stripD d = d
  | [], _ => rfl
  | (k, v) :: r, h => by
    rw [stripD, strip_of_untagged v (h _ (List.mem_cons_self ..)),
      stripD_of_untagged r fun e he => h e (List.mem_cons_of_mem _ he)]
theorem stripA_of_untagged : ∀ d : List Value,
    (∀ e ∈ d, e.tagsAll (fun t => t == Tag.Default) = true) → stripA d = d
  | [], _ => rfl
  | v :: r, h => by
    rw [stripA, strip_of_untagged v (h _ (List.mem_cons_self ..)),
      stripA_of_untagged r fun e he => h e (List.mem_cons_of_mem _ he)]
end

theorem strip_eq_of_fresh {v : Value} (h : v.Fresh) : v.strip = v := strip_of_untagged v h.2

end Figment.Value
