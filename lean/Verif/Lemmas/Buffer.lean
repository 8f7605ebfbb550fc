import Verif.Lemmas.ComplainsTy
import Verif.Lemmas.Strip
import Verif.Spec.Either
/-!
# Lemmas: buffers
-/
namespace Figment

theorem seqLoop_same {run : Seed} {de de' : De} : ∀ (a : List Value) (i : Nat), (∀ v, run de v = run de' v) →
    seqLoop run de i a = seqLoop run de' i a
  | [], _, _ => rfl
  | v :: a, i, h => by
    rw [seqLoop, seqLoop, SeqDe.nextElement, SeqDe.nextElement, h v, seqLoop_same a (i + 1) h]

theorem mapLoop_same {run : Seed} {de de' : De} : ∀ (d : List (Str × Value)), (∀ v, run de v = run de' v) →
    mapLoop run de d = mapLoop run de' d
  | [], _ => rfl
  | (k, v) :: d, h => by
    rw [mapLoop, mapLoop, MapDe.nextValue, MapDe.nextValue, h v, mapLoop_same d h]

/-- Buffering does not care for lossiness. -/
theorem anyN_lossless (s : Str) (f : Fig) (l l' : Bool) : ∀ (n : Nat) (v : Value),
    anyN s n ⟨some f, l⟩ v = anyN s n ⟨some f, l'⟩ v
  | 0, _ => rfl
  | n + 1, v => by
    have ih := anyN_lossless s f l l' n
    rw [anyN]
    cases v with
    | array t a =>
      show R.mapErr _ _ = R.mapErr _ _
      unfold anyVisitor
      dsimp only
      rw [seqLoop_same a 0 ih]
      rfl
    | dict t d =>
      show R.mapErr _ _ = R.mapErr _ _
      unfold anyVisitor
      dsimp only
      rw [mapLoop_same d ih]
      rfl
    | _ => rfl

/-- The value is not a 128-bit integer. -/
theorem Num.is128_iff {t : Tag} {n : Num} : (Value.num t n).is128 = true ↔ n.width = some 128 := by
  cases n <;> simp [Value.is128, Num.width]

theorem Value.sized_num {t : Tag} {n : Num} {g : Num → Num} (h : (Value.num t n).fixedWidth = true) (hg : Num.Narrowing g) :
    g n = n :=
  hg.other n (fun _ e => by rw [e] at h; cases h) (fun _ e => by rw [e] at h; cases h)

mutual
theorem Value.buffers_small : ∀ (v : Value), (∃ x, v.Buffers x) → ∀ p w, v.Leads false p w → w.is128 = false
  | .string _ _, _, p, w, h => by cases h with
    | here => rfl
    | skip h _ _ => cases h
  | .char _ _, _, p, w, h => by cases h with
    | here => rfl
    | skip h _ _ => cases h
  | .bool _ _, _, p, w, h => by cases h with
    | here => rfl
    | skip h _ _ => cases h
  | .empty _ _, _, p, w, h => by cases h with
    | here => rfl
    | skip h _ _ => cases h
  | .num t n, ⟨x, hx⟩, p, w, h => by
    cases h with
    | here =>
      cases h : (Value.num t n).is128 with
      | false => rfl
      | true => exact absurd (Num.is128_iff.1 h) hx.1
    | skip h _ _ => cases h
  | .dict t d, ⟨x, l, _, hl⟩, p, w, h => by
    cases h with
    | here => rfl
    | key hg h =>
      obtain ⟨k', hm, _⟩ := Map.mem_of_get hg
      exact Value.buffersD_small d l hl _ hm _ w h
    | skip h _ _ => cases h
  | .array t a, ⟨x, l, _, hl⟩, p, w, h => by
    cases h with
    | here => rfl
    | index hg h => exact Value.buffersA_small a l hl _ (List.mem_of_getElem? hg) _ w h
    | skip h _ _ => cases h
theorem Value.buffersD_small : ∀ (d : List (Str × Value)) (l : List (Str × Val)), Value.BuffersD d l → ∀ e ∈ d, ∀ p w,
    e.2.Leads false p w → w.is128 = false
  | [], _, _, e, he, _, _, _ => nomatch he
  | (k, v) :: d, l, ⟨y, l', _, hy, hl⟩, e, he, p, w, h => by
    rcases List.mem_cons.1 he with rfl | he
    · exact Value.buffers_small v ⟨y, hy⟩ p w h
    · exact Value.buffersD_small d l' hl e he p w h
theorem Value.buffersA_small : ∀ (a : List Value) (l : List Val), Value.BuffersA a l → ∀ e ∈ a, ∀ p w,
    e.Leads false p w → w.is128 = false
  | [], _, _, e, he, _, _, _ => nomatch he
  | v :: a, l, ⟨y, l', _, hy, hl⟩, e, he, p, w, h => by
    rcases List.mem_cons.1 he with he | he
    · rw [he] at h
      exact Value.buffers_small v ⟨y, hy⟩ p w h
    · exact Value.buffersA_small a l' hl e he p w h
end

mutual
theorem Value.small_buffers : ∀ (v : Value), v.WF → (∀ p w, v.Leads false p w → w.is128 = false) → ∃ x, v.Buffers x
  | .string _ _, _, _ => ⟨_, rfl⟩
  | .char _ _, _, _ => ⟨_, rfl⟩
  | .bool _ _, _, _ => ⟨_, rfl⟩
  | .empty _ .unit, _, _ => ⟨_, rfl⟩
  | .empty _ .none, _, _ => ⟨_, rfl⟩
  | .num t n, _, h => by
    refine ⟨_, ?_, _, Num.narrowing_visited, rfl⟩
    intro hn
    have := h [] _ (.here _)
    rw [Num.is128_iff.2 hn] at this
    cases this
  | .dict t d, hw, h => by
    obtain ⟨hs, hw⟩ := Value.wf_dict.1 hw
    obtain ⟨l, hl⟩ := Value.small_buffersD d hw fun e he p w hp => h (e.1 :: p) w (.key (Map.get_eq_some_of_mem hs he) hp)
    exact ⟨_, l, rfl, hl⟩
  | .array t a, hw, h => by
    obtain ⟨l, hl⟩ := Value.small_buffersA a (Value.wf_array.1 hw) fun e he p w hp => by
      obtain ⟨i, hi⟩ := List.getElem?_of_mem he
      exact h (Dec.ofNat i :: p) w (.index hi hp)
    exact ⟨_, l, rfl, hl⟩
theorem Value.small_buffersD : ∀ (d : List (Str × Value)), (∀ e ∈ d, e.2.WF) →
    (∀ e ∈ d, ∀ p w, e.2.Leads false p w → w.is128 = false) → ∃ l, Value.BuffersD d l
  | [], _, _ => ⟨_, rfl⟩
  | (k, v) :: d, hw, h => by
    obtain ⟨y, hy⟩ := Value.small_buffers v (hw (k, v) (List.mem_cons_self ..)) (h (k, v) (List.mem_cons_self ..))
    obtain ⟨l, hl⟩ := Value.small_buffersD d (fun e he => hw e (List.mem_cons_of_mem _ he))
      fun e he => h e (List.mem_cons_of_mem _ he)
    exact ⟨_, y, l, rfl, hy, hl⟩
theorem Value.small_buffersA : ∀ (a : List Value), (∀ e ∈ a, e.WF) →
    (∀ e ∈ a, ∀ p w, e.Leads false p w → w.is128 = false) → ∃ l, Value.BuffersA a l
  | [], _, _ => ⟨_, rfl⟩
  | v :: a, hw, h => by
    obtain ⟨y, hy⟩ := Value.small_buffers v (hw v (List.mem_cons_self ..)) (h v (List.mem_cons_self ..))
    obtain ⟨l, hl⟩ := Value.small_buffersA a (fun e he => hw e (List.mem_cons_of_mem _ he))
      fun e he => h e (List.mem_cons_of_mem _ he)
    exact ⟨_, y, l, rfl, hy, hl⟩
end

mutual
/-- What cannot be buffered is a 128-bit integer. -/
theorem Value.refuses_leads {s : Str} {k : Kind} : ∀ (v : Value) (p : List Str), v.WF → v.Refuses s p k →
    ∃ w, v.Leads false p w ∧ w.is128 = true ∧ k = .invalidType w.shown s
  | .string _ _, _, _, h => h.elim
  | .char _ _, _, _, h => h.elim
  | .bool _ _, _, _, h => h.elim
  | .empty _ .unit, _, _, h => h.elim
  | .empty _ .none, _, _, h => h.elim
  | .num t n, p, _, ⟨hn, hp, hk⟩ => ⟨_, hp ▸ .here _, Num.is128_iff.2 hn, hk⟩
  | .dict t d, p, hw, h => by
    obtain ⟨hs, hw⟩ := Value.wf_dict.1 hw
    obtain ⟨e, p', he, rfl, w, hl, h128, hk⟩ := Value.refusesD_leads d p hw h
    exact ⟨w, .key (Map.get_eq_some_of_mem hs he) hl, h128, hk⟩
  | .array t a, p, hw, h => by
    obtain ⟨i, v, p', he, rfl, w, hl, h128, hk⟩ := Value.refusesA_leads a 0 p (Value.wf_array.1 hw) h
    rw [Nat.zero_add]
    exact ⟨w, .index he hl, h128, hk⟩
theorem Value.refusesD_leads {s : Str} {k : Kind} : ∀ (d : List (Str × Value)) (p : List Str), (∀ e ∈ d, e.2.WF) →
    Value.RefusesD s d p k → ∃ (e : Str × Value) (p' : List Str), e ∈ d ∧ p = e.1 :: p' ∧
      ∃ w, e.2.Leads false p' w ∧ w.is128 = true ∧ k = .invalidType w.shown s
  | [], _, _, h => h.elim
  | (key, v) :: d, p, hw, h => by
    rcases h with ⟨p', hp, h⟩ | ⟨_, h⟩
    · exact ⟨(key, v), p', List.mem_cons_self .., hp,
        Value.refuses_leads v p' (hw (key, v) (List.mem_cons_self ..)) h⟩
    · obtain ⟨e, p', he, h⟩ := Value.refusesD_leads d p (fun e he => hw e (List.mem_cons_of_mem _ he)) h
      exact ⟨e, p', List.mem_cons_of_mem _ he, h⟩
theorem Value.refusesA_leads {s : Str} {k : Kind} : ∀ (a : List Value) (j : Nat) (p : List Str), (∀ e ∈ a, e.WF) →
    Value.RefusesA s j a p k → ∃ (i : Nat) (v : Value) (p' : List Str), a[i]? = some v ∧ p = Dec.ofNat (j + i) :: p' ∧
      ∃ w, v.Leads false p' w ∧ w.is128 = true ∧ k = .invalidType w.shown s
  | [], _, _, _, h => h.elim
  | v :: a, j, p, hw, h => by
    rcases h with ⟨p', hp, h⟩ | ⟨_, h⟩
    · exact ⟨0, v, p', rfl, hp, Value.refuses_leads v p' (hw v (List.mem_cons_self ..)) h⟩
    · obtain ⟨i, e, p', he, hp, h⟩ := Value.refusesA_leads a (j + 1) p (fun e he => hw e (List.mem_cons_of_mem _ he)) h
      exact ⟨i + 1, e, p', by simpa using he, by rw [hp]; congr 2; omega, h⟩
end

mutual
/-- Data with the same buffer is the same, but for the widths of numbers that are as wide as the machine's. -/
theorem Value.buffers_inj : ∀ (v w : Value) (x : Val), v.Buffers x → w.Buffers x →
    v.fixedWidth = true → w.fixedWidth = true →
    v.strip = w.strip
  | .string t s, w, x, h, h', _, _ => by
    cases h
    cases w with
    | string t' s' => cases h'; rfl
    | num t' n => obtain ⟨_, _, _, h⟩ := h'; cases h
    | empty t' e => cases e <;> cases h'
    | dict t' d => obtain ⟨_, h, _⟩ := h'; cases h
    | array t' d => obtain ⟨_, h, _⟩ := h'; cases h
    | _ => cases h'
  | .char t s, w, x, h, h', _, _ => by
    cases h
    cases w with
    | char t' s' => cases h'; rfl
    | num t' n => obtain ⟨_, _, _, h⟩ := h'; cases h
    | empty t' e => cases e <;> cases h'
    | dict t' d => obtain ⟨_, h, _⟩ := h'; cases h
    | array t' d => obtain ⟨_, h, _⟩ := h'; cases h
    | _ => cases h'
  | .bool t s, w, x, h, h', _, _ => by
    cases h
    cases w with
    | bool t' s' => cases h'; rfl
    | num t' n => obtain ⟨_, _, _, h⟩ := h'; cases h
    | empty t' e => cases e <;> cases h'
    | dict t' d => obtain ⟨_, h, _⟩ := h'; cases h
    | array t' d => obtain ⟨_, h, _⟩ := h'; cases h
    | _ => cases h'
  | .empty t .unit, w, x, h, h', _, _ => by
    cases h
    cases w with
    | num t' n => obtain ⟨_, _, _, h⟩ := h'; cases h
    | empty t' e => cases e <;> first | rfl | cases h'
    | dict t' d => obtain ⟨_, h, _⟩ := h'; cases h
    | array t' d => obtain ⟨_, h, _⟩ := h'; cases h
    | _ => cases h'
  | .empty t .none, w, x, h, h', _, _ => by
    cases h
    cases w with
    | num t' n => obtain ⟨_, _, _, h⟩ := h'; cases h
    | empty t' e => cases e <;> first | rfl | cases h'
    | dict t' d => obtain ⟨_, h, _⟩ := h'; cases h
    | array t' d => obtain ⟨_, h, _⟩ := h'; cases h
    | _ => cases h'
  | .num t n, w, x, ⟨_, g, hg, h⟩, h', hs, hs' => by
    cases h
    cases w with
    | num t' n' =>
      obtain ⟨_, g', hg', h⟩ := h'
      have e1 := Value.sized_num hs hg
      have e2 := Value.sized_num hs' hg'
      have h1 : g n = g' n' := (Value.num.inj (Val.value.inj h)).2
      rw [e1, e2] at h1
      rw [h1]
      rfl
    | empty t' e => cases e <;> cases h'
    | dict t' d => obtain ⟨_, h, _⟩ := h'; cases h
    | array t' d => obtain ⟨_, h, _⟩ := h'; cases h
    | _ => cases h'
  | .dict t d, w, x, ⟨l, h, hl⟩, h', hs, hs' => by
    cases h
    cases w with
    | num t' n => obtain ⟨_, _, _, h⟩ := h'; cases h
    | empty t' e => cases e <;> cases h'
    | dict t' d' =>
      obtain ⟨_, h, hl'⟩ := h'
      cases h
      rw [Value.strip, Value.strip, Value.buffersD_inj d d' l hl hl' hs hs']
    | array t' d => obtain ⟨_, h, _⟩ := h'; cases h
    | _ => cases h'
  | .array t a, w, x, ⟨l, h, hl⟩, h', hs, hs' => by
    cases h
    cases w with
    | num t' n => obtain ⟨_, _, _, h⟩ := h'; cases h
    | empty t' e => cases e <;> cases h'
    | array t' a' =>
      obtain ⟨_, h, hl'⟩ := h'
      cases h
      rw [Value.strip, Value.strip, Value.buffersA_inj a a' l hl hl' hs hs']
    | dict t' d => obtain ⟨_, h, _⟩ := h'; cases h
    | _ => cases h'
theorem Value.buffersD_inj : ∀ (d d' : List (Str × Value)) (l : List (Str × Val)), Value.BuffersD d l →
    Value.BuffersD d' l → Value.fixedWidthD d = true → Value.fixedWidthD d' = true →
    Value.stripD d = Value.stripD d'
  | [], d', l, h, h', _, _ => by
    cases h
    cases d' with
    | nil => rfl
    | cons e d' => obtain ⟨_, _, h, _⟩ := h'; cases h
  | (k, v) :: d, d', l, ⟨y, l', h, hy, hl⟩, h', hs, hs' => by
    cases h
    cases d' with
    | nil => cases h'
    | cons e d' =>
      obtain ⟨k', v'⟩ := e
      obtain ⟨y', l'', h, hy', hl'⟩ := h'
      cases h
      rw [Value.fixedWidthD, Bool.and_eq_true] at hs hs'
      rw [Value.stripD, Value.stripD, Value.buffers_inj v v' y hy hy' hs.1 hs'.1,
        Value.buffersD_inj d d' l' hl hl' hs.2 hs'.2]
theorem Value.buffersA_inj : ∀ (d d' : List Value) (l : List Val), Value.BuffersA d l →
    Value.BuffersA d' l → Value.fixedWidthA d = true → Value.fixedWidthA d' = true →
    Value.stripA d = Value.stripA d'
  | [], d', l, h, h', _, _ => by
    cases h
    cases d' with
    | nil => rfl
    | cons e d' => obtain ⟨_, _, h, _⟩ := h'; cases h
  | v :: d, d', l, ⟨y, l', h, hy, hl⟩, h', hs, hs' => by
    cases h
    cases d' with
    | nil => cases h'
    | cons v' d' =>
      obtain ⟨y', l'', h, hy', hl'⟩ := h'
      cases h
      rw [Value.fixedWidthA, Bool.and_eq_true] at hs hs'
      rw [Value.stripA, Value.stripA, Value.buffers_inj v v' y hy hy' hs.1 hs'.1,
        Value.buffersA_inj d d' l' hl hl' hs.2 hs'.2]
end

end Figment
