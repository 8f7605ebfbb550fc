import Verif.Lemmas.Document
/-!
# Lemmas about reading documents with the reserved keys
-/
namespace Figment.Doc

theorem tag_iff (d : Doc) (t : Tag) : d.tag = Option.some t ↔ d.IsId t := by
  have widen : ∀ {n : Nat} (x : BitVec n) (t : Tag), n ≤ 64 → (x.setWidth 64 = t.raw ↔ x.toNat = t.raw.toNat) := by
    intro n x t hn
    rw [← BitVec.toNat_inj, BitVec.toNat_setWidth,
      Nat.mod_eq_of_lt (Nat.lt_of_lt_of_le x.isLt (Nat.pow_le_pow_right (by decide) hn))]
  constructor
  · intro h
    unfold tag at h
    split at h <;> cases h
    · exact .u8 _ _ ((widen _ _ (by decide)).1 rfl)
    · exact .u16 _ _ ((widen _ _ (by decide)).1 rfl)
    · exact .u32 _ _ ((widen _ _ (by decide)).1 rfl)
    · exact .u64 _ _ rfl
  · intro h
    cases h with
    | u8 x _ h => rw [tag, (widen x t (by decide)).2 h]
    | u16 x _ h => rw [tag, (widen x t (by decide)).2 h]
    | u32 x _ h => rw [tag, (widen x t (by decide)).2 h]
    | u64 x _ h => rw [tag, BitVec.eq_of_toNat_eq h]

/-- What an entry of a map must be. -/
def Entry (e : Option Str × Doc) : Prop :=
  ∃ k, e.1 = Option.some k ∧ if k = Value.FIELD0 then ∃ t, e.2.tag = Option.some t else ∃ v, e.2.value = Option.some v

theorem entries_some {l : List (Option Str × Doc)} {st₀ st : Value.MapState} (h : entries l st₀ = Option.some st) :
    (∀ e ∈ l, Entry e) ∧
    st.id = (match last Value.FIELD0 l with | .some d => d.tag | .none => st₀.id) ∧
    st.raw = (match last Value.FIELD1 l with | .some d => d.value | .none => st₀.raw) ∧
    (Map.Sorted st₀.dict → Map.Sorted st.dict) ∧
    ∀ k, Map.get k st.dict = if k = Value.FIELD0 ∨ k = Value.FIELD1 then Map.get k st₀.dict else
      match last k l with | .some d => d.value | .none => Map.get k st₀.dict := by
  induction l generalizing st₀ with
  | nil => cases h; exact ⟨nofun, rfl, rfl, id, fun _ => by split <;> rfl⟩
  | cons e r ih =>
    obtain ⟨k, d⟩ := e
    cases k with
    | none => cases h
    | some k =>
      have hne : Value.FIELD1 ≠ Value.FIELD0 := by decide
      rw [entries] at h
      simp only [last_cons, Option.some.injEq]
      split at h
      · next hk =>
        subst hk
        cases hv : d.tag with
        | none => rw [hv] at h; cases h
        | some v =>
          rw [hv] at h
          obtain ⟨h1, h2, h3, h4, h5⟩ := ih h
          refine ⟨?_, ?_, ?_, h4, fun k' => ?_⟩
          · intro e he
            rcases List.mem_cons.1 he with rfl | he
            · exact ⟨_, rfl, by rw [if_pos rfl]; exact ⟨v, hv⟩⟩
            · exact h1 e he
          · rw [h2]
            cases last Value.FIELD0 r with
            | some x => rfl
            | none => rw [Option.none_or, if_pos rfl]; exact hv.symm
          · rw [h3, if_neg hne.symm, Option.or_none]
          · rw [h5]
            split
            · rfl
            · next hk => rw [if_neg fun h => hk (.inl h.symm), Option.or_none]
      · next hk =>
        split at h
        · next hk1 =>
          subst hk1
          cases hv : d.value with
          | none => rw [hv] at h; cases h
          | some v =>
            rw [hv] at h
            obtain ⟨h1, h2, h3, h4, h5⟩ := ih h
            refine ⟨?_, ?_, ?_, h4, fun k' => ?_⟩
            · intro e he
              rcases List.mem_cons.1 he with rfl | he
              · exact ⟨_, rfl, by rw [if_neg hne]; exact ⟨v, hv⟩⟩
              · exact h1 e he
            · rw [h2, if_neg hne, Option.or_none]
            · rw [h3]
              cases last Value.FIELD1 r with
              | some x => rfl
              | none => rw [Option.none_or, if_pos rfl]; exact hv.symm
            · rw [h5]
              split
              · rfl
              · next hk => rw [if_neg fun h => hk (.inr h.symm), Option.or_none]
        · next hk1 =>
          cases hv : d.value with
          | none => rw [hv] at h; cases h
          | some v =>
            rw [hv] at h
            obtain ⟨h1, h2, h3, h4, h5⟩ := ih h
            refine ⟨?_, ?_, ?_, fun hs => h4 (hs.insert k v), fun k' => ?_⟩
            · intro e he
              rcases List.mem_cons.1 he with rfl | he
              · exact ⟨k, rfl, by rw [if_neg hk]; exact ⟨v, hv⟩⟩
              · exact h1 e he
            · rw [h2, if_neg hk, Option.or_none]
            · rw [h3, if_neg hk1, Option.or_none]
            · rw [h5]
              dsimp only
              have hins : k ≠ k' → Map.get k' (Map.insert k v st₀.dict) = Map.get k' st₀.dict := by
                intro hkk
                rw [Map.get_insert, if_neg fun hc => hkk (Std.LawfulEqOrd.eq_of_compare hc).symm]
              split
              · next hk' => exact hins (by rintro rfl; exact hk'.elim hk hk1)
              · cases last k' r with
                | some x => rfl
                | none =>
                  rw [Option.none_or]
                  by_cases hkk : k = k'
                  · subst hkk
                    rw [Map.get_insert, if_pos (Std.ReflCmp.compare_self ..), if_pos rfl]
                    exact hv.symm
                  · rw [if_neg hkk]
                    exact hins hkk

theorem entries_total {l : List (Option Str × Doc)} (h : ∀ e ∈ l, Entry e) (st₀ : Value.MapState) :
    ∃ st, entries l st₀ = Option.some st := by
  induction l generalizing st₀ with
  | nil => exact ⟨st₀, rfl⟩
  | cons e r ih =>
    obtain ⟨k, d⟩ := e
    obtain ⟨k', hk, hv⟩ := h _ (List.mem_cons_self ..)
    cases hk
    have hr := fun st => ih (fun e he => h e (List.mem_cons_of_mem _ he)) st
    rw [entries]
    split at hv
    · next h0 =>
      obtain ⟨t, ht⟩ := hv
      rw [if_pos h0, show d.tag = _ from ht]
      exact hr _
    · next h0 =>
      obtain ⟨v, hv⟩ := hv
      rw [if_neg h0, show d.value = _ from hv]
      split <;> exact hr _

theorem IsId.unique {d : Doc} {t u : Tag} (h : IsId d t) (h' : IsId d u) : t = u :=
  Option.some.inj (((tag_iff d t).2 h).symm.trans ((tag_iff d u).2 h'))

theorem Says.unique {d : Doc} {v u : Value} (h : Says d v) (h' : Says d u) : v = u := by
  induction h generalizing u with
  | bool | char | str | num | none | unit => cases h'; rfl
  | some h ih => cases h' with | some h' => exact ih h'
  | variant h ih => cases h' with | variant h' => rw [ih h']
  | seq hl h ih =>
    cases h' with
    | seq hl' h' =>
      congr 1
      apply List.ext_getElem?
      intro i
      rename_i l vs us
      cases hi : l[i]? with
      | none =>
        rw [List.getElem?_eq_none (by rw [hl]; exact List.getElem?_eq_none_iff.1 hi),
          List.getElem?_eq_none (by rw [hl']; exact List.getElem?_eq_none_iff.1 hi)]
      | some d =>
        have hlt := (List.getElem?_eq_some_iff.1 hi).1
        have e1 : vs[i]? = Option.some vs[i] := List.getElem?_eq_getElem (by rw [hl]; exact hlt)
        have e2 : us[i]? = Option.some us[i] := List.getElem?_eq_getElem (by rw [hl']; exact hlt)
        rw [e1, e2, ih i d _ hi e1 (h' i d _ hi e2)]
  | inner h1 h2 h3 ih =>
    cases h' with
    | map g1 => rw [h1] at g1; cases g1
    | inner g1 g2 => rw [h1] at g1; cases g1; exact ih g2
    | tagged _ _ g3 => rw [h3] at g3; cases g3
  | tagged h1 h2 h3 h4 ih =>
    cases h' with
    | map g1 => rw [h1] at g1; cases g1
    | inner _ _ g3 => rw [h3] at g3; cases g3
    | tagged g1 g2 g3 g4 =>
      rw [h1] at g1; cases g1
      rw [h3] at g3; cases g3
      rw [ih g2, h4.unique g4]
  | map h0 hs hk h ih =>
    cases h' with
    | inner g1 => rw [h0] at g1; cases g1
    | tagged g1 => rw [h0] at g1; cases g1
    | map g0 hs' hk' h' =>
      rename_i l m n
      congr 1
      apply Map.ext_of_sorted hs hs'
      intro k
      have hkk := (hk k).trans (hk' k).symm
      cases h1 : Map.get k m with
      | none =>
        cases h2 : Map.get k n with
        | none => rfl
        | some u => rw [h1, h2] at hkk; cases hkk
      | some v =>
        cases h2 : Map.get k n with
        | none => rw [h1, h2] at hkk; cases hkk
        | some u =>
          cases hl : last k l with
          | none => have := hk k; rw [h1, hl, Option.isSome_none, Bool.and_false] at this; cases this
          | some d => rw [ih k d v hl h1 (h' k d u hl h2)]

theorem acceptedMap_iff {l : List (Option Str × Doc)} : acceptedMap l = true ↔
    ∀ e ∈ l, ∃ k, e.1 = Option.some k ∧
      if k = Value.FIELD0 then ∃ t, e.2.tag = Option.some t else e.2.accepted = true := by
  induction l with
  | nil => exact ⟨fun _ => nofun, fun _ => rfl⟩
  | cons e r ih =>
    obtain ⟨k, d⟩ := e
    cases k with
    | none =>
      refine ⟨nofun, fun h => ?_⟩
      obtain ⟨_, h, _⟩ := h _ (List.mem_cons_self ..)
      cases h
    | some k =>
      rw [acceptedMap, Bool.and_eq_true, ih]
      have key : ((if k = Figment.str "___figment_value_id" then d.isId else d.accepted) = true) ↔ (if k = Value.FIELD0 then ∃ t, d.tag = Option.some t else d.accepted = true) := by
        by_cases hk : k = Value.FIELD0
        · rw [if_pos (show k = Figment.str "___figment_value_id" from hk), if_pos hk]
          unfold tag isId
          constructor
          · intro h
            split at h <;> first | exact ⟨_, rfl⟩ | cases h
          · rintro ⟨t, h⟩
            split at h <;> first | rfl | cases h
        · rw [if_neg (show ¬ k = Figment.str "___figment_value_id" from hk), if_neg hk]
      rw [key]
      simp

mutual
theorem value_says : ∀ d : Doc, d.accepted = true → ∃ v, d.value = Option.some v ∧ d.Says v
  | .bool b, _ => ⟨_, rfl, .bool b⟩
  | .char c, _ => ⟨_, rfl, .char c⟩
  | .str s, _ => ⟨_, rfl, .str s⟩
  | .num n, _ => ⟨_, rfl, .num n⟩
  | .none, _ => ⟨_, rfl, .none⟩
  | .unit, _ => ⟨_, rfl, .unit⟩
  | .other, h => by cases h
  | .some d, h => by
    obtain ⟨v, h1, h2⟩ := value_says d h
    exact ⟨v, h1, .some h2⟩
  | .variant name d, h => by
    obtain ⟨v, h1, h2⟩ := value_says d h
    refine ⟨nest name v, by rw [value, h1]; rfl, ?_⟩
    rw [nest_eq, ← within_eq]
    exact .variant h2
  | .seq l, h => by
    obtain ⟨vs, h1, h2, h3⟩ := values_says l h
    exact ⟨.array Tag.Default vs, by rw [value, h1]; rfl, .seq h2 h3⟩
  | .map l, h => by
    have hl := entries_says l h
    have hE : ∀ e ∈ l, Entry e := by
      intro e he
      obtain ⟨k, hk, h1⟩ := hl e he
      refine ⟨k, hk, ?_⟩
      split at h1
      · next h0 => rw [if_pos h0]; exact h1
      · next h0 => rw [if_neg h0]; exact ⟨_, h1.choose_spec.1⟩
    obtain ⟨st, hst⟩ := entries_total hE ⟨[], Option.none, Option.none⟩
    obtain ⟨_, h2, h3, h4, h5⟩ := entries_some hst
    have hne : Value.FIELD1 ≠ Value.FIELD0 := by decide
    have atKey : ∀ k d, k ≠ Value.FIELD0 → last k l = Option.some d → ∃ v, d.value = Option.some v ∧ d.Says v := by
      intro k d hk hd
      obtain ⟨k', hk', h1⟩ := hl _ (last_mem hd)
      cases hk'
      rwa [if_neg hk] at h1
    refine ⟨st.finish, by rw [value, hst]; rfl, ?_⟩
    cases hr : last Value.FIELD1 l with
    | some d =>
      obtain ⟨v, hv, hs⟩ := atKey _ d hne hr
      rw [hr] at h3
      simp only [hv] at h3
      cases hi : last Value.FIELD0 l with
      | none =>
        rw [hi] at h2
        have : st.finish = v := by rw [Value.MapState.finish, h3, h2]
        rw [this]
        exact .inner hr hs hi
      | some i =>
        rw [hi] at h2
        obtain ⟨k', hk', h1⟩ := hl _ (last_mem hi)
        cases hk'
        rw [if_pos rfl] at h1
        obtain ⟨t, ht⟩ := h1
        simp only at ht h2
        rw [ht] at h2
        have : st.finish = v.mapTag fun _ => t := by rw [Value.MapState.finish, h3, h2]
        rw [this]
        exact .tagged hr hs hi ((tag_iff i t).1 ht)
    | none =>
      rw [hr] at h3
      have : st.finish = .dict Tag.Default st.dict := by rw [Value.MapState.finish, h3]; rfl
      rw [this]
      refine .map hr (h4 List.Pairwise.nil) ?_ ?_
      · intro k
        rw [h5]
        by_cases h0 : k = Value.FIELD0
        · subst h0
          rw [if_pos (.inl rfl)]
          rfl
        · have h0' : (k != Figment.str "___figment_value_id") = true := bne_iff_ne.2 h0
          rw [h0', Bool.true_and]
          by_cases h1 : k = Value.FIELD1
          · subst h1
            rw [if_pos (.inr rfl), hr]
            rfl
          · rw [if_neg (not_or.2 ⟨h0, h1⟩)]
            cases hk : last k l with
            | none => rfl
            | some d =>
              obtain ⟨v, hv, _⟩ := atKey k d h0 hk
              dsimp only
              rw [hv]
              rfl
      · intro k d v hk hg
        rw [h5] at hg
        split at hg
        · cases hg
        · next h01 =>
          obtain ⟨v', hv, hs⟩ := atKey k d (fun h => h01 (.inl h)) hk
          rw [hk] at hg
          simp only at hg
          rw [hv] at hg
          cases hg
          exact hs
theorem values_says : ∀ l : List Doc, acceptedSeq l = true →
    ∃ vs, values l = Option.some vs ∧ vs.length = l.length ∧
      ∀ (i : Nat) d v, l[i]? = Option.some d → vs[i]? = Option.some v → d.Says v
  | [], _ => ⟨[], rfl, rfl, by intro i d v h; cases h⟩
  | d :: r, h => by
    rw [acceptedSeq, Bool.and_eq_true] at h
    obtain ⟨v, h1, h2⟩ := value_says d h.1
    obtain ⟨vs, h3, h4, h5⟩ := values_says r h.2
    refine ⟨v :: vs, by rw [values, h1, h3]; rfl, by simp [h4], ?_⟩
    intro i d' v' hd hv
    cases i with
    | zero => cases hd; cases hv; exact h2
    | succ i => exact h5 i d' v' hd hv
theorem entries_says : ∀ l : List (Option Str × Doc), acceptedMap l = true →
    ∀ e ∈ l, ∃ k, e.1 = Option.some k ∧
      if k = Value.FIELD0 then ∃ t, e.2.tag = Option.some t else ∃ v, e.2.value = Option.some v ∧ e.2.Says v
  | [], _ => nofun
  | (k, d) :: r, h => by
    have hA := acceptedMap_iff.1 h
    have h3 := entries_says r (acceptedMap_iff.2 fun e he => hA e (List.mem_cons_of_mem _ he))
    intro e he
    rcases List.mem_cons.1 he with rfl | he
    · obtain ⟨k', hk, h1⟩ := hA _ (List.mem_cons_self ..)
      refine ⟨k', hk, ?_⟩
      split at h1
      · next h0 => rw [if_pos h0]; exact h1
      · next h0 => rw [if_neg h0]; exact value_says d h1
    · exact h3 e he
end

mutual
theorem value_accepted : ∀ (d : Doc) (v : Value), d.value = Option.some v → d.accepted = true
  | .bool _, _, _ | .char _, _, _ | .str _, _, _ | .num _, _, _ | .none, _, _ | .unit, _, _ => rfl
  | .other, _, h => by cases h
  | .some d, v, h => value_accepted d v h
  | .variant name d, v, h => by
    rw [value] at h
    cases hd : d.value with
    | none => rw [hd] at h; cases h
    | some u => exact value_accepted d u hd
  | .seq l, v, h => by
    rw [value] at h
    cases hl : values l with
    | none => rw [hl] at h; cases h
    | some vs => exact values_accepted l vs hl
  | .map l, v, h => by
    rw [value] at h
    cases hl : entries l ⟨[], Option.none, Option.none⟩ with
    | none => rw [hl] at h; cases h
    | some st =>
      have hE := (entries_some hl).1
      exact acceptedMap_iff.2 (entries_accepted l hE)
theorem values_accepted : ∀ (l : List Doc) (vs : List Value), values l = Option.some vs → acceptedSeq l = true
  | [], _, _ => rfl
  | d :: r, vs, h => by
    rw [acceptedSeq, Bool.and_eq_true]
    rw [values] at h
    cases hd : d.value with
    | none => rw [hd] at h; cases h
    | some v =>
      rw [hd] at h
      dsimp only at h
      cases hr : values r with
      | none => rw [hr] at h; cases h
      | some us => exact ⟨value_accepted d v hd, values_accepted r us hr⟩
theorem entries_accepted : ∀ (l : List (Option Str × Doc)), (∀ e ∈ l, Entry e) →
    ∀ e ∈ l, ∃ k, e.1 = Option.some k ∧
      if k = Value.FIELD0 then ∃ t, e.2.tag = Option.some t else e.2.accepted = true
  | [], _ => nofun
  | (k, d) :: r, h => by
    intro e he
    rcases List.mem_cons.1 he with rfl | he
    · obtain ⟨k', hk, h1⟩ := h _ (List.mem_cons_self ..)
      refine ⟨k', hk, ?_⟩
      split at h1
      · next h0 => rw [if_pos h0]; exact h1
      · next h0 => rw [if_neg h0]; obtain ⟨v, hv⟩ := h1; exact value_accepted d v hv
    · exact entries_accepted r (fun e he => h e (List.mem_cons_of_mem _ he)) e he
end

theorem value_iff_says (d : Doc) (v : Value) : d.value = Option.some v ↔ d.accepted = true ∧ d.Says v := by
  constructor
  · intro h
    have hr := value_accepted d v h
    obtain ⟨u, hu, hi⟩ := value_says d hr
    rw [h] at hu
    cases hu
    exact ⟨hr, hi⟩
  · intro ⟨hr, hi⟩
    obtain ⟨u, hu, hi'⟩ := value_says d hr
    rw [hu, hi.unique hi']

theorem dict_iff_says (d : Doc) (m : Dict) : d.dict = Option.some m ↔ d.SaysDict m := by
  constructor
  · intro h
    cases d with
    | map l =>
      obtain ⟨h1, h2, h3⟩ := dictLoop_some (show dictLoop l [] = Option.some m from h)
      refine ⟨l, rfl, ?_, h2 List.Pairwise.nil, ?_, ?_⟩
      · intro e he
        obtain ⟨k, v, hk, hv⟩ := h1 e he
        exact ⟨by rw [hk]; rfl, value_accepted _ v hv⟩
      · intro k
        rw [h3]
        cases hk : last k l with
        | none => rfl
        | some d =>
          obtain ⟨_, v, _, hv⟩ := h1 _ (last_mem hk)
          dsimp only at hv ⊢
          rw [hv]; rfl
      · intro k d v hk hg
        rw [h3, hk] at hg
        exact ((value_iff_says d v).1 hg).2
    | _ => cases h
  · rintro ⟨l, rfl, ha, hs, hk, hg⟩
    obtain ⟨m', hm'⟩ := dictLoop_total (l := l) (fun e he => by
      obtain ⟨h1, h2⟩ := ha e he
      obtain ⟨k, hk⟩ := Option.isSome_iff_exists.1 h1
      obtain ⟨v, hv, _⟩ := value_says e.2 h2
      exact ⟨k, v, hk, hv⟩) []
    obtain ⟨h1, h2, h3⟩ := dictLoop_some hm'
    show dictLoop l [] = _
    rw [hm']
    congr 1
    apply Map.ext_of_sorted (h2 List.Pairwise.nil) hs
    intro k
    have hkk := hk k
    rw [h3]
    cases hl : last k l with
    | none =>
      rw [hl] at hkk
      cases hm : Map.get k m with
      | none => rfl
      | some v => rw [hm] at hkk; cases hkk
    | some d =>
      rw [hl] at hkk
      cases hm : Map.get k m with
      | none => rw [hm] at hkk; cases hkk
      | some v =>
        exact (value_iff_says d v).2 ⟨(ha _ (last_mem hl)).2, hg k d v hl hm⟩

end Figment.Doc
