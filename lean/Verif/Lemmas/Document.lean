import Verif.Spec.Document
import Verif.Lemmas.Value
import Verif.Lemmas.Find
import Verif.Lemmas.Origin
/-!
# Lemmas about reading documents
-/
namespace Figment.Doc

theorem last_cons (k : Str) (e : Option Str × Doc) (r : List (Option Str × Doc)) :
    last k (e :: r) = (last k r).or (if e.1 = Option.some k then Option.some e.2 else Option.none) := by
  unfold last
  rw [List.reverse_cons, List.find?_append]
  cases (r.reverse.find? fun e => decide (e.1 = Option.some k)) with
  | some x => rfl
  | none =>
    by_cases h : e.1 = Option.some k
    · simp [List.find?, h]
    · simp [List.find?, h]

theorem last_mem {k : Str} {l : List (Option Str × Doc)} {d : Doc} (h : last k l = Option.some d) :
    (Option.some k, d) ∈ l := by
  induction l with
  | nil => cases h
  | cons e r ih =>
    rw [last_cons] at h
    cases hr : last k r with
    | some x => rw [hr] at h; cases h; exact List.mem_cons_of_mem _ (ih hr)
    | none =>
      rw [hr, Option.none_or] at h
      split at h
      · next hk =>
        cases h
        obtain ⟨a, b⟩ := e
        cases hk
        exact List.mem_cons_self ..
      · cases h

theorem dictLoop_some {l : List (Option Str × Doc)} {m₀ m : Dict} (h : dictLoop l m₀ = Option.some m) :
    (∀ e ∈ l, ∃ k v, e.1 = Option.some k ∧ e.2.value = Option.some v) ∧ (Map.Sorted m₀ → Map.Sorted m) ∧
    ∀ k, Map.get k m = match last k l with | .some d => d.value | .none => Map.get k m₀ := by
  induction l generalizing m₀ with
  | nil => cases h; exact ⟨nofun, id, fun _ => rfl⟩
  | cons e r ih =>
    obtain ⟨k, d⟩ := e
    cases k with
    | none => cases h
    | some k =>
      rw [dictLoop] at h
      cases hv : d.value with
      | none => rw [hv] at h; cases h
      | some v =>
        rw [hv] at h
        obtain ⟨h1, h2, h3⟩ := ih h
        refine ⟨?_, fun hs => h2 (hs.insert k v), fun k' => ?_⟩
        · intro e he
          rcases List.mem_cons.1 he with rfl | he
          · exact ⟨k, v, rfl, hv⟩
          · exact h1 e he
        · rw [h3, last_cons]
          cases last k' r with
          | some x => rfl
          | none =>
            rw [Option.none_or, Map.get_insert]
            dsimp only
            by_cases hk : k = k'
            · subst hk
              simp [hv]
            · have : ¬ compare k' k = .eq := fun hc => hk (Std.LawfulEqOrd.eq_of_compare hc).symm
              simp [hk, this]

theorem dictLoop_total {l : List (Option Str × Doc)} (h : ∀ e ∈ l, ∃ k v, e.1 = Option.some k ∧ e.2.value = Option.some v)
    (m₀ : Dict) : ∃ m, dictLoop l m₀ = Option.some m := by
  induction l generalizing m₀ with
  | nil => exact ⟨m₀, rfl⟩
  | cons e r ih =>
    obtain ⟨k, d⟩ := e
    obtain ⟨k', v, hk, hv⟩ := h _ (List.mem_cons_self ..)
    cases hk
    rw [dictLoop, hv]
    exact ih (fun e he => h e (List.mem_cons_of_mem _ he)) _

/-- The keys that are not reserved. -/
abbrev freeKey (k : Option Str) : Bool :=
  k != Option.some (Figment.str "___figment_value_id") && k != Option.some (Figment.str "___figment_value_value")

theorem entries_free {l : List (Option Str × Doc)} (h : checkMap freeKey true l = true) (m : Dict) :
    entries l ⟨m, .none, .none⟩ = (dictLoop l m).map fun m => ⟨m, .none, .none⟩ := by
  induction l generalizing m with
  | nil => rfl
  | cons e r ih =>
    obtain ⟨k, d⟩ := e
    rw [checkMap, Bool.and_eq_true, Bool.and_eq_true] at h
    cases k with
    | none => rfl
    | some k =>
      obtain ⟨⟨hk, _⟩, hr⟩ := h
      have h0 : k ≠ Value.FIELD0 := by rintro rfl; revert hk; decide
      have h1 : k ≠ Value.FIELD1 := by rintro rfl; revert hk; decide
      rw [entries, dictLoop, if_neg h0, if_neg h1]
      cases d.value with
      | none => rfl
      | some v => exact ih hr _

theorem value_map {l : List (Option Str × Doc)} (h : checkMap freeKey true l = true) :
    (Doc.map l).value = (dictLoop l []).map (Value.dict Tag.Default) := by
  rw [value, entries_free h]
  cases dictLoop l [] <;> rfl

theorem within_eq (ks : List Str) (v : Value) : within ks v = Value.nestKeys ks v := by
  induction ks with
  | nil => rfl
  | cons k ks ih => rw [within, ih]; rfl

theorem Is.unique {d : Doc} {v u : Value} (h : Is d v) (h' : Is d u) : v = u := by
  induction h generalizing u with
  | bool | char | str | num | none | unit => cases h'; rfl
  | some h ih => cases h' with | some h' => exact ih h'
  | variant h ih => cases h' with | variant h' => rw [ih h']
  | seq hl h ih =>
    cases h' with
    | seq hl' h' =>
      congr 1
      apply List.ext_getElem?
      intro i
      rename_i l vs us
      cases hi : l[i]? with
      | none =>
        rw [List.getElem?_eq_none (by rw [hl]; exact List.getElem?_eq_none_iff.1 hi),
          List.getElem?_eq_none (by rw [hl']; exact List.getElem?_eq_none_iff.1 hi)]
      | some d =>
        have hlt := (List.getElem?_eq_some_iff.1 hi).1
        have e1 : vs[i]? = Option.some vs[i] := List.getElem?_eq_getElem (by rw [hl]; exact hlt)
        have e2 : us[i]? = Option.some us[i] := List.getElem?_eq_getElem (by rw [hl']; exact hlt)
        rw [e1, e2, ih i d _ hi e1 (h' i d _ hi e2)]
  | map hs hk h ih =>
    cases h' with
    | map hs' hk' h' =>
      rename_i l m n
      congr 1
      apply Map.ext_of_sorted hs hs'
      intro k
      have hkk := (hk k).trans (hk' k).symm
      cases h1 : Map.get k m with
      | none =>
        cases h2 : Map.get k n with
        | none => rfl
        | some u => rw [h1, h2] at hkk; cases hkk
      | some v =>
        cases h2 : Map.get k n with
        | none => rw [h1, h2] at hkk; cases hkk
        | some u =>
          cases hl : last k l with
          | none => have := hk k; rw [h1, hl] at this; cases this
          | some d => rw [ih k d v hl h1 (h' k d u hl h2)]

mutual
theorem value_is : ∀ d : Doc, d.check freeKey true = true → d.check Option.isSome false = true →
    ∃ v, d.value = Option.some v ∧ d.Is v
  | .bool b, _, _ => ⟨_, rfl, .bool b⟩
  | .char c, _, _ => ⟨_, rfl, .char c⟩
  | .str s, _, _ => ⟨_, rfl, .str s⟩
  | .num n, _, _ => ⟨_, rfl, .num n⟩
  | .none, _, _ => ⟨_, rfl, .none⟩
  | .unit, _, _ => ⟨_, rfl, .unit⟩
  | .other, _, h => by cases h
  | .some d, hf, hr => by
    obtain ⟨v, h1, h2⟩ := value_is d hf hr
    exact ⟨v, h1, .some h2⟩
  | .variant name d, hf, hr => by
    obtain ⟨v, h1, h2⟩ := value_is d hf hr
    refine ⟨nest name v, by rw [value, h1]; rfl, ?_⟩
    rw [nest_eq, ← within_eq]
    exact .variant h2
  | .seq l, hf, hr => by
    obtain ⟨vs, h1, h2, h3⟩ := values_is l hf hr
    exact ⟨.array Tag.Default vs, by rw [value, h1]; rfl, .seq h2 h3⟩
  | .map l, hf, hr => by
    have hl := entries_is l hf hr
    obtain ⟨m, hm⟩ := dictLoop_total (fun e he => let ⟨k, v, h1, h2, _⟩ := hl e he; ⟨k, v, h1, h2⟩) []
    obtain ⟨_, h2, h3⟩ := dictLoop_some hm
    refine ⟨.dict Tag.Default m, by rw [value_map hf, hm]; rfl, .map (h2 List.Pairwise.nil) ?_ ?_⟩
    · intro k
      rw [h3]
      cases hk : last k l with
      | none => rfl
      | some d =>
        obtain ⟨_, v, _, hv, _⟩ := hl _ (last_mem hk)
        dsimp only at hv ⊢
        rw [hv]; rfl
    · intro k d v hk hg
      rw [h3, hk] at hg
      obtain ⟨_, v', _, hv, hi⟩ := hl _ (last_mem hk)
      dsimp only at hv hi hg
      rw [hg] at hv
      cases hv
      exact hi
theorem values_is : ∀ l : List Doc, checkSeq freeKey true l = true → checkSeq Option.isSome false l = true →
    ∃ vs, values l = Option.some vs ∧ vs.length = l.length ∧
      ∀ (i : Nat) d v, l[i]? = Option.some d → vs[i]? = Option.some v → d.Is v
  | [], _, _ => ⟨[], rfl, rfl, by intro i d v h; cases h⟩
  | d :: r, hf, hr => by
    rw [checkSeq, Bool.and_eq_true] at hf hr
    obtain ⟨v, h1, h2⟩ := value_is d hf.1 hr.1
    obtain ⟨vs, h3, h4, h5⟩ := values_is r hf.2 hr.2
    refine ⟨v :: vs, by rw [values, h1, h3]; rfl, by simp [h4], ?_⟩
    intro i d' v' hd hv
    cases i with
    | zero => cases hd; cases hv; exact h2
    | succ i => exact h5 i d' v' hd hv
theorem entries_is : ∀ l : List (Option Str × Doc), checkMap freeKey true l = true → checkMap Option.isSome false l = true →
    ∀ e ∈ l, ∃ k v, e.1 = Option.some k ∧ e.2.value = Option.some v ∧ e.2.Is v
  | [], _, _ => nofun
  | (k, d) :: r, hf, hr => by
    rw [checkMap, Bool.and_eq_true, Bool.and_eq_true] at hf hr
    obtain ⟨v, h1, h2⟩ := value_is d hf.1.2 hr.1.2
    have h3 := entries_is r hf.2 hr.2
    intro e he
    rcases List.mem_cons.1 he with rfl | he
    · cases k with
      | none => cases hr.1.1
      | some k => exact ⟨k, v, rfl, h1, h2⟩
    · exact h3 e he
end

mutual
theorem value_readable : ∀ (d : Doc) (v : Value), d.check freeKey true = true → d.value = Option.some v →
    d.check Option.isSome false = true
  | .bool _, _, _, _ | .char _, _, _, _ | .str _, _, _, _ | .num _, _, _, _ | .none, _, _, _ | .unit, _, _, _ => rfl
  | .other, _, _, h => by cases h
  | .some d, v, hf, h => value_readable d v hf h
  | .variant name d, v, hf, h => by
    rw [value] at h
    cases hd : d.value with
    | none => rw [hd] at h; cases h
    | some u => exact value_readable d u hf hd
  | .seq l, v, hf, h => by
    rw [value] at h
    cases hl : values l with
    | none => rw [hl] at h; cases h
    | some vs => exact values_readable l vs hf hl
  | .map l, v, hf, h => by
    rw [value_map hf] at h
    cases hl : dictLoop l [] with
    | none => rw [hl] at h; cases h
    | some m => exact entries_readable l hf (dictLoop_some hl).1
theorem values_readable : ∀ (l : List Doc) (vs : List Value), checkSeq freeKey true l = true →
    values l = Option.some vs → checkSeq Option.isSome false l = true
  | [], _, _, _ => rfl
  | d :: r, vs, hf, h => by
    rw [checkSeq, Bool.and_eq_true] at hf ⊢
    rw [values] at h
    cases hd : d.value with
    | none => rw [hd] at h; cases h
    | some v =>
      rw [hd] at h
      dsimp only at h
      cases hr : values r with
      | none => rw [hr] at h; cases h
      | some us => exact ⟨value_readable d v hf.1 hd, values_readable r us hf.2 hr⟩
theorem entries_readable : ∀ (l : List (Option Str × Doc)), checkMap freeKey true l = true →
    (∀ e ∈ l, ∃ k v, e.1 = Option.some k ∧ e.2.value = Option.some v) → checkMap Option.isSome false l = true
  | [], _, _ => rfl
  | (k, d) :: r, hf, h => by
    rw [checkMap, Bool.and_eq_true, Bool.and_eq_true] at hf ⊢
    obtain ⟨k', v, hk, hv⟩ := h _ (List.mem_cons_self ..)
    exact ⟨⟨by rw [show k = Option.some k' from hk]; rfl, value_readable d v hf.1.2 hv⟩,
      entries_readable r hf.2 fun e he => h e (List.mem_cons_of_mem _ he)⟩
end

theorem value_iff (d : Doc) (hf : d.free = true) (v : Value) :
    d.value = Option.some v ↔ d.readable = true ∧ d.Is v := by
  constructor
  · intro h
    have hr := value_readable d v hf h
    obtain ⟨u, hu, hi⟩ := value_is d hf hr
    rw [h] at hu
    cases hu
    exact ⟨hr, hi⟩
  · intro ⟨hr, hi⟩
    obtain ⟨u, hu, hi'⟩ := value_is d hf hr
    rw [hu, hi.unique hi']

theorem Is.fine {d : Doc} {v : Value} (h : Is d v) : v.WF ∧ v.tagsAll (fun t => t.same Tag.Default) = true := by
  induction h with
  | bool | char | str | num | none | unit => exact ⟨rfl, rfl⟩
  | some _ ih => exact ih
  | variant _ ih =>
    rename_i name _ _ _
    generalize pathKeys name = ks
    induction ks with
    | nil => exact ih
    | cons k ks ihk =>
      refine ⟨Value.wf_dict.2 ⟨List.pairwise_singleton .., ?_⟩, ?_⟩
      · intro e he
        cases List.mem_singleton.1 he
        exact ihk.1
      · rw [within, Value.tagsAll, Value.tagsAllD, Value.tagsAllD, ihk.2]
        rfl
  | seq hl _ ih =>
    rename_i l vs _
    have hm : ∀ v ∈ vs, v.WF ∧ v.tagsAll (fun t => t.same Tag.Default) = true := by
      intro v hv
      obtain ⟨i, hi⟩ := List.getElem?_of_mem hv
      have hlt : i < l.length := hl ▸ (List.getElem?_eq_some_iff.1 hi).1
      exact ih i l[i] v (List.getElem?_eq_getElem hlt) hi
    refine ⟨Value.wf_array.2 fun v hv => (hm v hv).1, ?_⟩
    rw [Value.tagsAll, Value.tagsAllA_iff.2 fun v hv => (hm v hv).2]
    rfl
  | map hs hk _ ih =>
    rename_i l m _
    have hm : ∀ e ∈ m, e.2.WF ∧ e.2.tagsAll (fun t => t.same Tag.Default) = true := by
      intro e he
      have hg := Map.get_eq_some_of_mem hs (k := e.1) (v := e.2) he
      have := hk e.1
      rw [hg] at this
      cases hl : last e.1 l with
      | none => rw [hl] at this; cases this
      | some d => exact ih e.1 d e.2 hl hg
    refine ⟨Value.wf_dict.2 ⟨hs, fun e he => (hm e he).1⟩, ?_⟩
    rw [Value.tagsAll, Value.tagsAllD_iff.2 fun e he => (hm e he).2]
    rfl

theorem Is.leads {d e : Doc} {ks : List Str} (hl : Leads d ks e) {v : Value} (h : Is d v) :
    ∃ u, v.getKeys ks = Option.some u ∧ Is e u := by
  induction hl generalizing v with
  | here => exact ⟨v, Value.getKeys_nil v, h⟩
  | some _ ih => cases h with | some h => exact ih h
  | variant _ ih =>
    cases h with
    | variant h =>
      obtain ⟨u, hu, hi⟩ := ih h
      refine ⟨u, ?_, hi⟩
      rw [within_eq, Value.getKeys_nestKeys_self, hu]
  | key hk _ ih =>
    cases h with
    | map hs hsome hmap =>
      rename_i l k d e ks _ m
      have := hsome k
      rw [hk] at this
      cases hg : Map.get k m with
      | none => rw [hg] at this; cases this
      | some w =>
        obtain ⟨u, hu, hi⟩ := ih (hmap k d w hk hg)
        refine ⟨u, ?_, hi⟩
        rw [Value.getKeys_dict_cons, hg]
        exact hu

theorem dict_iff (d : Doc) (hf : d.free = true) (m : Dict) : d.dict = Option.some m ↔ d.readable = true ∧ d.IsDict m := by
  constructor
  · intro h
    cases d with
    | map l =>
      have hv : (Doc.map l).value = Option.some (.dict Tag.Default m) := by
        rw [value_map hf]
        exact congrArg (Option.map _) h
      obtain ⟨h1, h2⟩ := (value_iff _ hf _).1 hv
      exact ⟨h1, l, rfl, h2⟩
    | _ => cases h
  · rintro ⟨hr, l, rfl, hi⟩
    have hv := (value_iff _ hf _).2 ⟨hr, hi⟩
    rw [value_map hf] at hv
    show dictLoop l [] = _
    cases hl : dictLoop l [] with
    | none => rw [hl] at hv; cases hv
    | some n => rw [hl] at hv; cases hv; rfl

theorem lastSection_cons (p : Profile) (e : Option Str × Doc) (r : List (Option Str × Doc)) :
    lastSection p (e :: r) = (lastSection p r).or
      (if e.1.any fun k => Str.lower k == Str.lower p.name then Option.some e.2 else Option.none) := by
  unfold lastSection
  rw [List.reverse_cons, List.find?_append]
  cases (r.reverse.find? fun e => e.1.any fun k => Str.lower k == Str.lower p.name) with
  | some x => rfl
  | none =>
    cases h : e.1.any fun k => Str.lower k == Str.lower p.name <;> simp [List.find?, h]

theorem lastSection_mem {p : Profile} {l : List (Option Str × Doc)} {d : Doc} (h : lastSection p l = Option.some d) :
    ∃ k, (Option.some k, d) ∈ l ∧ Str.lower k = Str.lower p.name := by
  induction l with
  | nil => cases h
  | cons e r ih =>
    rw [lastSection_cons] at h
    cases hr : lastSection p r with
    | some x =>
      rw [hr] at h
      cases h
      obtain ⟨k, hk, hl⟩ := ih hr
      exact ⟨k, List.mem_cons_of_mem _ hk, hl⟩
    | none =>
      rw [hr, Option.none_or] at h
      split at h
      · next hk =>
        cases h
        obtain ⟨a, b⟩ := e
        cases a with
        | none => cases hk
        | some a => exact ⟨a, List.mem_cons_self .., by simpa using hk⟩
      · cases h

theorem sectionLoop_some {l : List (Option Str × Doc)} {m₀ m : Data} (h : sectionLoop l m₀ = Option.some m) :
    (∀ e ∈ l, ∃ k x, e.1 = Option.some k ∧ e.2.dict = Option.some x) ∧ (Map.Sorted m₀ → Map.Sorted m) ∧
    ∀ p, Map.get p m = match lastSection p l with | .some d => d.dict | .none => Map.get p m₀ := by
  induction l generalizing m₀ with
  | nil => cases h; exact ⟨nofun, id, fun _ => rfl⟩
  | cons e r ih =>
    obtain ⟨k, d⟩ := e
    cases k with
    | none => cases h
    | some k =>
      rw [sectionLoop] at h
      cases hv : d.dict with
      | none => rw [hv] at h; cases h
      | some v =>
        rw [hv] at h
        obtain ⟨h1, h2, h3⟩ := ih h
        refine ⟨?_, fun hs => h2 (hs.insert _ v), fun p => ?_⟩
        · intro e he
          rcases List.mem_cons.1 he with rfl | he
          · exact ⟨k, v, rfl, hv⟩
          · exact h1 e he
        · rw [h3, lastSection_cons]
          cases lastSection p r with
          | some x => rfl
          | none =>
            rw [Option.none_or, Map.get_insert]
            dsimp only [Option.any]
            have : compare p (Profile.ofText k) = .eq ↔ Str.lower k = Str.lower p.name := by
              show compare (Str.lower p.name) (Str.lower k) = .eq ↔ _
              rw [Std.LawfulEqOrd.compare_eq_iff_eq]
              exact eq_comm
            by_cases hk : Str.lower k = Str.lower p.name
            · rw [if_pos (this.2 hk), if_pos (by simpa using hk)]
              exact hv.symm
            · rw [if_neg fun h => hk (this.1 h), if_neg (by simpa using hk)]

theorem sectionLoop_total {l : List (Option Str × Doc)} (h : ∀ e ∈ l, ∃ k x, e.1 = Option.some k ∧ e.2.dict = Option.some x)
    (m₀ : Data) : ∃ m, sectionLoop l m₀ = Option.some m := by
  induction l generalizing m₀ with
  | nil => exact ⟨m₀, rfl⟩
  | cons e r ih =>
    obtain ⟨k, d⟩ := e
    obtain ⟨k', v, hk, hv⟩ := h _ (List.mem_cons_self ..)
    cases hk
    rw [sectionLoop, hv]
    exact ih (fun e he => h e (List.mem_cons_of_mem _ he)) _

theorem checkMap_iff {P : Option Str → Bool} {b : Bool} {l : List (Option Str × Doc)} :
    checkMap P b l = true ↔ ∀ e ∈ l, P e.1 = true ∧ e.2.check P b = true := by
  induction l with
  | nil => exact ⟨nofun, fun _ => rfl⟩
  | cons e r ih =>
    obtain ⟨k, d⟩ := e
    rw [checkMap, Bool.and_eq_true, Bool.and_eq_true, ih]
    simp

end Figment.Doc
