import Verif.Spec.Update
import Verif.Lemmas.Kept
import Verif.Lemmas.Strip
/-!
# Lemmas on changing values: what is read from a merge is the one changed where the other says so
-/
namespace Figment

theorem Value.merge_atom {w v : Value} (h : ∀ tag d, w ≠ .dict tag d) : w.coalesce v .Merge = v := by
  cases w with
  | dict t d => exact absurd rfl (h t d)
  | array t a => cases v <;> rfl
  | _ => cases v <;> rfl

theorem Value.merge_other {w v : Value} (h : ∀ tag d, v ≠ .dict tag d) : w.coalesce v .Merge = v := by
  cases v with
  | dict t d => exact absurd rfl (h t d)
  | array t a => cases w <;> rfl
  | _ => cases w <;> rfl

theorem Value.merge_empty {w v : Value} : (∃ tag e, w.coalesce v .Merge = .empty tag e) ↔ ∃ tag e, v = .empty tag e := by
  by_cases hv : ∃ tag d, v = .dict tag d
  · obtain ⟨tag, d, rfl⟩ := hv
    constructor
    · rintro ⟨tag', e, h⟩
      cases w <;> (simp [Value.coalesce] at h)
    · rintro ⟨tag', e, h⟩; cases h
  · rw [Value.merge_other fun tag d h => hv ⟨tag, d, h⟩]

theorem Value.merge_dict (t t' : Tag) (a b : Dict) :
    Value.coalesce (.dict t a) (.dict t' b) .Merge = .dict t' (Dict.coalesce a b .Merge) := Value.coalesce_dict t t' a b .Merge

/-- Pairing off two lists of entries, said by keys. -/
theorem paired_iff {R : Value → Val → Prop} {d : List (Str × Value)} (hd : Map.Sorted d) {l : List (Str × Val)} :
    (d.map (·.1) = l.map (·.1) ∧ ∀ (i : Nat) k w y, d[i]? = some (k, w) → l[i]? = some (k, y) → R w y) ↔
    (Map.Sorted l ∧ ∀ k, (Map.get k d = none → Map.get k l = none) ∧
      ∀ w, Map.get k d = some w → ∃ y, Map.get k l = some y ∧ R w y) := by
  have hsort : ∀ {α : Type} (m : List (Str × α)), Map.Sorted m ↔ (m.map (·.1)).Pairwise (fun a b => compare a b = .lt) :=
    fun m => by rw [List.pairwise_map]; exact Iff.rfl
  constructor
  · rintro ⟨hk, hR⟩
    have hl : Map.Sorted l := (hsort l).2 (hk ▸ (hsort d).1 hd)
    refine ⟨hl, fun k => ⟨fun h => ?_, fun w h => ?_⟩⟩
    · cases hg : Map.get k l with
      | none => rfl
      | some y =>
        have h1 : k ∈ Map.keys l := Map.mem_keys_iff.2 (by rw [hg]; rfl)
        have h2 : k ∈ Map.keys d := by rw [Map.keys, hk]; exact h1
        rw [Map.mem_keys_iff, h] at h2
        cases h2
    · obtain ⟨k', hm, he⟩ := Map.mem_of_get h
      obtain rfl := Std.LawfulEqOrd.eq_of_compare he
      obtain ⟨i, hi⟩ := List.getElem?_of_mem hm
      have h1 : (d.map (·.1))[i]? = some k := by rw [List.getElem?_map, hi]; rfl
      rw [hk, List.getElem?_map] at h1
      cases h2 : l[i]? with
      | none => rw [h2] at h1; cases h1
      | some e =>
        obtain ⟨k2, y⟩ := e
        rw [h2] at h1
        cases h1
        exact ⟨y, Map.get_eq_some_of_mem hl (List.mem_of_getElem? h2), hR i _ _ _ hi h2⟩
  · rintro ⟨hl, h⟩
    have hk : d.map (·.1) = l.map (·.1) := by
      have : d.map (fun e => (e.1, ())) = l.map (fun e => (e.1, ())) := by
        refine Map.ext_of_sorted (Map.Sorted.map_snd hd fun _ => ()) (Map.Sorted.map_snd hl fun _ => ()) fun k => ?_
        rw [Map.get_map_snd (fun _ => ()), Map.get_map_snd (fun _ => ())]
        cases hg : Map.get k d with
        | none => rw [(h k).1 hg]; rfl
        | some w =>
          obtain ⟨y, hy, _⟩ := (h k).2 w hg
          rw [hy]; rfl
      have h2 := congrArg (List.map Prod.fst) this
      rw [List.map_map, List.map_map] at h2
      exact h2
    refine ⟨hk, fun i k w y h1 h2 => ?_⟩
    obtain ⟨y', h3, h4⟩ := (h k).2 w (Map.get_eq_some_of_mem hd (List.mem_of_getElem? h1))
    rw [Map.get_eq_some_of_mem hl (List.mem_of_getElem? h2)] at h3
    cases h3
    exact h4

theorem Value.WF.get {t : Tag} {d : Dict} (h : (Value.dict t d).WF) {k : Str} {w : Value} (hg : Map.get k d = some w) :
    w.WF := by
  obtain ⟨k', hm, _⟩ := Map.mem_of_get hg
  exact (Value.wf_dict.1 h).2 _ hm

theorem Map.head_of_get {α : Type} {D : List (Str × α)} (hD : Map.Sorted D) {k : Str} {e : α} (hg : Map.get k D = some e)
    (hmin : ∀ k' e', Map.get k' D = some e' → compare k k' ≠ .gt) : ∃ R, D = (k, e) :: R := by
  cases D with
  | nil => cases hg
  | cons h R =>
    obtain ⟨k0, e0⟩ := h
    have h0 : Map.get k0 ((k0, e0) :: R) = some e0 := Map.get_eq_some_of_mem hD List.mem_cons_self
    cases hc : compare k k0 with
    | lt => rw [Map.get_none_of_lt hD hc] at hg; cases hg
    | eq =>
      obtain rfl := Std.LawfulEqOrd.eq_of_compare hc
      rw [h0] at hg
      cases hg
      exact ⟨R, rfl⟩
    | gt => exact absurd hc (hmin k0 e0 h0)

theorem Map.min_of_get {α : Type} {a : Str} {u : α} {r : List (Str × α)} (h : Map.Sorted ((a, u) :: r)) {k : Str} {e : α}
    (hg : Map.get k ((a, u) :: r) = some e) : compare a k ≠ .gt := by
  intro hc
  rw [Map.get_none_of_lt h (Std.OrientedCmp.lt_of_gt hc)] at hg
  cases hg

/-- What comes first in a merge. -/
theorem merge_head {a k : Str} {u e : Value} {r r' : Dict} (h : Map.Sorted ((a, u) :: r)) (h' : Map.Sorted ((k, e) :: r')) :
    (compare k a = .lt → ∃ R, Dict.coalesce ((a, u) :: r) ((k, e) :: r') .Merge = (k, e) :: R) ∧
    (k = a → ∃ R, Dict.coalesce ((a, u) :: r) ((k, e) :: r') .Merge = (a, u.coalesce e .Merge) :: R) ∧
    (compare a k = .lt → ∃ R, Dict.coalesce ((a, u) :: r) ((k, e) :: r') .Merge = (a, u) :: R) := by
  have ha : Map.get a ((a, u) :: r) = some u := Map.get_eq_some_of_mem h List.mem_cons_self
  have hk : Map.get k ((k, e) :: r') = some e := Map.get_eq_some_of_mem h' List.mem_cons_self
  have hmem : ∀ k' e', Map.get k' (Dict.coalesce ((a, u) :: r) ((k, e) :: r') .Merge) = some e' →
      compare a k' ≠ .gt ∨ compare k k' ≠ .gt := by
    intro k' e' hg
    rw [Dict.get_coalesce h h'] at hg
    cases h1 : Map.get k' ((a, u) :: r) with
    | some w => exact .inl (Map.min_of_get h h1)
    | none =>
      cases h2 : Map.get k' ((k, e) :: r') with
      | some w => exact .inr (Map.min_of_get h' h2)
      | none => rw [h1, h2] at hg; cases hg
  have hle : ∀ {x y z : Str}, compare x y = .lt → compare y z ≠ .gt → compare x z ≠ .gt := by
    intro x y z h1 h2
    have h3 : (compare x y).isLE := by rw [h1]; rfl
    have h4 : (compare y z).isLE := by cases hc : compare y z with | gt => exact absurd hc h2 | _ => rfl
    have h5 := Std.TransCmp.isLE_trans (cmp := compare) h3 h4
    intro h6
    rw [h6] at h5
    cases h5
  refine ⟨fun hc => ?_, fun hc => ?_, fun hc => ?_⟩
  · refine Map.head_of_get (Dict.sorted_coalesce _ _ _) ?_ fun k' e' hg => ?_
    · rw [Dict.get_coalesce h h', hk, Map.get_none_of_lt h hc]; rfl
    · rcases hmem k' e' hg with h1 | h1
      · exact hle hc h1
      · exact h1
  · subst hc
    refine Map.head_of_get (Dict.sorted_coalesce _ _ _) ?_ fun k' e' hg => ?_
    · rw [Dict.get_coalesce h h', hk, ha]; rfl
    · exact (hmem k' e' hg).elim id id
  · refine Map.head_of_get (Dict.sorted_coalesce _ _ _) ?_ fun k' e' hg => ?_
    · rw [Dict.get_coalesce h h', ha, Map.get_none_of_lt h' hc]; rfl
    · rcases hmem k' e' hg with h1 | h1
      · exact h1
      · exact hle hc h1

theorem shapedVariant_lookup {a : Str} {u : Value} : ∀ {vs : List (Str × VTy)}, Ty.ShapedVariant a vs u →
    vs.lookup a ≠ some .unit
  | [], h => nomatch h
  | (n, v) :: vs, h => by
    rw [Ty.ShapedVariant] at h
    rcases h with ⟨rfl, h⟩ | ⟨hn, h⟩
    · rw [List.lookup_cons, beq_self_eq_true]
      cases v with
      | unit => exact nomatch h
      | _ => simp
    · rw [List.lookup_cons, beq_false_of_ne (Ne.symm hn)]
      exact shapedVariant_lookup h

theorem lookup_of_get {s : Str} {v : VTy} : ∀ {vs : List (Str × VTy)}, (vs.map (·.1)).Nodup → ∀ {i : Nat}, vs[i]? = some (s, v) →
    vs.lookup s = some v
  | [], _, i, h => by cases h
  | (n, w) :: vs, hn, i, h => by
    rw [List.map_cons, List.nodup_cons] at hn
    cases i with
    | zero => cases h; rw [List.lookup_cons, beq_self_eq_true]
    | succ i =>
      have : s ∈ vs.map (·.1) := List.mem_map.2 ⟨_, List.mem_of_getElem? h, rfl⟩
      rw [List.lookup_cons, beq_false_of_ne (fun h : s = n => hn.1 (h ▸ this))]
      exact lookup_of_get hn.2 h

/-- A field is denied in a merge exactly if it is in the one or the other. -/
theorem merge_deny {tg tg' : Tag} {d d' : Dict} (hw : (Value.dict tg d).WF) (hv : (Value.dict tg' d').WF) {deny : Bool} {ns : List Str}
    (hdeny : deny = true → ∀ e ∈ d, e.1 ∈ ns) :
    (deny = true → ∀ e ∈ Dict.coalesce d d' .Merge, e.1 ∈ ns) ↔ (deny = true → ∀ e ∈ d', e.1 ∈ ns) := by
  have hd := (Value.wf_dict.1 hw).1
  have hd' := (Value.wf_dict.1 hv).1
  refine forall_congr' fun hde => ⟨fun h e he => ?_, fun h e he => ?_⟩
  · have h1 := Map.get_eq_some_of_mem hd' (k := e.1) (v := e.2) he
    have h2 : ∃ u, Map.get e.1 (Dict.coalesce d d' .Merge) = some u := by
      rw [Dict.get_coalesce hd hd', h1]
      cases Map.get e.1 d <;> exact ⟨_, rfl⟩
    obtain ⟨u, h2⟩ := h2
    obtain ⟨k, hm, hk⟩ := Map.mem_of_get h2
    obtain hk := Std.LawfulEqOrd.eq_of_compare hk
    rw [hk]
    exact h _ hm
  · have h1 := Map.get_eq_some_of_mem (Dict.sorted_coalesce d d' .Merge) (k := e.1) (v := e.2) he
    rw [Dict.get_coalesce hd hd'] at h1
    cases h2 : Map.get e.1 d' with
    | some u =>
      obtain ⟨k, hm, hk⟩ := Map.mem_of_get h2
      obtain hk := Std.LawfulEqOrd.eq_of_compare hk
      rw [hk]
      exact h _ hm
    | none =>
      cases h3 : Map.get e.1 d with
      | some u =>
        obtain ⟨k, hm, hk⟩ := Map.mem_of_get h3
        obtain hk := Std.LawfulEqOrd.eq_of_compare hk
        rw [hk]
        exact hdeny hde _ hm
      | none => rw [h2, h3] at h1; cases h1

section
variable [FloatOps]

theorem Ty.means_map_iff {l : Bool} {file : Tag → Option Str} {t : Ty} {tag : Tag} {d : Dict} (hd : Map.Sorted d) {x : Val} :
    (∃ tag' d' m, Value.dict tag d = .dict tag' d' ∧ x = .map m ∧ d'.map (·.1) = m.map (·.1) ∧
      ∀ (i : Nat) k w y, d'[i]? = some (k, w) → m[i]? = some (k, y) → t.Means l file w y) ↔
    ∃ m, x = .map m ∧ Map.Sorted m ∧ ∀ k, (Map.get k d = none → Map.get k m = none) ∧
      ∀ w, Map.get k d = some w → ∃ y, Map.get k m = some y ∧ t.Means l file w y := by
  constructor
  · rintro ⟨tag', d', m, h1, rfl, h2⟩
    cases h1
    exact ⟨m, rfl, (paired_iff hd).1 h2⟩
  · rintro ⟨m, rfl, h⟩
    exact ⟨tag, d, m, rfl, rfl, (paired_iff hd).2 h⟩

theorem Ty.means_one {l : Bool} {t : Ty} (ht : t.proper false = true) {v : Value} (hv : v.WF) {x y : Val}
    (hx : t.Means l (fun _ => none) v x) (hy : t.Means l (fun _ => none) v y) : x = y := by
  have key : ∀ x, t.Means l (fun _ => none) v x → t.de ⟨some Fig.new, l⟩ v = .ok x := fun x hx =>
    (Ty.means (some Fig.new) l false nofun t ht v ⟨hv, nofun⟩ x).2 ((Ty.means_strip t ht rfl x).1 hx)
  exact Except.ok.inj ((key x hx).symm.trans (key y hy))

omit [FloatOps] in
/-- Two dictionaries merged, and what is read from their entries. -/
theorem merge_entries {M : Value → Val → Prop} {U : Val → Value → Val → Prop} {d d' : Dict} (hd : Map.Sorted d)
    (hd' : Map.Sorted d') (one : ∀ k w x y, Map.get k d = some w → M w x → M w y → x = y)
    (ih : ∀ k w v x, Map.get k d = some w → Map.get k d' = some v → M w x → ∀ y, M (w.coalesce v .Merge) y ↔ U x v y)
    {lx : List (Str × Val)} (hx : ∀ k, (Map.get k d = none → Map.get k lx = none) ∧
      ∀ w, Map.get k d = some w → ∃ y, Map.get k lx = some y ∧ M w y) (k : Str) (m : List (Str × Val)) :
    ((Map.get k (Dict.coalesce d d' .Merge) = none → Map.get k m = none) ∧
        ∀ w, Map.get k (Dict.coalesce d d' .Merge) = some w → ∃ y, Map.get k m = some y ∧ M w y) ↔
        ((Map.get k d' = none → Map.get k m = Map.get k lx) ∧
          ∀ w, Map.get k d' = some w → ∃ z, Map.get k m = some z ∧
            (Map.get k lx = none → M w z) ∧ ∀ u, Map.get k lx = some u → U u w z) := by
  rw [Dict.get_coalesce hd hd']
  cases h1 : Map.get k d with
  | none =>
    rw [(hx k).1 h1]
    cases h2 : Map.get k d' with
    | none => simp [optCombine]
    | some w2 => simp [optCombine]
  | some w1 =>
    obtain ⟨u, hu, hm⟩ := (hx k).2 w1 h1
    rw [hu]
    cases h2 : Map.get k d' with
    | none =>
      simp only [optCombine, Option.some.injEq, reduceCtorEq, false_implies, true_and, forall_eq', implies_true,
        and_true, forall_const]
      constructor
      · rintro ⟨z, h3, h4⟩
        rw [h3, one k w1 u z h1 hm h4]
      · intro h3
        exact ⟨u, h3, hm⟩
    | some w2 =>
      simp only [optCombine, Option.some.injEq, reduceCtorEq, false_implies, true_and, forall_eq']
      constructor
      · rintro ⟨z, h3, h4⟩
        exact ⟨z, h3, (ih k w1 w2 u h1 h2 hm z).1 h4⟩
      · rintro ⟨z, h3, h4⟩
        exact ⟨z, h3, (ih k w1 w2 u h1 h2 hm z).2 h4⟩

/-- The case of a map. -/
theorem Ty.means_merge_map {l : Bool} {t : Ty} (ht : t.proper false = true)
    (ih : ∀ w v x, w.WF → v.WF → t.Shaped w → t.Means l (fun _ => none) w x → ∀ y,
      t.Means l (fun _ => none) (w.coalesce v .Merge) y ↔ t.Updates l x v y)
    {w v : Value} {x : Val} (hw : w.WF) (hv : v.WF)
    (hs : ∃ tag d, w = .dict tag d ∧ ∀ k w, Map.get k d = some w → t.Shaped w)
    (hx : ∃ tag d m, w = .dict tag d ∧ x = .map m ∧ d.map (·.1) = m.map (·.1) ∧
      ∀ (i : Nat) k w y, d[i]? = some (k, w) → m[i]? = some (k, y) → t.Means l (fun _ => none) w y) (y : Val) :
    (∃ tag d m, w.coalesce v .Merge = .dict tag d ∧ y = .map m ∧ d.map (·.1) = m.map (·.1) ∧
      ∀ (i : Nat) k w y, d[i]? = some (k, w) → m[i]? = some (k, y) → t.Means l (fun _ => none) w y) ↔
    ∃ l' tag d m, x = .map l' ∧ v = .dict tag d ∧ y = .map m ∧ Map.Sorted m ∧
      ∀ k, (Map.get k d = none → Map.get k m = Map.get k l') ∧
      ∀ w, Map.get k d = some w → ∃ z, Map.get k m = some z ∧
        (Map.get k l' = none → t.Means l (fun _ => none) w z) ∧ ∀ u, Map.get k l' = some u → t.Updates l u w z := by
  obtain ⟨tag, d, rfl, hs⟩ := hs
  have hd := Value.wf_dict.1 hw
  rw [Ty.means_map_iff hd.1] at hx
  obtain ⟨lx, rfl, hlx, hx⟩ := hx
  by_cases hvd : ∃ tag d, v = .dict tag d
  · obtain ⟨tag', d', rfl⟩ := hvd
    have hd' := Value.wf_dict.1 hv
    rw [Value.merge_dict, Ty.means_map_iff (Dict.sorted_coalesce _ _ _)]
    have key := merge_entries hd.1 hd'.1 (fun k w x y h => Ty.means_one ht (hw.get h))
      (fun k w v x h1 h2 => ih w v x (hw.get h1) (hv.get h2) (hs k w h1)) hx
    constructor
    · rintro ⟨m, rfl, hm, h⟩
      exact ⟨lx, tag', d', m, rfl, rfl, rfl, hm, fun k => (key k m).1 (h k)⟩
    · rintro ⟨l', tag2, d2, m, h1, h2, rfl, hm, h⟩
      cases h1
      cases h2
      exact ⟨m, rfl, hm, fun k => (key k m).2 (h k)⟩
  · rw [Value.merge_other fun tag d h => hvd ⟨tag, d, h⟩]
    constructor
    · rintro ⟨tag2, d2, _, h, _⟩; exact absurd ⟨_, _, h⟩ hvd
    · rintro ⟨_, tag2, d2, _, _, h, _⟩; exact absurd ⟨_, _, h⟩ hvd

omit [FloatOps] in
theorem buffersD_paired : ∀ {d : List (Str × Value)} {l : List (Str × Val)}, Value.BuffersD d l ↔
    (d.map (·.1) = l.map (·.1) ∧ ∀ (i : Nat) k w y, d[i]? = some (k, w) → l[i]? = some (k, y) → w.Buffers y)
  | [], l => by
    rw [Value.BuffersD]
    cases l with
    | nil => simp
    | cons e l => simp
  | (k, v) :: d, l => by
    rw [Value.BuffersD]
    constructor
    · rintro ⟨y, l', rfl, h1, h2⟩
      obtain ⟨h3, h4⟩ := buffersD_paired.1 h2
      refine ⟨by simp [h3], fun i k' w y' h5 h6 => ?_⟩
      cases i with
      | zero => cases h5; cases h6; exact h1
      | succ i => exact h4 i k' w y' h5 h6
    · rintro ⟨h1, h2⟩
      cases l with
      | nil => cases h1
      | cons e l' =>
        obtain ⟨k', y⟩ := e
        rw [List.map_cons, List.map_cons, List.cons.injEq] at h1
        obtain ⟨rfl, h1⟩ := h1
        exact ⟨y, l', rfl, h2 0 _ _ _ rfl rfl, buffersD_paired.2 ⟨h1, fun i => h2 (i + 1)⟩⟩

omit [FloatOps] in
theorem altersD_iff : ∀ {d : List (Str × Value)}, Map.Sorted d → ∀ {l m : List (Str × Val)}, (Value.AltersD d l m ↔
    ∀ k w, Map.get k d = some w → ∃ z, Map.get k m = some z ∧ (Map.get k l = none → w.Buffers z) ∧
      ∀ u, Map.get k l = some u → w.Alters u z)
  | d, hd, l, m => by
    have key : ∀ d : List (Str × Value), (Value.AltersD d l m ↔
        ∀ e ∈ d, ∃ z, Map.get e.1 m = some z ∧ (Map.get e.1 l = none → e.2.Buffers z) ∧
          ∀ u, Map.get e.1 l = some u → e.2.Alters u z) := by
      intro d
      induction d with
      | nil => simp [Value.AltersD]
      | cons e d ih => rw [Value.AltersD, ih]; simp
    rw [key]
    constructor
    · intro h k w hg
      obtain ⟨k', hm, hc⟩ := Map.mem_of_get hg
      obtain rfl := Std.LawfulEqOrd.eq_of_compare hc
      exact h _ hm
    · exact fun h e he => h e.1 e.2 (Map.get_eq_some_of_mem hd he)

theorem buffers_det {v : Value} {x y : Val} (hx : v.Buffers x) (hy : v.Buffers y) : x = y := by
  have h1 := (buffers_iff [] De.plain v x).2 hx
  rw [(buffers_iff [] De.plain v y).2 hy] at h1
  exact (Except.ok.inj h1).symm

/-- The entries of dictionaries, taken as they are. -/
theorem buffersD_merge {d d' : Dict} (hd : Map.Sorted d) (hd' : Map.Sorted d')
    (ih : ∀ k w v x, Map.get k d = some w → Map.get k d' = some v → w.Buffers x → ∀ y, (w.coalesce v .Merge).Buffers y ↔ v.Alters x y)
    {lx : List (Str × Val)} (hx : Value.BuffersD d lx) (m : List (Str × Val)) :
    Value.BuffersD (Dict.coalesce d d' .Merge) m ↔
      (Map.Sorted m ∧ (∀ k, Map.get k d' = none → Map.get k m = Map.get k lx) ∧ Value.AltersD d' lx m) := by
  rw [buffersD_paired, paired_iff hd] at hx
  rw [buffersD_paired, paired_iff (Dict.sorted_coalesce _ _ _), altersD_iff hd']
  have key := fun k => merge_entries hd hd' (M := Value.Buffers) (U := fun x v y => v.Alters x y) (fun k w x y _ => buffers_det) ih hx.2 k m
  refine and_congr_right fun _ => ⟨fun h => ?_, fun h k => ?_⟩
  · exact ⟨fun k => ((key k).1 (h k)).1, fun k => ((key k).1 (h k)).2⟩
  · exact (key k).2 ⟨h.1 k, h.2 k⟩

/-- What is taken as it is from a merge. -/
theorem buffers_merge : ∀ (v : Value), v.WF → ∀ (w : Value), w.WF → ∀ x, w.Buffers x → ∀ y,
    (w.coalesce v .Merge).Buffers y ↔ v.Alters x y
  | .dict tg' d', hv, w, hw, x, hx, y => by
    have hd' := Value.wf_dict.1 hv
    rw [Value.Alters]
    by_cases hwd : ∃ tag d, w = .dict tag d
    · obtain ⟨tg, d, rfl⟩ := hwd
      have hd := Value.wf_dict.1 hw
      rw [Value.Buffers] at hx
      obtain ⟨lx, rfl, hx⟩ := hx
      rw [Value.merge_dict, Value.Buffers]
      have key := buffersD_merge hd.1 hd'.1 (fun k w v x h1 h2 hm => buffers_merge v (hv.get h2) w (hw.get h1) x hm) hx
      constructor
      · rintro ⟨m, rfl, h⟩
        exact .inl ⟨lx, m, rfl, rfl, (key m).1 h⟩
      · rintro (⟨_, m, h1, rfl, h2⟩ | ⟨h, _⟩)
        · cases h1
          exact ⟨m, rfl, (key m).2 h2⟩
        · exact absurd rfl (h lx)
    · have hnd : ∀ tag d, w ≠ .dict tag d := fun tag d h => hwd ⟨tag, d, h⟩
      have hnm : ∀ l, x ≠ .map l := by
        rintro l rfl
        cases w with
        | dict tg d => exact hnd tg d rfl
        | num tg n => rw [Value.Buffers] at hx; obtain ⟨_, _, _, h⟩ := hx; cases h
        | array tg a => rw [Value.Buffers] at hx; obtain ⟨_, h, _⟩ := hx; cases h
        | empty tg e => cases e <;> (rw [Value.Buffers] at hx; cases hx)
        | _ => rw [Value.Buffers] at hx; cases hx
      rw [Value.merge_atom hnd]
      exact ⟨fun h => .inr ⟨hnm, h⟩, fun h => h.elim (fun ⟨_, _, h, _⟩ => absurd h (hnm _)) (·.2)⟩
  | .string _ _, _, w, _, _, _, y | .char _ _, _, w, _, _, _, y | .bool _ _, _, w, _, _, _, y | .num _ _, _, w, _, _, _, y
  | .empty _ _, _, w, _, _, _, y | .array _ _, _, w, _, _, _, y => by
    rw [Value.merge_other, Value.Alters]
    all_goals exact fun _ _ h => nomatch h
termination_by v => sizeOf v
decreasing_by
  obtain ⟨k', hm, _⟩ := Map.mem_of_get h2
  have h3 := List.sizeOf_lt_of_mem hm
  simp only [Prod.mk.sizeOf_spec, Value.dict.sizeOf_spec] at h3 ⊢
  omega

omit [FloatOps] in
theorem Map.get_others {names : List Str} {d : Dict} (hd : Map.Sorted d) (k : Str) :
    Map.get k (Dict.others names d) = if k ∈ names then none else Map.get k d := by
  have hmem : ∀ w, (k, w) ∈ Dict.others names d ↔ (k, w) ∈ d ∧ k ∉ names := by
    intro w
    rw [Dict.others, List.mem_filter]
    simp
  have hs : Map.Sorted (Dict.others names d) := List.Pairwise.filter _ hd
  have hiff : ∀ w, Map.get k (Dict.others names d) = some w ↔ Map.get k d = some w ∧ k ∉ names := by
    intro w
    constructor
    · intro h
      obtain ⟨k', hm, hc⟩ := Map.mem_of_get h
      obtain rfl := Std.LawfulEqOrd.eq_of_compare hc
      exact ⟨Map.get_eq_some_of_mem hd ((hmem w).1 hm).1, ((hmem w).1 hm).2⟩
    · rintro ⟨h, hn⟩
      obtain ⟨k', hm, hc⟩ := Map.mem_of_get h
      obtain rfl := Std.LawfulEqOrd.eq_of_compare hc
      exact Map.get_eq_some_of_mem hs ((hmem w).2 ⟨hm, hn⟩)
  refine Option.ext fun w => ?_
  rw [hiff]
  split
  · next h => exact ⟨fun h' => absurd h h'.2, nofun⟩
  · next h => exact ⟨(·.1), fun h' => ⟨h', h⟩⟩

omit [FloatOps] in
theorem get_of_others {names : List Str} {d : Dict} (hd : Map.Sorted d) {k : Str} {w : Value}
    (h : Map.get k (Dict.others names d) = some w) : Map.get k d = some w := by
  rw [Map.get_others hd] at h
  split at h
  · cases h
  · exact h

omit [FloatOps] in
theorem others_sorted {names : List Str} {d : Dict} (hd : Map.Sorted d) : Map.Sorted (Dict.others names d) :=
  List.Pairwise.filter _ hd

omit [FloatOps] in
theorem others_merge {names : List Str} {d d' : Dict} (hd : Map.Sorted d) (hd' : Map.Sorted d') :
    Dict.others names (Dict.coalesce d d' .Merge) = Dict.coalesce (Dict.others names d) (Dict.others names d') .Merge := by
  refine Map.ext_of_sorted (others_sorted (Dict.sorted_coalesce _ _ _)) (Dict.sorted_coalesce _ _ _) fun k => ?_
  rw [Map.get_others (Dict.sorted_coalesce _ _ _), Dict.get_coalesce hd hd', Dict.get_coalesce (others_sorted hd) (others_sorted hd'),
    Map.get_others hd, Map.get_others hd']
  split <;> rfl

omit [FloatOps] in
theorem keyed_means {R : Value → Val → Prop} {kt : Ty} {v : Value} {x : Val} :
    (∃ tag d l, v = Value.dict tag d ∧ x = .entries l ∧ d.length = l.length ∧
      ∀ (i : Nat) s w a y, d[i]? = some (s, w) → l[i]? = some (a, y) → kt.KeyIs s a ∧ R w y) ↔
    ∃ l l', x = .entries l ∧ kt.Spelled l l' ∧ ∃ tag d m, v = .dict tag d ∧ Val.map l' = .map m ∧ d.map (·.1) = m.map (·.1) ∧
      ∀ (i : Nat) k w y, d[i]? = some (k, w) → m[i]? = some (k, y) → R w y := by
  constructor
  · rintro ⟨tag, d, l, rfl, rfl, hlen, h⟩
    have hz : ∀ (i : Nat) (s : Str) (y : Val), ((d.map (·.1)).zip (l.map (·.2)))[i]? = some (s, y) ↔
        (∃ w, d[i]? = some (s, w)) ∧ ∃ a, l[i]? = some (a, y) := by
      intro i s y
      rw [List.getElem?_zip_eq_some, List.getElem?_map, List.getElem?_map]
      simp [Option.map_eq_some_iff]
    refine ⟨l, (d.map (·.1)).zip (l.map (·.2)), rfl, ⟨by simp [hlen], fun i a x s y h1 h2 => ?_⟩, tag, d, _, rfl, rfl, ?_,
      fun i k w y h1 h2 => ?_⟩
    · obtain ⟨⟨w, h3⟩, a', h4⟩ := (hz i s y).1 h2
      rw [h1] at h4
      cases h4
      exact ⟨(h i s w a x h3 h1).1, rfl⟩
    · rw [List.map_fst_zip (by simp [hlen])]
    · obtain ⟨_, a, h4⟩ := (hz i k y).1 h2
      exact (h i k w a y h1 h4).2
  · rintro ⟨l, l', rfl, ⟨hlen, hsp⟩, tag, d, m, rfl, h1, hk, hR⟩
    cases h1
    have hlen' : d.length = l'.length := by rw [← List.length_map (f := (·.1)), hk, List.length_map]
    refine ⟨tag, d, l, rfl, rfl, hlen'.trans hlen.symm, fun i s w a y h1 h2 => ?_⟩
    have h3 : (d.map (·.1))[i]? = some s := by rw [List.getElem?_map, h1]; rfl
    rw [hk, List.getElem?_map] at h3
    cases h4 : l'[i]? with
    | none => rw [h4] at h3; cases h3
    | some e =>
      obtain ⟨s', y'⟩ := e
      rw [h4] at h3
      cases h3
      obtain ⟨h5, rfl⟩ := hsp i a y _ y' h2 h4
      exact ⟨h5, hR i _ w y h1 h4⟩

omit [FloatOps] in
theorem Ty.Spelled.unique {kt : Ty} (h : ∀ s s' a, kt.KeyIs s a → kt.KeyIs s' a → s = s') {l : List (Val × Val)}
    {m m' : List (Str × Val)} (h1 : kt.Spelled l m) (h2 : kt.Spelled l m') : m = m' := by
  refine List.ext_getElem? fun i => ?_
  have hl := h1.1.symm.trans h2.1
  cases hm : m[i]? with
  | none => rw [eq_comm, List.getElem?_eq_none_iff, ← hl]; exact List.getElem?_eq_none_iff.1 hm
  | some e =>
    have hi : i < m.length := (List.getElem?_eq_some_iff.1 hm).1
    have h3 : l[i]? = some (l[i]'(h1.1 ▸ hi)) := List.getElem?_eq_getElem _
    have h4 : m'[i]? = some (m'[i]'(hl ▸ hi)) := List.getElem?_eq_getElem _
    obtain ⟨h5, h6⟩ := h1.2 i _ _ _ _ h3 hm
    obtain ⟨h7, h8⟩ := h2.2 i _ _ _ _ h3 h4
    rw [h4]
    exact congrArg some (Prod.ext (h _ _ _ h5 h7) (h6.symm.trans h8))

omit [FloatOps] in
theorem unit_shaped {a : Str} {w : Value} : ∀ {vs : List (Str × VTy)}, unitVariants vs = true → ¬ Ty.ShapedVariant a vs w
  | [], _, h => nomatch h
  | (n, v) :: vs, hu, h => by
    rw [Ty.ShapedVariant] at h
    rw [unitVariants, List.all_cons, Bool.and_eq_true] at hu
    rcases h with ⟨rfl, h⟩ | ⟨_, h⟩
    · cases v <;> first | exact h | exact absurd hu.1 (by simp)
    · exact unit_shaped hu.2 h

omit [FloatOps] in
theorem Ty.atom_shaped : ∀ (t : Ty), t.atom = true → ∀ w : Value, (t.Shaped w ↔ ∀ tag d, w ≠ .dict tag d)
  | .option t, ha, w => by
    rw [Ty.atom] at ha
    rw [Ty.Shaped, Ty.atom_shaped t ha w]
    exact ⟨fun h => h.elim (fun ⟨_, _, h⟩ => h ▸ nofun) id, .inr⟩
  | .newtype _ t, ha, w => by
    rw [Ty.atom] at ha
    rw [Ty.Shaped, Ty.atom_shaped t ha w]
  | .via t _ _, ha, w => by
    rw [Ty.atom] at ha
    rw [Ty.Shaped, Ty.atom_shaped t ha w]
  | .enum _ vs, ha, w => by
    rw [Ty.atom] at ha
    rw [Ty.Shaped]
    exact ⟨fun h => h.elim id fun ⟨_, _, _, _, _, h⟩ => absurd h (unit_shaped ha), .inl⟩
  | .bool, _, _ | .int _, _, _ | .f32, _, _ | .f64, _, _ | .char, _, _ | .string, _, _ | .pathBuf, _, _ | .unit, _, _
  | .unitStruct _, _, _ | .seq _, _, _ | .tuple _, _, _ | .tupleStruct _ _, _, _ | .tag, _, _
  | .flag, _, _ | .parsed _ _ _, _, _ => by
    rw [Ty.Shaped]
    all_goals nofun
  | .map _, h, _ | .pairs _, h, _ | .keyed _ _, h, _ | .struct _ _ _ _, h, _
  | .value, h, _ | .any _, h, _ | .flat _ _ _ _, h, _ => nomatch h

mutual
/-- What is read from a merge is what is read from the one, changed where the other says so. -/
theorem Ty.means_merge (l : Bool) : (t : Ty) → t.proper false = true → t.Layered → ∀ w v x, w.WF → v.WF →
    t.Shaped w → t.Means l (fun _ => none) w x → ∀ y,
    (t.Means l (fun _ => none) (w.coalesce v .Merge) y ↔ t.Updates l x v y)
  | .option t, ht, hl, w, v, x, hw, hv, hs, hx, y => by
    rw [Ty.proper] at ht
    rw [Ty.Layered] at hl
    rw [Ty.Shaped] at hs
    rw [Ty.Means] at hx
    rw [Ty.Means, Ty.Updates, Value.merge_empty]
    have he : (∀ tag e, w.coalesce v .Merge ≠ .empty tag e) ↔ ∀ tag e, v ≠ .empty tag e := by
      have := Value.merge_empty (w := w) (v := v)
      constructor
      · intro h tag e h1
        obtain ⟨tag', e', h2⟩ := this.2 ⟨tag, e, h1⟩
        exact h _ _ h2
      · intro h tag e h1
        obtain ⟨tag', e', h2⟩ := this.1 ⟨tag, e, h1⟩
        exact h _ _ h2
    rw [he]
    refine or_congr Iff.rfl (and_congr Iff.rfl (exists_congr fun z => and_congr Iff.rfl ?_))
    rcases hx with ⟨rfl, tag, e, rfl⟩ | ⟨hne, u, rfl, hu⟩
    · have hm : (Value.empty tag e).coalesce v .Merge = v := Value.merge_atom fun _ _ h => nomatch h
      rw [hm]
      constructor
      · exact fun h => .inl ⟨rfl, h⟩
      · rintro (h | ⟨_, h, _⟩)
        · exact h.2
        · cases h
    · have hs' : t.Shaped w := by
        rcases hs with ⟨tag, e, h⟩ | h
        · exact absurd h (hne tag e)
        · exact h
      rw [Ty.means_merge l t ht hl w v u hw hv hs' hu z]
      constructor
      · exact fun h => .inr ⟨u, rfl, h⟩
      · rintro (⟨h, _⟩ | ⟨_, h, h2⟩)
        · cases h
        · cases h; exact h2
  | .newtype n t, ht, hl, w, v, x, hw, hv, hs, hx, y => by
    rw [Ty.proper] at ht
    rw [Ty.Layered] at hl
    rw [Ty.Shaped] at hs
    rw [Ty.Means] at hx
    obtain ⟨u, rfl, hu⟩ := hx
    rw [Ty.Means, Ty.Updates]
    constructor
    · rintro ⟨z, rfl, h⟩
      exact ⟨u, z, rfl, rfl, (Ty.means_merge l t ht hl w v u hw hv hs hu z).1 h⟩
    · rintro ⟨u', z, h1, rfl, h⟩
      cases h1
      exact ⟨z, rfl, (Ty.means_merge l t ht hl w v u hw hv hs hu z).2 h⟩
  | .map t, ht, hl, w, v, x, hw, hv, hs, hx, y => by
    rw [Ty.proper] at ht
    rw [Ty.Layered] at hl
    rw [Ty.Shaped] at hs
    rw [Ty.Means] at hx
    rw [Ty.Means, Ty.Updates]
    exact Ty.means_merge_map ht (Ty.means_merge l t ht hl) hw hv hs hx y
  | .pairs t, ht, hl, w, v, x, hw, hv, hs, hx, y => by
    rw [Ty.proper] at ht
    rw [Ty.Layered] at hl
    rw [Ty.Shaped] at hs
    rw [Ty.Means] at hx
    rw [Ty.Means, Ty.Updates]
    exact Ty.means_merge_map ht (Ty.means_merge l t ht hl) hw hv hs hx y
  | .keyed kt t, ht, hl, w, v, x, hw, hv, hs, hx, y => by
    rw [Ty.proper] at ht
    rw [Ty.Layered] at hl
    rw [Ty.Shaped] at hs
    rw [Ty.Means, keyed_means] at hx
    rw [Ty.Means, keyed_means, Ty.Updates]
    obtain ⟨lx, lx', rfl, hsp, hx⟩ := hx
    have key := fun m => Ty.means_merge_map ht (Ty.means_merge l t ht hl.2) hw hv hs hx (.map m)
    constructor
    · rintro ⟨m, m', rfl, h1, h2⟩
      obtain ⟨l', tg, d, m2, h3, h4, h5, h6⟩ := (key m').1 h2
      cases h3
      cases h5
      exact ⟨lx, lx', tg, d, m, m', rfl, hsp, h4, rfl, h1, h6⟩
    · rintro ⟨l2, l', tg, d, m, m', h3, h4, h5, rfl, h6, h7⟩
      cases h3
      obtain rfl := hsp.unique hl.1 h4
      exact ⟨m, m', rfl, h6, (key m').2 ⟨lx', tg, d, m', rfl, h5, rfl, h7⟩⟩
  | .via t conv back, ht, hl, w, v, x, hw, hv, hs, hx, y => by
    rw [Ty.proper, Bool.and_eq_true] at ht
    replace ht := ht.2
    rw [Ty.Layered] at hl
    rw [Ty.Shaped] at hs
    rw [Ty.Updates]
    cases ha : t.atom with
    | true =>
      rw [Value.merge_atom ((Ty.atom_shaped t ha w).1 hs)]
      exact ⟨fun h => .inl ⟨rfl, h⟩, fun h => h.elim (·.2) fun h => nomatch h.1⟩
    | false =>
      rw [ha] at hl
      obtain ⟨hlaw, hl⟩ := hl.resolve_left nofun
      rw [Ty.Means] at hx
      obtain ⟨u, hu, hc⟩ := hx
      rw [Ty.Means, hlaw u x hc]
      constructor
      · rintro ⟨z, h1, h2⟩
        exact .inr ⟨rfl, z, (Ty.means_merge l t ht hl w v u hw hv hs hu z).1 h1, h2⟩
      · rintro (h | ⟨_, z, h1, h2⟩)
        · cases h.1
        · exact ⟨z, (Ty.means_merge l t ht hl w v u hw hv hs hu z).2 h1, h2⟩
  | .struct r name deny fs, ht, hl, w, v, x, hw, hv, hs, hx, y => by
    have ht0 := ht
    simp only [Ty.proper, Bool.false_and, Bool.or_false, Bool.and_eq_true, Bool.not_eq_true'] at ht
    rw [Ty.Layered] at hl
    rw [Ty.Shaped] at hs
    rw [Ty.Updates]
    by_cases hvd : ∃ tag d, v = .dict tag d
    · obtain ⟨tag', d', rfl⟩ := hvd
      obtain ⟨tag, d, rfl, hs⟩ := hs
      have hn : name ≠ Tagged.NAME ∧ name ≠ RelPath.NAME := by
        constructor <;> (rintro rfl; exact absurd ht.1.1 (by decide))
      rw [Ty.Means, if_neg hn.1, if_neg hn.2] at hx
      rw [Ty.Means, if_neg hn.1, if_neg hn.2, Value.merge_dict]
      obtain ⟨lx, rfl, ⟨_, _, h1, hf, hdeny⟩ | ⟨_, _, h1, _⟩⟩ := hx
      · cases h1
        have key := Ty.means_merge_fields l fs ht.2 hl hw hv hs lx hf
        have hden := merge_deny hw hv hdeny
        constructor
        · rintro ⟨m, rfl, ⟨_, _, h1, h2, h3⟩ | ⟨_, _, h1, _⟩⟩
          · cases h1
            exact .inl ⟨tag', d', lx, m, rfl, rfl, rfl, (key m).1 h2, hden.1 h3⟩
          · cases h1
        · rintro (⟨_, _, _, m, h1, h2, rfl, h3, h4⟩ | ⟨h, _⟩)
          · cases h1
            cases h2
            exact ⟨m, rfl, .inl ⟨_, _, rfl, (key m).2 h3, hden.2 h4⟩⟩
          · exact absurd rfl (h tag' d')
      · cases h1
    · rw [Value.merge_other fun tag d h => hvd ⟨tag, d, h⟩]
      constructor
      · exact fun h => .inr ⟨fun tag d h => hvd ⟨tag, d, h⟩, h⟩
      · rintro (⟨tag, d, _, _, h, _⟩ | ⟨_, h⟩)
        · exact absurd ⟨tag, d, h⟩ hvd
        · exact h
  | .enum n vs, ht, hl, w, v, x, hw, hv, hs, hx, y => by
    have ht0 := ht
    rw [Ty.proper] at ht
    rw [Ty.Layered] at hl
    rw [Ty.Shaped] at hs
    rw [Ty.Updates]
    by_cases hvd : ∃ tag d, v = .dict tag d
    · obtain ⟨tg', d', rfl⟩ := hvd
      have hn1 : ¬ ∀ tag d, Value.dict tg' d' ≠ .dict tag d := fun h => h _ _ rfl
      rcases hs with hs | ⟨tg, a, u, r, rfl, hsv⟩
      · rw [Value.merge_atom hs]
        have hunit : ∃ s, x = .variant s .unit ∧ vs.lookup s = some .unit := by
          rw [Ty.Means] at hx
          rcases hx with ⟨_, s, _, h1, h2⟩ | ⟨_, _, i, s, _, _, _, _, h1, h2⟩ | ⟨tag, k, w', r, y', h1, _⟩
          · exact ⟨s, h1, h2⟩
          · exact ⟨s, h2, lookup_of_get hl.1 h1⟩
          · exact absurd h1 (hs _ _)
        obtain ⟨s, rfl, hlk⟩ := hunit
        constructor
        · exact fun h => .inr ⟨tg', d', s, .unit, rfl, rfl, .inl ⟨hlk, h⟩⟩
        · rintro (⟨h, _⟩ | ⟨_, _, a, u, h1, h2, h3⟩)
          · exact absurd h hn1
          · cases h1
            cases h2
            rcases h3 with ⟨_, h⟩ | ⟨h, _⟩
            · exact h
            · exact absurd hlk h
      · have hlk := shapedVariant_lookup hsv
        have hxv : ∃ z, x = .variant a z ∧ Ty.MeansVariant l (fun _ => none) a vs u z := by
          have hx := hx
          rw [Ty.Means] at hx
          rcases hx with ⟨_, _, h, _⟩ | ⟨_, _, _, _, h, _⟩ | ⟨_, _, _, _, z, h, h2, h3⟩
          · cases h
          · cases h
          · cases h; exact ⟨z, h2, h3⟩
        obtain ⟨z, rfl, hz⟩ := hxv
        have hd := (Value.wf_dict.1 hw).1
        have hd' := (Value.wf_dict.1 hv).1
        have hfirst : ∀ tag k e R, Ty.Means l (fun _ => none) (.enum n vs) (.dict tag ((k, e) :: R)) y ↔
            ∃ z, y = .variant k z ∧ Ty.MeansVariant l (fun _ => none) k vs e z := by
          intro tg k e R
          rw [Ty.Means]
          constructor
          · rintro (⟨_, _, h, _⟩ | ⟨_, _, _, _, h, _⟩ | ⟨_, _, _, _, z, h, h2, h3⟩)
            · cases h
            · cases h
            · cases h; exact ⟨z, h2, h3⟩
          · rintro ⟨z, h2, h3⟩
            exact .inr (.inr ⟨_, _, _, _, z, rfl, h2, h3⟩)
        have hsame : (∃ z', y = .variant a z' ∧ Ty.MeansVariant l (fun _ => none) a vs u z') ↔ y = .variant a z := by
          rw [← hfirst tg a u r]
          exact ⟨fun h => (Ty.means_one ht0 hw hx h).symm, fun h => h ▸ hx⟩
        have hrw : (((∀ tag d, Value.dict tg' d' ≠ .dict tag d) ∧ Ty.Means l (fun _ => none) (.enum n vs) (.dict tg' d') y) ∨
            ∃ tag d a' u', Value.dict tg' d' = .dict tag d ∧ Val.variant a z = .variant a' u' ∧
            ((vs.lookup a' = some .unit ∧ Ty.Means l (fun _ => none) (.enum n vs) (.dict tg' d') y) ∨
            (vs.lookup a' ≠ some .unit ∧ ((d = [] ∧ y = .variant a z) ∨ ∃ k e r, d = (k, e) :: r ∧
              ((compare k a' = .lt ∧ ∃ z, y = .variant k z ∧ Ty.MeansVariant l (fun _ => none) k vs e z) ∨
              (k = a' ∧ ∃ z, y = .variant a' z ∧ Ty.UpdatesVariant l a' vs u' e z) ∨
              (compare a' k = .lt ∧ y = .variant a z)))))) ↔
            ((d' = [] ∧ y = .variant a z) ∨ ∃ k e r, d' = (k, e) :: r ∧
              ((compare k a = .lt ∧ ∃ z, y = .variant k z ∧ Ty.MeansVariant l (fun _ => none) k vs e z) ∨
              (k = a ∧ ∃ z', y = .variant a z' ∧ Ty.UpdatesVariant l a vs z e z') ∨
              (compare a k = .lt ∧ y = .variant a z))) := by
          constructor
          · rintro (⟨h, _⟩ | ⟨_, _, a', u', h1, h2, h3⟩)
            · exact absurd h hn1
            · cases h1
              cases h2
              rcases h3 with ⟨h, _⟩ | ⟨_, h⟩
              · exact absurd h hlk
              · exact h
          · exact fun h => .inr ⟨_, _, _, _, rfl, rfl, .inr ⟨hlk, h⟩⟩
        rw [hrw, Value.merge_dict]
        cases d' with
        | nil =>
          rw [Dict.coalesce_eq, Map.coalesce_nil_right _ hd, hfirst, hsame]
          constructor
          · exact fun h => .inl ⟨rfl, h⟩
          · rintro (h | ⟨_, _, _, h, _⟩)
            · exact h.2
            · cases h
        | cons h0 r' =>
          obtain ⟨k, e⟩ := h0
          obtain ⟨hlt, heq, hgt⟩ := merge_head hd hd'
          have hnil : ∀ P : Prop, ((((k, e) :: r' : Dict) = [] ∧ P) ↔ False) := fun P => ⟨fun h => (nomatch h.1), fun h => h.elim⟩
          rw [hnil, false_or]
          have hcons : ∀ P : Str → Value → Prop, (∃ k2 e2 r2, (k, e) :: r' = (k2, e2) :: r2 ∧ P k2 e2) ↔ P k e := fun P =>
            ⟨fun ⟨_, _, _, h1, h2⟩ => (by cases h1; exact h2), fun h => ⟨_, _, _, rfl, h⟩⟩
          rw [hcons fun k e => ((compare k a = .lt ∧ ∃ z, y = .variant k z ∧ Ty.MeansVariant l (fun _ => none) k vs e z) ∨
              (k = a ∧ ∃ z', y = .variant a z' ∧ Ty.UpdatesVariant l a vs z e z') ∨
              (compare a k = .lt ∧ y = .variant a z))]
          cases hc : compare k a with
          | lt =>
            obtain ⟨R, hR⟩ := hlt hc
            rw [hR, hfirst]
            constructor
            · exact fun h => .inl ⟨rfl, h⟩
            · rintro (h | ⟨rfl, _⟩ | ⟨h, _⟩)
              · exact h.2
              · rw [Std.ReflOrd.compare_self] at hc; cases hc
              · rw [Std.OrientedCmp.gt_of_lt h] at hc; cases hc
          | eq =>
            obtain rfl := Std.LawfulEqOrd.eq_of_compare hc
            obtain ⟨R, hR⟩ := heq rfl
            rw [hR, hfirst]
            have ih := Ty.means_merge_variant l k vs ht hl.2 u e z (hw.get (Map.get_eq_some_of_mem hd List.mem_cons_self))
              (hv.get (Map.get_eq_some_of_mem hd' List.mem_cons_self)) hsv hz
            constructor
            · rintro ⟨z', h1, h2⟩
              exact .inr (.inl ⟨rfl, z', h1, (ih z').1 h2⟩)
            · rintro (h | ⟨_, z', h1, h2⟩ | ⟨h, _⟩)
              · cases h.1
              · exact ⟨z', h1, (ih z').2 h2⟩
              · rw [hc] at h; cases h
          | gt =>
            have hlt' := Std.OrientedCmp.lt_of_gt hc
            obtain ⟨R, hR⟩ := hgt hlt'
            rw [hR, hfirst, hsame]
            constructor
            · exact fun h => .inr (.inr ⟨hlt', h⟩)
            · rintro (h | ⟨rfl, _⟩ | ⟨_, h⟩)
              · cases h.1
              · rw [Std.ReflOrd.compare_self] at hc; cases hc
              · exact h
    · rw [Value.merge_other fun tag d h => hvd ⟨tag, d, h⟩]
      constructor
      · exact fun h => .inl ⟨fun tag d h => hvd ⟨tag, d, h⟩, h⟩
      · rintro (⟨_, h⟩ | ⟨tag, d, _, _, h, _⟩)
        · exact h
        · exact absurd ⟨tag, d, h⟩ hvd
  | .bool, _, _, w, v, x, _, _, hs, _, y | .int _, _, _, w, v, x, _, _, hs, _, y | .f32, _, _, w, v, x, _, _, hs, _, y
  | .f64, _, _, w, v, x, _, _, hs, _, y | .char, _, _, w, v, x, _, _, hs, _, y | .string, _, _, w, v, x, _, _, hs, _, y
  | .pathBuf, _, _, w, v, x, _, _, hs, _, y | .unit, _, _, w, v, x, _, _, hs, _, y
  | .unitStruct _, _, _, w, v, x, _, _, hs, _, y | .seq _, _, _, w, v, x, _, _, hs, _, y
  | .tuple _, _, _, w, v, x, _, _, hs, _, y | .tupleStruct _ _, _, _, w, v, x, _, _, hs, _, y
  | .tag, _, _, w, v, x, _, _, hs, _, y
  | .flag, _, _, w, v, x, _, _, hs, _, y | .parsed _ _ _, _, _, w, v, x, _, _, hs, _, y => by
    rw [Ty.Shaped] at hs
    · rw [Value.merge_atom hs, Ty.Updates] <;> nofun
    all_goals nofun
  | .any _, _, _, w, v, x, hw, hv, _, hx, y => by
    rw [Ty.Means] at hx
    rw [Ty.Means, Ty.Updates]
    exact buffers_merge v hv w hw x hx y
  | .flat n fs conv back, ht, hl, w, v, x, hw, hv, hs, hx, y => by
    rw [Ty.proper, Bool.and_eq_true] at ht
    rw [Ty.Layered] at hl
    rw [Ty.Shaped] at hs
    rw [Ty.Means] at hx
    obtain ⟨tg, d, xs, lx, rfl, hf, hb, hc⟩ := hx
    obtain ⟨_, _, h1, hs⟩ := hs
    cases h1
    rw [Ty.Means, Ty.Updates, hl.1 xs lx x hc]
    by_cases hvd : ∃ tag d, v = .dict tag d
    · obtain ⟨tg', d', rfl⟩ := hvd
      have hd := Value.wf_dict.1 hw
      have hd' := Value.wf_dict.1 hv
      have key := Ty.means_merge_fields l fs ht.2 hl.2 hw hv hs xs hf
      have key2 := buffersD_merge (others_sorted (names := fs.map (·.1)) hd.1) (others_sorted (names := fs.map (·.1)) hd'.1)
        (fun k w v x h1 h2 hm => buffers_merge v (hv.get (get_of_others hd'.1 h2)) w (hw.get (get_of_others hd.1 h1)) x hm)
        (show Value.BuffersD (Dict.others (fs.map (·.1)) d) lx from hb)
      rw [Value.merge_dict]
      constructor
      · rintro ⟨_, _, ys, m, h1, h2, h3, h4⟩
        cases h1
        have h5 := (key2 m).1 (by rw [← others_merge hd.1 hd'.1]; exact h3)
        exact ⟨tg', d', ys, m, rfl, (key ys).1 h2, h5.1, h5.2.1, h5.2.2, h4⟩
      · rintro ⟨_, _, ys, m, h1, h2, h3, h4, h5, h6⟩
        cases h1
        refine ⟨_, _, ys, m, rfl, (key ys).2 h2, ?_, h6⟩
        have h7 := (key2 m).2 ⟨h3, h4, h5⟩
        rw [← others_merge hd.1 hd'.1] at h7
        exact h7
    · rw [Value.merge_other fun tag d h => hvd ⟨tag, d, h⟩]
      constructor
      · rintro ⟨tg, d, _, _, h, _⟩; exact absurd ⟨_, _, h⟩ hvd
      · rintro ⟨tg, d, _, _, h, _⟩; exact absurd ⟨_, _, h⟩ hvd
  | .value, _, hl, _, _, _, _, _, _, _, _ => nomatch hl
theorem Ty.means_merge_variant (l : Bool) (name : Str) : (vs : List (Str × VTy)) → Ty.properVariants false vs = true →
    Ty.LayeredVariants vs → ∀ w v x, w.WF → v.WF → Ty.ShapedVariant name vs w →
    Ty.MeansVariant l (fun _ => none) name vs w x → ∀ y,
    (Ty.MeansVariant l (fun _ => none) name vs (w.coalesce v .Merge) y ↔ Ty.UpdatesVariant l name vs x v y)
  | [], _, _, _, _, _, _, _, hs, _, _ => nomatch hs
  | (n, t) :: vs, ht, hl, w, v, x, hw, hv, hs, hx, y => by
    rw [Ty.properVariants, Bool.and_eq_true] at ht
    rw [Ty.LayeredVariants] at hl
    rw [Ty.ShapedVariant] at hs
    rw [Ty.MeansVariant] at hx
    rw [Ty.MeansVariant, Ty.UpdatesVariant]
    by_cases hn : n = name
    · have hs' : t.Shaped w := hs.elim (·.2) fun h => absurd hn h.1
      have hx' : t.Means l (fun _ => none) w x := hx.elim (·.2) fun h => absurd hn h.1
      rw [VTy.means_merge l t ht.1 hl.1 w v x hw hv hs' hx' y]
      exact or_congr Iff.rfl ⟨fun h => absurd hn h.1, fun h => absurd hn h.1⟩
    · have hs' : Ty.ShapedVariant name vs w := hs.elim (fun h => absurd h.1 hn) (·.2)
      have hx' : Ty.MeansVariant l (fun _ => none) name vs w x := hx.elim (fun h => absurd h.1 hn) (·.2)
      rw [Ty.means_merge_variant l name vs ht.2 hl.2 w v x hw hv hs' hx' y]
      exact or_congr ⟨fun h => absurd h.1 hn, fun h => absurd h.1 hn⟩ Iff.rfl
theorem VTy.means_merge (l : Bool) : (t : VTy) → t.proper false = true → t.Layered → ∀ w v x, w.WF → v.WF →
    t.Shaped w → t.Means l (fun _ => none) w x → ∀ y,
    (t.Means l (fun _ => none) (w.coalesce v .Merge) y ↔ t.Updates l x v y)
  | .unit, _, _, _, _, _, _, _, hs, _, _ => nomatch hs
  | .newtype t, ht, hl, w, v, x, hw, hv, hs, hx, y => by
    rw [VTy.proper] at ht
    rw [VTy.Layered] at hl
    rw [VTy.Shaped] at hs
    rw [VTy.Means] at hx
    rw [VTy.Means, VTy.Updates]
    exact Ty.means_merge l t ht hl w v x hw hv hs hx y
  | .tuple ts, _, _, w, v, x, _, _, hs, _, y => by
    rw [VTy.Shaped] at hs
    rw [Value.merge_atom hs, VTy.Updates] <;> nofun
  | .struct deny fs, ht, hl, w, v, x, hw, hv, hs, hx, y => by
    rw [VTy.proper, Bool.and_eq_true] at ht
    rw [VTy.Layered] at hl
    rw [VTy.Shaped] at hs
    rw [VTy.Updates]
    by_cases hvd : ∃ tag d, v = .dict tag d
    · obtain ⟨tg', d', rfl⟩ := hvd
      obtain ⟨tg, d, rfl, hs⟩ := hs
      rw [VTy.Means] at hx
      rw [VTy.Means, Value.merge_dict]
      obtain ⟨lx, rfl, ⟨_, _, h1, hf, hdeny⟩ | ⟨_, _, h1, _⟩⟩ := hx
      · cases h1
        have key := Ty.means_merge_fields l fs ht.2 hl hw hv hs lx hf
        have hden := merge_deny hw hv hdeny
        constructor
        · rintro ⟨m, rfl, ⟨_, _, h1, h2, h3⟩ | ⟨_, _, h1, _⟩⟩
          · cases h1
            exact .inl ⟨_, d', lx, m, rfl, rfl, rfl, (key m).1 h2, hden.1 h3⟩
          · cases h1
        · rintro (⟨_, _, _, m, h1, h2, rfl, h3, h4⟩ | ⟨h, _⟩)
          · cases h1
            cases h2
            exact ⟨m, rfl, .inl ⟨_, _, rfl, (key m).2 h3, hden.2 h4⟩⟩
          · exact absurd rfl (h _ d')
      · cases h1
    · rw [Value.merge_other fun tag d h => hvd ⟨tag, d, h⟩]
      constructor
      · exact fun h => .inr ⟨fun tag d h => hvd ⟨tag, d, h⟩, h⟩
      · rintro (⟨tag, d, _, _, h, _⟩ | ⟨_, h⟩)
        · exact absurd ⟨tag, d, h⟩ hvd
        · exact h
theorem Ty.means_merge_fields (l : Bool) : (fs : List (Str × Option Val × Ty)) → Ty.properFields false fs = true →
    Ty.LayeredFields fs → ∀ {tag tag' : Tag} {d d' : Dict}, (Value.dict tag d).WF → (Value.dict tag' d').WF →
    Ty.ShapedFields fs d → ∀ lx, Ty.MeansFields l (fun _ => none) fs d lx → ∀ m,
    (Ty.MeansFields l (fun _ => none) fs (Dict.coalesce d d' .Merge) m ↔ Ty.UpdatesFields l fs lx d' m)
  | [], _, _, _, _, _, _, _, _, _, lx, hx, m => by
    rw [Ty.MeansFields] at hx
    rw [Ty.MeansFields, Ty.UpdatesFields]
    exact ⟨fun h => ⟨hx, h⟩, fun h => h.2⟩
  | (name, dflt, t) :: fs, ht, hl, tg, tg', d, d', hw, hv, hs, lx, hx, m => by
    rw [Ty.properFields, Bool.and_eq_true] at ht
    rw [Ty.LayeredFields] at hl
    rw [Ty.ShapedFields] at hs
    rw [Ty.MeansFields] at hx
    obtain ⟨u, lx', rfl, hx, hu⟩ := hx
    rw [Ty.MeansFields, Ty.UpdatesFields]
    have ih := Ty.means_merge_fields l fs ht.2 hl.2 hw hv hs.2.2 lx' hx
    have key : ∀ z, ((∃ w, Map.get name (Dict.coalesce d d' .Merge) = some w ∧ t.Means l (fun _ => none) w z) ∨
        (Map.get name (Dict.coalesce d d' .Merge) = none ∧ t.Absent dflt z)) ↔
        ((Map.get name d' = none → z = u) ∧ ∀ w, Map.get name d' = some w → t.Updates l u w z) := by
      intro z
      rw [Dict.get_coalesce (Value.wf_dict.1 hw).1 (Value.wf_dict.1 hv).1]
      rcases hu with ⟨w1, h1, hm⟩ | ⟨h1, ha⟩
      · rw [h1]
        cases h2 : Map.get name d' with
        | none =>
          simp only [optCombine, Option.some.injEq, reduceCtorEq, false_and, or_false, exists_eq_left', forall_const,
            false_implies, implies_true, and_true]
          exact ⟨fun h => (Ty.means_one ht.1 (hw.get h1) hm h).symm, fun h => h ▸ hm⟩
        | some w2 =>
          simp only [optCombine, Option.some.injEq, reduceCtorEq, false_and, or_false, exists_eq_left',
            false_implies, true_and, forall_eq']
          exact Ty.means_merge l t ht.1 hl.1 w1 w2 u (hw.get h1) (hv.get h2) (hs.2.1 w1 h1) hm z
      · obtain rfl := hs.1 h1
        have ha' : t.isOption = true ∧ u = .none := by
          rcases ha with h | h
          · cases h
          · exact h.2
        rw [h1]
        cases h2 : Map.get name d' with
        | none =>
          simp only [optCombine, reduceCtorEq, false_and, exists_false, false_or, true_and, forall_const, false_implies,
            implies_true, and_true]
          constructor
          · rintro (h | h)
            · cases h
            · rw [h.2.2, ha'.2]
          · rintro rfl
            exact ha
        | some w2 =>
          simp only [optCombine, Option.some.injEq, reduceCtorEq, false_and, or_false, exists_eq_left',
            false_implies, true_and, forall_eq']
          obtain ⟨ho, rfl⟩ := ha'
          cases t with
          | option t =>
            rw [Ty.Means, Ty.Updates]
            refine or_congr Iff.rfl (and_congr Iff.rfl (exists_congr fun z => and_congr Iff.rfl ?_))
            constructor
            · exact fun h => .inl ⟨rfl, h⟩
            · rintro (h | ⟨_, h, _⟩)
              · exact h.2
              · cases h
          | _ => cases ho
    constructor
    · rintro ⟨z, m', rfl, h1, h2⟩
      exact ⟨u, lx', z, m', rfl, rfl, ((key z).1 h2).1, ((key z).1 h2).2, (ih m').1 h1⟩
    · rintro ⟨_, _, z, m', h, rfl, h1, h2, h3⟩
      cases h
      exact ⟨z, m', rfl, (ih m').2 h3, (key z).2 ⟨h1, h2⟩⟩
end

end

theorem Value.wf_merge {w v : Value} (hw : w.WF) (hv : v.WF) : (w.coalesce v .Merge).WF := Value.wf_coalesce .Merge w v hw hv

theorem shaped_merge_map {t : Ty} (ih : ∀ w v : Value, w.WF → v.WF → t.Shaped w → t.Shaped v → t.Shaped (w.coalesce v .Merge))
    {w v : Value} (hw : w.WF) (hv : v.WF)
    (hs : ∃ tag d, w = .dict tag d ∧ ∀ k w, Map.get k d = some w → t.Shaped w)
    (hs' : ∃ tag d, v = .dict tag d ∧ ∀ k w, Map.get k d = some w → t.Shaped w) :
    ∃ tag d, w.coalesce v .Merge = .dict tag d ∧ ∀ k w, Map.get k d = some w → t.Shaped w := by
  obtain ⟨tag, d, rfl, hs⟩ := hs
  obtain ⟨tag', d', rfl, hs'⟩ := hs'
  refine ⟨_, _, Value.merge_dict _ _ _ _, fun k u hu => ?_⟩
  rw [Dict.get_coalesce (Value.wf_dict.1 hw).1 (Value.wf_dict.1 hv).1] at hu
  cases h1 : Map.get k d with
  | none =>
    cases h2 : Map.get k d' with
    | none => rw [h1, h2] at hu; cases hu
    | some w2 => rw [h1, h2] at hu; cases hu; exact hs' k _ h2
  | some w1 =>
    cases h2 : Map.get k d' with
    | none => rw [h1, h2] at hu; cases hu; exact hs k _ h1
    | some w2 => rw [h1, h2] at hu; cases hu; exact ih w1 w2 (hw.get h1) (hv.get h2) (hs k _ h1) (hs' k _ h2)

mutual
theorem Ty.shaped_merge : (t : Ty) → ∀ w v : Value, w.WF → v.WF → t.Shaped w → t.Shaped v → t.Shaped (w.coalesce v .Merge)
  | .option t, w, v, hw, hv, hs, hs' => by
    rw [Ty.Shaped] at hs hs' ⊢
    rcases hs' with h | h'
    · exact .inl (Value.merge_empty.2 h)
    · rcases hs with ⟨tag, e, rfl⟩ | h
      · have hm : (Value.empty tag e).coalesce v .Merge = v := Value.merge_atom fun _ _ h => nomatch h
        rw [hm]
        exact .inr h'
      · exact .inr (Ty.shaped_merge t w v hw hv h h')
  | .newtype _ t, w, v, hw, hv, hs, hs' => by
    rw [Ty.Shaped] at hs hs' ⊢
    exact Ty.shaped_merge t w v hw hv hs hs'
  | .map t, w, v, hw, hv, hs, hs' => by
    rw [Ty.Shaped] at hs hs' ⊢
    exact shaped_merge_map (Ty.shaped_merge t) hw hv hs hs'
  | .pairs t, w, v, hw, hv, hs, hs' => by
    rw [Ty.Shaped] at hs hs' ⊢
    exact shaped_merge_map (Ty.shaped_merge t) hw hv hs hs'
  | .keyed _ t, w, v, hw, hv, hs, hs' => by
    rw [Ty.Shaped] at hs hs' ⊢
    exact shaped_merge_map (Ty.shaped_merge t) hw hv hs hs'
  | .via t _ _, w, v, hw, hv, hs, hs' => by
    rw [Ty.Shaped] at hs hs' ⊢
    exact Ty.shaped_merge t w v hw hv hs hs'
  | .any _, _, _, _, _, _, _ => by
    rw [Ty.Shaped]
    trivial
  | .flat _ fs _ _, w, v, hw, hv, hs, hs' => by
    rw [Ty.Shaped] at hs hs' ⊢
    obtain ⟨tg, d, rfl, hs⟩ := hs
    obtain ⟨tg', d', rfl, hs'⟩ := hs'
    exact ⟨_, _, Value.merge_dict _ _ _ _, Ty.shaped_merge_fields fs hw hv hs hs'⟩
  | .struct _ _ _ fs, w, v, hw, hv, hs, hs' => by
    rw [Ty.Shaped] at hs hs' ⊢
    obtain ⟨tg, d, rfl, hs⟩ := hs
    obtain ⟨tg', d', rfl, hs'⟩ := hs'
    exact ⟨_, _, Value.merge_dict _ _ _ _, Ty.shaped_merge_fields fs hw hv hs hs'⟩
  | .enum _ vs, w, v, hw, hv, hs, hs' => by
    rw [Ty.Shaped] at hs hs' ⊢
    rcases hs' with hs' | ⟨tg', k, e, r', rfl, hs'⟩
    · rw [Value.merge_other hs']; exact .inl hs'
    · rcases hs with hs | ⟨tg, a, u, r, rfl, hs⟩
      · rw [Value.merge_atom hs]; exact .inr ⟨_, _, _, _, rfl, hs'⟩
      · rw [Value.merge_dict]
        have hd := (Value.wf_dict.1 hw).1
        have hd' := (Value.wf_dict.1 hv).1
        obtain ⟨hlt, heq, hgt⟩ := merge_head hd hd'
        cases hc : compare k a with
        | lt =>
          obtain ⟨R, hR⟩ := hlt hc
          rw [hR]; exact .inr ⟨_, _, _, _, rfl, hs'⟩
        | eq =>
          obtain rfl := Std.LawfulEqOrd.eq_of_compare hc
          obtain ⟨R, hR⟩ := heq rfl
          rw [hR]
          exact .inr ⟨_, _, _, _, rfl, Ty.shaped_merge_variant k vs u e
            (hw.get (Map.get_eq_some_of_mem hd List.mem_cons_self)) (hv.get (Map.get_eq_some_of_mem hd' List.mem_cons_self)) hs hs'⟩
        | gt =>
          obtain ⟨R, hR⟩ := hgt (Std.OrientedCmp.lt_of_gt hc)
          rw [hR]; exact .inr ⟨_, _, _, _, rfl, hs⟩
  | .bool, w, v, _, _, hs, hs' | .int _, w, v, _, _, hs, hs' | .f32, w, v, _, _, hs, hs' | .f64, w, v, _, _, hs, hs'
  | .char, w, v, _, _, hs, hs' | .string, w, v, _, _, hs, hs' | .pathBuf, w, v, _, _, hs, hs'
  | .unit, w, v, _, _, hs, hs' | .unitStruct _, w, v, _, _, hs, hs' | .seq _, w, v, _, _, hs, hs'
  | .tuple _, w, v, _, _, hs, hs' | .tupleStruct _ _, w, v, _, _, hs, hs'
  | .tag, w, v, _, _, hs, hs' | .flag, w, v, _, _, hs, hs' | .parsed _ _ _, w, v, _, _, hs, hs'
  | .value, w, v, _, _, hs, hs' => by
    rw [Ty.Shaped] at hs
    · rw [Value.merge_atom hs]; exact hs'
    all_goals nofun
theorem Ty.shaped_merge_variant (name : Str) : (vs : List (Str × VTy)) → ∀ w v : Value, w.WF → v.WF →
    Ty.ShapedVariant name vs w → Ty.ShapedVariant name vs v → Ty.ShapedVariant name vs (w.coalesce v .Merge)
  | [], _, _, _, _, hs, _ => nomatch hs
  | (n, t) :: vs, w, v, hw, hv, hs, hs' => by
    rw [Ty.ShapedVariant] at hs hs' ⊢
    rcases hs with ⟨hn, hs⟩ | ⟨hn, hs⟩
    · exact .inl ⟨hn, VTy.shaped_merge t w v hw hv hs (hs'.elim (·.2) fun h => absurd hn h.1)⟩
    · exact .inr ⟨hn, Ty.shaped_merge_variant name vs w v hw hv hs (hs'.elim (fun h => absurd h.1 hn) (·.2))⟩
theorem VTy.shaped_merge : (t : VTy) → ∀ w v : Value, w.WF → v.WF → t.Shaped w → t.Shaped v → t.Shaped (w.coalesce v .Merge)
  | .unit, _, _, _, _, hs, _ => nomatch hs
  | .newtype t, w, v, hw, hv, hs, hs' => by
    rw [VTy.Shaped] at hs hs' ⊢
    exact Ty.shaped_merge t w v hw hv hs hs'
  | .tuple _, w, v, hw, hv, hs, hs' => by
    rw [VTy.Shaped] at hs hs' ⊢
    rw [Value.merge_atom hs]; exact hs'
  | .struct _ fs, w, v, hw, hv, hs, hs' => by
    rw [VTy.Shaped] at hs hs' ⊢
    obtain ⟨tg, d, rfl, hs⟩ := hs
    obtain ⟨tg', d', rfl, hs'⟩ := hs'
    exact ⟨_, _, Value.merge_dict _ _ _ _, Ty.shaped_merge_fields fs hw hv hs hs'⟩
theorem Ty.shaped_merge_fields : (fs : List (Str × Option Val × Ty)) → ∀ {tg tg' : Tag} {d d' : Dict},
    (Value.dict tg d).WF → (Value.dict tg' d').WF → Ty.ShapedFields fs d → Ty.ShapedFields fs d' →
    Ty.ShapedFields fs (Dict.coalesce d d' .Merge)
  | [], _, _, _, _, _, _, _, _ => trivial
  | (name, dflt, t) :: fs, tg, tg', d, d', hw, hv, hs, hs' => by
    rw [Ty.ShapedFields] at hs hs' ⊢
    rw [Dict.get_coalesce (Value.wf_dict.1 hw).1 (Value.wf_dict.1 hv).1]
    refine ⟨fun h => ?_, fun w h => ?_, Ty.shaped_merge_fields fs hw hv hs.2.2 hs'.2.2⟩
    · cases h1 : Map.get name d with
      | none => exact hs.1 h1
      | some w1 => rw [h1] at h; cases h2 : Map.get name d' <;> (rw [h2] at h; cases h)
    · cases h1 : Map.get name d with
      | none =>
        cases h2 : Map.get name d' with
        | none => rw [h1, h2] at h; cases h
        | some w2 => rw [h1, h2] at h; cases h; exact hs'.2.1 _ h2
      | some w1 =>
        cases h2 : Map.get name d' with
        | none => rw [h1, h2] at h; cases h; exact hs.2.1 _ h1
        | some w2 =>
          rw [h1, h2] at h; cases h
          exact Ty.shaped_merge t w1 w2 (hw.get h1) (hv.get h2) (hs.2.1 _ h1) (hs'.2.1 _ h2)
end

theorem serVariant_unit {name : Str} : ∀ {vs : List (Str × VTy)} {x : Val}, unitVariants vs = true →
    Ty.HasVariant name vs x → Ty.serVariant name vs x = .unitVariant name
  | [], _, _, h => nomatch h
  | (n, v) :: vs, x, hu, h => by
    rw [unitVariants, List.all_cons, Bool.and_eq_true] at hu
    rw [Ty.HasVariant] at h
    rw [Ty.serVariant]
    rcases h with ⟨rfl, h⟩ | ⟨hn, h⟩
    · rw [if_pos rfl]
      cases v with
      | unit => rfl
      | _ => cases hu.1
    · rw [if_neg hn]
      exact serVariant_unit hu.2 h

theorem Value.not_dict_array {l : List Ser} {w : Value}
    (hw : (match Ser.serializeSeq l with | .ok vs => Except.ok (Value.ofArray vs) | .error e => .error e) = .ok w) :
    ∀ tag d, w ≠ .dict tag d := by
  cases h : Ser.serializeSeq l with
  | error e => rw [h] at hw; cases hw
  | ok vs => rw [h] at hw; cases hw; nofun

theorem Ty.atom_written : ∀ (t : Ty) (x : Val) (w : Value), t.atom = true → t.Has x → (t.ser x).serialize = .ok w →
    ∀ tag d, w ≠ .dict tag d
  | .option t, x, w, ha, hx, hw => by
    rw [Ty.atom] at ha
    rw [Ty.Has] at hx
    rcases hx with rfl | ⟨y, rfl, hy⟩
    · cases hw; nofun
    · exact Ty.atom_written t y w ha hy hw
  | .newtype _ t, x, w, ha, hx, hw => by
    rw [Ty.atom] at ha
    rw [Ty.Has] at hx
    obtain ⟨y, rfl, hy⟩ := hx
    exact Ty.atom_written t y w ha hy hw
  | .via t conv back, x, w, ha, hx, hw => by
    rw [Ty.atom] at ha
    rw [Ty.Has] at hx
    rw [Ty.ser] at hw
    exact Ty.atom_written t (back x) w ha hx.1 hw
  | .enum _ vs, x, w, ha, hx, hw => by
    rw [Ty.atom] at ha
    rw [Ty.Has] at hx
    obtain ⟨name, y, rfl, hy⟩ := hx
    rw [Ty.ser, serVariant_unit ha hy] at hw
    cases hw
    nofun
  | .bool, x, w, _, hx, hw => by
    rw [Ty.Has] at hx; obtain ⟨b, rfl⟩ := hx; cases hw; nofun
  | .int t, x, w, _, hx, hw => by
    rw [Ty.Has] at hx; obtain ⟨b, rfl, _⟩ := hx; cases hw; nofun
  | .f32, x, w, _, hx, hw => by
    rw [Ty.Has] at hx; obtain ⟨b, rfl⟩ := hx; cases hw; nofun
  | .f64, x, w, _, hx, hw => by
    rw [Ty.Has] at hx; obtain ⟨b, rfl⟩ := hx; cases hw; nofun
  | .char, x, w, _, hx, hw => by
    rw [Ty.Has] at hx; obtain ⟨b, rfl⟩ := hx; cases hw; nofun
  | .string, x, w, _, hx, hw => by
    rw [Ty.Has] at hx; obtain ⟨b, rfl⟩ := hx; cases hw; nofun
  | .pathBuf, x, w, _, hx, hw => by
    rw [Ty.Has] at hx; obtain ⟨b, rfl⟩ := hx; cases hw; nofun
  | .unit, x, w, _, hx, hw => by
    rw [Ty.Has] at hx; obtain rfl := hx; cases hw; nofun
  | .unitStruct _, x, w, _, hx, hw => by
    rw [Ty.Has] at hx; obtain rfl := hx; cases hw; nofun
  | .tag, x, w, _, hx, hw => by
    rw [Ty.Has] at hx; obtain ⟨b, rfl⟩ := hx; cases hw; nofun
  | .flag, x, w, _, hx, hw => by
    rw [Ty.Has] at hx; obtain ⟨b, rfl⟩ := hx; cases hw; nofun
  | .parsed _ _ _, x, w, _, hx, hw => by
    rw [Ty.ser] at hw; cases hw; nofun
  | .seq t, x, w, _, hx, hw => by
    rw [Ty.Has] at hx; obtain ⟨b, rfl, _⟩ := hx
    rw [Ty.ser, Ser.serialize] at hw; exact Value.not_dict_array hw
  | .tuple t, x, w, _, hx, hw => by
    rw [Ty.Has] at hx; obtain ⟨b, rfl, _⟩ := hx
    rw [Ty.ser, Ser.serialize] at hw; exact Value.not_dict_array hw
  | .tupleStruct _ t, x, w, _, hx, hw => by
    rw [Ty.Has] at hx; obtain ⟨b, rfl, _⟩ := hx
    rw [Ty.ser, Ser.serialize] at hw; exact Value.not_dict_array hw

theorem serializeMap_mem : ∀ {l : List (Ser × Ser)} {es : List (Str × Value)}, Ser.serializeMap l = .ok es →
    ∀ p ∈ es, ∃ e ∈ l, e.2.serialize = .ok p.2
  | [], _, h => by cases h; exact nofun
  | (k, x) :: l, es, h => by
    rw [Ser.serializeMap] at h
    split at h
    · cases h
    · split at h
      · cases h
      · next w hw =>
        split at h
        · cases h
        · next vs hvs =>
          cases h
          intro p hp
          rcases List.mem_cons.1 hp with rfl | hp
          · exact ⟨_, List.mem_cons_self, hw⟩
          · obtain ⟨e, he, h3⟩ := serializeMap_mem hvs p hp
            exact ⟨e, List.mem_cons_of_mem _ he, h3⟩
    · cases h

theorem serializeFields_mem : ∀ {l : List (Str × Ser)} {es : List (Str × Value)}, Ser.serializeFields l = .ok es →
    ∀ p ∈ l, ∃ w, p.2.serialize = .ok w ∧ (p.1, w) ∈ es
  | [], _, _ => nofun
  | (k, x) :: l, es, h => by
    rw [Ser.serializeFields] at h
    cases h1 : x.serialize with
    | error e => rw [h1] at h; cases h
    | ok w =>
      rw [h1] at h
      cases h2 : Ser.serializeFields l with
      | error e => rw [h2] at h; cases h
      | ok vs =>
        rw [h2] at h
        cases h
        intro p hp
        rcases List.mem_cons.1 hp with rfl | hp
        · exact ⟨w, h1, List.mem_cons_self⟩
        · obtain ⟨u, h3, h4⟩ := serializeFields_mem h2 p hp
          exact ⟨u, h3, List.mem_cons_of_mem _ h4⟩

theorem shaped_written_map {t : Ty} {α : Type} {g : α → Ser} {l : List (α × Val)}
    (ih : ∀ x w, t.Has x → (t.ser x).serialize = .ok w → t.Shaped w) (hl : ∀ e ∈ l, t.Has e.2) {w : Value}
    (hw : (Ser.map (l.map fun e => (g e.1, t.ser e.2))).serialize = .ok w) :
    ∃ tag d, w = .dict tag d ∧ ∀ k w, Map.get k d = some w → t.Shaped w := by
  rw [Ser.serialize] at hw
  cases h1 : Ser.serializeMap (l.map fun e => (g e.1, t.ser e.2)) with
  | error e => rw [h1] at hw; cases hw
  | ok es =>
    rw [h1] at hw
    cases hw
    refine ⟨_, _, rfl, fun k u hu => ?_⟩
    obtain ⟨k', hm, _⟩ := Map.mem_of_get hu
    obtain ⟨e, he, h2⟩ := serializeMap_mem h1 _ (Map.mem_ofList hm)
    obtain ⟨e', he', rfl⟩ := List.mem_map.1 he
    exact ih e'.2 u (hl e' he') h2

mutual
/-- What a value is written as is of the shape. -/
theorem Ty.shaped_written : ∀ (t : Ty), t.proper false = true → t.Layered → ∀ (x : Val) (w : Value), t.Has x →
    (t.ser x).serialize = .ok w → t.Shaped w
  | .option t, ht, hl, x, w, hx, hw => by
    rw [Ty.proper] at ht
    rw [Ty.Layered] at hl
    rw [Ty.Has] at hx
    rw [Ty.Shaped]
    rcases hx with rfl | ⟨y, rfl, hy⟩
    · cases hw; exact .inl ⟨_, _, rfl⟩
    · exact .inr (Ty.shaped_written t ht hl y w hy hw)
  | .newtype _ t, ht, hl, x, w, hx, hw => by
    rw [Ty.proper] at ht
    rw [Ty.Layered] at hl
    rw [Ty.Has] at hx
    rw [Ty.Shaped]
    obtain ⟨y, rfl, hy⟩ := hx
    exact Ty.shaped_written t ht hl y w hy hw
  | .map t, ht, hl, x, w, hx, hw => by
    rw [Ty.proper] at ht
    rw [Ty.Layered] at hl
    rw [Ty.Has] at hx
    rw [Ty.Shaped]
    obtain ⟨l, rfl, _, hx⟩ := hx
    exact shaped_written_map (g := .str) (Ty.shaped_written t ht hl) hx hw
  | .pairs t, ht, hl, x, w, hx, hw => by
    rw [Ty.proper] at ht
    rw [Ty.Layered] at hl
    rw [Ty.Has] at hx
    rw [Ty.Shaped]
    obtain ⟨l, rfl, _, hx⟩ := hx
    exact shaped_written_map (g := .str) (Ty.shaped_written t ht hl) hx hw
  | .struct _ name deny fs, ht, hl, x, w, hx, hw => by
    simp only [Ty.proper, Bool.and_eq_true, decide_eq_true_eq] at ht
    rw [Ty.Layered] at hl
    rw [Ty.Has] at hx
    rw [Ty.Shaped]
    obtain ⟨l, rfl, hf, _⟩ := hx
    rw [Ty.ser, Ser.serialize] at hw
    cases h1 : Ser.serializeFields (Ty.serFields fs l) with
    | error e => rw [h1] at hw; cases hw
    | ok es =>
      rw [h1] at hw
      cases hw
      refine ⟨_, _, rfl, Ty.shaped_written_fields fs ht.2 hl l hf _ fun p hp => ?_⟩
      obtain ⟨u, h2, h3⟩ := serializeFields_mem h1 p hp
      refine ⟨u, h2, Map.get_ofList_nodup ?_ h3⟩
      rw [serializeFields_keys h1, Ty.serFields_keys hf]
      exact ht.1.2
  | .enum _ vs, ht, hl, x, w, hx, hw => by
    rw [Ty.proper] at ht
    rw [Ty.Layered] at hl
    rw [Ty.Has] at hx
    rw [Ty.Shaped]
    obtain ⟨name, y, rfl, hy⟩ := hx
    rw [Ty.ser] at hw
    rcases Ty.shaped_written_variant name vs ht hl.2 y w hy hw with h | ⟨e, rfl, h⟩
    · exact .inl h
    · exact .inr ⟨_, _, _, _, rfl, h⟩
  | .via t c b, ht, hl, x, w, hx, hw => by
    rw [Ty.proper, Bool.and_eq_true] at ht
    rw [Ty.Layered] at hl
    rw [Ty.Has] at hx
    rw [Ty.Shaped]
    rw [Ty.ser] at hw
    rcases hl with hl | ⟨_, hl⟩
    · exact (Ty.atom_shaped t hl w).2 (Ty.atom_written t (b x) w hl hx.1 hw)
    · exact Ty.shaped_written t ht.2 hl (b x) w hx.1 hw
  | .keyed _ t, ht, hl, x, w, hx, hw => by
    rw [Ty.proper] at ht
    rw [Ty.Layered] at hl
    rw [Ty.Has] at hx
    rw [Ty.Shaped]
    obtain ⟨l, rfl, _, hx⟩ := hx
    rw [Ty.ser] at hw
    exact shaped_written_map (Ty.shaped_written t ht hl.2) (fun e he => (hx e he).2.1) hw
  | .bool, _, hl, x, w, hx, hw | .int _, _, hl, x, w, hx, hw | .f32, _, hl, x, w, hx, hw | .f64, _, hl, x, w, hx, hw
  | .char, _, hl, x, w, hx, hw | .string, _, hl, x, w, hx, hw | .pathBuf, _, hl, x, w, hx, hw
  | .unit, _, hl, x, w, hx, hw | .unitStruct _, _, hl, x, w, hx, hw | .seq _, _, hl, x, w, hx, hw
  | .tuple _, _, hl, x, w, hx, hw | .tupleStruct _ _, _, hl, x, w, hx, hw
  | .tag, _, hl, x, w, hx, hw | .flag, _, hl, x, w, hx, hw | .parsed _ _ _, _, hl, x, w, hx, hw => by
    rw [Ty.Shaped]
    · exact Ty.atom_written _ x w (by first | rfl | exact hl) hx hw
    all_goals nofun
  | .any _, _, _, _, _, _, _ => by
    rw [Ty.Shaped]
    trivial
  | .flat _ fs conv back, ht, hl, x, w, hx, hw => by
    rw [Ty.proper, Bool.and_eq_true, decide_eq_true_eq] at ht
    rw [Ty.Layered] at hl
    rw [Ty.Has] at hx
    rw [Ty.Shaped]
    obtain ⟨hf, hrs, hr, _⟩ := hx
    have he : (Ty.serFields fs (back x).1).map (fun e => (Ser.str e.1, e.2)) ++ Val.anySerMap (back x).2 =
        (Ty.serFields fs (back x).1 ++ (back x).2.map fun e => (e.1, e.2.anySer)).map fun e => (.str e.1, e.2) := by
      rw [Val.anySerMap_eq, List.map_append, List.map_map]
      rfl
    rw [Ty.ser, Ser.serialize, he, serializeMap_fields] at hw
    cases h1 : Ser.serializeFields (Ty.serFields fs (back x).1 ++ (back x).2.map fun e => (e.1, e.2.anySer)) with
    | error e => rw [h1] at hw; cases hw
    | ok es =>
      rw [h1] at hw
      cases hw
      refine ⟨_, _, rfl, Ty.shaped_written_fields fs ht.2 hl.2 (back x).1 hf _ fun p hp => ?_⟩
      obtain ⟨u, h2, h3⟩ := serializeFields_mem h1 p (List.mem_append_left _ hp)
      refine ⟨u, h2, Map.get_ofList_nodup ?_ h3⟩
      rw [serializeFields_keys h1, List.map_append, Ty.serFields_keys hf, List.map_map, List.nodup_append]
      refine ⟨ht.1, ?_, fun a ha b hb hab => ?_⟩
      · rw [List.Nodup, List.pairwise_map]
        refine List.Pairwise.imp (fun {a b} h hab => ?_) hrs
        have hab : a.1 = b.1 := hab
        rw [hab, Std.ReflOrd.compare_self] at h
        cases h
      · obtain ⟨e, he, rfl⟩ := List.mem_map.1 hb
        subst hab
        exact (hr e he).2 ha
  | .value, _, hl, _, _, _, _ => nomatch hl
theorem Ty.shaped_written_variant (name : Str) : ∀ (vs : List (Str × VTy)), Ty.properVariants false vs = true →
    Ty.LayeredVariants vs → ∀ (x : Val) (w : Value), Ty.HasVariant name vs x →
    (Ty.serVariant name vs x).serialize = .ok w →
    (∀ tag d, w ≠ .dict tag d) ∨ ∃ e, w = .dict Tag.Default [(name, e)] ∧ Ty.ShapedVariant name vs e
  | [], _, _, _, _, hx, _ => nomatch hx
  | (n, v) :: vs, ht, hl, x, w, hx, hw => by
    rw [Ty.properVariants, Bool.and_eq_true] at ht
    rw [Ty.LayeredVariants] at hl
    rw [Ty.HasVariant] at hx
    rw [Ty.serVariant] at hw
    rcases hx with ⟨rfl, hx⟩ | ⟨hn, hx⟩
    · rw [if_pos rfl] at hw
      rcases VTy.shaped_written n v ht.1 hl.1 x w hx hw with h | ⟨e, h1, h2⟩
      · exact .inl h
      · exact .inr ⟨e, h1, .inl ⟨rfl, h2⟩⟩
    · rw [if_neg hn] at hw
      rcases Ty.shaped_written_variant name vs ht.2 hl.2 x w hx hw with h | ⟨e, h1, h2⟩
      · exact .inl h
      · exact .inr ⟨e, h1, .inr ⟨hn, h2⟩⟩
theorem VTy.shaped_written (name : Str) : ∀ (v : VTy), v.proper false = true → v.Layered → ∀ (x : Val) (w : Value),
    v.Has x → (v.ser name x).serialize = .ok w →
    (∀ tag d, w ≠ .dict tag d) ∨ ∃ e, w = .dict Tag.Default [(name, e)] ∧ v.Shaped e
  | .unit, _, _, x, w, _, hw => by
    rw [VTy.ser] at hw
    cases hw
    exact .inl nofun
  | .newtype t, ht, hl, x, w, hx, hw => by
    rw [VTy.proper] at ht
    rw [VTy.Layered] at hl
    rw [VTy.Has] at hx
    rw [VTy.ser, Ser.serialize] at hw
    cases h1 : (t.ser x).serialize with
    | error e => rw [h1] at hw; cases hw
    | ok e =>
      rw [h1] at hw
      cases hw
      exact .inr ⟨e, rfl, Ty.shaped_written t ht hl x e hx h1⟩
  | .tuple ts, _, _, x, w, hx, hw => by
    rw [VTy.Has] at hx
    obtain ⟨l, rfl, _⟩ := hx
    rw [VTy.ser, Ser.serialize] at hw
    cases h1 : Ser.serializeSeq (Ty.serEach ts l) with
    | error e => rw [h1] at hw; cases hw
    | ok e =>
      rw [h1] at hw
      cases hw
      exact .inr ⟨_, rfl, fun _ _ h => nomatch h⟩
  | .struct _ fs, ht, hl, x, w, hx, hw => by
    rw [VTy.proper, Bool.and_eq_true, decide_eq_true_eq] at ht
    rw [VTy.Layered] at hl
    rw [VTy.Has] at hx
    obtain ⟨l, rfl, hf⟩ := hx
    rw [VTy.ser, Ser.serialize] at hw
    cases h1 : Ser.serializeFields (Ty.serFields fs l) with
    | error e => rw [h1] at hw; cases hw
    | ok es =>
      rw [h1] at hw
      cases hw
      refine .inr ⟨_, rfl, _, _, rfl, Ty.shaped_written_fields fs ht.2 hl l hf _ fun p hp => ?_⟩
      obtain ⟨u, h2, h3⟩ := serializeFields_mem h1 p hp
      refine ⟨u, h2, Map.get_ofList_nodup ?_ h3⟩
      rw [serializeFields_keys h1, Ty.serFields_keys hf]
      exact ht.1
theorem Ty.shaped_written_fields : ∀ (fs : List (Str × Option Val × Ty)), Ty.properFields false fs = true →
    Ty.LayeredFields fs → ∀ (l : List Val), Ty.HasFields fs l → ∀ d : Dict,
    (∀ p ∈ Ty.serFields fs l, ∃ w, p.2.serialize = .ok w ∧ Map.get p.1 d = some w) → Ty.ShapedFields fs d
  | [], _, _, _, _, _, _ => trivial
  | (name, dflt, t) :: fs, ht, hl, l, hf, d, hd => by
    rw [Ty.properFields, Bool.and_eq_true] at ht
    rw [Ty.LayeredFields] at hl
    rw [Ty.HasFields] at hf
    obtain ⟨x, r, rfl, hx, hr⟩ := hf
    rw [Ty.serFields] at hd
    rw [Ty.ShapedFields]
    obtain ⟨w, h1, h2⟩ := hd _ List.mem_cons_self
    refine ⟨fun h => ?_, fun u hu => ?_, Ty.shaped_written_fields fs ht.2 hl.2 r hr d fun p hp =>
      hd p (List.mem_cons_of_mem _ hp)⟩
    · rw [h2] at h; cases h
    · rw [h2] at hu; cases hu
      exact Ty.shaped_written t ht.1 hl.1 x w hx h1
end

/-- One after the other. -/
theorem Ty.means_merge_all [FloatOps] (l : Bool) (t : Ty) (ht : t.proper false = true) (hl : t.Layered) :
    ∀ (vs : List Value) (w : Value) (x y : Val), w.WF → (∀ v ∈ vs, v.WF) → t.Shaped w → (∀ v ∈ vs.dropLast, t.Shaped v) →
    t.Means l (fun _ => none) w x → t.UpdatesAll l x vs y →
    t.Means l (fun _ => none) (vs.foldl (fun w v => w.coalesce v .Merge) w) y
  | [], w, x, y, _, _, _, _, hx, h => by
    rw [Ty.UpdatesAll] at h
    subst h
    exact hx
  | v :: vs, w, x, y, hw, hv, hs, hsv, hx, h => by
    rw [Ty.UpdatesAll] at h
    obtain ⟨z, h1, h2⟩ := h
    have h3 := (Ty.means_merge l t ht hl w v x hw (hv v List.mem_cons_self) hs hx z).2 h1
    cases vs with
    | nil => rw [Ty.UpdatesAll] at h2; subst h2; exact h3
    | cons u us =>
      exact Ty.means_merge_all l t ht hl (u :: us) _ z y (Value.wf_merge hw (hv v List.mem_cons_self))
        (fun a ha => hv a (List.mem_cons_of_mem _ ha))
        (Ty.shaped_merge t w v hw (hv v List.mem_cons_self) hs (hsv v (by simp)))
        (fun a ha => hsv a (by rw [List.dropLast_cons_of_ne_nil (by simp)]; exact List.mem_cons_of_mem _ ha)) h3 h2

end Figment
