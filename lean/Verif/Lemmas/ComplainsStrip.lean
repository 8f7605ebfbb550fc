import Verif.Lemmas.Strip
import Verif.Lemmas.ComplainsTy
/-!
# Lemmas: what is wrong with a value, read as a type, does not depend on tags
-/
namespace Figment
namespace Value

theorem shown_like {v w : Value} (h : v.strip = w.strip) : v.shown = w.shown := by
  cases v with
  | string t s => obtain ⟨t', rfl⟩ := like_string h; rfl
  | char t s => obtain ⟨t', rfl⟩ := like_char h; rfl
  | bool t s => obtain ⟨t', rfl⟩ := like_bool h; rfl
  | num t s => obtain ⟨t', rfl⟩ := like_num h; cases s <;> rfl
  | empty t s => obtain ⟨t', rfl⟩ := like_empty h; cases s <;> rfl
  | array t s => obtain ⟨t', a', rfl, _⟩ := like_array h; rfl
  | dict t s => obtain ⟨t', a', rfl, _⟩ := like_dict h; rfl

theorem noDict_like {v w : Value} (h : v.strip = w.strip) (hn : ∀ t d, v ≠ .dict t d) (t : Tag) (d : Dict) :
    w ≠ .dict t d := by
  rintro rfl
  obtain ⟨t', d', h', _⟩ := like_dict h.symm
  exact hn _ _ h'

theorem noArray_like {v w : Value} (h : v.strip = w.strip) (hn : ∀ t a, v ≠ .array t a) (t : Tag) (a : List Value) :
    w ≠ .array t a := by
  rintro rfl
  obtain ⟨t', d', h', _⟩ := like_array h.symm
  exact hn _ _ h'

theorem noString_like {v w : Value} (h : v.strip = w.strip) (hn : ∀ t s, v ≠ .string t s) (t : Tag) (s : Str) :
    w ≠ .string t s := by
  rintro rfl
  obtain ⟨t', h'⟩ := like_string h.symm
  exact hn _ _ h'

theorem noBool_like {v w : Value} (h : v.strip = w.strip) (hn : ∀ t s, v ≠ .bool t s) (t : Tag) (s : Bool) :
    w ≠ .bool t s := by
  rintro rfl
  obtain ⟨t', h'⟩ := like_bool h.symm
  exact hn _ _ h'

theorem noEmpty_like {v w : Value} (h : v.strip = w.strip) (e : Empty) (hn : ∀ t, v ≠ .empty t e) (t : Tag) :
    w ≠ .empty t e := by
  rintro rfl
  obtain ⟨t', h'⟩ := like_empty h.symm
  exact hn _ h'

theorem toldNum_like [FloatOps] {l : Bool} {v w : Value} {a : Actual} (h : v.strip = w.strip) (ha : v.ToldNum l a) :
    w.ToldNum l a := by
  rcases ha with ⟨n, hn, ha⟩ | ⟨hn, ha⟩
  · refine .inl ⟨n, isNum_like h hn, ha.trans ?_⟩
    cases n <;> rfl
  · exact .inr ⟨fun n hw => hn n (isNum_like h.symm hw), ha.trans (shown_like h)⟩

end Value

open Value in
mutual
/-- Which data is refused does not depend on tags. -/
theorem Value.refuses_like {e : Str} : ∀ v w : Value, v.strip = w.strip → ∀ p k, v.Refuses e p k → w.Refuses e p k
  | .string t s, w, h, p, k, hm => by obtain ⟨t', rfl⟩ := like_string h; exact hm
  | .char t s, w, h, p, k, hm => by obtain ⟨t', rfl⟩ := like_char h; exact hm
  | .bool t s, w, h, p, k, hm => by obtain ⟨t', rfl⟩ := like_bool h; exact hm
  | .num t s, w, h, p, k, hm => by
    have hs := shown_like h
    obtain ⟨t', rfl⟩ := like_num h
    rw [Value.Refuses] at hm ⊢
    rw [← hs]
    exact hm
  | .empty t _, w, h, p, k, hm => by obtain ⟨t', rfl⟩ := like_empty h; exact hm
  | .array t a, w, h, p, k, hm => by
    obtain ⟨t', a', rfl, ha⟩ := like_array h
    exact refusesA_like a a' ha 0 p k hm
  | .dict t d, w, h, p, k, hm => by
    obtain ⟨t', d', rfl, hd⟩ := like_dict h
    exact refusesD_like d d' hd p k hm
theorem Value.refusesA_like {e : Str} : ∀ a a' : List Value, a.map strip = a'.map strip → ∀ i p k,
    RefusesA e i a p k → RefusesA e i a' p k
  | [], a', h, _, p, k, hm => nomatch hm
  | v :: a, a', h, i, p, k, hm => by
    cases a' with
    | nil => cases h
    | cons v' a' =>
      rw [List.map_cons, List.map_cons, List.cons.injEq] at h
      rcases hm with ⟨p', hp, hm⟩ | ⟨⟨y, hy⟩, hm⟩
      · exact .inl ⟨p', hp, Value.refuses_like v v' h.1 p' k hm⟩
      · exact .inr ⟨⟨y, buffers_like v v' h.1 y hy⟩, refusesA_like a a' h.2 (i + 1) p k hm⟩
theorem Value.refusesD_like {e : Str} : ∀ d d' : List (Str × Value), stripD d = stripD d' → ∀ p k,
    RefusesD e d p k → RefusesD e d' p k
  | [], d', h, p, k, hm => nomatch hm
  | (key, v) :: d, d', h, p, k, hm => by
    cases d' with
    | nil => rw [stripD, stripD] at h; cases h
    | cons x d' =>
      obtain ⟨key', v'⟩ := x
      rw [stripD, stripD, List.cons.injEq, Prod.mk.injEq] at h
      obtain ⟨⟨rfl, hv⟩, hd⟩ := h
      rcases hm with ⟨p', hp, hm⟩ | ⟨⟨y, hy⟩, hm⟩
      · exact .inl ⟨p', hp, Value.refuses_like v v' hv p' k hm⟩
      · exact .inr ⟨⟨y, buffers_like v v' hv y hy⟩, refusesD_like d d' hd p k hm⟩
end

variable [FloatOps]
open Value

omit [FloatOps] in
theorem firstLacking_like {fs : List (Str × Option Val × Ty)} {d d' : Dict} (h : stripD d = stripD d') {name : Str}
    (hf : FirstLacking fs d name) : FirstLacking fs d' name := by
  obtain ⟨i, f, hi, hn, hg, hl, hj⟩ := hf
  refine ⟨i, f, hi, hn, get_like_none h hg, hl, fun j hji g hgj => ?_⟩
  rcases hj j hji g hgj with h1 | h1
  · exact .inl fun h2 => h1 (get_like_none h.symm h2)
  · exact .inr h1

omit [FloatOps] in
theorem dictFault_like {deny : Bool} {fs : List (Str × Option Val × Ty)} {fault fault' : Str → Value → List Str → Kind → Prop}
    {good good' : Str → Value → Prop} (hf : ∀ key v w, v.strip = w.strip → ∀ p k, fault key v p k → fault' key w p k)
    (hg : ∀ key v w, v.strip = w.strip → good key v → good' key w) {d d' : Dict} (h : stripD d = stripD d')
    {p : List Str} {k : Kind} (hd : DictFault deny fs fault good d p k) : DictFault deny fs fault' good' d' p k := by
  rcases hd with ⟨i, key, w, hi, hw, hj⟩ | ⟨hall, hp, name, hl, hk⟩
  · obtain ⟨w', hw', hs⟩ := getEntry_like h.symm hi
    refine .inl ⟨i, key, w', hw', ?_, fun j hji e he => ?_⟩
    · rcases hw with ⟨p', hp, hw⟩ | hw
      · exact .inl ⟨p', hp, hf key w w' hs.symm p' k hw⟩
      · exact .inr hw
    · obtain ⟨ke, ve⟩ := e
      obtain ⟨v, hv, hvs⟩ := getEntry_like h he
      exact hg _ _ _ hvs (hj j hji _ hv)
  · refine .inr ⟨fun e he => ?_, hp, name, firstLacking_like h hl, hk⟩
    obtain ⟨i, hi⟩ := List.getElem?_of_mem he
    obtain ⟨ke, ve⟩ := e
    obtain ⟨v, hv, hvs⟩ := getEntry_like h hi
    exact hg _ _ _ hvs (hall _ (List.mem_of_getElem? hv))

section
variable {l : Bool} {file file' : Tag → Option Str}

theorem goodField_like {deny : Bool} {name : Str} : (fs : List (Str × Option Val × Ty)) → Ty.properFields false fs = true →
    ∀ v w : Value, v.strip = w.strip → Ty.GoodField l file deny name fs v → Ty.GoodField l file' deny name fs w
  | [], _, _, _, _, h => h
  | (n, _, t) :: fs, ht, v, w, hs, h => by
    rw [Ty.properFields, Bool.and_eq_true] at ht
    rcases h with ⟨hn, y, hy⟩ | ⟨hn, h⟩
    · exact .inl ⟨hn, y, Ty.means_like t ht.1 v w hs y hy⟩
    · exact .inr ⟨hn, goodField_like fs ht.2 v w hs h⟩

theorem means_ex_like (t : Ty) (ht : t.proper false = true) {v w : Value} (h : v.strip = w.strip)
    (hm : ∃ y, t.Means l file v y) : ∃ y, t.Means l file' w y := by
  obtain ⟨y, hy⟩ := hm
  exact ⟨y, Ty.means_like t ht v w h y hy⟩

mutual
theorem Ty.complains_like : (t : Ty) → t.proper false = true → ∀ v w : Value, v.strip = w.strip → ∀ p k,
    t.Complains l file v p k → t.Complains l file' w p k
  | .bool, _, v, w, h, p, k, hm => by
    rw [Ty.Complains, Kind.IsMismatch] at hm ⊢
    rw [← shown_like h]
    exact ⟨hm.1, fun b hb => hm.2.1 b (isBool_like h.symm hb), hm.2.2⟩
  | .int t, _, v, w, h, p, k, hm => by
    rw [Ty.Complains] at hm ⊢
    refine ⟨hm.1, ?_⟩
    have hm := hm.2
    split at hm
    · rename_i ht; rw [if_pos ht]; exact hm
    · rename_i ht
      rw [if_neg ht]
      obtain ⟨a, ha, ⟨n, i, hn, hr⟩ | ⟨hn, hk⟩⟩ := hm
      · exact ⟨a, toldNum_like h ha, .inl ⟨n, i, isNum_like h hn, hr⟩⟩
      · exact ⟨a, toldNum_like h ha, .inr ⟨fun n i hw => hn n i (isNum_like h.symm hw), hk⟩⟩
  | .f32, _, v, w, h, p, k, hm => by
    rw [Ty.Complains] at hm ⊢
    obtain ⟨hp, a, ha, hn, hk⟩ := hm
    exact ⟨hp, a, toldNum_like h ha, fun n hw => hn n (isNum_like h.symm hw), hk⟩
  | .f64, _, v, w, h, p, k, hm => by
    rw [Ty.Complains] at hm ⊢
    obtain ⟨hp, a, ha, hn, hk⟩ := hm
    exact ⟨hp, a, toldNum_like h ha, fun n hw => hn n (isNum_like h.symm hw), hk⟩
  | .char, _, v, w, h, p, k, hm => by
    rw [Ty.Complains, Kind.IsMismatch] at hm ⊢
    rw [← shown_like h, ← text_like h]
    refine ⟨hm.1, ?_⟩
    rcases hm.2 with ⟨tg, s, rfl, hr⟩ | hm
    · obtain ⟨t', rfl⟩ := like_string h
      exact .inl ⟨t', s, rfl, hr⟩
    · exact .inr hm
  | .string, _, v, w, h, p, k, hm => by
    rw [Ty.Complains, Kind.IsMismatch] at hm ⊢; rw [← shown_like h, ← text_like h]; exact hm
  | .pathBuf, _, v, w, h, p, k, hm => by
    rw [Ty.Complains, Kind.IsMismatch] at hm ⊢; rw [← shown_like h, ← text_like h]; exact hm
  | .unit, _, v, w, h, p, k, hm => by
    rw [Ty.Complains, Kind.IsMismatch] at hm ⊢
    rw [← shown_like h]
    exact ⟨hm.1, noEmpty_like h _ hm.2.1, hm.2.2⟩
  | .unitStruct _, _, v, w, h, p, k, hm => by
    rw [Ty.Complains] at hm ⊢
    rw [← shown_like h]
    exact ⟨hm.1, noEmpty_like h _ hm.2.1, hm.2.2⟩
  | .any _, _, v, w, h, p, k, hm => by rw [Ty.Complains] at hm ⊢; exact refuses_like v w h p k hm
  | .flat n fs conv _, ht, v, w, h, p, k, hm => by
    rw [Ty.proper, Bool.and_eq_true] at ht
    rw [Ty.Complains] at hm ⊢
    rcases hm with ⟨hn, hp, hk⟩ | ⟨tg, d, rfl, hd⟩ | ⟨tg, d, xs, ys, rfl, hf, hb, hk⟩
    · exact .inl ⟨noDict_like h hn, hp, shown_like h ▸ hk⟩
    · obtain ⟨t', d', rfl, hdd⟩ := like_dict h
      refine .inr (.inl ⟨t', d', rfl, dictFault_like ?_ ?_ hdd hd⟩)
      · rintro key v w hs p k (hf | ⟨hk, hr⟩)
        · exact .inl (Ty.complains_like_field fs ht.2 key v w hs p k hf)
        · exact .inr ⟨hk, refuses_like v w hs p k hr⟩
      · rintro key v w hs ⟨hg, hb⟩
        refine ⟨goodField_like fs ht.2 v w hs hg, fun hk => ?_⟩
        obtain ⟨y, hy⟩ := hb hk
        exact ⟨y, buffers_like v w hs y hy⟩
    · obtain ⟨t', d', rfl, hdd⟩ := like_dict h
      exact .inr (.inr ⟨t', d', xs, ys, rfl, Ty.means_like_fields fs ht.2 d d' hdd xs hf,
        buffersD_like _ _ (stripD_filter (fun k => !(fieldNames fs).contains k) hdd) ys hb, hk⟩)
  | .option t, ht, v, w, h, p, k, hm => by
    rw [Ty.Complains] at hm ⊢
    refine ⟨fun tg e => noEmpty_like h e (fun tg => hm.1 tg e) tg, ?_⟩
    exact Ty.complains_like t (by simpa [Ty.proper] using ht) v w h p k hm.2
  | .newtype _ t, ht, v, w, h, p, k, hm => by
    rw [Ty.Complains] at hm ⊢
    exact Ty.complains_like t (by simpa [Ty.proper] using ht) v w h p k hm
  | .seq t, ht, v, w, h, p, k, hm => by
    have ht : t.proper false = true := by simpa [Ty.proper] using ht
    rw [Ty.Complains, Kind.IsMismatch] at hm ⊢
    rcases hm with ⟨hn, hp, hk⟩ | ⟨tg, a, rfl, i, u, p', hi, hp, hu, hj⟩
    · exact .inl ⟨noArray_like h hn, hp, shown_like h ▸ hk⟩
    · obtain ⟨t', a', rfl, ha⟩ := like_array h
      obtain ⟨u', hu', hs⟩ := getElem_like ha.symm hi
      refine .inr ⟨t', a', rfl, i, u', p', hu', hp, Ty.complains_like t ht u u' hs.symm p' k hu, fun j hji x hx => ?_⟩
      obtain ⟨y, hy, hys⟩ := getElem_like ha hx
      exact means_ex_like t ht hys (hj j hji y hy)
  | .tuple ts, ht, v, w, h, p, k, hm => by
    rw [Ty.Complains] at hm ⊢
    rcases hm with ⟨hn, hp, hk⟩ | ⟨tg, a, rfl, hm⟩
    · exact .inl ⟨noArray_like h hn, hp, shown_like h ▸ hk⟩
    · obtain ⟨t', a', rfl, ha⟩ := like_array h
      exact .inr ⟨t', a', rfl, Ty.complains_like_each ts (by simpa [Ty.proper] using ht) _ _ a a' ha p k hm⟩
  | .tupleStruct _ ts, ht, v, w, h, p, k, hm => by
    rw [Ty.Complains] at hm ⊢
    rcases hm with ⟨hn, hp, hk⟩ | ⟨tg, a, rfl, hm⟩
    · exact .inl ⟨noArray_like h hn, hp, shown_like h ▸ hk⟩
    · obtain ⟨t', a', rfl, ha⟩ := like_array h
      exact .inr ⟨t', a', rfl, Ty.complains_like_each ts (by simpa [Ty.proper] using ht) _ _ a a' ha p k hm⟩
  | .map t, ht, v, w, h, p, k, hm => by
    have ht : t.proper false = true := by simpa [Ty.proper] using ht
    rw [Ty.Complains, Kind.IsMismatch] at hm ⊢
    rcases hm with ⟨hn, hp, hk⟩ | ⟨tg, d, rfl, i, key, u, p', hi, hp, hu, hj⟩
    · exact .inl ⟨noDict_like h hn, hp, shown_like h ▸ hk⟩
    · obtain ⟨t', d', rfl, hd⟩ := like_dict h
      obtain ⟨u', hu', hs⟩ := getEntry_like hd.symm hi
      refine .inr ⟨t', d', rfl, i, key, u', p', hu', hp, Ty.complains_like t ht u u' hs.symm p' k hu, ?_⟩
      rintro j hji ⟨ke, x⟩ hx
      obtain ⟨y, hy, hys⟩ := getEntry_like hd hx
      exact means_ex_like t ht hys (hj j hji _ hy)
  | .pairs t, ht, v, w, h, p, k, hm => by
    have ht : t.proper false = true := by simpa [Ty.proper] using ht
    rw [Ty.Complains, Kind.IsMismatch] at hm ⊢
    rcases hm with ⟨hn, hp, hk⟩ | ⟨tg, d, rfl, i, key, u, p', hi, hp, hu, hj⟩
    · exact .inl ⟨noDict_like h hn, hp, shown_like h ▸ hk⟩
    · obtain ⟨t', d', rfl, hd⟩ := like_dict h
      obtain ⟨u', hu', hs⟩ := getEntry_like hd.symm hi
      refine .inr ⟨t', d', rfl, i, key, u', p', hu', hp, Ty.complains_like t ht u u' hs.symm p' k hu, ?_⟩
      rintro j hji ⟨ke, x⟩ hx
      obtain ⟨y, hy, hys⟩ := getEntry_like hd hx
      exact means_ex_like t ht hys (hj j hji _ hy)
  | .keyed kt t, ht, v, w, h, p, k, hm => by
    have ht : t.proper false = true := by simpa [Ty.proper] using ht
    rw [Ty.Complains, Kind.IsMismatch] at hm ⊢
    rcases hm with ⟨hn, hp, hk⟩ | ⟨tg, d, rfl, i, s, u, hi, hu, hj⟩
    · exact .inl ⟨noDict_like h hn, hp, shown_like h ▸ hk⟩
    · obtain ⟨t', d', rfl, hd⟩ := like_dict h
      obtain ⟨u', hu', hs⟩ := getEntry_like hd.symm hi
      refine .inr ⟨t', d', rfl, i, s, u', hu', ?_, ?_⟩
      · rcases hu with hu | ⟨hx, p', hp, hu⟩
        · exact .inl hu
        · exact .inr ⟨hx, p', hp, Ty.complains_like t ht u u' hs.symm p' k hu⟩
      · rintro j hji ⟨ke, x⟩ hx
        obtain ⟨y, hy, hys⟩ := getEntry_like hd hx
        obtain ⟨h1, h2⟩ := hj j hji _ hy
        exact ⟨h1, means_ex_like t ht hys h2⟩
  | .struct n name deny fs, ht, v, w, h, p, k, hm => by
    have ht' : (magicNames.contains name = false) ∧ Ty.properFields false fs = true := by
      rw [Ty.proper] at ht
      simp only [Bool.false_and, Bool.or_false, Bool.and_eq_true, Bool.not_eq_true'] at ht
      exact ⟨ht.1.1, ht.2⟩
    have h1 : name ≠ Tagged.NAME := by rintro rfl; exact absurd ht'.1 (by decide)
    have h2 : name ≠ RelPath.NAME := by rintro rfl; exact absurd ht'.1 (by decide)
    rw [Ty.Complains, if_neg h1, if_neg h2] at hm ⊢
    rcases hm with ⟨hn, hn', hp, hk⟩ | ⟨tg, d, rfl, hd⟩ | ⟨tg, a, rfl, hm⟩
    · exact .inl ⟨noDict_like h hn, noArray_like h hn', hp, shown_like h ▸ hk⟩
    · obtain ⟨t', d', rfl, hdd⟩ := like_dict h
      exact .inr (.inl ⟨t', d', rfl, dictFault_like (fun key => Ty.complains_like_field fs ht'.2 key)
        (fun key => goodField_like fs ht'.2) hdd hd⟩)
    · obtain ⟨t', a', rfl, ha⟩ := like_array h
      exact .inr (.inr ⟨t', a', rfl, Ty.complains_like_elems fs ht'.2 _ _ a a' ha p k hm⟩)
  | .enum n vs, ht, v, w, h, p, k, hm => by
    have hs := shown_like h
    rw [Ty.Complains] at hm ⊢
    rcases hm with ⟨tg, s, rfl, hm⟩ | ⟨tg, m, i, rfl, hm⟩ | ⟨tg, rfl, hm⟩ | ⟨tg, key, u, r, rfl, hm⟩ | ⟨h1, h2, h3, hp, hk⟩
    · obtain ⟨t', rfl⟩ := like_string h
      exact .inl ⟨t', s, rfl, hm⟩
    · rw [hs] at hm
      obtain ⟨t', rfl⟩ := like_num h
      exact .inr (.inl ⟨t', m, i, rfl, hm⟩)
    · obtain ⟨t', d', rfl, hd⟩ := like_dict h
      cases d' with
      | nil => exact .inr (.inr (.inl ⟨t', rfl, hm⟩))
      | cons e r => exact nomatch hd
    · obtain ⟨t', d', rfl, hd⟩ := like_dict h
      cases d' with
      | nil => exact nomatch hd
      | cons e r' =>
        obtain ⟨key', u'⟩ := e
        simp only [Value.stripD, List.cons.injEq, Prod.mk.injEq] at hd
        obtain ⟨⟨rfl, hu⟩, _⟩ := hd
        refine .inr (.inr (.inr (.inl ⟨t', key, u', r', rfl, ?_⟩)))
        rcases hm with hm | ⟨p', hp, hm⟩
        · exact .inl hm
        · exact .inr ⟨p', hp, Ty.complains_like_variant vs (by simpa [Ty.proper] using ht) n key u u' hu p' k hm⟩
    · refine .inr (.inr (.inr (.inr ⟨noString_like h h1, noDict_like h h2, ?_, hp, hs ▸ hk⟩)))
      rintro tg m rfl
      obtain ⟨t', rfl⟩ := like_num h.symm
      exact h3 t' m rfl
  | .value, ht, _, _, _, _, _, _ => by simp [Ty.proper] at ht
  | .tag, _, v, w, h, p, k, hm => by
    rw [Ty.Complains, Kind.IsMismatch] at hm ⊢
    rw [← shown_like h]
    refine ⟨hm.1, hm.2.1, ?_⟩
    rintro tg m i rfl
    obtain ⟨t', rfl⟩ := like_num h.symm
    exact hm.2.2 t' m i rfl
  | .flag, _, v, w, h, p, k, hm => by
    rw [Ty.Complains, Kind.IsMismatch] at hm ⊢
    rw [← shown_like h, ← text_like h]
    refine ⟨hm.1, ?_⟩
    rcases hm.2 with hm | ⟨tg, m, i, rfl, hm⟩ | ⟨h1, h2, h3, hk⟩
    · exact .inl hm
    · obtain ⟨t', rfl⟩ := like_num h
      exact .inr (.inl ⟨t', m, i, rfl, hm⟩)
    · refine .inr (.inr ⟨noBool_like h h1, h2, ?_, hk⟩)
      rintro tg m i rfl
      obtain ⟨t', rfl⟩ := like_num h.symm
      exact h3 t' m i rfl
  | .parsed _ _ _, _, v, w, h, p, k, hm => by
    rw [Ty.Complains] at hm ⊢; rw [← shown_like h, ← text_like h]; exact hm
  | .via t _ _, ht, v, w, h, p, k, hm => by
    rw [Ty.proper, Bool.and_eq_true] at ht
    rw [Ty.Complains] at hm ⊢
    rcases hm with hm | ⟨hp, y, m, hy, hr⟩
    · exact .inl (Ty.complains_like t ht.2 v w h p k hm)
    · exact .inr ⟨hp, y, m, Ty.means_like t ht.2 v w h y hy, hr⟩
theorem Ty.complains_like_each : (ts : List Ty) → Ty.properEach false ts = true → ∀ (short : Str) (i : Nat)
    (a a' : List Value), a.map strip = a'.map strip → ∀ p k,
    Ty.ComplainsEach l file short i ts a p k → Ty.ComplainsEach l file' short i ts a' p k
  | [], _, _, _, _, _, _, _, _, hm => by rw [Ty.ComplainsEach] at hm; exact hm.elim
  | t :: ts, ht, short, i, [], a', ha, p, k, hm => by
    cases a' with
    | nil => exact hm
    | cons w r' => simp at ha
  | t :: ts, ht, short, i, v :: r, a', ha, p, k, hm => by
    rw [Ty.properEach, Bool.and_eq_true] at ht
    cases a' with
    | nil => simp at ha
    | cons w r' =>
      simp only [List.map_cons, List.cons.injEq] at ha
      rw [Ty.ComplainsEach] at hm ⊢
      rcases hm with ⟨p', hp, hm⟩ | ⟨hy, hm⟩
      · exact .inl ⟨p', hp, Ty.complains_like t ht.1 v w ha.1 p' k hm⟩
      · exact .inr ⟨means_ex_like t ht.1 ha.1 hy, Ty.complains_like_each ts ht.2 short (i + 1) r r' ha.2 p k hm⟩
theorem Ty.complains_like_elems : (fs : List (Str × Option Val × Ty)) → Ty.properFields false fs = true →
    ∀ (short : Str) (i : Nat) (a a' : List Value), a.map strip = a'.map strip → ∀ p k,
    Ty.ComplainsElems l file short i fs a p k → Ty.ComplainsElems l file' short i fs a' p k
  | [], _, _, _, _, _, _, _, _, hm => by rw [Ty.ComplainsElems] at hm; exact hm.elim
  | (_, _, t) :: fs, ht, short, i, [], a', ha, p, k, hm => by
    rw [Ty.properFields, Bool.and_eq_true] at ht
    cases a' with
    | nil =>
      rw [Ty.ComplainsElems] at hm ⊢
      rcases hm with hm | ⟨hd, hm⟩
      · exact .inl hm
      · exact .inr ⟨hd, Ty.complains_like_elems fs ht.2 short (i + 1) [] [] rfl p k hm⟩
    | cons w r' => simp at ha
  | (_, _, t) :: fs, ht, short, i, v :: r, a', ha, p, k, hm => by
    rw [Ty.properFields, Bool.and_eq_true] at ht
    cases a' with
    | nil => simp at ha
    | cons w r' =>
      simp only [List.map_cons, List.cons.injEq] at ha
      rw [Ty.ComplainsElems] at hm ⊢
      rcases hm with ⟨p', hp, hm⟩ | ⟨hy, hm⟩
      · exact .inl ⟨p', hp, Ty.complains_like t ht.1 v w ha.1 p' k hm⟩
      · exact .inr ⟨means_ex_like t ht.1 ha.1 hy, Ty.complains_like_elems fs ht.2 short (i + 1) r r' ha.2 p k hm⟩
theorem Ty.complains_like_field : (fs : List (Str × Option Val × Ty)) → Ty.properFields false fs = true →
    ∀ (name : Str) (v w : Value), v.strip = w.strip → ∀ p k,
    Ty.ComplainsField l file name fs v p k → Ty.ComplainsField l file' name fs w p k
  | [], _, _, _, _, _, _, _, hm => by rw [Ty.ComplainsField] at hm; exact hm.elim
  | (n, _, t) :: fs, ht, name, v, w, h, p, k, hm => by
    rw [Ty.properFields, Bool.and_eq_true] at ht
    rw [Ty.ComplainsField] at hm ⊢
    rcases hm with ⟨hn, hm⟩ | ⟨hn, hm⟩
    · exact .inl ⟨hn, Ty.complains_like t ht.1 v w h p k hm⟩
    · exact .inr ⟨hn, Ty.complains_like_field fs ht.2 name v w h p k hm⟩
theorem Ty.complains_like_variant : (vs : List (Str × VTy)) → Ty.properVariants false vs = true →
    ∀ (enum name : Str) (v w : Value), v.strip = w.strip → ∀ p k,
    Ty.ComplainsVariant l file enum name vs v p k → Ty.ComplainsVariant l file' enum name vs w p k
  | [], _, _, _, _, _, _, _, _, hm => by rw [Ty.ComplainsVariant] at hm; exact hm.elim
  | (n, t) :: vs, ht, enum, name, v, w, h, p, k, hm => by
    rw [Ty.properVariants, Bool.and_eq_true] at ht
    rw [Ty.ComplainsVariant] at hm ⊢
    rcases hm with ⟨hn, hm⟩ | ⟨hn, hm⟩
    · exact .inl ⟨hn, VTy.complains_like t ht.1 _ v w h p k hm⟩
    · exact .inr ⟨hn, Ty.complains_like_variant vs ht.2 enum name v w h p k hm⟩
theorem VTy.complains_like : (t : VTy) → t.proper false = true → ∀ (full : Str) (v w : Value), v.strip = w.strip →
    ∀ p k, t.Complains l file full v p k → t.Complains l file' full w p k
  | .unit, _, _, v, w, h, p, k, hm => by
    rw [VTy.Complains, Kind.IsMismatch] at hm ⊢
    rw [← shown_like h]
    exact ⟨hm.1, noEmpty_like h _ hm.2.1, hm.2.2⟩
  | .newtype t, ht, _, v, w, h, p, k, hm => by
    rw [VTy.Complains] at hm ⊢
    exact Ty.complains_like t (by simpa [VTy.proper] using ht) v w h p k hm
  | .tuple ts, ht, _, v, w, h, p, k, hm => by
    rw [VTy.Complains] at hm ⊢
    rcases hm with ⟨hn, hp, hk⟩ | ⟨tg, a, rfl, hm⟩
    · exact .inl ⟨noArray_like h hn, hp, shown_like h ▸ hk⟩
    · obtain ⟨t', a', rfl, ha⟩ := like_array h
      exact .inr ⟨t', a', rfl, Ty.complains_like_each ts (by simpa [VTy.proper] using ht) _ _ a a' ha p k hm⟩
  | .struct deny fs, ht, _, v, w, h, p, k, hm => by
    rw [VTy.proper, Bool.and_eq_true] at ht
    rw [VTy.Complains] at hm ⊢
    rcases hm with ⟨hn, hn', hp, hk⟩ | ⟨tg, d, rfl, hd⟩ | ⟨tg, a, rfl, hm⟩
    · exact .inl ⟨noDict_like h hn, noArray_like h hn', hp, shown_like h ▸ hk⟩
    · obtain ⟨t', d', rfl, hdd⟩ := like_dict h
      exact .inr (.inl ⟨t', d', rfl, dictFault_like (fun key => Ty.complains_like_field fs ht.2 key)
        (fun key => goodField_like fs ht.2) hdd hd⟩)
    · obtain ⟨t', a', rfl, ha⟩ := like_array h
      exact .inr (.inr ⟨t', a', rfl, Ty.complains_like_elems fs ht.2 _ _ a a' ha p k hm⟩)
end
end

/-- What is wrong with a value, read as a type without the crate's own in it, depends neither on tags nor on files. -/
theorem Ty.complains_strip {l : Bool} {file file' : Tag → Option Str} (t : Ty) (ht : t.proper false = true) {v w : Value}
    (h : v.strip = w.strip) (p : List Str) (k : Kind) : t.Complains l file v p k ↔ t.Complains l file' w p k :=
  ⟨Ty.complains_like t ht v w h p k, Ty.complains_like t ht w v h.symm p k⟩

end Figment
