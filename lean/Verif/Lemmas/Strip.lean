import Verif.Lemmas.Means
import Verif.Lemmas.RoundTrip
/-!
# Lemmas: what a value means, read as a type, does not depend on tags
-/
namespace Figment

namespace Value

theorem like_string {w : Value} {t : Tag} {s : Str} (h : (Value.string t s).strip = w.strip) : ∃ t', w = .string t' s :=
  strip_eq_string h.symm
theorem like_char {w : Value} {t : Tag} {s : Char} (h : (Value.char t s).strip = w.strip) : ∃ t', w = .char t' s :=
  strip_eq_char h.symm
theorem like_bool {w : Value} {t : Tag} {s : Bool} (h : (Value.bool t s).strip = w.strip) : ∃ t', w = .bool t' s :=
  strip_eq_bool h.symm
theorem like_num {w : Value} {t : Tag} {s : Num} (h : (Value.num t s).strip = w.strip) : ∃ t', w = .num t' s :=
  strip_eq_num h.symm
theorem like_empty {w : Value} {t : Tag} {s : Empty} (h : (Value.empty t s).strip = w.strip) : ∃ t', w = .empty t' s :=
  strip_eq_empty h.symm
theorem like_array {w : Value} {t : Tag} {a : List Value} (h : (Value.array t a).strip = w.strip) :
    ∃ t' a', w = .array t' a' ∧ a.map strip = a'.map strip := by
  obtain ⟨t', a', rfl, ha⟩ := strip_eq_array h.symm
  exact ⟨t', a', rfl, by rw [← stripA_eq, ← stripA_eq, ha]⟩
theorem like_dict {w : Value} {t : Tag} {a : Dict} (h : (Value.dict t a).strip = w.strip) :
    ∃ t' a', w = .dict t' a' ∧ stripD a = stripD a' := by
  obtain ⟨t', a', rfl, ha⟩ := strip_eq_dict h.symm
  exact ⟨t', a', rfl, ha.symm⟩

theorem text_like {v w : Value} (h : v.strip = w.strip) : v.text? = w.text? := by
  cases v with
  | string t s => obtain ⟨t', rfl⟩ := like_string h; rfl
  | char t s => obtain ⟨t', rfl⟩ := like_char h; rfl
  | bool t s => obtain ⟨t', rfl⟩ := like_bool h; rfl
  | num t s => obtain ⟨t', rfl⟩ := like_num h; rfl
  | empty t s => obtain ⟨t', rfl⟩ := like_empty h; rfl
  | array t s => obtain ⟨t', a', rfl, _⟩ := like_array h; rfl
  | dict t s => obtain ⟨t', a', rfl, _⟩ := like_dict h; rfl

theorem isBool_like {l : Bool} {v w : Value} {b : Bool} (h : v.strip = w.strip) (hb : v.IsBool l b) : w.IsBool l b := by
  rcases hb with ⟨t, rfl⟩ | ⟨hl, ⟨t, n, rfl, hn⟩ | ⟨t, s, rfl, hs⟩⟩
  · exact .inl (like_bool h)
  · obtain ⟨t', rfl⟩ := like_num h
    exact .inr ⟨hl, .inl ⟨t', n, rfl, hn⟩⟩
  · obtain ⟨t', rfl⟩ := like_string h
    exact .inr ⟨hl, .inr ⟨t', s, rfl, hs⟩⟩

theorem isNum_like [FloatOps] {l : Bool} {v w : Value} {n : Num} (h : v.strip = w.strip) (hb : v.IsNum l n) :
    w.IsNum l n := by
  rcases hb with ⟨t, rfl⟩ | ⟨hl, t, s, rfl, hs⟩
  · exact .inl (like_num h)
  · obtain ⟨t', rfl⟩ := like_string h
    exact .inr ⟨hl, t', s, rfl, hs⟩

theorem getElem_like {a a' : List Value} (h : a.map strip = a'.map strip) {i : Nat} {w : Value} (hw : a'[i]? = some w) :
    ∃ v, a[i]? = some v ∧ v.strip = w.strip := by
  have h1 : (a.map strip)[i]? = (a'.map strip)[i]? := by rw [h]
  rw [List.getElem?_map, List.getElem?_map, hw] at h1
  cases hv : a[i]? with
  | none => rw [hv] at h1; cases h1
  | some v => rw [hv] at h1; exact ⟨v, rfl, Option.some.inj h1⟩

theorem getEntry_like {d d' : Dict} (h : stripD d = stripD d') {i : Nat} {k : Str} {w : Value}
    (hw : d'[i]? = some (k, w)) : ∃ v, d[i]? = some (k, v) ∧ v.strip = w.strip := by
  rw [stripD_eq, stripD_eq] at h
  have h1 : (d.map fun e => (e.1, e.2.strip))[i]? = (d'.map fun e => (e.1, e.2.strip))[i]? := by rw [h]
  rw [List.getElem?_map, List.getElem?_map, hw] at h1
  cases hv : d[i]? with
  | none => rw [hv] at h1; cases h1
  | some v =>
    rw [hv] at h1
    obtain ⟨k', v⟩ := v
    have h2 := Option.some.inj h1
    simp only [Prod.mk.injEq] at h2
    obtain ⟨rfl, h2⟩ := h2
    exact ⟨v, rfl, h2⟩

theorem keys_like {d d' : Dict} (h : stripD d = stripD d') : d.map (·.1) = d'.map (·.1) := by
  rw [stripD_eq, stripD_eq] at h
  have := congrArg (List.map (·.1)) h
  simpa [List.map_map, Function.comp_def] using this

theorem get_like {d d' : Dict} (h : stripD d = stripD d') {k : Str} {v : Value} (hv : Map.get k d = some v) :
    ∃ w, Map.get k d' = some w ∧ v.strip = w.strip := by
  have h1 : (Map.get k d).map strip = (Map.get k d').map strip := by rw [← get_stripD, ← get_stripD, h]
  rw [hv] at h1
  cases hw : Map.get k d' with
  | none => rw [hw] at h1; cases h1
  | some w => rw [hw] at h1; exact ⟨w, rfl, Option.some.inj h1⟩

theorem get_like_none {d d' : Dict} (h : stripD d = stripD d') {k : Str} (hv : Map.get k d = none) :
    Map.get k d' = none := by
  have h1 : (Map.get k d).map strip = (Map.get k d').map strip := by rw [← get_stripD, ← get_stripD, h]
  rw [hv] at h1
  cases hw : Map.get k d' with
  | none => rfl
  | some w => rw [hw] at h1; cases h1

theorem stripD_filter (f : Str → Bool) {d d' : Dict} (h : stripD d = stripD d') :
    stripD (d.filter fun e => f e.1) = stripD (d'.filter fun e => f e.1) := by
  have key : ∀ d : Dict, stripD (d.filter fun e => f e.1) = (stripD d).filter fun e => f e.1 := by
    intro d
    rw [stripD_eq, stripD_eq, List.filter_map]
    rfl
  rw [key, key, h]

theorem known_like {d d' : Dict} (h : stripD d = stripD d') {l : List Str} (hk : ∀ e ∈ d, e.1 ∈ l) :
    ∀ e ∈ d', e.1 ∈ l := by
  intro e he
  have : e.1 ∈ d'.map (·.1) := List.mem_map.2 ⟨e, he, rfl⟩
  rw [← keys_like h] at this
  obtain ⟨e', he', hee⟩ := List.mem_map.1 this
  exact hee ▸ hk e' he'

theorem isFlag_like {v w : Value} {b : Bool} (h : v.strip = w.strip) (hb : v.IsFlag b ∧ v.is128 = false) :
    w.IsFlag b ∧ w.is128 = false := by
  obtain ⟨hf, h128⟩ := hb
  refine ⟨?_, ?_⟩
  · cases hf with
    | bool t b => obtain ⟨t', rfl⟩ := like_bool h; exact .bool t' b
    | yes _ s h1 h2 => exact .yes _ s (text_like h ▸ h1) h2
    | no _ s h1 h2 => exact .no _ s (text_like h ▸ h1) h2
    | one t n hn => obtain ⟨t', rfl⟩ := like_num h; exact .one t' n hn
    | zero t n hn => obtain ⟨t', rfl⟩ := like_num h; exact .zero t' n hn
  · cases w with
    | num t n => obtain ⟨t', rfl⟩ := like_num h.symm; cases n <;> first | rfl | exact h128
    | _ => rfl

end Value

open Value in
mutual
/-- What data is taken as does not depend on tags. -/
theorem Value.buffers_like : ∀ v w : Value, v.strip = w.strip → ∀ x, v.Buffers x → w.Buffers x
  | .string t s, w, h, x, hm => by obtain ⟨t', rfl⟩ := like_string h; exact hm
  | .char t s, w, h, x, hm => by obtain ⟨t', rfl⟩ := like_char h; exact hm
  | .bool t s, w, h, x, hm => by obtain ⟨t', rfl⟩ := like_bool h; exact hm
  | .num t s, w, h, x, hm => by obtain ⟨t', rfl⟩ := like_num h; exact hm
  | .empty t .unit, w, h, x, hm => by obtain ⟨t', rfl⟩ := like_empty h; exact hm
  | .empty t .none, w, h, x, hm => by obtain ⟨t', rfl⟩ := like_empty h; exact hm
  | .array t a, w, h, x, hm => by
    obtain ⟨t', a', rfl, ha⟩ := like_array h
    obtain ⟨l, hx, hl⟩ := hm
    exact ⟨l, hx, buffersA_like a a' ha l hl⟩
  | .dict t d, w, h, x, hm => by
    obtain ⟨t', d', rfl, hd⟩ := like_dict h
    obtain ⟨l, hx, hl⟩ := hm
    exact ⟨l, hx, buffersD_like d d' hd l hl⟩
theorem Value.buffersA_like : ∀ a a' : List Value, a.map strip = a'.map strip → ∀ l, BuffersA a l → BuffersA a' l
  | [], a', h, l, hm => by
    cases a' with
    | nil => exact hm
    | cons v a => cases h
  | v :: a, a', h, l, hm => by
    cases a' with
    | nil => cases h
    | cons v' a' =>
      rw [List.map_cons, List.map_cons, List.cons.injEq] at h
      obtain ⟨y, l', hx, hy, hl⟩ := hm
      exact ⟨y, l', hx, Value.buffers_like v v' h.1 y hy, buffersA_like a a' h.2 l' hl⟩
theorem Value.buffersD_like : ∀ d d' : List (Str × Value), stripD d = stripD d' → ∀ l, BuffersD d l → BuffersD d' l
  | [], d', h, l, hm => by
    cases d' with
    | nil => exact hm
    | cons e d => obtain ⟨k, v⟩ := e; rw [stripD, stripD] at h; cases h
  | (k, v) :: d, d', h, l, hm => by
    cases d' with
    | nil => rw [stripD, stripD] at h; cases h
    | cons e d' =>
      obtain ⟨k', v'⟩ := e
      rw [stripD, stripD, List.cons.injEq, Prod.mk.injEq] at h
      obtain ⟨⟨rfl, hv⟩, hd⟩ := h
      obtain ⟨y, l', hx, hy, hl⟩ := hm
      exact ⟨y, l', hx, Value.buffers_like v v' hv y hy, buffersD_like d d' hd l' hl⟩
end

variable [FloatOps]
open Value

section
variable {l : Bool} {file file' : Tag → Option Str}

mutual
theorem Ty.means_like : (t : Ty) → t.proper false = true → ∀ v w : Value, v.strip = w.strip → ∀ x,
    t.Means l file v x → t.Means l file' w x
  | .bool, _, v, w, h, x, hm => by
    obtain ⟨b, rfl, hb⟩ := hm
    exact ⟨b, rfl, isBool_like h hb⟩
  | .int t, _, v, w, h, x, hm => by
    rw [Ty.Means] at hm ⊢
    obtain ⟨h1, h2, n, i, hn, hr⟩ := hm
    exact ⟨h1, h2, n, i, isNum_like h hn, hr⟩
  | .f32, _, v, w, h, x, hm => by
    rw [Ty.Means] at hm ⊢
    obtain ⟨n, y, hn, hr⟩ := hm
    exact ⟨n, y, isNum_like h hn, hr⟩
  | .f64, _, v, w, h, x, hm => by
    rw [Ty.Means] at hm ⊢
    obtain ⟨n, y, hn, hr⟩ := hm
    exact ⟨n, y, isNum_like h hn, hr⟩
  | .char, _, v, w, h, x, hm => by rw [Ty.Means] at hm ⊢; rw [← text_like h]; exact hm
  | .string, _, v, w, h, x, hm => by rw [Ty.Means] at hm ⊢; rw [← text_like h]; exact hm
  | .pathBuf, _, v, w, h, x, hm => by rw [Ty.Means] at hm ⊢; rw [← text_like h]; exact hm
  | .unit, _, v, w, h, x, hm => by
    rw [Ty.Means] at hm ⊢
    obtain ⟨hx, t, rfl⟩ := hm
    exact ⟨hx, like_empty h⟩
  | .any _, _, v, w, h, x, hm => by rw [Ty.Means] at hm ⊢; exact buffers_like v w h x hm
  | .flat _ fs _ _, ht, v, w, h, x, hm => by
    rw [Ty.proper, Bool.and_eq_true] at ht
    rw [Ty.Means] at hm ⊢
    obtain ⟨tg, d, xs, l', rfl, hf, hb, hx⟩ := hm
    obtain ⟨t', d', rfl, hd⟩ := like_dict h
    exact ⟨t', d', xs, l', rfl, Ty.means_like_fields fs ht.2 d d' hd xs hf,
      buffersD_like _ _ (stripD_filter (fun k => !(fs.map (·.1)).contains k) hd) l' hb, hx⟩
  | .unitStruct _, _, v, w, h, x, hm => by
    rw [Ty.Means] at hm ⊢
    obtain ⟨hx, t, rfl⟩ := hm
    exact ⟨hx, like_empty h⟩
  | .option t, ht, v, w, h, x, hm => by
    rw [Ty.Means] at hm ⊢
    rcases hm with ⟨hx, t, e, rfl⟩ | ⟨hne, y, hx, hy⟩
    · obtain ⟨t', rfl⟩ := like_empty h
      exact .inl ⟨hx, _, _, rfl⟩
    · refine .inr ⟨?_, y, hx, Ty.means_like t (by simpa [Ty.proper] using ht) v w h y hy⟩
      rintro tg e rfl
      obtain ⟨t', h'⟩ := like_empty h.symm
      exact hne _ _ h'
  | .newtype _ t, ht, v, w, h, x, hm => by
    rw [Ty.Means] at hm ⊢
    obtain ⟨y, hx, hy⟩ := hm
    exact ⟨y, hx, Ty.means_like t (by simpa [Ty.proper] using ht) v w h y hy⟩
  | .seq t, ht, v, w, h, x, hm => by
    rw [Ty.Means] at hm ⊢
    obtain ⟨tg, a, xs, rfl, hx, hl, hi⟩ := hm
    obtain ⟨t', a', rfl, ha⟩ := like_array h
    refine ⟨t', a', xs, rfl, hx, ?_, ?_⟩
    · rw [← hl]
      have := congrArg List.length ha
      simpa using this.symm
    · intro i w y hw hy
      obtain ⟨v, hv, hs⟩ := getElem_like ha hw
      exact Ty.means_like t (by simpa [Ty.proper] using ht) v w hs y (hi i v y hv hy)
  | .tuple ts, ht, v, w, h, x, hm => by
    rw [Ty.Means] at hm ⊢
    obtain ⟨tg, a, xs, rfl, hx, hl⟩ := hm
    obtain ⟨t', a', rfl, ha⟩ := like_array h
    exact ⟨t', a', xs, rfl, hx, Ty.means_like_each ts (by simpa [Ty.proper] using ht) a a' ha xs hl⟩
  | .tupleStruct _ ts, ht, v, w, h, x, hm => by
    rw [Ty.Means] at hm ⊢
    obtain ⟨tg, a, xs, rfl, hx, hl⟩ := hm
    obtain ⟨t', a', rfl, ha⟩ := like_array h
    exact ⟨t', a', xs, rfl, hx, Ty.means_like_each ts (by simpa [Ty.proper] using ht) a a' ha xs hl⟩
  | .map t, ht, v, w, h, x, hm => by
    rw [Ty.Means] at hm ⊢
    obtain ⟨tg, d, xs, rfl, hx, hl, hi⟩ := hm
    obtain ⟨t', d', rfl, hd⟩ := like_dict h
    refine ⟨t', d', xs, rfl, hx, (keys_like hd).symm.trans hl, ?_⟩
    intro i k w y hw hy
    obtain ⟨v, hv, hs⟩ := getEntry_like hd hw
    exact Ty.means_like t (by simpa [Ty.proper] using ht) v w hs y (hi i k v y hv hy)
  | .pairs t, ht, v, w, h, x, hm => by
    rw [Ty.Means] at hm ⊢
    obtain ⟨tg, d, xs, rfl, hx, hl, hi⟩ := hm
    obtain ⟨t', d', rfl, hd⟩ := like_dict h
    refine ⟨t', d', xs, rfl, hx, (keys_like hd).symm.trans hl, ?_⟩
    intro i k w y hw hy
    obtain ⟨v, hv, hs⟩ := getEntry_like hd hw
    exact Ty.means_like t (by simpa [Ty.proper] using ht) v w hs y (hi i k v y hv hy)
  | .keyed kt t, ht, v, w, h, x, hm => by
    rw [Ty.Means] at hm ⊢
    obtain ⟨tg, d, xs, rfl, hx, hl, hi⟩ := hm
    obtain ⟨t', d', rfl, hd⟩ := like_dict h
    refine ⟨t', d', xs, rfl, hx, ?_, ?_⟩
    · rw [← hl]
      have := congrArg List.length (keys_like hd)
      simpa using this.symm
    intro i k w a y hw hy
    obtain ⟨v, hv, hs⟩ := getEntry_like hd hw
    obtain ⟨h1, h2⟩ := hi i k v a y hv hy
    exact ⟨h1, Ty.means_like t (by simpa [Ty.proper] using ht) v w hs y h2⟩
  | .struct n name deny fs, ht, v, w, h, x, hm => by
    have ht' : (magicNames.contains name = false) ∧ Ty.properFields false fs = true := by
      rw [Ty.proper] at ht
      simp only [Bool.false_and, Bool.or_false, Bool.and_eq_true, Bool.not_eq_true'] at ht
      exact ⟨ht.1.1, ht.2⟩
    have h1 : name ≠ Tagged.NAME := by rintro rfl; exact absurd ht'.1 (by decide)
    have h2 : name ≠ RelPath.NAME := by rintro rfl; exact absurd ht'.1 (by decide)
    rw [Ty.Means, if_neg h1, if_neg h2] at hm ⊢
    obtain ⟨xs, hx, ⟨tg, d, rfl, hf, hdeny⟩ | ⟨tg, a, rfl, hf⟩⟩ := hm
    · obtain ⟨t', d', rfl, hd⟩ := like_dict h
      exact ⟨xs, hx, .inl ⟨t', d', rfl, Ty.means_like_fields fs ht'.2 d d' hd xs hf,
        fun hy => known_like hd (hdeny hy)⟩⟩
    · obtain ⟨t', a', rfl, ha⟩ := like_array h
      exact ⟨xs, hx, .inr ⟨t', a', rfl, Ty.means_like_elems fs ht'.2 a a' ha xs hf⟩⟩
  | .enum _ vs, ht, v, w, h, x, hm => by
    rw [Ty.Means] at hm ⊢
    rcases hm with ⟨tg, s, rfl, hr⟩ | ⟨tg, n, i, s, rfl, hr⟩ | ⟨tg, k, u, r, y, rfl, hx, hr⟩
    · obtain ⟨t', rfl⟩ := like_string h
      exact .inl ⟨t', s, rfl, hr⟩
    · obtain ⟨t', rfl⟩ := like_num h
      exact .inr (.inl ⟨t', n, i, s, rfl, hr⟩)
    · obtain ⟨t', d', rfl, hd⟩ := like_dict h
      cases d' with
      | nil => exact nomatch hd
      | cons e r' =>
        obtain ⟨k', u'⟩ := e
        simp only [Value.stripD, List.cons.injEq, Prod.mk.injEq] at hd
        obtain ⟨⟨rfl, hu⟩, _⟩ := hd
        exact .inr (.inr ⟨t', k, u', r', y, rfl, hx,
          Ty.means_like_variant vs (by simpa [Ty.proper] using ht) k u u' hu y hr⟩)
  | .value, ht, _, _, _, _, _ => by simp [Ty.proper] at ht
  | .tag, _, v, w, h, x, hm => by
    rw [Ty.Means] at hm ⊢
    obtain ⟨t, tg, n, hx, rfl, hr⟩ := hm
    obtain ⟨t', rfl⟩ := like_num h
    exact ⟨t, t', n, hx, rfl, hr⟩
  | .flag, _, v, w, h, x, hm => by
    rw [Ty.Means] at hm ⊢
    obtain ⟨b, hx, hb⟩ := hm
    exact ⟨b, hx, isFlag_like h hb⟩
  | .parsed _ _ _, _, v, w, h, x, hm => by rw [Ty.Means] at hm ⊢; rw [← text_like h]; exact hm
  | .via t _ _, ht, v, w, h, x, hm => by
    rw [Ty.proper, Bool.and_eq_true] at ht
    rw [Ty.Means] at hm ⊢
    obtain ⟨y, hy, hx⟩ := hm
    exact ⟨y, Ty.means_like t ht.2 v w h y hy, hx⟩
theorem Ty.means_like_each : (ts : List Ty) → Ty.properEach false ts = true → ∀ a a' : List Value,
    a.map strip = a'.map strip → ∀ xs, Ty.MeansEach l file ts a xs → Ty.MeansEach l file' ts a' xs
  | [], _, _, _, _, xs, hm => hm
  | t :: ts, ht, a, a', ha, xs, hm => by
    rw [Ty.properEach, Bool.and_eq_true] at ht
    rw [Ty.MeansEach] at hm ⊢
    obtain ⟨v, r, y, ys, rfl, rfl, hy, hys⟩ := hm
    cases a' with
    | nil => simp at ha
    | cons w r' =>
      simp only [List.map_cons, List.cons.injEq] at ha
      exact ⟨w, r', y, ys, rfl, rfl, Ty.means_like t ht.1 v w ha.1 y hy, Ty.means_like_each ts ht.2 r r' ha.2 ys hys⟩
theorem Ty.means_like_fields : (fs : List (Str × Option Val × Ty)) → Ty.properFields false fs = true → ∀ d d' : Dict,
    stripD d = stripD d' → ∀ xs, Ty.MeansFields l file fs d xs → Ty.MeansFields l file' fs d' xs
  | [], _, _, _, _, xs, hm => hm
  | (name, dflt, t) :: fs, ht, d, d', hd, xs, hm => by
    rw [Ty.properFields, Bool.and_eq_true] at ht
    rw [Ty.MeansFields] at hm ⊢
    obtain ⟨y, ys, rfl, hys, hy⟩ := hm
    refine ⟨y, ys, rfl, Ty.means_like_fields fs ht.2 d d' hd ys hys, ?_⟩
    rcases hy with ⟨v, hv, hy⟩ | ⟨hv, hy⟩
    · obtain ⟨w, hw, hs⟩ := get_like hd hv
      exact .inl ⟨w, hw, Ty.means_like t ht.1 v w hs y hy⟩
    · exact .inr ⟨get_like_none hd hv, hy⟩
theorem Ty.means_like_elems : (fs : List (Str × Option Val × Ty)) → Ty.properFields false fs = true →
    ∀ a a' : List Value, a.map strip = a'.map strip → ∀ xs, Ty.MeansElems l file fs a xs → Ty.MeansElems l file' fs a' xs
  | [], _, _, _, _, xs, hm => hm
  | (name, dflt, t) :: fs, ht, a, a', ha, xs, hm => by
    rw [Ty.properFields, Bool.and_eq_true] at ht
    rw [Ty.MeansElems] at hm ⊢
    obtain ⟨y, ys, rfl, ⟨v, r, rfl, hy, hys⟩ | ⟨rfl, hy, hys⟩⟩ := hm
    · cases a' with
      | nil => simp at ha
      | cons w r' =>
        simp only [List.map_cons, List.cons.injEq] at ha
        exact ⟨y, ys, rfl, .inl ⟨w, r', rfl, Ty.means_like t ht.1 v w ha.1 y hy,
          Ty.means_like_elems fs ht.2 r r' ha.2 ys hys⟩⟩
    · cases a' with
      | nil => exact ⟨y, ys, rfl, .inr ⟨rfl, hy, Ty.means_like_elems fs ht.2 [] [] rfl ys hys⟩⟩
      | cons w r' => simp at ha
theorem Ty.means_like_variant : (vs : List (Str × VTy)) → Ty.properVariants false vs = true → ∀ k, ∀ v w : Value,
    v.strip = w.strip → ∀ x, Ty.MeansVariant l file k vs v x → Ty.MeansVariant l file' k vs w x
  | [], _, _, _, _, _, _, hm => hm
  | (n, t) :: vs, ht, k, v, w, h, x, hm => by
    rw [Ty.properVariants, Bool.and_eq_true] at ht
    rw [Ty.MeansVariant] at hm ⊢
    rcases hm with ⟨hn, hm⟩ | ⟨hn, hm⟩
    · exact .inl ⟨hn, VTy.means_like t ht.1 v w h x hm⟩
    · exact .inr ⟨hn, Ty.means_like_variant vs ht.2 k v w h x hm⟩
theorem VTy.means_like : (t : VTy) → t.proper false = true → ∀ v w : Value, v.strip = w.strip → ∀ x,
    t.Means l file v x → t.Means l file' w x
  | .unit, _, v, w, h, x, hm => by
    rw [VTy.Means] at hm ⊢
    obtain ⟨hx, t, rfl⟩ := hm
    exact ⟨hx, like_empty h⟩
  | .newtype t, ht, v, w, h, x, hm => by
    rw [VTy.Means] at hm ⊢
    exact Ty.means_like t (by simpa [VTy.proper] using ht) v w h x hm
  | .tuple ts, ht, v, w, h, x, hm => by
    rw [VTy.Means] at hm ⊢
    obtain ⟨tg, a, xs, rfl, hx, hl⟩ := hm
    obtain ⟨t', a', rfl, ha⟩ := like_array h
    exact ⟨t', a', xs, rfl, hx, Ty.means_like_each ts (by simpa [VTy.proper] using ht) a a' ha xs hl⟩
  | .struct deny fs, ht, v, w, h, x, hm => by
    rw [VTy.proper, Bool.and_eq_true] at ht
    rw [VTy.Means] at hm ⊢
    obtain ⟨xs, hx, ⟨tg, d, rfl, hf, hdeny⟩ | ⟨tg, a, rfl, hf⟩⟩ := hm
    · obtain ⟨t', d', rfl, hd⟩ := like_dict h
      exact ⟨xs, hx, .inl ⟨t', d', rfl, Ty.means_like_fields fs ht.2 d d' hd xs hf,
        fun hy => known_like hd (hdeny hy)⟩⟩
    · obtain ⟨t', a', rfl, ha⟩ := like_array h
      exact ⟨xs, hx, .inr ⟨t', a', rfl, Ty.means_like_elems fs ht.2 a a' ha xs hf⟩⟩
end
end

/-- What a value is, read as a type without the crate's own in it, depends neither on tags nor on files. -/
theorem Ty.means_strip {l : Bool} {file file' : Tag → Option Str} (t : Ty) (ht : t.proper false = true) {v w : Value}
    (h : v.strip = w.strip) (x : Val) : t.Means l file v x ↔ t.Means l file' w x :=
  ⟨Ty.means_like t ht v w h x, Ty.means_like t ht w v h.symm x⟩

end Figment
