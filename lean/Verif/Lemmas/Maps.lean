import Verif.Spec.Maps
import Verif.Lemmas.ComplainsTy
import Verif.Lemmas.Kept
/-!
# Lemmas: maps with keys of any type
-/
namespace Figment
variable [FloatOps]

theorem Ty.means_keyed {lossy : Bool} {file : Tag → Option Str} {kt t : Ty} {v : Value} {y : Val} :
    (Ty.keyed kt t).Means lossy file v y ↔ ∃ es, y = .entries es ∧ kt.MapMeans lossy file t v es := by
  rw [Ty.Means]
  constructor
  · rintro ⟨tag, d, l, h1, h2, h3⟩
    exact ⟨l, h2, tag, d, h1, h3⟩
  · rintro ⟨l, h2, tag, d, h1, h3⟩
    exact ⟨tag, d, l, h1, h2, h3⟩

theorem Ty.complains_keyed {lossy : Bool} {file : Tag → Option Str} {kt t : Ty} {v : Value} {p : List Str} {k : Kind} :
    (Ty.keyed kt t).Complains lossy file v p k ↔ kt.MapComplains lossy file t v p k := by
  rw [Ty.Complains, Ty.MapComplains]

theorem serMap_back {kt t : Ty} (ht : t.sound = true) (l : List (Val × Val)) (hl : ∀ e ∈ l, kt.Has e.1 ∧ t.Has e.2)
    (hk : ∀ e ∈ l, ∃ s, kt.KeyText e.1 = some s ∧ kt.KeyIs s e.1) (hv : ∀ e ∈ l, t.Kept e.2)
    (hn : (l.map fun e => kt.KeyText e.1).Nodup) :
    ∃ w l', ((Ty.keyed kt t).ser (.entries l)).serialize = .ok w ∧ l'.Perm l ∧ KeySorted kt l' ∧ ∀ w' : Value, w'.strip = w.strip →
      w'.deserialize (.keyed kt t) = .ok (.entries l') ∧ ∀ f, (Ty.keyed kt t).de (De.strict f) w' = .ok (.entries l') ∧
        (Ty.keyed kt t).de (De.lossyOf f) w' = .ok (.entries l') := by
  obtain ⟨es, h1, h2, h3⟩ := serMap_ok (fun y hy => (Ty.kept_back t ht y hy).imp fun w h => h.1) l hl
    fun e he => by obtain ⟨s, hs, _⟩ := hk e he; rw [hs]; rfl
  -- what each entry of the dictionary comes from
  have hd : ∀ e ∈ Map.ofList es, ∃ x y, (x, y) ∈ l ∧ kt.KeyText x = some e.1 ∧ (t.ser y).serialize = .ok e.2 := by
    intro e he
    obtain ⟨i, hi⟩ := List.getElem?_of_mem (Map.mem_ofList he)
    have hlt : i < l.length := by
      rw [← h2]; exact (List.getElem?_eq_some_iff.1 hi).1
    have hli := List.getElem?_eq_getElem hlt
    obtain ⟨ht1, ht2⟩ := h3 i _ e.1 e.2 hli hi
    exact ⟨_, _, List.getElem_mem hlt, ht1, ht2⟩
  obtain ⟨l', hlen, hl'⟩ := choose_each (Map.ofList es) hd
  have hsorted : Map.Sorted (Map.ofList es) := Map.Sorted.ofList es
  have hget : ∀ (i : Nat) x y, l'[i]? = some (x, y) → ∃ s w, (Map.ofList es)[i]? = some (s, w) ∧ (x, y) ∈ l ∧
      kt.KeyText x = some s ∧ (t.ser y).serialize = .ok w := by
    intro i x y h
    have hlt : i < (Map.ofList es).length := by
      rw [hlen]; exact (List.getElem?_eq_some_iff.1 h).1
    have hi := List.getElem?_eq_getElem hlt
    exact ⟨_, _, hi, hl' i _ _ x y hi h⟩
  have hks : KeySorted kt l' := by
    rw [KeySorted, List.pairwise_iff_getElem]
    intro i j hi hj hij
    obtain ⟨s, w, h4, _, h5, _⟩ := hget i _ _ (List.getElem?_eq_getElem hi)
    obtain ⟨s', w', h6, _, h7, _⟩ := hget j _ _ (List.getElem?_eq_getElem hj)
    rw [show kt.KeyText l'[i].1 = some s from h5, show kt.KeyText l'[j].1 = some s' from h7]
    obtain ⟨hi', h4⟩ := List.getElem?_eq_some_iff.1 h4
    obtain ⟨hj', h6⟩ := List.getElem?_eq_some_iff.1 h6
    have := List.pairwise_iff_getElem.1 hsorted i j hi' hj' hij
    rw [h4, h6] at this
    exact this
  have hirr : ∀ s : Str, compare s s ≠ .lt := fun s h => by
    rw [Std.ReflCmp.compare_self (cmp := compare) (a := s)] at h; cases h
  have hperm : l'.Perm l := by
    refine (List.perm_ext_iff_of_nodup ?_ ?_).2 fun e => ⟨fun he => ?_, fun he => ?_⟩
    · refine hks.imp fun h e => ?_
      subst e
      exact hirr _ h
    · exact (List.pairwise_map.1 hn).imp fun h e => h (by rw [e])
    · obtain ⟨i, hi⟩ := List.getElem?_of_mem he
      obtain ⟨_, _, _, h, _⟩ := hget i e.1 e.2 hi
      exact h
    · obtain ⟨i, hi⟩ := List.getElem?_of_mem he
      have hlt : i < es.length := by
        rw [h2]; exact (List.getElem?_eq_some_iff.1 hi).1
      have hes := List.getElem?_eq_getElem hlt
      obtain ⟨h4, _⟩ := h3 i e _ _ hi hes
      obtain ⟨v, hv⟩ := Map.mem_keys_ofList (k := es[i].1) (List.mem_map.2 ⟨_, List.getElem_mem hlt, rfl⟩)
      obtain ⟨j, hj⟩ := List.getElem?_of_mem hv
      have hjl : j < l'.length := by rw [← hlen]; exact (List.getElem?_eq_some_iff.1 hj).1
      have hj' := List.getElem?_eq_getElem hjl
      obtain ⟨h5, h6, _⟩ := hl' j _ _ _ _ hj hj'
      have : l'[j] = e := by
        obtain ⟨i', hi'⟩ := List.getElem?_of_mem h5
        obtain ⟨hi1, hi2⟩ := List.getElem?_eq_some_iff.1 hi'
        obtain ⟨hi3, hi4⟩ := List.getElem?_eq_some_iff.1 hi
        have : i' = i := by
          have hp := List.pairwise_iff_getElem.1 (List.pairwise_map.1 hn)
          have he' : kt.KeyText l[i'].1 = kt.KeyText l[i].1 := by rw [hi2, hi4, h4]; exact h6
          rcases Nat.lt_trichotomy i' i with hlt' | heq | hlt'
          · exact absurd he' (hp i' i hi1 hi3 hlt')
          · exact heq
          · exact absurd he'.symm (hp i i' hi3 hi1 hlt')
        subst this
        exact hi2.symm.trans hi4
      rw [← this]
      exact List.getElem_mem hjl
  refine ⟨.ofDict (Map.ofList es), l', ?_, hperm, hks, fun w' hw' => ?_⟩
  · rw [Ty.ser, Ser.serialize, h1]
  · rw [Value.strip_ofDict] at hw'
    obtain ⟨t', a', rfl, ha⟩ := Value.strip_eq_dict hw'
    have hlen' : a'.length = (Map.ofList es).length := by
      have := congrArg List.length ha
      rwa [Value.stripD_eq, Value.stripD_eq, List.length_map, List.length_map] at this
    have hentry : ∀ (i : Nat) s v, a'[i]? = some (s, v) → ∃ w, (Map.ofList es)[i]? = some (s, w) ∧ v.strip = w.strip := by
      intro i s v h
      have := congrArg (fun m => m[i]?) ha
      simp only [Value.stripD_eq, List.getElem?_map, h, Option.map_some] at this
      cases h4 : (Map.ofList es)[i]? with
      | none => rw [h4] at this; cases this
      | some e =>
        rw [h4] at this
        simp only [Option.map_some, Option.some.injEq, Prod.mk.injEq] at this
        exact ⟨e.2, by rw [this.1], this.2⟩
    have key : ∀ de : De, (∀ x y w, (x, y) ∈ l → (t.ser y).serialize = .ok w → ∀ v : Value, v.strip = w.strip → t.de de v = .ok y) →
        (Ty.keyed kt t).de de (.dict t' a') = .ok (.entries l') := by
      intro de hde
      refine keyed_iff.2 ⟨t', a', l', rfl, rfl, ?_⟩
      refine (keyedLoop_iff (K := fun s x => kt.deKey s = .ok x) (P := fun v y => t.de de v = .ok y) (fun _ _ => Iff.rfl) a' l'
        fun _ _ _ => Iff.rfl).2 ⟨by rw [hlen', hlen], fun i s v x y h4 h5 => ?_⟩
      obtain ⟨w, h6, h7⟩ := hentry i s v h4
      obtain ⟨h8, h9, h10⟩ := hl' i s w x y h6 h5
      obtain ⟨s', h11, h12⟩ := hk (x, y) h8
      rw [show kt.KeyText (x, y).1 = some s from h9] at h11
      cases h11
      exact ⟨(Ty.deKey_ok kt s x).2 h12, hde x y w h8 h10 v h7⟩
    have back : ∀ x y w, (x, y) ∈ l → (t.ser y).serialize = .ok w → t.de.Back y w := by
      intro x y w h4 h5
      obtain ⟨w', h6, _, h7⟩ := Ty.kept_back t ht y (hl _ h4).2
      rw [h5] at h6
      cases h6
      exact h7 (hv _ h4)
    refine ⟨key _ fun x y w h4 h5 v h6 => back x y w h4 h5 none v h6, fun f =>
      ⟨key _ fun x y w h4 h5 v h6 => back x y w h4 h5 (some f) v h6,
       key _ fun x y w h4 h5 v h6 => Ty.de_mono t f v y (back x y w h4 h5 (some f) v h6)⟩⟩

end Figment
