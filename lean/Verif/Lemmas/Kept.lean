import Verif.Lemmas.Strip
import Verif.Lemmas.RoundTrip
/-!
# Lemmas: which values come back from what they are written as
-/
namespace Figment

/-- What is `blank` is written as the empty value. -/
theorem Ty.blank_written : ∀ (t : Ty) (x : Val), t.Has x → t.blank x = true →
    ∃ e, (t.ser x).serialize = .ok (.ofEmpty e)
  | .unit, x, hx, _ => by rw [Ty.Has] at hx; subst hx; exact ⟨_, rfl⟩
  | .unitStruct _, x, hx, _ => by rw [Ty.Has] at hx; subst hx; exact ⟨_, rfl⟩
  | .option t, x, hx, h => by
    rw [Ty.Has] at hx
    rcases hx with rfl | ⟨y, rfl, hy⟩
    · exact ⟨_, rfl⟩
    · rw [Ty.blank] at h
      exact Ty.blank_written t y hy h
  | .newtype _ t, x, hx, h => by
    rw [Ty.Has] at hx
    obtain ⟨y, rfl, hy⟩ := hx
    rw [Ty.blank] at h
    exact Ty.blank_written t y hy h
  | .via t _ back, x, hx, h => by
    rw [Ty.Has] at hx
    rw [Ty.blank] at h
    exact Ty.blank_written t _ hx.1 h
  | .any _, x, hx, h => by
    rw [Ty.Has] at hx
    cases hx with
    | unit => exact ⟨_, rfl⟩
    | none => exact ⟨_, rfl⟩
    | _ => exact nomatch h
  | .bool, _, _, h | .int _, _, _, h | .f32, _, _, h | .f64, _, _, h | .char, _, _, h | .string, _, _, h
  | .pathBuf, _, _, h | .seq _, _, _, h | .tuple _, _, _, h | .tupleStruct _ _, _, _, h | .map _, _, _, h
  | .struct _ _ _ _, _, _, h | .enum _ _, _, _, h | .tag, _, _, h | .flag, _, _, h | .pairs _, _, _, h
  | .keyed _ _, _, _, h | .parsed _ _ _, _, _, h | .flat _ _ _ _, _, _, h | .value, _, _, h => nomatch h

theorem serializeSeq_get {f : Val → Ser} : ∀ {l : List Val} {ws : List Value}, Ser.serializeSeq (l.map f) = .ok ws →
    ∀ y ∈ l, ∃ (i : Nat) (w : Value), l[i]? = some y ∧ ws[i]? = some w ∧ (f y).serialize = .ok w
  | [], _, _, _, hy => nomatch hy
  | x :: l, ws, h, y, hy => by
    rw [List.map_cons, Ser.serializeSeq] at h
    cases h1 : (f x).serialize with
    | error e => rw [h1] at h; cases h
    | ok w =>
      rw [h1] at h
      cases h2 : Ser.serializeSeq (l.map f) with
      | error e => rw [h2] at h; cases h
      | ok vs =>
        rw [h2] at h
        cases h
        rcases List.mem_cons.1 hy with rfl | hy
        · exact ⟨0, w, rfl, rfl, h1⟩
        · obtain ⟨i, w', h3, h4, h5⟩ := serializeSeq_get h2 y hy
          exact ⟨i + 1, w', h3, h4, h5⟩

theorem serializeMap_get {f : Val → Ser} : ∀ {l : List (Str × Val)} {es : List (Str × Value)},
    Ser.serializeMap (l.map fun e => (.str e.1, f e.2)) = .ok es → l.map (·.1) = es.map (·.1) ∧
    ∀ e ∈ l, ∃ (i : Nat) (w : Value), l[i]? = some e ∧ es[i]? = some (e.1, w) ∧ (f e.2).serialize = .ok w
  | [], _, h => by cases h; exact ⟨rfl, fun _ hy => nomatch hy⟩
  | (k, x) :: l, es, h => by
    rw [List.map_cons, Ser.serializeMap, Ser.serialize] at h
    dsimp only [Value.ofStr] at h
    cases h1 : (f x).serialize with
    | error e => rw [h1] at h; cases h
    | ok w =>
      rw [h1] at h
      dsimp only at h
      cases h2 : Ser.serializeMap (l.map fun e => (.str e.1, f e.2)) with
      | error e => rw [h2] at h; cases h
      | ok vs =>
        rw [h2] at h
        cases h
        obtain ⟨h6, h7⟩ := serializeMap_get h2
        refine ⟨by rw [List.map_cons, List.map_cons, h6], fun e he => ?_⟩
        rcases List.mem_cons.1 he with rfl | he
        · exact ⟨0, w, rfl, rfl, h1⟩
        · obtain ⟨i, w', h3, h4, h5⟩ := h7 e he
          exact ⟨i + 1, w', h3, h4, h5⟩

theorem serializeFields_keys : ∀ {l : List (Str × Ser)} {es : List (Str × Value)}, Ser.serializeFields l = .ok es →
    es.map (·.1) = l.map (·.1)
  | [], _, h => by cases h; rfl
  | (k, x) :: l, es, h => by
    rw [Ser.serializeFields] at h
    cases h1 : x.serialize with
    | error e => rw [h1] at h; cases h
    | ok w =>
      rw [h1] at h
      cases h2 : Ser.serializeFields l with
      | error e => rw [h2] at h; cases h
      | ok vs =>
        rw [h2] at h
        cases h
        rw [List.map_cons, List.map_cons, serializeFields_keys h2]

theorem Ty.serFields_keys : ∀ {fs : List (Str × Option Val × Ty)} {l : List Val}, Ty.HasFields fs l →
    (Ty.serFields fs l).map (·.1) = fs.map (·.1)
  | [], l, _ => by cases l <;> rfl
  | (n, d, t) :: fs, l, h => by
    rw [Ty.HasFields] at h
    obtain ⟨x, r, rfl, _, hr⟩ := h
    rw [Ty.serFields, List.map_cons, List.map_cons, Ty.serFields_keys hr]

theorem Map.get_ofList_nodup {α : Type _} {l : List (Str × α)} (hn : (l.map (·.1)).Nodup) {k : Str} {v : α}
    (h : (k, v) ∈ l) : Map.get k (Map.ofList l) = some v := by
  obtain ⟨w, hw⟩ := Map.mem_keys_ofList (List.mem_map.2 ⟨_, h, rfl⟩)
  have hw' := Map.mem_ofList hw
  have : w = v := by
    clear hw
    induction l with
    | nil => exact nomatch h
    | cons e l ih =>
      rw [List.map_cons, List.nodup_cons] at hn
      rcases List.mem_cons.1 h with rfl | h
      · rcases List.mem_cons.1 hw' with hw' | hw'
        · cases hw'; rfl
        · exact absurd (List.mem_map.2 ⟨_, hw', rfl⟩) hn.1
      · rcases List.mem_cons.1 hw' with hw' | hw'
        · have hk : k ∈ l.map (·.1) := List.mem_map.2 ⟨_, h, rfl⟩
          rw [← hw'] at hn
          exact absurd hk hn.1
        · exact ih hn.2 h hw'
  subst this
  exact Map.get_eq_some_of_mem (Map.Sorted.ofList _) hw

mutual
theorem Ty.sound_of_proper : ∀ (t : Ty), t.proper false = true → t.sound = true
  | .option t, h => by rw [Ty.proper] at h; rw [Ty.sound]; exact Ty.sound_of_proper t h
  | .newtype _ t, h => by rw [Ty.proper] at h; rw [Ty.sound]; exact Ty.sound_of_proper t h
  | .seq t, h => by rw [Ty.proper] at h; rw [Ty.sound]; exact Ty.sound_of_proper t h
  | .map t, h => by rw [Ty.proper] at h; rw [Ty.sound]; exact Ty.sound_of_proper t h
  | .pairs t, h => by rw [Ty.proper] at h; rw [Ty.sound]; exact Ty.sound_of_proper t h
  | .keyed _ t, h => by rw [Ty.proper] at h; rw [Ty.sound]; exact Ty.sound_of_proper t h
  | .via t _ _, h => by
    rw [Ty.proper, Bool.and_eq_true] at h; rw [Ty.sound]; exact Ty.sound_of_proper t h.2
  | .tuple ts, h => by rw [Ty.proper] at h; rw [Ty.sound]; exact Ty.soundEach_of_proper ts h
  | .tupleStruct _ ts, h => by rw [Ty.proper] at h; rw [Ty.sound]; exact Ty.soundEach_of_proper ts h
  | .struct _ _ _ fs, h => by
    rw [Ty.proper, Bool.and_eq_true, Bool.and_eq_true, Bool.false_and, Bool.or_false] at h
    rw [Ty.sound, Bool.and_eq_true, Bool.and_eq_true, Bool.or_eq_true]
    exact ⟨⟨.inl h.1.1, h.1.2⟩, Ty.soundFields_of_proper fs h.2⟩
  | .flat _ fs _ _, h => by
    rw [Ty.proper, Bool.and_eq_true] at h; rw [Ty.sound, Bool.and_eq_true]
    exact ⟨h.1, Ty.soundFields_of_proper fs h.2⟩
  | .enum _ vs, h => by rw [Ty.proper] at h; rw [Ty.sound]; exact Ty.soundVariants_of_proper vs h
  | .value, h => by rw [Ty.proper] at h; exact nomatch h
  | .unit, _ | .unitStruct _, _ | .any _, _ | .bool, _ | .int _, _ | .f32, _ | .f64, _ | .char, _ | .string, _
  | .pathBuf, _ | .tag, _ | .flag, _ | .parsed _ _ _, _ => by rw [Ty.sound]; all_goals (intros; contradiction)
theorem Ty.soundEach_of_proper : ∀ (ts : List Ty), Ty.properEach false ts = true → Ty.soundEach ts = true
  | [], _ => by rw [Ty.soundEach]
  | t :: ts, h => by
    rw [Ty.properEach, Bool.and_eq_true] at h; rw [Ty.soundEach, Bool.and_eq_true]
    exact ⟨Ty.sound_of_proper t h.1, Ty.soundEach_of_proper ts h.2⟩
theorem Ty.soundFields_of_proper : ∀ (fs : List (Str × Option Val × Ty)), Ty.properFields false fs = true →
    Ty.soundFields fs = true
  | [], _ => by rw [Ty.soundFields]
  | (_, _, t) :: fs, h => by
    rw [Ty.properFields, Bool.and_eq_true] at h; rw [Ty.soundFields, Bool.and_eq_true]
    exact ⟨Ty.sound_of_proper t h.1, Ty.soundFields_of_proper fs h.2⟩
theorem Ty.soundVariants_of_proper : ∀ (vs : List (Str × VTy)), Ty.properVariants false vs = true →
    Ty.soundVariants vs = true
  | [], _ => by rw [Ty.soundVariants]
  | (_, v) :: vs, h => by
    rw [Ty.properVariants, Bool.and_eq_true] at h; rw [Ty.soundVariants, Bool.and_eq_true]
    exact ⟨VTy.sound_of_proper v h.1, Ty.soundVariants_of_proper vs h.2⟩
theorem VTy.sound_of_proper : ∀ (v : VTy), v.proper false = true → v.sound = true
  | .unit, _ => by rw [VTy.sound]
  | .newtype t, h => by rw [VTy.proper] at h; rw [VTy.sound]; exact Ty.sound_of_proper t h
  | .tuple ts, h => by rw [VTy.proper] at h; rw [VTy.sound]; exact Ty.soundEach_of_proper ts h
  | .struct _ fs, h => by
    rw [VTy.proper, Bool.and_eq_true] at h; rw [VTy.sound, Bool.and_eq_true]
    exact ⟨h.1, Ty.soundFields_of_proper fs h.2⟩
end

variable [FloatOps]

mutual
theorem Ty.kept_of_means {lossy : Bool} {file : Tag → Option Str} : ∀ (t : Ty), t.proper false = true → t.direct = true →
    ∀ x, t.Has x → ∀ w, (t.ser x).serialize = .ok w → t.Means lossy file w x → t.Kept x
  | .int t, _, _, x, _, w, _, hm => by
    rw [Ty.Means] at hm
    rw [Ty.Kept]
    exact ⟨hm.1, hm.2.1⟩
  | .option t, hp, hd, x, hx, w, hw, hm => by
    rw [Ty.proper] at hp
    rw [Ty.direct] at hd
    rw [Ty.Has] at hx
    rw [Ty.Means] at hm
    rw [Ty.Kept]
    rintro y rfl
    rcases hx with hx | ⟨z, hz, hx⟩
    · cases hx
    · cases hz
      rcases hm with ⟨hm, _⟩ | ⟨he, z, hz, hm⟩
      · cases hm
      · cases hz
        rw [Ty.ser, Ser.serialize] at hw
        refine ⟨?_, Ty.kept_of_means t hp hd y hx w hw hm⟩
        cases hb : t.blank y with
        | false => rfl
        | true =>
          obtain ⟨e, h⟩ := Ty.blank_written t y hx hb
          rw [h] at hw
          cases hw
          exact absurd rfl (he _ _)
  | .newtype _ t, hp, hd, x, hx, w, hw, hm => by
    rw [Ty.proper] at hp
    rw [Ty.direct] at hd
    rw [Ty.Has] at hx
    rw [Ty.Means] at hm
    rw [Ty.Kept]
    rintro y rfl
    obtain ⟨z, hz, hx⟩ := hx
    cases hz
    obtain ⟨z, hz, hm⟩ := hm
    cases hz
    exact Ty.kept_of_means t hp hd y hx w hw hm
  | .seq t, hp, hd, x, hx, w, hw, hm => by
    rw [Ty.proper] at hp
    rw [Ty.direct] at hd
    rw [Ty.Has] at hx
    rw [Ty.Means] at hm
    rw [Ty.Kept]
    rintro l rfl y hy
    obtain ⟨z, hz, hx⟩ := hx
    cases hz
    obtain ⟨tag, a, z, rfl, hz, hl, hm⟩ := hm
    cases hz
    rw [Ty.ser, Ser.serialize] at hw
    cases h1 : Ser.serializeSeq (l.map fun x => t.ser x) with
    | error e => rw [h1] at hw; cases hw
    | ok ws =>
      rw [h1] at hw
      cases hw
      obtain ⟨i, w, h2, h3, h4⟩ := serializeSeq_get h1 y hy
      exact Ty.kept_of_means t hp hd y (hx y hy) w h4 (hm i w y h3 h2)
  | .map t, hp, hd, x, hx, w, hw, hm => by
    rw [Ty.proper] at hp
    rw [Ty.direct] at hd
    rw [Ty.Has] at hx
    rw [Ty.Means] at hm
    rw [Ty.Kept]
    rintro l rfl e he
    obtain ⟨z, hz, hs, hx⟩ := hx
    cases hz
    obtain ⟨tag, a, z, rfl, hz, hl, hm⟩ := hm
    cases hz
    rw [Ty.ser, Ser.serialize] at hw
    cases h1 : Ser.serializeMap (l.map fun e => (.str e.1, t.ser e.2)) with
    | error e => rw [h1] at hw; cases hw
    | ok es =>
      rw [h1] at hw
      obtain ⟨h5, h6⟩ := serializeMap_get h1
      dsimp only at hw
      rw [Map.ofList_sorted (sorted_of_keys h5 hs)] at hw
      cases hw
      obtain ⟨i, w, h2, h3, h4⟩ := h6 e he
      exact Ty.kept_of_means t hp hd e.2 (hx e he) w h4 (hm i e.1 w e.2 h3 h2)
  | .pairs t, hp, hd, x, hx, w, hw, hm => by
    rw [Ty.proper] at hp
    rw [Ty.direct] at hd
    rw [Ty.Has] at hx
    rw [Ty.Means] at hm
    rw [Ty.Kept]
    rintro l rfl e he
    obtain ⟨z, hz, hs, hx⟩ := hx
    cases hz
    obtain ⟨tag, a, z, rfl, hz, hl, hm⟩ := hm
    cases hz
    rw [Ty.ser, Ser.serialize] at hw
    cases h1 : Ser.serializeMap (l.map fun e => (.str e.1, t.ser e.2)) with
    | error e => rw [h1] at hw; cases hw
    | ok es =>
      rw [h1] at hw
      obtain ⟨h5, h6⟩ := serializeMap_get h1
      dsimp only at hw
      rw [Map.ofList_sorted (sorted_of_keys h5 hs)] at hw
      cases hw
      obtain ⟨i, w, h2, h3, h4⟩ := h6 e he
      exact Ty.kept_of_means t hp hd e.2 (hx e he) w h4 (hm i e.1 w e.2 h3 h2)
  | .keyed kt t, hp, hd, x, hx, w, hw, hm => by
    rw [Ty.proper] at hp
    rw [Ty.direct] at hd
    rw [Ty.Has] at hx
    rw [Ty.Means] at hm
    rw [Ty.Kept]
    rintro l rfl e he
    obtain ⟨z, hz, hs, hx⟩ := hx
    cases hz
    obtain ⟨tag, a, z, rfl, hz, hl, hm⟩ := hm
    cases hz
    rw [Ty.ser, Ser.serialize] at hw
    cases h1 : Ser.serializeMap (l.map fun e => (kt.ser e.1, t.ser e.2)) with
    | error e => rw [h1] at hw; cases hw
    | ok es =>
      rw [h1] at hw
      obtain ⟨h5, h6⟩ := serMap_entries h1 fun e he => (hx e he).1
      dsimp only at hw
      rw [Map.ofList_sorted (sorted_of_texts h5 (fun i e s w he hs => (h6 i e s w he hs).1) hs)] at hw
      cases hw
      obtain ⟨i, hi⟩ := List.getElem?_of_mem he
      have hlt : i < a.length := by rw [h5]; exact (List.getElem?_eq_some_iff.1 hi).1
      have hes := List.getElem?_eq_getElem hlt
      obtain ⟨h2, h3⟩ := h6 i e _ _ hi hes
      obtain ⟨h4, h7⟩ := hm i _ _ e.1 e.2 hes hi
      refine ⟨fun s h8 => ?_, Ty.kept_of_means t hp hd e.2 (hx e he).2.1 _ h3 h7⟩
      rw [h2] at h8
      cases h8
      exact h4
  | .via t _ back, _, hd, x, hx, _, _, _ => by
    rw [Ty.direct] at hd
    rw [Ty.Has] at hx
    rw [Ty.Kept]
    exact Ty.kept_of_faithful t hd _ hx.1
  | .flat _ fs _ back, _, hd, x, hx, _, _, _ => by
    rw [Ty.direct] at hd
    rw [Ty.Has] at hx
    rw [Ty.Kept]
    exact Ty.keptFields_of_faithful fs hd _ hx.1
  | .tuple ts, hp, hd, x, hx, w, hw, hm => by
    rw [Ty.proper] at hp
    rw [Ty.direct] at hd
    rw [Ty.Has] at hx
    rw [Ty.Means] at hm
    rw [Ty.Kept]
    rintro l rfl
    obtain ⟨z, hz, hx⟩ := hx
    cases hz
    obtain ⟨tag, a, z, rfl, hz, hm⟩ := hm
    cases hz
    rw [Ty.ser, Ser.serialize] at hw
    cases h1 : Ser.serializeSeq (Ty.serEach ts l) with
    | error e => rw [h1] at hw; cases hw
    | ok ws =>
      rw [h1] at hw
      cases hw
      exact Ty.keptEach_of_means ts hp hd l hx a h1 hm
  | .tupleStruct _ ts, hp, hd, x, hx, w, hw, hm => by
    rw [Ty.proper] at hp
    rw [Ty.direct] at hd
    rw [Ty.Has] at hx
    rw [Ty.Means] at hm
    rw [Ty.Kept]
    rintro l rfl
    obtain ⟨z, hz, hx⟩ := hx
    cases hz
    obtain ⟨tag, a, z, rfl, hz, hm⟩ := hm
    cases hz
    rw [Ty.ser, Ser.serialize] at hw
    cases h1 : Ser.serializeSeq (Ty.serEach ts l) with
    | error e => rw [h1] at hw; cases hw
    | ok ws =>
      rw [h1] at hw
      cases hw
      exact Ty.keptEach_of_means ts hp hd l hx a h1 hm
  | .struct _ name _ fs, hp, hd, x, hx, w, hw, hm => by
    rw [Ty.proper, Bool.and_eq_true, Bool.and_eq_true, decide_eq_true_iff, Bool.false_and, Bool.or_false,
      Bool.not_eq_true'] at hp
    rw [Ty.direct] at hd
    rw [Ty.Has] at hx
    rw [Ty.Kept]
    rintro l rfl
    obtain ⟨z, hz, hx, _⟩ := hx
    cases hz
    rw [Ty.ser, Ser.serialize] at hw
    cases h1 : Ser.serializeFields (Ty.serFields fs l) with
    | error e => rw [h1] at hw; cases hw
    | ok es =>
      rw [h1] at hw
      cases hw
      have hk := (serializeFields_keys h1).trans (Ty.serFields_keys hx)
      rw [Ty.Means, if_neg (fun h => by rw [h] at hp; exact absurd hp.1.1 (by decide)),
        if_neg (fun h => by rw [h] at hp; exact absurd hp.1.1 (by decide))] at hm
      obtain ⟨z, hz, ⟨tag, d, h, hm, _⟩ | ⟨tag, a, h, _⟩⟩ := hm
      · cases hz
        cases h
        exact Ty.keptFields_of_means fs hp.2 hd l hx es h1 _
          (fun e he => Map.get_ofList_nodup (by rw [hk]; exact hp.1.2) he) hm
      · cases h
  | .enum _ vs, hp, hd, x, hx, w, hw, hm => by
    rw [Ty.proper] at hp
    rw [Ty.direct] at hd
    rw [Ty.Has] at hx
    rw [Ty.Means] at hm
    rw [Ty.Kept]
    rintro name y rfl
    obtain ⟨n, z, hz, hx⟩ := hx
    cases hz
    rw [Ty.ser] at hw
    refine Ty.keptVariant_of_means (lossy := lossy) (file := file) name vs hp hd y hx w hw ?_
    rintro k u r rfl
    rcases hm with ⟨_, _, h, _⟩ | ⟨_, _, _, _, h, _⟩ | ⟨_, _, _, _, y', h, hz, hm⟩
    · cases h
    · cases h
    · cases h
      cases hz
      exact hm
  | .value, _, _, _, _, _, _, _ | .unit, _, _, _, _, _, _, _ | .unitStruct _, _, _, _, _, _, _, _
  | .any _, _, _, _, _, _, _, _ | .bool, _, _, _, _, _, _, _ | .f32, _, _, _, _, _, _, _ | .f64, _, _, _, _, _, _, _
  | .char, _, _, _, _, _, _, _ | .string, _, _, _, _, _, _, _ | .pathBuf, _, _, _, _, _, _, _
  | .tag, _, _, _, _, _, _, _ | .flag, _, _, _, _, _, _, _ | .parsed _ _ _, _, _, _, _, _, _, _ => by
    rw [Ty.Kept]; all_goals (intros; first | trivial | contradiction)
theorem Ty.keptEach_of_means {lossy : Bool} {file : Tag → Option Str} : ∀ (ts : List Ty), Ty.properEach false ts = true →
    Ty.directEach ts = true → ∀ l, Ty.HasEach ts l → ∀ ws, Ser.serializeSeq (Ty.serEach ts l) = .ok ws →
    Ty.MeansEach lossy file ts ws l → Ty.KeptEach ts l
  | [], _, _, _, _, _, _, _ => by rw [Ty.KeptEach]; all_goals (intros; first | trivial | contradiction)
  | t :: ts, hp, hd, l, hx, ws, hw, hm => by
    rw [Ty.properEach, Bool.and_eq_true] at hp
    rw [Ty.directEach, Bool.and_eq_true] at hd
    rw [Ty.HasEach] at hx
    rw [Ty.MeansEach] at hm
    obtain ⟨x, r, rfl, hx, hr⟩ := hx
    obtain ⟨w, a, z, l', rfl, hz, hm, hms⟩ := hm
    cases hz
    rw [Ty.serEach, Ser.serializeSeq] at hw
    cases h1 : (t.ser x).serialize with
    | error e => rw [h1] at hw; cases hw
    | ok u =>
      rw [h1] at hw
      cases h2 : Ser.serializeSeq (Ty.serEach ts r) with
      | error e => rw [h2] at hw; cases hw
      | ok us =>
        rw [h2] at hw
        cases hw
        rw [Ty.KeptEach]
        exact ⟨Ty.kept_of_means t hp.1 hd.1 x hx _ h1 hm, Ty.keptEach_of_means ts hp.2 hd.2 r hr _ h2 hms⟩
theorem Ty.keptFields_of_means {lossy : Bool} {file : Tag → Option Str} : ∀ (fs : List (Str × Option Val × Ty)),
    Ty.properFields false fs = true → Ty.directFields fs = true → ∀ l, Ty.HasFields fs l → ∀ es,
    Ser.serializeFields (Ty.serFields fs l) = .ok es → ∀ d : Dict, (∀ e ∈ es, Map.get e.1 d = some e.2) →
    Ty.MeansFields lossy file fs d l → Ty.KeptFields fs l
  | [], _, _, _, _, _, _, _, _, _ => by rw [Ty.KeptFields]; all_goals (intros; first | trivial | contradiction)
  | (n, _, t) :: fs, hp, hd, l, hx, es, hw, d, hg, hm => by
    rw [Ty.properFields, Bool.and_eq_true] at hp
    rw [Ty.directFields, Bool.and_eq_true] at hd
    rw [Ty.HasFields] at hx
    rw [Ty.MeansFields] at hm
    obtain ⟨x, r, rfl, hx, hr⟩ := hx
    obtain ⟨z, l', hz, hms, hm⟩ := hm
    cases hz
    rw [Ty.serFields, Ser.serializeFields] at hw
    cases h1 : (t.ser x).serialize with
    | error e => rw [h1] at hw; cases hw
    | ok u =>
      rw [h1] at hw
      cases h2 : Ser.serializeFields (Ty.serFields fs r) with
      | error e => rw [h2] at hw; cases hw
      | ok us =>
        rw [h2] at hw
        cases hw
        rw [Ty.KeptFields]
        refine ⟨?_, Ty.keptFields_of_means fs hp.2 hd.2 r hr _ h2 d (fun e he => hg e (List.mem_cons_of_mem _ he)) hms⟩
        have h3 := hg _ (List.mem_cons_self ..)
        rcases hm with ⟨w, h4, hm⟩ | ⟨h4, _⟩
        · rw [h3] at h4
          cases h4
          exact Ty.kept_of_means t hp.1 hd.1 x hx _ h1 hm
        · rw [h3] at h4
          cases h4
theorem Ty.keptVariant_of_means {lossy : Bool} {file : Tag → Option Str} (name : Str) : ∀ (vs : List (Str × VTy)),
    Ty.properVariants false vs = true → Ty.directVariants vs = true → ∀ x, Ty.HasVariant name vs x → ∀ w,
    (Ty.serVariant name vs x).serialize = .ok w →
    (∀ k u r, w = .dict Tag.Default ((k, u) :: r) → Ty.MeansVariant lossy file name vs u x) →
    Ty.KeptVariant name vs x
  | [], _, _, _, _, _, _, _ => by rw [Ty.KeptVariant]; trivial
  | (n, v) :: vs, hp, hd, x, hx, w, hw, hm => by
    rw [Ty.properVariants, Bool.and_eq_true] at hp
    rw [Ty.directVariants, Bool.and_eq_true] at hd
    rw [Ty.HasVariant] at hx
    rw [Ty.KeptVariant]
    rcases hx with ⟨hn, hx⟩ | ⟨hn, hx⟩
    · rw [Ty.serVariant, if_pos hn] at hw
      refine ⟨fun _ => VTy.kept_of_means (lossy := lossy) (file := file) v hp.1 hd.1 n x hx w hw fun k u r h => ?_, fun h => absurd hn h⟩
      have h1 := hm k u r h
      rw [Ty.MeansVariant] at h1
      rcases h1 with ⟨_, h⟩ | ⟨h, _⟩
      · exact h
      · exact absurd hn h
    · rw [Ty.serVariant, if_neg hn] at hw
      refine ⟨fun h => absurd h hn, fun _ => Ty.keptVariant_of_means (lossy := lossy) (file := file) name vs hp.2 hd.2 x hx w hw fun k u r h => ?_⟩
      have h1 := hm k u r h
      rw [Ty.MeansVariant] at h1
      rcases h1 with ⟨h, _⟩ | ⟨_, h⟩
      · exact absurd h hn
      · exact h
theorem VTy.kept_of_means {lossy : Bool} {file : Tag → Option Str} : ∀ (v : VTy), v.proper false = true →
    v.direct = true → ∀ name x, v.Has x → ∀ w, (v.ser name x).serialize = .ok w →
    (∀ k u r, w = .dict Tag.Default ((k, u) :: r) → v.Means lossy file u x) → v.Kept x
  | .unit, _, _, _, _, _, _, _, _ => by rw [VTy.Kept]; trivial
  | .newtype t, hp, hd, name, x, hx, w, hw, hm => by
    rw [VTy.proper] at hp
    rw [VTy.direct] at hd
    rw [VTy.Has] at hx
    rw [VTy.Kept]
    rw [VTy.ser, Ser.serialize] at hw
    cases h1 : (t.ser x).serialize with
    | error e => rw [h1] at hw; cases hw
    | ok u =>
      rw [h1] at hw
      cases hw
      have := hm _ _ _ rfl
      rw [VTy.Means] at this
      exact Ty.kept_of_means t hp hd x hx u h1 this
  | .tuple ts, hp, hd, name, x, hx, w, hw, hm => by
    rw [VTy.proper] at hp
    rw [VTy.direct] at hd
    rw [VTy.Has] at hx
    rw [VTy.Kept]
    rintro l rfl
    obtain ⟨z, hz, hx⟩ := hx
    cases hz
    rw [VTy.ser, Ser.serialize] at hw
    cases h1 : Ser.serializeSeq (Ty.serEach ts l) with
    | error e => rw [h1] at hw; cases hw
    | ok ws =>
      rw [h1] at hw
      cases hw
      have := hm _ _ _ rfl
      rw [VTy.Means] at this
      obtain ⟨tag, a, z, ha, hz, hm⟩ := this
      cases hz
      cases ha
      exact Ty.keptEach_of_means ts hp hd l hx _ h1 hm
  | .struct _ fs, hp, hd, name, x, hx, w, hw, hm => by
    rw [VTy.proper, Bool.and_eq_true, decide_eq_true_iff] at hp
    rw [VTy.direct] at hd
    rw [VTy.Has] at hx
    rw [VTy.Kept]
    rintro l rfl
    obtain ⟨z, hz, hx⟩ := hx
    cases hz
    rw [VTy.ser, Ser.serialize] at hw
    cases h1 : Ser.serializeFields (Ty.serFields fs l) with
    | error e => rw [h1] at hw; cases hw
    | ok es =>
      rw [h1] at hw
      cases hw
      have hk := (serializeFields_keys h1).trans (Ty.serFields_keys hx)
      have := hm _ _ _ rfl
      rw [VTy.Means] at this
      obtain ⟨z, hz, ⟨tag, d, h, hm, _⟩ | ⟨tag, a, h, _⟩⟩ := this
      · cases hz
        cases h
        exact Ty.keptFields_of_means fs hp.2 hd l hx es h1 _
          (fun e he => Map.get_ofList_nodup (by rw [hk]; exact hp.1) he) hm
      · cases h
end

end Figment
