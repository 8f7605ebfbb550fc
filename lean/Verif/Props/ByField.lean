import Verif.Spec.ByField
import Verif.Props.Means
import Verif.Props.Lookup
/-!
# C86: a struct is extracted field by field, a map entry by entry

The specification is `FieldByField` (Spec/ByField).
-/
namespace Figment
variable [FloatOps]

omit [FloatOps] in
theorem pathKeys_plainKey {k : Str} (h : plainKey k) : pathKeys k = [k] := by
  have hs : Str.splitOn '.' k = [k] := Str.splitOn_of_not_mem h.2
  rw [pathKeys, hs]
  cases k with
  | nil => exact absurd rfl h.1
  | cons c r => rfl

/-- What `extract_inner` gives, in terms of the value at the path. -/
theorem Fig.extractInner_iff {f : Fig} {v : Value} (hm : f.merged = .ok v) (path : Str) (t : Ty) (y : Val) :
    (f.extractInner path t = .ok y ↔ ∃ u, v.getKeys (pathKeys path) = some u ∧ t.de (De.strict f) u = .ok y) ∧
    (f.extractInnerLossy path t = .ok y ↔ ∃ u, v.getKeys (pathKeys path) = some u ∧ t.de (De.lossyOf f) u = .ok y) := by
  have hf : ∀ u, v.getKeys (pathKeys path) = some u → f.findValue path = .ok u := by
    intro u hu
    rw [Fig.findValue, hm]
    simp only [Value.find_eq, hu]
  have gen : ∀ de : De, f.extractInnerWith (fun _ u => t.de de u) path = .ok y ↔
      ∃ u, v.getKeys (pathKeys path) = some u ∧ t.de de u = .ok y := by
    intro de
    rw [Fig.extractInnerWith]
    cases hk : v.getKeys (pathKeys path) with
    | none =>
      have : ∃ e, f.findValue path = .error e := by
        rw [Fig.findValue, hm]
        simp only [Value.find_eq, hk]
        exact ⟨_, rfl⟩
      obtain ⟨e, he⟩ := this
      rw [he]
      exact ⟨nofun, nofun⟩
    | some u =>
      rw [hf u hk]
      dsimp only
      constructor
      · intro he
        cases hd : t.de de u with
        | error e => rw [hd] at he; cases he
        | ok z => rw [hd] at he; cases he; exact ⟨u, rfl, hd⟩
      · rintro ⟨_, hu, he⟩
        cases hu
        rw [he]
  exact ⟨gen (De.strict f), gen (De.lossyOf f)⟩

omit [FloatOps] in
theorem Fig.contains_iff {f : Fig} {v : Value} (hm : f.merged = .ok v) (path : Str) :
    f.contains path = (v.getKeys (pathKeys path)).isSome := by
  rw [Fig.contains, hm]
  simp only [Value.findRef_eq, Value.find_eq]

/-- `MeansFields`, index by index. -/
theorem Ty.meansFields_iff (lossy : Bool) (file : Tag → Option Str) (d : Dict) :
    ∀ (fs : List (Str × Option Val × Ty)) (l : List Val), Ty.MeansFields lossy file fs d l ↔
      l.length = fs.length ∧ ∀ (i : Nat) name dflt t y, fs[i]? = some (name, dflt, t) → l[i]? = some y →
        (∃ w, Map.get name d = some w ∧ t.Means lossy file w y) ∨ (Map.get name d = none ∧ t.Absent dflt y)
  | [], l => by
    rw [Ty.MeansFields]
    constructor
    · rintro rfl; exact ⟨rfl, nofun⟩
    · rintro ⟨h, _⟩; exact List.length_eq_zero_iff.1 h
  | (name, dflt, t) :: fs, l => by
    rw [Ty.MeansFields]
    constructor
    · rintro ⟨y, l', rfl, h1, h2⟩
      obtain ⟨h3, h4⟩ := (Ty.meansFields_iff lossy file d fs l').1 h1
      refine ⟨by simp [h3], fun i => ?_⟩
      cases i with
      | zero =>
        rintro n df ty z hn hz
        cases hn
        cases hz
        exact h2
      | succ i => exact h4 i
    · rintro ⟨h1, h2⟩
      cases l with
      | nil => cases h1
      | cons y l' =>
        exact ⟨y, l', rfl, (Ty.meansFields_iff lossy file d fs l').2 ⟨by simpa using h1, fun i => h2 (i + 1)⟩,
          h2 0 _ _ _ _ rfl rfl⟩

omit [FloatOps] in
theorem Ty.properFields_at {b : Bool} : ∀ {fs : List (Str × Option Val × Ty)}, Ty.properFields b fs = true →
    ∀ {i : Nat} {name dflt t}, fs[i]? = some (name, dflt, t) → t.proper b = true
  | [], _, _, _, _, _, hi => by cases hi
  | (_, _, t) :: fs, h, 0, _, _, _, hi => by
    cases hi
    rw [Ty.properFields, Bool.and_eq_true] at h
    exact h.1
  | (_, _, t) :: fs, h, i + 1, _, _, _, hi => by
    rw [Ty.properFields, Bool.and_eq_true] at h
    exact Ty.properFields_at (fs := fs) h.2 (i := i) hi

/-- A dictionary read as a struct, if the fields can be had by `get`. -/
theorem Ty.struct_byField {f : Fig} {b : Bool} {text name : Str} {deny : Bool} {fs : List (Str × Option Val × Ty)}
    (hname : magicNames.contains name = false) (ht : (Ty.struct text name deny fs).proper b = true) {tag : Tag} {d : Dict}
    (hv : (Value.dict tag d).WF) (hr : b = true → (Value.dict tag d).unreserved = true) (l : Bool)
    (get : Str → Ty → Except Error Val) (has : Str → Bool)
    (hget : ∀ e ∈ fs, ∀ t y, get e.1 t = .ok y ↔ ∃ u, Map.get e.1 d = some u ∧ t.de ⟨some f, l⟩ u = .ok y)
    (hhas : ∀ e ∈ fs, has e.1 = (Map.get e.1 d).isSome) (z : Val) :
    (Ty.struct text name deny fs).de ⟨some f, l⟩ (.dict tag d) = .ok z ↔
      ∃ xs, z = .struct xs ∧ FieldByField get has fs xs ∧ (deny = true → ∀ k, (Map.get k d).isSome → k ∈ fs.map (·.1)) := by
  have hT : name ≠ Tagged.NAME := by rintro rfl; revert hname; decide
  have hR : name ≠ RelPath.NAME := by rintro rfl; revert hname; decide
  have hfields : Ty.properFields b fs = true := by
    rw [Ty.proper, Bool.and_eq_true] at ht
    exact ht.2
  rw [Ty.means (some f) l b nofun _ ht _ ⟨hv, hr⟩ z, Ty.Means, if_neg hT, if_neg hR]
  have hde : ∀ {i : Nat} {n dflt t}, fs[i]? = some (n, dflt, t) → ∀ {w}, Map.get n d = some w → ∀ y,
      (t.de ⟨some f, l⟩ w = .ok y ↔ t.Means l f.fileAt w y) := by
    intro i n dflt t hi w hw y
    have hk : (Value.dict tag d).getKeys [n] = some w := by simp [Value.getKeys, hw]
    exact Ty.means (some f) l b nofun t (Ty.properFields_at hfields hi) w
      ⟨Value.wf_getKeys hv hk, fun hb => Value.keysAll_getKeys (hr hb) hk⟩ y
  have hfs : ∀ xs, Ty.MeansFields l f.fileAt fs d xs ↔ FieldByField get has fs xs := by
    intro xs
    rw [Ty.meansFields_iff, FieldByField]
    refine and_congr_right fun _ => forall_congr' fun i => forall_congr' fun n => forall_congr' fun dflt =>
      forall_congr' fun t => forall_congr' fun y => ?_
    refine forall_congr' fun hi => forall_congr' fun _ => ?_
    have hmem := List.mem_of_getElem? hi
    have h1 := hget _ hmem t y
    have h2 := hhas _ hmem
    dsimp only at h1 h2
    rw [h1, h2]
    refine or_congr (exists_congr fun w => and_congr_right fun hw => ?_) (and_congr_left fun _ => ?_)
    · exact (hde hi hw y).symm
    · cases Map.get n d <;> simp
  constructor
  · rintro ⟨xs, rfl, ⟨tag', d', hd, h1, h2⟩ | ⟨_, _, hd, _⟩⟩
    · cases hd
      refine ⟨xs, rfl, (hfs xs).1 h1, fun hdeny k hk => ?_⟩
      obtain ⟨w, hw⟩ := Option.isSome_iff_exists.1 hk
      obtain ⟨k', hmem, hk'⟩ := Map.mem_of_get hw
      rw [Std.LawfulEqOrd.compare_eq_iff_eq] at hk'
      subst hk'
      exact h2 hdeny _ hmem
    · cases hd
  · rintro ⟨xs, rfl, h1, h2⟩
    refine ⟨xs, rfl, .inl ⟨tag, d, rfl, (hfs xs).2 h1, fun hdeny e he => h2 hdeny e.1 ?_⟩⟩
    exact Map.get_isSome_of_mem (v := e.2) he

/-- **C86**: extracting a struct gives a struct of what `extract_inner` gives for each field's name and type, in order; for
a field without a value, its default or `None`. It succeeds exactly if there are such values for all fields and, if
unknown fields are denied, there are no others. The same with the lossy extractions. -/
theorem C86_extract (f : Fig) (m : Data) (hf : f.value = .ok m) (hmw : m.WF) (v : Value) (hm : f.merged = .ok v) (b : Bool)
    (text name : Str) (hname : magicNames.contains name = false) (deny : Bool) (fs : List (Str × Option Val × Ty))
    (ht : (Ty.struct text name deny fs).proper b = true) (hr : b = true → v.unreserved = true)
    (hfs : ∀ e ∈ fs, plainKey e.1) (z : Val) :
    (f.extract (.struct text name deny fs) = .ok z ↔ ∃ xs, z = .struct xs ∧
      FieldByField (fun k t => f.extractInner k t) f.contains fs xs ∧
      (deny = true → ∀ k, v.view [k] ≠ none → k ∈ fs.map (·.1))) ∧
    (f.extractLossy (.struct text name deny fs) = .ok z ↔ ∃ xs, z = .struct xs ∧
      FieldByField (fun k t => f.extractInnerLossy k t) f.contains fs xs ∧
      (deny = true → ∀ k, v.view [k] ≠ none → k ∈ fs.map (·.1))) := by
  obtain ⟨w, hw, hww, _⟩ := Fig.merged_view hf hmw
  rw [hm] at hw
  cases hw
  obtain ⟨d, rfl⟩ : ∃ d, v = .dict Tag.Default d := by
    rw [Fig.merged_ok hf] at hm
    cases hm
    exact ⟨_, rfl⟩
  have hk : ∀ e ∈ fs, (Value.dict Tag.Default d).getKeys (pathKeys e.1) = Map.get e.1 d := by
    intro e he
    rw [pathKeys_plainKey (hfs e he), Value.getKeys]
    cases Map.get e.1 d <;> rfl
  have hview : ∀ k, (Value.dict Tag.Default d).view [k] ≠ none ↔ (Map.get k d).isSome := by
    intro k
    rw [Value.view]
    cases Map.get k d <;> simp [Value.view]
  have hhas : ∀ e ∈ fs, f.contains e.1 = (Map.get e.1 d).isSome := fun e he => by
    rw [Fig.contains_iff hm, hk e he]
  simp only [hview]
  rw [Fig.extract, Fig.extractWith, hm, Fig.extractLossy, Fig.extractWith, hm]
  constructor
  · refine Ty.struct_byField hname ht hww hr false _ _ (fun e he t y => ?_) hhas z
    rw [(Fig.extractInner_iff hm e.1 t y).1, hk e he]
    rfl
  · refine Ty.struct_byField hname ht hww hr true _ _ (fun e he t y => ?_) hhas z
    rw [(Fig.extractInner_iff hm e.1 t y).2, hk e he]
    rfl

/-- **C86**, below a path: where there is a dictionary, extracting a struct gives a struct of what is extracted at the
paths of its fields. -/
theorem C86_extract_inner (f : Fig) (m : Data) (hf : f.value = .ok m) (hmw : m.WF) (path : Str) (hpath : plainPath path)
    (tag : Tag) (d : Dict) (hd : f.findValue path = .ok (.dict tag d)) (b : Bool)
    (text name : Str) (hname : magicNames.contains name = false) (deny : Bool) (fs : List (Str × Option Val × Ty))
    (ht : (Ty.struct text name deny fs).proper b = true) (hr : b = true → (Value.dict tag d).unreserved = true)
    (hfs : ∀ e ∈ fs, plainKey e.1) (z : Val) :
    (f.extractInner path (.struct text name deny fs) = .ok z ↔ ∃ xs, z = .struct xs ∧
      FieldByField (fun k t => f.extractInner (path ++ '.' :: k) t) (fun k => f.contains (path ++ '.' :: k)) fs xs ∧
      (deny = true → ∀ k ∈ d.keys, k ∈ fs.map (·.1))) ∧
    (f.extractInnerLossy path (.struct text name deny fs) = .ok z ↔ ∃ xs, z = .struct xs ∧
      FieldByField (fun k t => f.extractInnerLossy (path ++ '.' :: k) t) (fun k => f.contains (path ++ '.' :: k)) fs xs ∧
      (deny = true → ∀ k ∈ d.keys, k ∈ fs.map (·.1))) := by
  obtain ⟨v, hm, hww, _⟩ := Fig.merged_view hf hmw
  have hu : v.getKeys (pathKeys path) = some (.dict tag d) := by
    rw [Fig.findValue, hm] at hd
    simp only [Value.find_eq] at hd
    cases hg : v.getKeys (pathKeys path) with
    | none => rw [hg] at hd; cases hd
    | some w => rw [hg] at hd; cases hd; rfl
  have hk : ∀ e ∈ fs, v.getKeys (pathKeys (path ++ '.' :: e.1)) = Map.get e.1 d := by
    intro e he
    rw [pathKeys_append hpath, pathKeys_plainKey (hfs e he), Value.getKeys_append, hu]
    show Value.getKeys [e.1] (.dict tag d) = _
    rw [Value.getKeys]
    cases Map.get e.1 d <;> rfl
  have hhas : ∀ e ∈ fs, f.contains (path ++ '.' :: e.1) = (Map.get e.1 d).isSome := fun e he => by
    rw [Fig.contains_iff hm, hk e he]
  have hdw := Value.wf_getKeys hww hu
  have hkeys : ∀ k, k ∈ d.keys ↔ (Map.get k d).isSome := fun k => Map.mem_keys_iff
  have one : ∀ l : Bool, (∃ u, v.getKeys (pathKeys path) = some u ∧
      (Ty.struct text name deny fs).de ⟨some f, l⟩ u = .ok z) ↔
      (Ty.struct text name deny fs).de ⟨some f, l⟩ (.dict tag d) = .ok z := by
    intro l
    rw [hu]
    exact ⟨fun ⟨u, h1, h2⟩ => by cases h1; exact h2, fun h => ⟨_, rfl, h⟩⟩
  simp only [hkeys]
  rw [(Fig.extractInner_iff hm path _ z).1, (Fig.extractInner_iff hm path _ z).2]
  constructor
  · refine (one false).trans (Ty.struct_byField hname ht hdw hr false _ _ (fun e he t y => ?_) hhas z)
    rw [(Fig.extractInner_iff hm _ t y).1, hk e he]
    rfl
  · refine (one true).trans (Ty.struct_byField hname ht hdw hr true _ _ (fun e he t y => ?_) hhas z)
    rw [(Fig.extractInner_iff hm _ t y).2, hk e he]
    rfl

/-- **C86**, maps: where there is a dictionary whose keys stand for themselves in paths, extracting a map gives, for each of
the keys, what is extracted at its path. -/
theorem C86_map (f : Fig) (m : Data) (hf : f.value = .ok m) (hmw : m.WF) (path : Str) (hpath : plainPath path)
    (tag : Tag) (d : Dict) (hd : f.findValue path = .ok (.dict tag d)) (b : Bool) (t : Ty) (ht : t.proper b = true)
    (hr : b = true → (Value.dict tag d).unreserved = true) (hplain : ∀ k ∈ d.keys, plainKey k) (z : Val) :
    (f.extractInner path (.map t) = .ok z ↔ ∃ l : List (Str × Val), z = .map l ∧ l.map (·.1) = d.keys ∧
      ∀ e ∈ l, f.extractInner (path ++ '.' :: e.1) t = .ok e.2) ∧
    (f.extractInnerLossy path (.map t) = .ok z ↔ ∃ l : List (Str × Val), z = .map l ∧ l.map (·.1) = d.keys ∧
      ∀ e ∈ l, f.extractInnerLossy (path ++ '.' :: e.1) t = .ok e.2) := by
  obtain ⟨v, hm, hww, _⟩ := Fig.merged_view hf hmw
  have hu : v.getKeys (pathKeys path) = some (.dict tag d) := by
    rw [Fig.findValue, hm] at hd
    simp only [Value.find_eq] at hd
    cases hg : v.getKeys (pathKeys path) with
    | none => rw [hg] at hd; cases hd
    | some w => rw [hg] at hd; cases hd; rfl
  have hdw := Value.wf_getKeys hww hu
  have hsorted : Map.Sorted d := by
    rw [Value.wf_dict'] at hdw
    exact (Dict.wf_iff.1 hdw).1
  have hk : ∀ k ∈ d.keys, v.getKeys (pathKeys (path ++ '.' :: k)) = Map.get k d := by
    intro k hk
    rw [pathKeys_append hpath, pathKeys_plainKey (hplain k hk), Value.getKeys_append, hu]
    show Value.getKeys [k] (.dict tag d) = _
    rw [Value.getKeys]
    cases Map.get k d <;> rfl
  have hde : ∀ (l : Bool) k w, Map.get k d = some w → ∀ y, (t.de ⟨some f, l⟩ w = .ok y ↔ t.Means l f.fileAt w y) := by
    intro l k w hw y
    have hk : (Value.dict tag d).getKeys [k] = some w := by simp [Value.getKeys, hw]
    exact Ty.means (some f) l b nofun t ht w ⟨Value.wf_getKeys hdw hk, fun hb => Value.keysAll_getKeys (hr hb) hk⟩ y
  have key : ∀ (l : Bool) (get : Str → Except Error Val),
      (∀ k ∈ d.keys, ∀ y, get k = .ok y ↔ ∃ u, Map.get k d = some u ∧ t.de ⟨some f, l⟩ u = .ok y) →
      ((∃ u, v.getKeys (pathKeys path) = some u ∧ (Ty.map t).de ⟨some f, l⟩ u = .ok z) ↔
        ∃ xs : List (Str × Val), z = .map xs ∧ xs.map (·.1) = d.keys ∧ ∀ e ∈ xs, get e.1 = .ok e.2) := by
    intro l get hget
    have hmap : (Ty.map t).proper b = true := by rw [Ty.proper]; exact ht
    rw [hu]
    refine Iff.trans ⟨fun ⟨u, h1, h2⟩ => by cases h1; exact h2, fun h => ⟨_, rfl, h⟩⟩
      ((Ty.means (some f) l b nofun _ hmap (.dict tag d) ⟨hdw, hr⟩ z).trans ?_)
    rw [Ty.Means]
    constructor
    · rintro ⟨tag', d', xs, h1, rfl, h2, h3⟩
      cases h1
      refine ⟨xs, rfl, h2.symm, fun e he => ?_⟩
      obtain ⟨i, hi⟩ := List.mem_iff_getElem?.1 he
      have hdi : (d.map (·.1))[i]? = some e.1 := by rw [h2, List.getElem?_map, hi]; rfl
      rw [List.getElem?_map, Option.map_eq_some_iff] at hdi
      obtain ⟨⟨k, w⟩, hw, rfl⟩ := hdi
      have hgw : Map.get e.1 d = some w := Map.get_eq_some_of_mem hsorted (List.mem_of_getElem? hw)
      exact (hget _ (Map.mem_keys_iff.2 (by rw [hgw]; rfl)) e.2).2
        ⟨w, hgw, (hde l _ w hgw _).2 (h3 i _ w e.2 hw hi)⟩
    · rintro ⟨xs, rfl, h2, h3⟩
      refine ⟨tag, d, xs, rfl, rfl, h2.symm, fun i k w y hw hy => ?_⟩
      have hgw : Map.get k d = some w := Map.get_eq_some_of_mem hsorted (List.mem_of_getElem? hw)
      obtain ⟨u, hgu, hy'⟩ := (hget k (Map.mem_keys_iff.2 (by rw [hgw]; rfl)) y).1 (h3 _ (List.mem_of_getElem? hy))
      rw [hgw] at hgu
      cases hgu
      exact (hde l k w hgw y).1 hy'
  rw [(Fig.extractInner_iff hm path _ z).1, (Fig.extractInner_iff hm path _ z).2]
  constructor
  · refine key false (fun k => f.extractInner (path ++ '.' :: k) t) fun k hkd y => ?_
    rw [(Fig.extractInner_iff hm _ t y).1, hk k hkd]
    rfl
  · refine key true (fun k => f.extractInnerLossy (path ++ '.' :: k) t) fun k hkd y => ?_
    rw [(Fig.extractInner_iff hm _ t y).2, hk k hkd]
    rfl

/-! ## Cases -/

/-- A struct: a number, an optional text, a struct in it with a default. -/
def Ex.settings : Ty := .struct (str "S") (str "S") false
  [(str "a", none, .int .u8), (str "q", none, .option .string),
    (str "b", none, .struct (str "B") (str "B") false [(str "x", none, .int .u8), (str "w", some (.int 9), .int .u8)])]

example : Ex.settings.proper false = true ∧ (∃ m, Ex.fig1.value = .ok m ∧ m.WF) ∧ (∃ v, Ex.fig1.merged = .ok v) ∧
    Ex.fig1.extract Ex.settings = .ok (.struct [.int 1, .none, .struct [.int 2, .int 9]]) ∧
    Ex.fig1.extractInner (str "a") (.int .u8) = .ok (.int 1) ∧ Ex.fig1.contains (str "q") = false ∧
    Ex.fig1.extractInner (str "b.x") (.int .u8) = .ok (.int 2) ∧ Ex.fig1.contains (str "b.w") = false :=
  ⟨by decide, ⟨_, rfl, by decide⟩, ⟨_, rfl⟩, rfl, rfl, rfl, rfl, rfl⟩

-- the struct cannot be extracted if one of its fields cannot
example (z : Val) : Ex.fig1.extract (.struct (str "S") (str "S") false [(str "a", none, .bool)]) ≠ .ok z := by
  obtain ⟨m, hm, hw⟩ : ∃ m, Ex.fig1.value = .ok m ∧ m.WF := ⟨_, rfl, by decide⟩
  intro h
  obtain ⟨xs, _, ⟨hl, hx⟩, _⟩ := (C86_extract Ex.fig1 m hm hw _ rfl false _ _ (by decide) _ _ (by decide) nofun
    (by decide) z).1.1 h
  match xs, hl, hx with
  | [y], _, hx =>
    rcases hx 0 _ _ _ _ rfl rfl with h' | ⟨h', _⟩
    · cases h'
    · cases h'

-- a key with a dot in it is no path: for such a name the struct finds what `extract_inner` does not
example : ∃ f : Fig, f.value = .ok [(Profile.Default, [(str "a.b", Ex.n 1)])] ∧
    f.extract (.struct (str "S") (str "S") false [(str "a.b", none, .int .u8)]) = .ok (.struct [.int 1]) ∧
    f.contains (str "a.b") = false := ⟨⟨Profile.Default, [], .ok [(Profile.Default, [(str "a.b", Ex.n 1)])]⟩, rfl, rfl, rfl⟩

end Figment
