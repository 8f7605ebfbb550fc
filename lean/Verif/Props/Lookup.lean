import Verif.Lemmas.Focus
import Verif.Model.Extract
import Verif.Lemmas.Ser
import Verif.Props.Layer
import Verif.Spec.Examples
/-!
# C25 – C27: presence, focus, overriding pairs
-/
namespace Figment

/-! ## C25 -/

/-- **C25**: `contains` says whether `find_value` succeeds. -/
theorem C25_contains (f : Fig) (path : Str) :
    (f.contains path = true ↔ ∃ v, f.findValue path = .ok v) ∧
    (f.contains path = false ↔ ∃ e, f.findValue path = .error e) := by
  rw [Fig.contains, Fig.findValue]
  cases f.merged with
  | error e => simp
  | ok v =>
    simp only [Value.findRef_eq]
    cases v.find path <;> simp

/-- **C25**: when the figment has data and nothing is at the path, `find_value`, and `extract_inner` at any
type, fail with the missing-field error that names the path. -/
theorem C25_missing {α : Type _} (f : Fig) (m : Data) (hf : f.value = .ok m) (path : Str)
    (h : f.contains path = false) (de : Fig → Value → Except Error α) :
    ∃ e, f.findValue path = .error e ∧ f.extractInnerWith de path = .error e ∧
      e.head.kind = .missingField path ∧ e.missing = true ∧ e.prev = none ∧
      f.findMetadata path = none := by
  have hm := Fig.merged_ok hf
  have hv : f.findValue path = .error (Error.ofKind (.missingField path)) := by
    rw [Fig.contains] at h
    rw [Fig.findValue]
    rw [hm] at h ⊢
    simp only [Value.findRef_eq] at h ⊢
    generalize Value.find _ path = r at h ⊢
    cases r with
    | none => rfl
    | some v => simp at h
  exact ⟨_, hv, by rw [Fig.extractInnerWith, hv], rfl, rfl, rfl, by rw [Fig.findMetadata, hv]⟩

/-- **C25**: when something is at the path, `extract_inner` is decided by that value alone. -/
theorem C25_present {α : Type _} (f : Fig) (path : Str) (v : Value) (h : f.findValue path = .ok v)
    (de : Fig → Value → Except Error α) :
    (∀ x, de f v = .ok x → f.extractInnerWith de path = .ok x) ∧
    (∀ e, de f v = .error e → ∃ e', f.extractInnerWith de path = .error e' ∧ e'.head.kind = e.head.kind) := by
  rw [Fig.extractInnerWith, h]
  refine ⟨fun x hx => by simp [hx], fun e he => ⟨e.withPath path, by simp only [he], ?_⟩⟩
  simp [Error.withPath, Error.head_mapHead]

example : Ex.fig1.contains (str "b.y") = true ∧ Ex.fig1.contains (str "b.q") = false ∧ ∃ m, Ex.fig1.value = .ok m :=
  ⟨by decide, by decide, _, rfl⟩

/-! ## C26 -/

/-- **C26**: `focus` keeps the selected profile and all metadata, and focusing twice is focusing on the
joined path. -/
theorem C26_focus_twice (f : Fig) (hw : ∀ m, f.value = .ok m → m.WF) (a b : Str) (ha : plainPath a) :
    (f.focus a).profile = f.profile ∧ (f.focus a).metadata = f.metadata ∧
    (f.focus a).focus b = f.focus (a ++ str "." ++ b) := by
  refine ⟨rfl, rfl, ?_⟩
  have hs : a ++ str "." ++ b = a ++ '.' :: b := by simp [str]
  rw [hs]
  cases hf : f.value with
  | error e =>
    have h1 : ∀ (g : Fig) (k : Str) (e : Error), g.value = .error e →
        g.focus k = { g with value := .error (e.resolved g.metadata g.profile) } := by
      intro g k e he
      simp [Fig.focus, Fig.resolvedValue, he]
    rw [h1 f a e hf, h1 f _ e hf, h1 _ _ _ rfl]
    simp [Error.resolved_resolved]
  | ok m =>
    have hm := hw m hf
    have e1 := Fig.focus_value_ok hf hm a
    have e2 := Fig.focus_value_ok e1 (Data.wf_focus hm a) b
    have e3 := Fig.focus_value_ok hf hm (a ++ '.' :: b)
    rw [Data.focus_focus ha, ← e3] at e2
    have : ∀ g h : Fig, g.profile = h.profile → g.metadata = h.metadata → g.value = h.value → g = h := by
      intro g h; cases g; cases h; simp_all
    exact this _ _ rfl rfl e2

/-- **C26, the part that holds** (missing: a profile of higher priority with a non-dictionary at or above
the key, see `C26_focus_fails`): what is found at `sub` in the focused figment is what is found at
`key.sub` in the figment, and its metadata too. `default` may hold anything. -/
theorem C26_focus_partial (f : Fig) (m : Data) (hf : f.value = .ok m) (hm : m.WF) (key sub : Str)
    (hk : plainPath key) (hsub : pathKeys sub ≠ [])
    (hg : m.onlyDictsAlong Profile.Global (pathKeys key))
    (hs : f.profile.isCustom = true → m.onlyDictsAlong f.profile (pathKeys key)) :
    (∀ v, (f.focus key).findValue sub = .ok v ↔ f.findValue (key ++ str "." ++ sub) = .ok v) ∧
    ((f.focus key).contains sub = f.contains (key ++ str "." ++ sub)) ∧
    ((f.focus key).findMetadata sub = f.findMetadata (key ++ str "." ++ sub)) := by
  have hstr : key ++ str "." ++ sub = key ++ '.' :: sub := by simp [str]
  rw [hstr]
  obtain ⟨v1, h1, w1, view1⟩ := Fig.merged_view (Fig.focus_value_ok hf hm key) (Data.wf_focus hm key)
  obtain ⟨v2, h2, w2, view2⟩ := Fig.merged_view hf hm
  have hget : v1.find sub = v2.find (key ++ '.' :: sub) := by
    rw [Value.find_eq, Value.find_eq, pathKeys_append hk]
    refine Value.getKeys_eq_of_view w1 w2 fun r => ?_
    rw [view1, view2]
    cases hks : pathKeys sub with
    | nil => exact absurd hks hsub
    | cons k ks =>
      rw [List.append_assoc]
      exact Data.layered_focus hm key f.profile hg hs k (ks ++ r)
  have hfind : ∀ v, (f.focus key).findValue sub = .ok v ↔ f.findValue (key ++ '.' :: sub) = .ok v := by
    intro v
    rw [Fig.findValue, Fig.findValue, h1, h2]
    simp only [hget]
    cases v2.find (key ++ '.' :: sub) <;> simp
  refine ⟨hfind, ?_, ?_⟩
  · rw [Fig.contains, Fig.contains, h1, h2]
    simp only [Value.findRef_eq, hget]
  · rw [Fig.findMetadata, Fig.findMetadata]
    cases hA : (f.focus key).findValue sub with
    | ok v => rw [(hfind v).1 hA]; rfl
    | error e =>
      cases hB : f.findValue (key ++ '.' :: sub) with
      | ok v => rw [(hfind v).2 hB] at hA; cases hA
      | error e => rfl

/-- **C26**, what `focus` does: each profile that holds a dictionary at the key holds what is below it; no other profile
is left. -/
theorem C26_focus_data (f : Fig) (m : Data) (hf : f.value = .ok m) (hm : m.WF) (key : Str) :
    ∃ n, (f.focus key).value = .ok n ∧
      (∀ pr k ks, n.at pr (k :: ks) = m.at pr (pathKeys key ++ k :: ks)) ∧
      ∀ pr, (Map.get pr n).isSome = true ↔
        (Map.get pr m).isSome = true ∧ ∃ t, m.at pr (pathKeys key) = some (.dict t) := by
  refine ⟨_, Fig.focus_value_ok hf hm key, fun pr k ks => Data.at_focus hm key pr k ks, fun pr => ?_⟩
  rw [Data.get_focus hm, Data.at, Data.dictOf]
  cases hg : Map.get pr m with
  | none => simp
  | some d =>
    simp only [Option.bind_some, Fig.focusDict_eq, Option.getD_some, Option.isSome_some, true_and]
    rw [Value.view_eq_getKeys]
    cases hgk : (Value.dict Tag.Default d).getKeys (pathKeys key) with
    | none => simp
    | some w => cases w <;> simp [Value.asDict?, Value.shape]

/-- **C26**, exactly: what is found in the focused figment at a path is not what is found below the key in the figment if
and only if a profile that shows it is overridden, at or above the key, by a non-dictionary of a profile of higher
priority. And what is found in the figment is always found in the focused one. -/
theorem C26_focus_exact (f : Fig) (m : Data) (hf : f.value = .ok m) (hm : m.WF) (key : Str) (path : List Str)
    (hp : path ≠ []) :
    ∃ v w, (f.focus key).merged = .ok v ∧ f.merged = .ok w ∧
      (v.view path ≠ w.view (pathKeys key ++ path) ↔
        m.silent Profile.Global (pathKeys key) path ∧
        ((f.profile.isCustom = true ∧ m.at f.profile (pathKeys key ++ path) ≠ none ∧
            m.hides Profile.Global (pathKeys key)) ∨
          ((f.profile.isCustom = true → m.silent f.profile (pathKeys key) path) ∧
            m.at Profile.Default (pathKeys key ++ path) ≠ none ∧
            (m.hides Profile.Global (pathKeys key) ∨
              f.profile.isCustom = true ∧ m.hides f.profile (pathKeys key))))) ∧
      (w.view (pathKeys key ++ path) ≠ none → v.view path = w.view (pathKeys key ++ path)) := by
  obtain ⟨v1, h1, w1, view1⟩ := Fig.merged_view (Fig.focus_value_ok hf hm key) (Data.wf_focus hm key)
  obtain ⟨v2, h2, w2, view2⟩ := Fig.merged_view hf hm
  refine ⟨v1, v2, h1, h2, ?_⟩
  have hat : ∀ pr, (m.focus key).at pr path = m.at pr (pathKeys key ++ path) := by
    intro pr
    cases path with
    | nil => exact absurd rfl hp
    | cons k ks => exact Data.at_focus hm key pr k ks
  have b1 := fun pr => Data.blocked_below m pr (pathKeys key) path hp
  have b2 := fun pr => Data.blocked_focus_below hm key pr path
  have hn := fun pr => Data.hides_none (m := m) (pr := pr) (keys := pathKeys key) (p := path) (hp := hp)
  rw [view1, view2]
  show ((m.focus key).layered f.profile path ≠ _ ↔ _) ∧ _
  have hsil : ∀ pr, m.silent pr (pathKeys key) path ↔ m.at pr (pathKeys key ++ path) = none ∧
      View.blocked ((m.focus key).at pr) path = false := by
    intro pr
    rw [← Bool.not_eq_true, b2]
    refine and_congr Iff.rfl ⟨fun h ⟨n, h1, h2, w, h3⟩ => h n h1 h2 w h3, fun h n h1 h2 w h3 => h ⟨n, h1, h2, w, h3⟩⟩
  have hbl : ∀ pr, (View.blocked (m.at pr) (pathKeys key ++ path) = true) ↔
      (m.hides pr (pathKeys key) ∨ View.blocked ((m.focus key).at pr) path = true) := by
    intro pr; rw [b1, b2]
  simp only [hsil]
  change ((m.focus key).layered f.profile path ≠ _ ↔ _) ∧
    (_ → (m.focus key).layered f.profile path = _)
  simp only [Data.layered]
  classical
  have hbl' : ∀ pr, View.blocked (m.at pr) (pathKeys key ++ path) =
      (decide (m.hides pr (pathKeys key)) || View.blocked ((m.focus key).at pr) path) := by
    intro pr
    rw [Bool.eq_iff_iff, hbl]; simp
  clear hbl hsil b1 b2 view1 view2 w1 w2 h1 h2
  cases hc : f.profile.isCustom with
  | true =>
    simp only [if_true, View.merge, hat, hbl']
    have g1 := hn Profile.Global
    have g2 := hn f.profile
    cases m.at Profile.Global (pathKeys key ++ path) <;>
    cases m.at f.profile (pathKeys key ++ path) <;>
    cases m.at Profile.Default (pathKeys key ++ path) <;>
    cases View.blocked ((m.focus key).at Profile.Global) path <;>
    cases View.blocked ((m.focus key).at f.profile) path <;>
    by_cases e1 : m.hides Profile.Global (pathKeys key) <;>
    by_cases e2 : m.hides f.profile (pathKeys key) <;>
    simp_all
  | false =>
    simp only [Bool.false_eq_true, if_false, View.merge, hat, hbl']
    have g1 := hn Profile.Global
    cases m.at Profile.Global (pathKeys key ++ path) <;>
    cases m.at Profile.Default (pathKeys key ++ path) <;>
    cases View.blocked ((m.focus key).at Profile.Global) path <;>
    by_cases e1 : m.hides Profile.Global (pathKeys key) <;>
    simp_all
/-- **C26, refuted**: the documented law fails when a profile of higher priority has a non-dictionary at
the key: the focused figment forgets it and shows what it hides. -/
theorem C26_focus_fails :
    ∃ (f : Fig) (m : Data), f.value = .ok m ∧ m.WF ∧
      (∃ v, (f.focus (str "a")).findValue (str "x") = .ok v) ∧ f.contains (str "a.x") = false := by
  refine ⟨{ Fig.new with value := .ok [(Profile.Default, [(str "a", Ex.d [(str "x", Ex.n 1)])]),
    (Profile.Global, [(str "a", Ex.n 5)])] }, _, rfl, by decide, ⟨Ex.n 1, rfl⟩, by decide⟩

example : Ex.data1.WF ∧ plainPath (str "b") ∧ pathKeys (str "y") ≠ [] ∧
    Ex.data1.onlyDictsAlong Profile.Global (pathKeys (str "b")) ∧ Ex.data1.onlyDictsAlong Ex.dev (pathKeys (str "b")) := by
  refine ⟨by decide, by decide, by decide, ?_, ?_⟩
  all_goals
    intro n hn w hw
    have : n = 0 ∨ n = 1 := by have : n ≤ 1 := hn; omega
    rcases this with rfl | rfl <;> cases hw

/-! ## C27 -/

/-- The data of a pair: the value nested under the key, in the global profile. -/
theorem pairProvider_data {key : Str} {x : Ser} {w : Value} (hx : x.serialize = .ok w) (hk : pathKeys key ≠ [])
    (loc : Location) (names : Str × Str) :
    ∃ d : Dict, nest key w = .dict Tag.Default d ∧
      (pairProvider key x loc names).data = .ok [(Profile.Global, d)] := by
  cases hks : pathKeys key with
  | nil => exact absurd hks hk
  | cons k ks =>
    have hn : nest key w = .dict Tag.Default [(k, Value.nestKeys ks w)] := by rw [nest_eq, hks]; rfl
    refine ⟨_, hn, ?_⟩
    simp only [pairProvider, Provider.plain, Serialized.data, Serialized.global, Serialized.globals, Serialized.from,
      Serialized.withKey, hx, hn, Value.asDict?, Profile.collect, Map.insert]

/-- **C27**: after merging `(key, value)`, where the value does not serialise to a dictionary, exactly that
value is found at the key, whatever was there and whatever profile is selected, and `find_metadata` names
the pair. (With an empty key, or one that starts with a dot, the pair gives no data but an error.) -/
theorem C27_pair_merged (f : Fig) (m : Data) (hf : f.value = .ok m) (hm : m.WF) (key : Str) (x : Ser) (w : Value)
    (hx : x.serialize = .ok w) (hd : w.asDict? = none) (hk : pathKeys key ≠ [])
    (loc loc' : Location) (names : Str × Str) (tag : Tag) (sel : Profile) :
    ((f.provideWith (pairProvider key x loc' names) .Merge loc tag).select sel).findValue key
      = .ok (w.mapTag fun _ => tag.forProfile Profile.Global) ∧
    ((f.provideWith (pairProvider key x loc' names) .Merge loc tag).select sel).findMetadata key
      = some { (pairProvider key x loc' names).metadata with provideLocation := some loc } := by
  obtain ⟨hwf, htags⟩ := Ser.serialize_fresh x w hx
  obtain ⟨d, hn, hdata⟩ := pairProvider_data hx hk loc' names
  have hdwf : d.WF := by
    rw [← Value.wf_dict' (t := Tag.Default), ← hn, nest_eq]; exact Value.wf_nestKeys _ hwf
  have hnwf : Data.WF [(Profile.Global, d)] := ⟨List.pairwise_singleton .., by simpa using hdwf⟩
  have hv : ((f.provideWith (pairProvider key x loc' names) .Merge loc tag).select sel).value
      = .ok (coalesceProfiles m (Fig.retagData tag [(Profile.Global, d)]) .Merge) := by
    simp only [Fig.select, Fig.provideWith, hf, hdata, Fig.combine]
  have hleaf : Data.at (coalesceProfiles m (Fig.retagData tag [(Profile.Global, d)]) .Merge) Profile.Global (pathKeys key)
      = some (.leaf (w.mapTag fun _ => tag.forProfile Profile.Global)) := by
    rw [Data.at_coalesce hm (Fig.wf_retagData tag hnwf)]
    refine View.merge_some ?_
    rw [Fig.at_retagData]
    have hat : Data.at [(Profile.Global, d)] Profile.Global (pathKeys key) = some (.leaf w) := by
      rw [Data.at, Data.dictOf]
      simp only [Map.get, Std.ReflCmp.compare_self, if_true, Option.getD_some]
      rw [← hn, nest_eq, ← Value.getKeys_eq_some_iff_view hd]
      have := Value.getKeys_nestKeys_self (pathKeys key) [] w
      rwa [List.append_nil, Value.getKeys_nil] at this
    cases hks : pathKeys key with
    | nil => exact absurd hks hk
    | cons k ks =>
      rw [hks] at hat
      simp only [Data.given, hat, Option.map_some, Shape.retag]
  have hfind := C11_global_wins _ _ hv (Data.wf_coalesce hm (Fig.wf_retagData tag hnwf) _) key _ hleaf
    (by rw [Value.asDict_mapTag, hd]; rfl)
  refine ⟨hfind, ?_⟩
  rw [Fig.findMetadata, hfind]
  have htag : (w.mapTag fun _ => tag.forProfile Profile.Global).tag = tag.forProfile Profile.Global := by
    rw [Value.tag_mapTag]
    have := Value.tagsAll_tag htags
    simp only [beq_iff_eq] at this
    rw [this]; rfl
  simp only [htag, Fig.select, Fig.provideWith]
  rw [Map.get_insert]
  have : compare (tag.forProfile Profile.Global) tag = .eq := Tag.compare_eq_iff_same.2 (Tag.same_forProfile _ _)
  simp [this]

/-- **C27**: and it stays so after any further operations none of which fails or gives data for the global
profile. -/
theorem C27_pair_stays (f : Fig) (m : Data) (hf : f.value = .ok m) (hm : m.WF) (key : Str) (x : Ser) (w : Value)
    (hx : x.serialize = .ok w) (hd : w.asDict? = none) (hk : pathKeys key ≠ [])
    (loc loc' : Location) (names : Str × Str) (tag : Tag)
    (ops : List Op) (c c' : BitVec 64) (g : Fig)
    (h : (f.provideWith (pairProvider key x loc' names) .Merge loc tag).run ops c = (some g, c'))
    (hw : OpsWF ops) (hok : opErrors ops = [])
    (hng : ∀ n, Except.ok n ∈ opData ops → ∀ q ∈ Map.keys n, q.same Profile.Global = false) :
    g.findValue key = .ok (w.mapTag fun _ => tag.forProfile Profile.Global) := by
  obtain ⟨hwf, htags⟩ := Ser.serialize_fresh x w hx
  obtain ⟨d, hn, hdata⟩ := pairProvider_data hx hk loc' names
  have hdwf : d.WF := by
    rw [← Value.wf_dict' (t := Tag.Default), ← hn, nest_eq]; exact Value.wf_nestKeys _ hwf
  have hnwf : Data.WF [(Profile.Global, d)] := ⟨List.pairwise_singleton .., by simpa using hdwf⟩
  have h0 : (f.provideWith (pairProvider key x loc' names) .Merge loc tag).value
      = .ok (coalesceProfiles m (Fig.retagData tag [(Profile.Global, d)]) .Merge) := by
    simp only [Fig.provideWith, hf, hdata, Fig.combine]
  have hleaf : Data.at (coalesceProfiles m (Fig.retagData tag [(Profile.Global, d)]) .Merge) Profile.Global (pathKeys key)
      = some (.leaf (w.mapTag fun _ => tag.forProfile Profile.Global)) := by
    rw [Data.at_coalesce hm (Fig.wf_retagData tag hnwf)]
    refine View.merge_some ?_
    rw [Fig.at_retagData]
    have hat : Data.at [(Profile.Global, d)] Profile.Global (pathKeys key) = some (.leaf w) := by
      rw [Data.at, Data.dictOf]
      simp only [Map.get, Std.ReflCmp.compare_self, if_true, Option.getD_some]
      rw [← hn, nest_eq, ← Value.getKeys_eq_some_iff_view hd]
      have := Value.getKeys_nestKeys_self (pathKeys key) [] w
      rwa [List.append_nil, Value.getKeys_nil] at this
    cases hks : pathKeys key with
    | nil => exact absurd hks hk
    | cons k ks =>
      rw [hks] at hat
      simp only [Data.given, hat, Option.map_some, Shape.retag]
  obtain ⟨m', hm', hwf', hat'⟩ : ∃ m' : Data, g.value = .ok m' ∧ m'.WF ∧ m'.at Profile.Global (pathKeys key)
      = some (.leaf (w.mapTag fun _ => tag.forProfile Profile.Global)) := by
    have key0 := Fig.run_keeps (pr := Profile.Global) h0 (Data.wf_coalesce hm (Fig.wf_retagData tag hnwf) _) h hw hok hng
    obtain ⟨m', h1, h2, h3⟩ := key0
    exact ⟨m', h1, h2, by rw [Data.at, h3]; exact hleaf⟩
  exact C11_global_wins _ _ hm' hwf' key _ hat' (by rw [Value.asDict_mapTag, hd]; rfl)

example : (Ser.seq [.bool true, .num (.u8 3#8)]).serialize = .ok (.ofArray [.ofBool true, .ofNum (.u8 3#8)])
    ∧ pathKeys (str "b.y") ≠ [] := ⟨rfl, by decide⟩
example : (Ex.fig1.provideWith (pairProvider (str "b.y") (.str (str "hi")) Ex.loc ([], [])) .Merge Ex.loc ⟨9⟩).findValue
    (str "b.y") = .ok (.string ((Tag.mk 9).forProfile Profile.Global) (str "hi")) := rfl

end Figment
