import Verif.Lemmas.Blame
import Verif.Props.Extract
/-!
# C45, C46: extraction errors point at the offending value and carry its provenance
-/
namespace Figment
variable [FloatOps]

/-! ## C45 -/

/-- **C45**, for `Value::deserialize`: the error's path leads, step by step, to a value that is as the error says. -/
theorem C45_deserialize (t : Ty) (ht : t.ordinary false = true) (v : Value) (hv : v.WF) (e : Error)
    (h : v.deserialize t = .error e) : e.PointsInto false false v := by
  obtain ⟨w, h1, h2, _⟩ := t.blames false ht none false v e ⟨hv, nofun⟩ h
  exact ⟨w, h1, h2⟩

theorem Fig.extract_blames {steps : List Step} (h : steps.countP Step.isObtain < 2 ^ 64)
    (hp : ∀ s ∈ steps, s.Plain) {x : Made} (hx : x ∈ (Proc.exec steps).made) {b : Bool} {t : Ty}
    (ht : t.ordinary b = true) {v : Value} (hm : x.fig.merged = .ok v) (hr : b = true → v.unreserved = true) {e : Error} :
    (x.fig.extract t = .error e → Blames b (some x.fig) false v e) ∧
    (x.fig.extractLossy t = .error e → Blames b (some x.fig) true v e) := by
  obtain ⟨hw, _, _⟩ := ((Proc.exec_inv steps h hp).made x hx).merged hm
  constructor <;> intro he
  · rw [Fig.extract, Fig.extractWith, hm] at he
    exact t.blames b ht (some x.fig) false v e ⟨hw, hr⟩ he
  · rw [Fig.extractLossy, Fig.extractWith, hm] at he
    exact t.blames b ht (some x.fig) true v e ⟨hw, hr⟩ he

/-- **C45**: the path of an extraction error leads, key by key and index by index, from the merged data to a value that
is as the error says: shown as what was found; not having the missing field; an array of the length found; at the
unknown key, or the unknown variant. All types without the crate's own magic types. -/
theorem C45_extract (steps : List Step) (h : steps.countP Step.isObtain < 2 ^ 64) (hp : ∀ s ∈ steps, s.Plain)
    (x : Made) (hx : x ∈ (Proc.exec steps).made) (t : Ty) (ht : t.ordinary false = true) (v : Value)
    (hm : x.fig.merged = .ok v) (e : Error) :
    (x.fig.extract t = .error e → e.PointsInto false false v) ∧
    (x.fig.extractLossy t = .error e → e.PointsInto false true v) := by
  constructor <;> intro he
  · obtain ⟨w, h1, h2, _⟩ := (Fig.extract_blames h hp hx ht hm nofun).1 he
    exact ⟨w, h1, h2⟩
  · obtain ⟨w, h1, h2, _⟩ := (Fig.extract_blames h hp hx ht hm nofun).2 he
    exact ⟨w, h1, h2⟩

/-- **C45**, for types with `Value`, `Tagged` and `RelativePathBuf` in them: the path leads to the value once the names
of the magic fields are skipped (see `C45_fails_magic`). -/
theorem C45_extract_magic_partial (steps : List Step) (h : steps.countP Step.isObtain < 2 ^ 64)
    (hp : ∀ s ∈ steps, s.Plain) (x : Made) (hx : x ∈ (Proc.exec steps).made) (t : Ty) (ht : t.ordinary true = true)
    (v : Value) (hm : x.fig.merged = .ok v) (hr : v.unreserved = true) (e : Error) :
    (x.fig.extract t = .error e → e.PointsInto true false v) ∧
    (x.fig.extractLossy t = .error e → e.PointsInto true true v) := by
  constructor <;> intro he
  · obtain ⟨w, h1, h2, _⟩ := (Fig.extract_blames h hp hx ht hm fun _ => hr).1 he
    exact ⟨w, h1, h2⟩
  · obtain ⟨w, h1, h2, _⟩ := (Fig.extract_blames h hp hx ht hm fun _ => hr).2 he
    exact ⟨w, h1, h2⟩

omit [FloatOps] in
theorem Error.withPath_head (path : Str) (e : Error) :
    (e.withPath path).head =
      { e.head with path := e.head.path ++ (Str.splitOn '.' path).filter fun k => !k.isEmpty } := by
  cases e <;> rfl

omit [FloatOps] in
theorem takeWhile_all {α : Type} {p : α → Bool} {l : List α} (h : ∀ x ∈ l, p x = true) : l.takeWhile p = l := by
  induction l with
  | nil => rfl
  | cons a l ih => rw [List.takeWhile_cons_of_pos (h a (.head _)), ih fun x hx => h x (.tail _ hx)]

omit [FloatOps] in
theorem filter_eq_pathKeys {path : Str} (h : plainPath path ∨ path = []) :
    ((Str.splitOn '.' path).filter fun k => !k.isEmpty) = pathKeys path := by
  rcases h with h | rfl
  · have h1 : ∀ k ∈ Str.splitOn '.' path, (!k.isEmpty) = true := by
      intro k hk
      cases k with
      | nil => exact absurd rfl (h _ hk)
      | cons => rfl
    rw [List.filter_eq_self.2 h1, pathKeys]
    exact (takeWhile_all h1).symm
  · rfl

omit [FloatOps] in
theorem Value.leads_of_getKeys {ks : List Str} {v w u : Value} {b : Bool} {p : List Str} (h : v.getKeys ks = some w)
    (hw : w.Leads b p u) : v.Leads b (ks ++ p) u := by
  induction ks generalizing v with
  | nil => rw [Value.getKeys_nil] at h; cases h; exact hw
  | cons k ks ih =>
    cases v with
    | dict t d =>
      rw [Value.getKeys_dict_cons] at h
      cases hg : Map.get k d with
      | none => rw [hg] at h; cases h
      | some x => rw [hg] at h; exact .key hg (ih h)
    | _ => rw [Value.getKeys_leaf_cons rfl] at h; cases h

theorem Fig.extractInner_error {x : Fig} {t : Ty} {path : Str} {v u : Value} (hm : x.merged = .ok v)
    (hu : x.findValue path = .ok u) {e : Error} {l : Bool}
    (he : (if l then x.extractInnerLossy path t else x.extractInner path t) = .error e) :
    v.getKeys (pathKeys path) = some u ∧ ∃ e', t.de ⟨some x, l⟩ u = .error e' ∧ e = e'.withPath path := by
  constructor
  · rw [Fig.findValue, hm] at hu
    simp only [Value.find_eq] at hu
    cases hk : v.getKeys (pathKeys path) with
    | none => rw [hk] at hu; cases hu
    | some w => rw [hk] at hu; cases hu; rfl
  · cases l with
    | false =>
      simp only [Bool.false_eq_true, if_false] at he
      rw [Fig.extractInner, Fig.extractInnerWith, hu] at he
      dsimp only at he
      cases h1 : t.de (De.strict x) u with
      | ok y => rw [h1] at he; cases he
      | error e' => rw [h1] at he; cases he; exact ⟨e', h1, rfl⟩
    | true =>
      simp only [if_true] at he
      rw [Fig.extractInnerLossy, Fig.extractInnerWith, hu] at he
      dsimp only at he
      cases h1 : t.de (De.lossyOf x) u with
      | ok y => rw [h1] at he; cases he
      | error e' => rw [h1] at he; cases he; exact ⟨e', h1, rfl⟩

theorem Fig.extractInner_blames {steps : List Step} (h : steps.countP Step.isObtain < 2 ^ 64)
    (hp : ∀ s ∈ steps, s.Plain) {x : Made} (hx : x ∈ (Proc.exec steps).made) {b : Bool} {t : Ty}
    (ht : t.ordinary b = true) {path : Str} (hpath : plainPath path ∨ path = []) {v : Value}
    (hm : x.fig.merged = .ok v) (hr : b = true → v.unreserved = true)
    {e : Error} {l : Bool}
    (he : (if l then x.fig.extractInnerLossy path t else x.fig.extractInner path t) = .error e)
    (hfound : ∃ u, x.fig.findValue path = .ok u) :
    ∃ inner w, e.head.path = inner ++ pathKeys path ∧ v.Leads b (pathKeys path ++ inner) w ∧
      w.Fits l inner.getLast? e.head.kind ∧
      ((∀ m, e.head.kind ≠ .message m) ∨ ((∀ u, x.fig.findValue path = .ok u → u.uniform = true) ∧
          (t.loose = false ∨ inner ≠ [])) →
        e.head.tag = w.tag ∧ e.head.metadata = Map.get w.tag x.fig.metadata ∧
        e.head.profile = some (w.tag.profile.getD x.fig.profile)) := by
  obtain ⟨u, hu⟩ := hfound
  obtain ⟨hw, _, hn⟩ := ((Proc.exec_inv steps h hp).made x hx).merged hm
  obtain ⟨hg, e', h1, rfl⟩ := Fig.extractInner_error hm hu he
  have hur : b = true → u.unreserved = true := fun hb => Value.keysAll_getKeys (hr hb) hg
  have hfine : u.Fine b := ⟨Value.wf_getKeys hw hg, hur⟩
  rw [Error.withPath_head, filter_eq_pathKeys hpath]
  by_cases hk : (∀ m, e'.head.kind ≠ .message m) ∨ (u.uniform = true ∧ (t.loose = false ∨ e'.head.path ≠ []))
  · obtain ⟨w, h2, h3, h4⟩ := Ty.blames_sure ht hfine (Value.insideNamed_getKeys hn hg) h1 hk
    exact ⟨e'.head.path, w, rfl, Value.leads_of_getKeys hg h2, h3, fun _ => h4⟩
  · obtain ⟨w, h2, h3, _⟩ := t.blames b ht (some x.fig) l u e' hfine h1
    exact ⟨e'.head.path, w, rfl, Value.leads_of_getKeys hg h2, h3,
      fun hc => absurd (hc.imp_right fun hc => ⟨hc.1 u hu, hc.2⟩) hk⟩

/-- **C45**, for `extract_inner`: the path is that of the error inside the requested value, followed by the requested
path; the other way round, it leads from the merged data to a value that is as the error says. Missing: the other way
round (see `C45_fails`). -/
theorem C45_extract_inner_partial (steps : List Step) (h : steps.countP Step.isObtain < 2 ^ 64)
    (hp : ∀ s ∈ steps, s.Plain) (x : Made) (hx : x ∈ (Proc.exec steps).made) (t : Ty) (ht : t.ordinary false = true)
    (path : Str) (hpath : plainPath path ∨ path = []) (v : Value) (hm : x.fig.merged = .ok v)
    (hfound : ∃ u, x.fig.findValue path = .ok u) (e : Error) (l : Bool)
    (he : (if l then x.fig.extractInnerLossy path t else x.fig.extractInner path t) = .error e) :
    ∃ inner w, e.head.path = inner ++ pathKeys path ∧ v.Leads false (pathKeys path ++ inner) w ∧
      w.Fits l inner.getLast? e.head.kind := by
  obtain ⟨inner, w, h1, h2, h3, _⟩ := Fig.extractInner_blames h hp hx ht hpath hm nofun he hfound
  exact ⟨inner, w, h1, h2, h3⟩

/-- Data of one provider, `{ "a" = { "b" = true } }`. -/
def Ex.badFig : Fig :=
  ⟨Profile.Default, [(⟨1⟩, Metadata.named (str "one"))],
    .ok [(Profile.Default, [(str "a", .dict ⟨1⟩ [(str "b", .bool ⟨1⟩ true)])])]⟩

/-- A struct with a field `b` of the type. -/
def Ex.badTy (t : Ty) : Ty := .struct (str "S") (str "S") false [(str "b", none, t)]

/-- C45 fails for `extract_inner`: the path of the error, `b.a`, leads nowhere. -/
theorem C45_fails : ∃ v e, Ex.badFig.merged = .ok v ∧
    Ex.badFig.extractInner (str "a") (Ex.badTy .string) = .error e ∧ e.head.path = [str "b", str "a"] ∧
    ∀ magic w, ¬ v.Leads magic e.head.path w := by
  refine ⟨_, _, rfl, rfl, rfl, ?_⟩
  intro magic w h
  cases h with
  | key hk _ => exact absurd hk nofun
  | skip _ hk _ => exact absurd hk (by decide)

/-- C45 fails for magic types: the path of the error has the name of a magic field in it, and leads nowhere. -/
theorem C45_fails_magic : ∃ v e, Ex.badFig.merged = .ok v ∧
    Ex.badFig.extract (.map (Ex.badTy (.tagged .string))) = .error e ∧
    e.head.path = [str "a", str "b", str "___figment_tagged_value"] ∧ ∀ w, ¬ v.Leads false e.head.path w := by
  refine ⟨_, _, rfl, rfl, rfl, ?_⟩
  intro w h
  cases h with
  | skip h => cases h
  | key h1 h =>
    cases h1
    cases h with
    | skip h => cases h
    | key h1 h =>
      cases h1
      cases h with
      | skip h => cases h

example : (Ex.badTy .string).ordinary false = true := by decide
example : (Ty.map (Ex.badTy (.tagged .string))).ordinary true = true := by decide

/-- The history of one figment that merges `Ex.prov1`. -/
example : ∃ x v e, (Proc.exec Ex.steps).made[2]? = some x ∧ x.fig.merged = .ok v ∧
    x.fig.extract (.map .bool) = .error e ∧ e.head.path ≠ [] := ⟨_, _, _, rfl, rfl, rfl, by decide⟩

/-! ## C46 -/

/-- **C46**: an extraction error carries the tag of the value its path leads to, the metadata the figment has for that
tag, and the tag's profile or else the selected one. Missing: messages, which are those of conversions and that 128-bit
integers are not supported, if an array of the data has elements of several providers, or if it is the whole that is
converted (see `C46_fails_element`, `C46_fails_128`). -/
theorem C46_extract_partial (steps : List Step) (h : steps.countP Step.isObtain < 2 ^ 64) (hp : ∀ s ∈ steps, s.Plain)
    (x : Made) (hx : x ∈ (Proc.exec steps).made) (b : Bool) (t : Ty) (ht : t.ordinary b = true) (v : Value)
    (hm : x.fig.merged = .ok v) (hr : b = true → v.unreserved = true) (e : Error)
    (he : x.fig.extract t = .error e ∨ x.fig.extractLossy t = .error e)
    (hk : (∀ m, e.head.kind ≠ .message m) ∨ (v.uniform = true ∧ (t.loose = false ∨ e.head.path ≠ []))) :
    ∃ l w, v.Leads b e.head.path w ∧ w.Fits l e.head.path.getLast? e.head.kind ∧ e.head.tag = w.tag ∧
      e.head.metadata = Map.get w.tag x.fig.metadata ∧ e.head.profile = some (w.tag.profile.getD x.fig.profile) := by
  obtain ⟨hw, _, hn⟩ := ((Proc.exec_inv steps h hp).made x hx).merged hm
  rcases he with he | he
  · rw [Fig.extract, Fig.extractWith, hm] at he
    exact ⟨false, Ty.blames_sure ht ⟨hw, hr⟩ hn he hk⟩
  · rw [Fig.extractLossy, Fig.extractWith, hm] at he
    exact ⟨true, Ty.blames_sure ht ⟨hw, hr⟩ hn he hk⟩

/-- **C46**, for `extract_inner`: `inner` is the path inside of the value found. -/
theorem C46_extract_inner_partial (steps : List Step) (h : steps.countP Step.isObtain < 2 ^ 64)
    (hp : ∀ s ∈ steps, s.Plain) (x : Made) (hx : x ∈ (Proc.exec steps).made) (b : Bool) (t : Ty)
    (ht : t.ordinary b = true) (path : Str) (hpath : plainPath path ∨ path = []) (v : Value) (hm : x.fig.merged = .ok v)
    (hr : b = true → v.unreserved = true) (u : Value) (hfound : x.fig.findValue path = .ok u) (e : Error) (l : Bool)
    (he : (if l then x.fig.extractInnerLossy path t else x.fig.extractInner path t) = .error e) :
    ∃ inner w, e.head.path = inner ++ pathKeys path ∧ v.Leads b (pathKeys path ++ inner) w ∧
      w.Fits l inner.getLast? e.head.kind ∧
      ((∀ m, e.head.kind ≠ .message m) ∨ (u.uniform = true ∧ (t.loose = false ∨ inner ≠ [])) →
        e.head.tag = w.tag ∧ e.head.metadata = Map.get w.tag x.fig.metadata ∧
        e.head.profile = some (w.tag.profile.getD x.fig.profile)) := by
  obtain ⟨inner, w, h1, h2, h3, h4⟩ := Fig.extractInner_blames h hp hx ht hpath hm hr he ⟨u, hfound⟩
  refine ⟨inner, w, h1, h2, h3, fun hk => h4 (hk.imp_right fun hk => ⟨fun u' hu => ?_, hk.2⟩)⟩
  rw [hfound] at hu
  cases hu
  exact hk.1

/-- **C46**, for every error: the provenance it carries is that of the value its path leads to; or it is a message, the
value is an element of an array, and the provenance is that of the array; or it is a message, the type is one whose
values are converted or refused outside of the deserialiser, and it carries neither a path nor any provenance. -/
theorem C46_extract_exact (steps : List Step) (h : steps.countP Step.isObtain < 2 ^ 64) (hp : ∀ s ∈ steps, s.Plain)
    (x : Made) (hx : x ∈ (Proc.exec steps).made) (b : Bool) (t : Ty) (ht : t.ordinary b = true) (v : Value)
    (hm : x.fig.merged = .ok v) (hr : b = true → v.unreserved = true) (e : Error) (l : Bool)
    (he : (if l then x.fig.extractLossy t else x.fig.extract t) = .error e) :
    ∃ w, v.Leads b e.head.path w ∧ w.Fits l e.head.path.getLast? e.head.kind ∧
      (((e.head.tag = w.tag ∨ ((∃ m, e.head.kind = .message m) ∧ v.LeadsInto b e.head.path e.head.tag w)) ∧
        e.head.metadata = Map.get e.head.tag x.fig.metadata ∧
        e.head.profile = some (e.head.tag.profile.getD x.fig.profile)) ∨
      (t.loose = true ∧ (∃ m, e.head.kind = .message m) ∧ e.head.path = [] ∧ e.head.tag = Tag.Default ∧
        e.head.metadata = none ∧ e.head.profile = none)) := by
  obtain ⟨hw, _, hn⟩ := ((Proc.exec_inv steps h hp).made x hx).merged hm
  have he' : t.de ⟨some x.fig, l⟩ v = .error e := by
    cases l with
    | false =>
      simp only [Bool.false_eq_true, if_false] at he
      rw [Fig.extract, Fig.extractWith, hm] at he
      exact he
    | true =>
      simp only [if_true] at he
      rw [Fig.extractLossy, Fig.extractWith, hm] at he
      exact he
  obtain ⟨w, h1, h2, h3 | ⟨hl, m, rfl⟩⟩ := Ty.blames_always ht ⟨hw, hr⟩ hn he'
  · exact ⟨w, h1, h2, .inl h3⟩
  · exact ⟨w, h1, h2, .inr ⟨hl, ⟨m, rfl⟩, rfl, rfl, rfl, rfl⟩⟩

/-- **C46**, for every error of `extract_inner`: `inner` is the path inside of the value `u` found. -/
theorem C46_extract_inner_exact (steps : List Step) (h : steps.countP Step.isObtain < 2 ^ 64)
    (hp : ∀ s ∈ steps, s.Plain) (x : Made) (hx : x ∈ (Proc.exec steps).made) (b : Bool) (t : Ty)
    (ht : t.ordinary b = true) (path : Str) (hpath : plainPath path ∨ path = []) (v : Value) (hm : x.fig.merged = .ok v)
    (hr : b = true → v.unreserved = true) (u : Value) (hfound : x.fig.findValue path = .ok u) (e : Error) (l : Bool)
    (he : (if l then x.fig.extractInnerLossy path t else x.fig.extractInner path t) = .error e) :
    ∃ inner w, e.head.path = inner ++ pathKeys path ∧ u.Leads b inner w ∧ w.Fits l inner.getLast? e.head.kind ∧
      (((e.head.tag = w.tag ∨ ((∃ m, e.head.kind = .message m) ∧ u.LeadsInto b inner e.head.tag w)) ∧
        e.head.metadata = Map.get e.head.tag x.fig.metadata ∧
        e.head.profile = some (e.head.tag.profile.getD x.fig.profile)) ∨
      (t.loose = true ∧ (∃ m, e.head.kind = .message m) ∧ inner = [] ∧ e.head.tag = Tag.Default ∧
        e.head.metadata = none ∧ e.head.profile = none)) := by
  obtain ⟨hw, _, hn⟩ := ((Proc.exec_inv steps h hp).made x hx).merged hm
  obtain ⟨hg, e', h1, rfl⟩ := Fig.extractInner_error hm hfound he
  rw [Error.withPath_head, filter_eq_pathKeys hpath]
  obtain ⟨w, h2, h3, h4 | ⟨hl, m, rfl⟩⟩ := Ty.blames_always ht
    ⟨Value.wf_getKeys hw hg, fun hb => Value.keysAll_getKeys (hr hb) hg⟩ (Value.insideNamed_getKeys hn hg) h1
  · exact ⟨e'.head.path, w, rfl, h2, h3, .inl h4⟩
  · exact ⟨[], w, rfl, h2, h3, .inr ⟨hl, ⟨m, rfl⟩, rfl, rfl, rfl, rfl⟩⟩

/-- An error of the history's figment number 2 with the tag, the metadata and the profile of `Ex.prov1`. -/
example : ∃ x e, (Proc.exec Ex.steps).made[2]? = some x ∧ x.fig.extract (.map .bool) = .error e ∧
    e.head.metadata.isSome ∧ e.head.profile.isSome ∧ ∀ m, e.head.kind ≠ .message m :=
  ⟨_, _, rfl, rfl, rfl, rfl, nofun⟩

example : ∃ x e u, (Proc.exec Ex.steps).made[2]? = some x ∧ x.fig.findValue (str "b") = .ok u ∧
    x.fig.extractInner (str "b") (.map .bool) = .error e ∧ e.head.path.length = 2 ∧
    e.head.metadata.isSome ∧ ∀ m, e.head.kind ≠ .message m := ⟨_, _, _, rfl, rfl, rfl, rfl, rfl, nofun⟩

/-- What C46 leaves out: the error that a 128-bit integer is not supported says nothing of the value's provenance. -/
theorem C46_fails_128 : ∃ v e, Ex.badFig.findValue (str "a.b") = .ok v ∧ (Map.get v.tag Ex.badFig.metadata).isSome ∧
    Ex.badFig.extractInner (str "a.b") (.int .u128) = .error e ∧ e.head.tag = Tag.Default ∧
    e.head.metadata = none ∧ e.head.profile = none := ⟨_, _, rfl, rfl, rfl, rfl, rfl, rfl⟩

end Figment
