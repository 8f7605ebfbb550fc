import Verif.Lemmas.Maps
import Verif.Props.Complains
import Verif.Props.Kept
/-!
# C79: maps whose keys are not plain strings

The specification is in Spec/Keys: `KeyIs`, `KeyFault` and `KeyText` say what a key is as a value of the type of the keys,
what is wrong with it, and how it is written. `MapMeans` and `MapComplains`, in Spec/Maps, say what a value is as a map, and
what is wrong with it.

Such a map may be part of another type (`Ty.keyed` in Model/Types): C30, C45, C46, C63 and C69 are about all types, and
so about those. The theorems here are about a type that is such a map.
-/
namespace Figment
variable [FloatOps]

/-! ## Reading -/

/-- **C79**: of every text, either it is a key of the type, and then only one, or it has a fault, and then only one. -/
theorem C79_key (kt : Ty) (s : Str) :
    ((∃ x, kt.KeyIs s x ∧ ∀ y, kt.KeyIs s y → y = x) ∧ ∀ k, ¬ kt.KeyFault s k) ∨
    ((∃ k, kt.KeyFault s k ∧ ∀ k', kt.KeyFault s k' → k' = k) ∧ ∀ x, ¬ kt.KeyIs s x) := by
  have ho := Ty.deKey_ok kt s
  have hf := Ty.deKey_error kt s
  cases h : kt.deKey s with
  | ok x =>
    refine .inl ⟨⟨x, (ho x).1 h, fun y hy => ?_⟩, fun k hk => ?_⟩
    · have := (ho y).2 hy
      rw [h] at this
      exact (Except.ok.inj this).symm
    · have := (hf _).2 ⟨k, rfl, hk⟩
      rw [h] at this
      cases this
  | error e =>
    obtain ⟨k, rfl, hk⟩ := (hf e).1 h
    refine .inr ⟨⟨k, hk, fun k' hk' => ?_⟩, fun x hx => ?_⟩
    · have := (hf _).2 ⟨k', rfl, hk'⟩
      rw [h] at this
      exact (congrArg (fun e : Error => e.head.kind) (Except.error.inj this)).symm
    · have := (ho x).2 hx
      rw [h] at this
      cases this

/-- **C79**: what `extract` and `extract_lossy` give as a map, exactly: the entries `es`, where the data is a dictionary with
as many entries, the keys of which are those of `es`, and the values of which, read as the type of the values, are those of
`es`, in the same order. (C63 has the same for types that have such maps in them.) -/
theorem C79_extract (steps : List Step) (h : steps.countP Step.isObtain < 2 ^ 64) (hp : ∀ s ∈ steps, s.Plain)
    (x : Made) (hx : x ∈ (Proc.exec steps).made) (b : Bool) (kt t : Ty) (ht : t.proper b = true) (v : Value)
    (hm : x.fig.merged = .ok v) (hr : b = true → v.unreserved = true) (y : Val) :
    (x.fig.extract (.keyed kt t) = .ok y ↔ ∃ es, y = .entries es ∧ kt.MapMeans false x.fig.fileAt t v es) ∧
    (x.fig.extractLossy (.keyed kt t) = .ok y ↔ ∃ es, y = .entries es ∧ kt.MapMeans true x.fig.fileAt t v es) := by
  rw [← Ty.means_keyed, ← Ty.means_keyed]
  exact C63_extract steps h hp x hx b (.keyed kt t) ht v hm hr y

/-- **C79**: what `extract_inner` and `extract_inner_lossy` give as a map, exactly. -/
theorem C79_extract_inner (steps : List Step) (h : steps.countP Step.isObtain < 2 ^ 64) (hp : ∀ s ∈ steps, s.Plain)
    (x : Made) (hx : x ∈ (Proc.exec steps).made) (b : Bool) (kt t : Ty) (ht : t.proper b = true) (v : Value)
    (hm : x.fig.merged = .ok v) (hr : b = true → v.unreserved = true) (path : Str) (y : Val) :
    (x.fig.extractInner path (.keyed kt t) = .ok y ↔ ∃ u es, v.getKeys (pathKeys path) = some u ∧ y = .entries es ∧
      kt.MapMeans false x.fig.fileAt t u es) ∧
    (x.fig.extractInnerLossy path (.keyed kt t) = .ok y ↔ ∃ u es, v.getKeys (pathKeys path) = some u ∧ y = .entries es ∧
      kt.MapMeans true x.fig.fileAt t u es) := by
  obtain ⟨h1, h2⟩ := C63_extract_inner steps h hp x hx b (.keyed kt t) ht v hm hr path y
  rw [h1, h2]
  simp only [Ty.means_keyed, exists_and_left]
  trivial

/-- **C79**: what `Value::deserialize` gives as a map, exactly. -/
theorem C79_deserialize (kt t : Ty) (ht : t.proper false = true) (v : Value) (hv : v.WF) (y : Val) :
    v.deserialize (.keyed kt t) = .ok y ↔ ∃ es, y = .entries es ∧ kt.MapMeans false (fun _ => none) t v es := by
  rw [← Ty.means_keyed]
  exact Ty.means none false false (fun _ => ⟨rfl, rfl⟩) (.keyed kt t) ht v ⟨hv, nofun⟩ y

/-- **C79**: the error of `extract` and `extract_lossy` as a map, exactly: the first fault of an entry, in the order of the
keys, and of its key before its value. The path of a fault of a key is that of the entry. -/
theorem C79_error (steps : List Step) (h : steps.countP Step.isObtain < 2 ^ 64) (hp : ∀ s ∈ steps, s.Plain)
    (x : Made) (hx : x ∈ (Proc.exec steps).made) (b : Bool) (kt t : Ty) (ht : t.proper b = true) (v : Value)
    (hm : x.fig.merged = .ok v) (hr : b = true → v.unreserved = true) (p : List Str) (k : Kind) :
    ((∃ e, x.fig.extract (.keyed kt t) = .error e ∧ e.head.path = p ∧ e.head.kind = k) ↔
      kt.MapComplains false x.fig.fileAt t v p k) ∧
    ((∃ e, x.fig.extractLossy (.keyed kt t) = .error e ∧ e.head.path = p ∧ e.head.kind = k) ↔
      kt.MapComplains true x.fig.fileAt t v p k) := by
  rw [← Ty.complains_keyed, ← Ty.complains_keyed]
  obtain ⟨hw, _, _⟩ := ((Proc.exec_inv steps h hp).made x hx).merged hm
  rw [Fig.extract, Fig.extractWith, hm, Fig.extractLossy, Fig.extractWith, hm]
  exact ⟨Ty.complains (some x.fig) false b nofun k (.keyed kt t) ht v ⟨hw, hr⟩ p,
    Ty.complains (some x.fig) true b nofun k (.keyed kt t) ht v ⟨hw, hr⟩ p⟩

/-- **C79**: the error of `extract_inner` and `extract_inner_lossy` as a map, exactly. -/
theorem C79_error_inner (steps : List Step) (h : steps.countP Step.isObtain < 2 ^ 64) (hp : ∀ s ∈ steps, s.Plain)
    (x : Made) (hx : x ∈ (Proc.exec steps).made) (b : Bool) (kt t : Ty) (ht : t.proper b = true) (v : Value)
    (hm : x.fig.merged = .ok v) (hr : b = true → v.unreserved = true) (path : Str) (p : List Str) (k : Kind) :
    ((∃ e, x.fig.extractInner path (.keyed kt t) = .error e ∧ e.head.path = p ∧ e.head.kind = k) ↔
      (v.getKeys (pathKeys path) = none ∧ p = [] ∧ k = .missingField path) ∨
      ∃ u p', v.getKeys (pathKeys path) = some u ∧ p = p' ++ (Str.splitOn '.' path).filter (fun key => !key.isEmpty) ∧
        kt.MapComplains false x.fig.fileAt t u p' k) ∧
    ((∃ e, x.fig.extractInnerLossy path (.keyed kt t) = .error e ∧ e.head.path = p ∧ e.head.kind = k) ↔
      (v.getKeys (pathKeys path) = none ∧ p = [] ∧ k = .missingField path) ∨
      ∃ u p', v.getKeys (pathKeys path) = some u ∧ p = p' ++ (Str.splitOn '.' path).filter (fun key => !key.isEmpty) ∧
        kt.MapComplains true x.fig.fileAt t u p' k) := by
  obtain ⟨hw, _, _⟩ := ((Proc.exec_inv steps h hp).made x hx).merged hm
  simp only [← Ty.complains_keyed]
  have key := fun l u (hu : v.getKeys (pathKeys path) = some u) p => Ty.complains (some x.fig) l b nofun k (.keyed kt t) ht u
    ⟨Value.wf_getKeys hw hu, fun hb => Value.keysAll_getKeys (hr hb) hu⟩ p
  constructor
  · rw [Fig.extractInner, Fig.extractInnerWith_fails hm]
    exact or_congr Iff.rfl (exists_congr fun u => exists_congr fun p' => and_congr_right fun hu =>
      and_congr_right fun _ => key false u hu p')
  · rw [Fig.extractInnerLossy, Fig.extractInnerWith_fails hm]
    exact or_congr Iff.rfl (exists_congr fun u => exists_congr fun p' => and_congr_right fun hu =>
      and_congr_right fun _ => key true u hu p')

/-- **C79**: the error of a key that is not one carries the tag of the value of its entry, so the metadata of the provider
of that value, and the profile it is from. -/
theorem C79_source (steps : List Step) (h : steps.countP Step.isObtain < 2 ^ 64) (hp : ∀ s ∈ steps, s.Plain)
    (x : Made) (hx : x ∈ (Proc.exec steps).made) (b : Bool) (kt t : Ty) (ht : t.proper b = true) (tag : Tag) (d : Dict)
    (hm : x.fig.merged = .ok (.dict tag d)) (hr : b = true → (Value.dict tag d).unreserved = true)
    (i : Nat) (s : Str) (w : Value) (hi : d[i]? = some (s, w)) (k : Kind) (hk : kt.KeyFault s k)
    (hb : ∀ j, j < i → ∀ e, d[j]? = some e → (∃ x, kt.KeyIs e.1 x) ∧ ∃ y, t.Means false x.fig.fileAt e.2 y) :
    ∃ e, x.fig.extract (.keyed kt t) = .error e ∧ e.head.kind = k ∧ e.head.path = [s] ∧ e.head.tag = w.tag ∧
      e.head.metadata = Map.get w.tag x.fig.metadata ∧ e.head.profile = some (w.tag.profile.getD x.fig.profile) := by
  obtain ⟨hw, _, hn⟩ := ((Proc.exec_inv steps h hp).made x hx).merged hm
  have hfine : (Value.dict tag d).Fine b := ⟨hw, hr⟩
  have hkey := (Ty.deKey_error kt s _).2 ⟨k, rfl, hk⟩
  have hloop := keyedLoop_key (run := t.de) (de := De.strict x.fig) d i s w hi hkey fun j hj e he =>
    (hb j hj e he).imp (fun ⟨y, hy⟩ => ⟨y, (Ty.deKey_ok kt _ _).2 hy⟩) fun ⟨y, hy⟩ =>
      ⟨y, (Ty.means (some x.fig) false b nofun t ht e.2 (hfine.dict e (List.mem_of_getElem? he)) y).2 hy⟩
  have hwt : w.tag.isDefault = false := by
    exact Tag.not_isDefault_of_named
      (Value.Leads.named (b := false) (Value.tagsAllD_iff.1 hn _ (List.mem_of_getElem? hi)) (.here w)).1
  refine ⟨De.err ⟨some x.fig, false⟩ tag (MapDe.err s w (Error.ofKind k)), ?_, ?_⟩
  · rw [Fig.extract, Fig.extractWith, hm]
    dsimp only
    rw [Ty.de]
    dsimp only
    rw [De.deserializeAny]
    dsimp only [keyedVisitor]
    rw [hloop]
    rfl
  · obtain ⟨h1, h2, _, h3⟩ := De.err_head ⟨some x.fig, false⟩ tag (MapDe.err s w (Error.ofKind k))
    obtain ⟨h4, h5⟩ := De.err_resolved (some x.fig) false tag (MapDe.err s w (Error.ofKind k)) nofun
    have h6 : (MapDe.err s w (Error.ofKind k)).head.tag = w.tag := rfl
    rw [h6, hwt] at h3
    rw [h3] at h4 h5
    exact ⟨h2, h1, h3, h4, h5⟩

/-- **C79**: with keys of the types of which no text is a key (numbers, `bool`, units, `Option`, newtypes, sequences, maps
and structs), only the empty dictionary is a map. -/
theorem C79_never (steps : List Step) (h : steps.countP Step.isObtain < 2 ^ 64) (hp : ∀ s ∈ steps, s.Plain)
    (x : Made) (hx : x ∈ (Proc.exec steps).made) (b : Bool) (kt t : Ty) (ht : t.proper b = true) (v : Value)
    (hm : x.fig.merged = .ok v) (hr : b = true → v.unreserved = true) (text : Str) (hkt : kt.wants = some text)
    (path : Str) (y : Val) :
    (x.fig.extractInner path (.keyed kt t) = .ok y ↔
      y = .entries [] ∧ ∃ tag, v.getKeys (pathKeys path) = some (.dict tag [])) ∧
    (x.fig.extractInnerLossy path (.keyed kt t) = .ok y ↔
      y = .entries [] ∧ ∃ tag, v.getKeys (pathKeys path) = some (.dict tag [])) ∧
    ∀ tag s w d, v.getKeys (pathKeys path) = some (.dict tag ((s, w) :: d)) →
      ∃ e, x.fig.extractInner path (.keyed kt t) = .error e ∧ e.head.kind = .invalidType (.str s) text := by
  have hno : ∀ s y, ¬ kt.KeyIs s y := by
    intro s y hy
    cases kt <;> first | exact hy | exact nomatch hkt
  have hfault : ∀ s, kt.KeyFault s (.invalidType (.str s) text) := by
    intro s
    cases kt <;> first | exact ⟨_, hkt, rfl⟩ | exact nomatch hkt
  have key : ∀ lossy, (∃ u es, v.getKeys (pathKeys path) = some u ∧ y = .entries es ∧
      kt.MapMeans lossy x.fig.fileAt t u es) ↔ y = .entries [] ∧ ∃ tag, v.getKeys (pathKeys path) = some (.dict tag []) := by
    intro lossy
    constructor
    · rintro ⟨u, es, hu, rfl, tag, d, rfl, hl, hd⟩
      cases d with
      | nil => exact ⟨by rw [List.length_eq_zero_iff.1 hl.symm], tag, hu⟩
      | cons e d =>
        cases es with
        | nil => cases hl
        | cons e' es => exact absurd (hd 0 e.1 e.2 e'.1 e'.2 rfl rfl).1 (hno _ _)
    · rintro ⟨rfl, tag, hu⟩
      exact ⟨_, [], hu, rfl, tag, [], rfl, rfl, fun _ _ _ _ _ h => nomatch h⟩
  refine ⟨?_, ?_, fun tag s w d hu => ?_⟩
  · rw [(C79_extract_inner steps h hp x hx b kt t ht v hm hr path y).1, key]
  · rw [(C79_extract_inner steps h hp x hx b kt t ht v hm hr path y).2, key]
  · obtain ⟨e, he, _, hk⟩ := (C79_error_inner steps h hp x hx b kt t ht v hm hr path
      ([s] ++ (Str.splitOn '.' path).filter (fun key => !key.isEmpty)) (.invalidType (.str s) text)).1.2
      (.inr ⟨_, _, hu, rfl, .inr ⟨tag, _, rfl, 0, s, w, rfl, .inl ⟨rfl, hfault s⟩, fun j hj => absurd hj (Nat.not_lt_zero j)⟩⟩)
    exact ⟨e, he, hk⟩

/-- **C79**: with keys that are strings, a map is what it is as a map with string keys (C63). -/
theorem C79_strings (steps : List Step) (h : steps.countP Step.isObtain < 2 ^ 64) (hp : ∀ s ∈ steps, s.Plain)
    (x : Made) (hx : x ∈ (Proc.exec steps).made) (b : Bool) (t : Ty) (ht : t.proper b = true) (v : Value)
    (hm : x.fig.merged = .ok v) (hr : b = true → v.unreserved = true) (m : List (Str × Val)) :
    (x.fig.extract (.map t) = .ok (.map m) ↔
      x.fig.extract (.keyed .string t) = .ok (.entries (m.map fun e => (.str e.1, e.2)))) ∧
    (x.fig.extractLossy (.map t) = .ok (.map m) ↔
      x.fig.extractLossy (.keyed .string t) = .ok (.entries (m.map fun e => (.str e.1, e.2)))) := by
  have key : ∀ lossy, (Ty.map t).Means lossy x.fig.fileAt v (.map m) ↔
      Ty.string.MapMeans lossy x.fig.fileAt t v (m.map fun e => (.str e.1, e.2)) := by
    intro lossy
    rw [Ty.Means, Ty.MapMeans]
    constructor
    · rintro ⟨tag, d, l, rfl, hl, hks, hd⟩
      cases hl
      refine ⟨tag, d, rfl, by simpa using congrArg List.length hks, fun i s w y z h1 h2 => ?_⟩
      rw [List.getElem?_map] at h2
      cases h3 : m[i]? with
      | none => rw [h3] at h2; cases h2
      | some e =>
        rw [h3] at h2
        cases h2
        have h4 := congrArg (fun l => l[i]?) hks
        simp only [List.getElem?_map, h1, h3, Option.map_some, Option.some.injEq] at h4
        subst h4
        exact ⟨rfl, hd i _ w e.2 h1 h3⟩
    · rintro ⟨tag, d, rfl, hl, hd⟩
      have hks : d.map (·.1) = m.map (·.1) := by
        apply List.ext_getElem?
        intro i
        rw [List.getElem?_map, List.getElem?_map]
        cases h1 : d[i]? with
        | none =>
          have : m[i]? = none := by
            rw [List.getElem?_eq_none_iff] at h1 ⊢
            rwa [hl, List.length_map] at h1
          rw [this]
          rfl
        | some e =>
          have hlt : i < m.length := by
            have := (List.getElem?_eq_some_iff.1 h1).1
            rwa [hl, List.length_map] at this
          have h2 := List.getElem?_eq_getElem hlt
          have := (hd i e.1 e.2 (.str m[i].1) m[i].2 h1 (by rw [List.getElem?_map, h2]; rfl)).1
          rw [h2]
          exact congrArg some (Val.str.inj this).symm
      exact ⟨tag, d, m, rfl, rfl, hks, fun i k w y h1 h2 =>
        (hd i k w (.str k) y h1 (by rw [List.getElem?_map, h2]; rfl)).2⟩
  rw [(C63_extract steps h hp x hx b (.map t) ht v hm hr _).1, (C63_extract steps h hp x hx b (.map t) ht v hm hr _).2,
    (C79_extract steps h hp x hx b .string t ht v hm hr _).1, (C79_extract steps h hp x hx b .string t ht v hm hr _).2]
  have only : ∀ lossy, (∃ es, Val.entries (m.map fun e => (.str e.1, e.2)) = .entries es ∧
      Ty.string.MapMeans lossy x.fig.fileAt t v es) ↔ Ty.string.MapMeans lossy x.fig.fileAt t v (m.map fun e => (.str e.1, e.2)) :=
    fun lossy => ⟨fun ⟨_, h, h'⟩ => by cases h; exact h', fun h => ⟨_, rfl, h⟩⟩
  exact ⟨(key false).trans (only false).symm, (key true).trans (only true).symm⟩

/-! ## Writing -/

/-- **C79**: a map is written, by `Value::serialize`, `Serialized` and all else that writes, if and only if every key of it
is text; and then, as the dictionary of the texts, with what the values are written as. Of entries with the same text, the
last is kept. -/
theorem C79_write (kt t : Ty) (hkt : kt.sound = true) (ht : t.sound = true) (l : List (Val × Val))
    (hl : ∀ e ∈ l, kt.Has e.1 ∧ t.Has e.2) :
    ((∃ w, ((Ty.keyed kt t).ser (.entries l)).serialize = .ok w) ↔ ∀ e ∈ l, ∃ s, kt.KeyText e.1 = some s) ∧
    ∀ w, ((Ty.keyed kt t).ser (.entries l)).serialize = .ok w → ∃ d, w = .dict Tag.Default d ∧ Map.Sorted d ∧
      ∀ s u, Map.get s d = some u ↔ ∃ (i : Nat) (e : Val × Val), l[i]? = some e ∧ kt.KeyText e.1 = some s ∧
        (t.ser e.2).serialize = .ok u ∧ ∀ j, i < j → ∀ e', l[j]? = some e' → kt.KeyText e'.1 ≠ some s := by
  have hw : ∀ {t : Ty}, t.sound = true → ∀ y, t.Has y → ∃ w, (t.ser y).serialize = .ok w :=
    fun ht y hy => (Ty.kept_back _ ht y hy).imp fun w h => h.1
  have hall : (∃ w, ((Ty.keyed kt t).ser (.entries l)).serialize = .ok w) → ∀ e ∈ l, (kt.KeyText e.1).isSome := by
    rintro ⟨w, h⟩ e he
    by_cases hc : ∀ e ∈ l, (kt.KeyText e.1).isSome
    · exact hc e he
    · obtain ⟨i, e', h1, h2, h3⟩ := first_not (p := fun e : Val × Val => (kt.KeyText e.1).isSome) l hc
      obtain ⟨u, _, h4⟩ := serMap_error (hw hkt) (hw ht) l hl i e' h1 (by simpa using h2) h3
      rw [Ty.ser, Ser.serialize, h4] at h
      cases h
  refine ⟨⟨fun h e he => Option.isSome_iff_exists.1 (hall h e he), fun h => ?_⟩, fun w h => ?_⟩
  · obtain ⟨es, h1, _⟩ := serMap_ok (hw ht) l hl fun e he => Option.isSome_iff_exists.2 (h e he)
    exact ⟨.ofDict (Map.ofList es), by rw [Ty.ser, Ser.serialize, h1]⟩
  · obtain ⟨es, h1, h2, h3⟩ := serMap_ok (hw ht) l hl (hall ⟨w, h⟩)
    rw [Ty.ser, Ser.serialize, h1] at h
    refine ⟨Map.ofList es, (Except.ok.inj h).symm, Map.Sorted.ofList es, fun s u => ?_⟩
    rw [Map.get_ofList_last]
    have hlt : ∀ i, i < es.length ↔ i < l.length := fun i => by rw [h2]
    constructor
    · rintro ⟨i, h4, h5⟩
      have hi := (hlt i).1 (List.getElem?_eq_some_iff.1 h4).1
      have hi' := List.getElem?_eq_getElem hi
      obtain ⟨h6, h7⟩ := h3 i _ s u hi' h4
      refine ⟨i, _, hi', h6, h7, fun j hj e' he' hs => ?_⟩
      have hj' := List.getElem?_eq_getElem ((hlt j).2 (List.getElem?_eq_some_iff.1 he').1)
      have := (h3 j e' _ _ he' hj').1
      rw [hs] at this
      exact h5 j hj _ hj' (Option.some.inj this).symm
    · rintro ⟨i, e, h4, h5, h6, h7⟩
      have hi' := List.getElem?_eq_getElem ((hlt i).2 (List.getElem?_eq_some_iff.1 h4).1)
      obtain ⟨h8, h9⟩ := h3 i e _ _ h4 hi'
      rw [h5] at h8
      rw [h6] at h9
      refine ⟨i, hi'.trans (congrArg some (Prod.ext (Option.some.inj h8).symm (Except.ok.inj h9).symm)), fun j hj a ha hs => ?_⟩
      have hj' := List.getElem?_eq_getElem ((hlt j).1 (List.getElem?_eq_some_iff.1 ha).1)
      have := (h3 j _ a.1 a.2 hj' ha).1
      rw [hs] at this
      exact h7 j hj _ hj' this

/-- **C79**: if a key of the map is not text, the map is not written, and the error says what the first such key is. -/
theorem C79_unsupported (kt t : Ty) (hkt : kt.sound = true) (ht : t.sound = true) (l : List (Val × Val))
    (hl : ∀ e ∈ l, kt.Has e.1 ∧ t.Has e.2) (i : Nat) (e : Val × Val) (hi : l[i]? = some e) (hn : kt.KeyText e.1 = none)
    (hb : ∀ j, j < i → ∀ e, l[j]? = some e → ∃ s, kt.KeyText e.1 = some s) :
    ∃ w, (kt.ser e.1).serialize = .ok w ∧ ((Ty.keyed kt t).ser (.entries l)).serialize =
      .error (Error.ofKind (.unsupportedKey w.toActual (str "string"))) := by
  have hw : ∀ {t : Ty}, t.sound = true → ∀ y, t.Has y → ∃ w, (t.ser y).serialize = .ok w :=
    fun ht y hy => (Ty.kept_back _ ht y hy).imp fun w h => h.1
  obtain ⟨w, h1, h2⟩ := serMap_error (hw hkt) (hw ht) l hl i e hi hn fun j hj e he =>
    Option.isSome_iff_exists.2 (hb j hj e he)
  exact ⟨w, h1, by rw [Ty.ser, Ser.serialize, h2]⟩

/-- **C79**: a map that is provided by `Serialized` at a key comes back, its entries in the order of the texts of their
keys, if every key is written as a text that is that key, no two of them as the same, and the values come back (C30). -/
theorem C79_round (kt t : Ty) (ht : t.sound = true) (l : List (Val × Val)) (hl : ∀ e ∈ l, kt.Has e.1 ∧ t.Has e.2)
    (hk : ∀ e ∈ l, ∃ s, kt.KeyText e.1 = some s ∧ kt.KeyIs s e.1) (hv : ∀ e ∈ l, t.Kept e.2)
    (hn : (l.map fun e => kt.KeyText e.1).Nodup)
    (s : Serialized) (hs : s.value = (Ty.keyed kt t).ser (.entries l)) (key : Str) (hkey : s.key = some key) (hp : pathKeys key ≠ [])
    (o : Order) (loc : Location) (c c' : BitVec 64) (f : Fig) (hf : Fig.new.provide s.toProvider o loc c = (some f, c'))
    (p : Profile)
    (hpr : s.profile.same Profile.Default = true ∨ s.profile.same Profile.Global = true ∨ s.profile.same p = true) :
    ∃ l', l'.Perm l ∧ KeySorted kt l' ∧ (f.select p).extractInner key (.keyed kt t) = .ok (.entries l') ∧
      (f.select p).extractInnerLossy key (.keyed kt t) = .ok (.entries l') := by
  obtain ⟨w, l', h1, h2, h3, h4⟩ := serMap_back ht l hl hk hv hn
  obtain ⟨w', h5, h6⟩ := Serialized.find_inner (by rw [hs]; exact h1) hkey hp hf hpr
  obtain ⟨_, h7⟩ := h4 w' h6
  obtain ⟨h8, h9⟩ := h7 (f.select p)
  refine ⟨l', h2, h3, ?_, ?_⟩
  · rw [Fig.extractInner, Fig.extractInnerWith, h5]
    dsimp only
    rw [h8]
  · rw [Fig.extractInnerLossy, Fig.extractInnerWith, h5]
    dsimp only
    rw [h9]

/-! ## What is written and not read, or read and not written (finding 27) -/

/-- Keys of a newtype around a string are written as the string; no text is read as one. -/
theorem C79_fails_newtype : ∃ (kt t : Ty) (l : List (Val × Val)) (w : Value), kt = .newtype (str "Id") .string ∧
    (∀ e ∈ l, kt.Has e.1 ∧ t.Has e.2 ∧ t.Kept e.2) ∧ ((Ty.keyed kt t).ser (.entries l)).serialize = .ok w ∧
    ∀ w' : Value, w'.strip = w.strip → (∃ e, w'.deserialize (.keyed kt t) = .error e) ∧
      ∀ f, ∃ e, (Ty.keyed kt t).de (De.strict f) w' = .error e := by
  refine ⟨_, .bool, [(.newtype (.str (str "a")), .bool true)], _, rfl, fun e he => ?_, rfl, fun w' hw => ?_⟩
  · cases he with
    | head => exact ⟨⟨_, rfl, _, rfl⟩, ⟨_, rfl⟩, trivial⟩
    | tail _ h => cases h
  · obtain ⟨t', a', rfl, ha⟩ := Value.strip_eq_dict hw
    cases a' with
    | nil => cases ha
    | cons e a' =>
      obtain ⟨s, u⟩ := e
      exact ⟨⟨_, rfl⟩, fun f => ⟨_, rfl⟩⟩

/-- Keys that are characters are read from text of one character; no map with such a key is written. -/
theorem C79_fails_char : (∀ (f : Fig) (tag tag' : Tag) (c : Char) (b : Bool),
      (Ty.keyed .char .bool).de (De.strict f) (.dict tag [([c], .bool tag' b)]) = .ok (.entries [(.char c, .bool b)])) ∧
    ∀ (c : Char) (b : Bool), ((Ty.keyed .char .bool).ser (.entries [(.char c, .bool b)])).serialize =
      .error (Error.ofKind (.unsupportedKey (.char c) (str "string"))) :=
  ⟨fun _ _ _ _ _ => rfl, fun _ _ => rfl⟩

/-! ## Examples -/

/-- An enum of three levels, one of which has content. -/
def Ex.level : Ty := .enum (str "Level") [(str "Low", .unit), (str "Max", .unit), (str "Other", .newtype (.int .u8))]

/-- Limits by level. -/
def Ex.limits : List (Val × Val) :=
  [(.variant (str "Low") .unit, .int 3), (.variant (str "Max") .unit, .int 70)]

/-- It is written in the order of the texts, whatever the order of the entries. -/
example : ((Ty.keyed Ex.level (.int .u8)).ser (.entries Ex.limits.reverse)).serialize = .ok (.ofDict
    [(str "Low", .num Tag.Default (.u8 3#8)), (str "Max", .num Tag.Default (.u8 70#8))]) := rfl

/-- The hypotheses of `C79_round` and `C79_write`. -/
example : (∀ e ∈ Ex.limits, Ex.level.Has e.1 ∧ (Ty.int .u8).Has e.2 ∧ (Ty.int .u8).Kept e.2 ∧
      ∃ s, Ex.level.KeyText e.1 = some s ∧ Ex.level.KeyIs s e.1) ∧
    (Ex.limits.map fun e => Ex.level.KeyText e.1).Nodup ∧ Ex.level.sound = true := by
  refine ⟨fun e he => ?_, by decide, by decide⟩
  simp only [Ex.limits, List.mem_cons, List.not_mem_nil, or_false] at he
  rcases he with rfl | rfl
  · refine ⟨?_, ⟨_, rfl, by decide, by decide⟩, ⟨by decide, by decide⟩, _, rfl, rfl, rfl⟩
    simp only [Ex.level, Ty.Has, Ty.HasVariant, VTy.Has]
    exact ⟨_, _, rfl, .inl ⟨rfl, rfl⟩⟩
  · refine ⟨?_, ⟨_, rfl, by decide, by decide⟩, ⟨by decide, by decide⟩, _, rfl, rfl, rfl⟩
    simp only [Ex.level, Ty.Has, Ty.HasVariant, VTy.Has]
    exact ⟨_, _, rfl, .inr ⟨by decide, .inl ⟨rfl, rfl⟩⟩⟩

/-- Data for it, with a key that is no variant after one that is; its values have tags. -/
def Ex.keyed (s : Str) : Value := .dict Tag.Default [(str "Low", .num ⟨1⟩ (.u8 3#8)), (s, .num ⟨2⟩ (.u8 70#8))]

/-- A key that is no variant, and one of a variant with content; and the value before the key has a fault. -/
example : (Ex.level.MapMeans false (fun _ => none) (.int .u8) (Ex.keyed (str "Max")) Ex.limits) ∧
    Ex.level.MapComplains false (fun _ => none) (.int .u8) (Ex.keyed (str "Most")) [str "Most"]
      (.unknownVariant (str "Most") [str "Low", str "Max", str "Other"]) ∧
    Ex.level.MapComplains false (fun _ => none) (.int .u8) (Ex.keyed (str "Other")) [str "Other"]
      (.invalidType .unitVariant (str "newtype variant")) ∧
    Ex.level.MapComplains false (fun _ => none) .bool (Ex.keyed (str "Other")) [str "Low"]
      (.invalidType (.unsigned 3) (str "a boolean")) :=
  have hc : (none : Option Fig) = none → false = false ∧ false = false := fun _ => ⟨rfl, rfl⟩
  have ok : ∀ es, Value.deserialize (Ex.keyed (str "Max")) (.keyed Ex.level (.int .u8)) = .ok (.entries es) →
      Ex.level.MapMeans false (fun _ => none) (.int .u8) (Ex.keyed (str "Max")) es := fun es h => by
    obtain ⟨_, h1, h2⟩ := (C79_deserialize Ex.level (.int .u8) (by decide) _ (by decide) _).1 h
    cases h1
    exact h2
  ⟨ok _ rfl,
    Ty.complains_keyed.1 ((Ty.complains none false false hc _ (.keyed Ex.level (.int .u8)) (by decide) _ ⟨by decide, nofun⟩ _).1
      ⟨_, rfl, rfl, rfl⟩),
    Ty.complains_keyed.1 ((Ty.complains none false false hc _ (.keyed Ex.level (.int .u8)) (by decide) _ ⟨by decide, nofun⟩ _).1
      ⟨_, rfl, rfl, rfl⟩),
    Ty.complains_keyed.1 ((Ty.complains none false false hc _ (.keyed Ex.level .bool) (by decide) _ ⟨by decide, nofun⟩ _).1
      ⟨_, rfl, rfl, rfl⟩)⟩

/-- The merged data of a figment of an execution, as a map with keys that are characters, and with keys that are numbers:
its four keys are characters, and the first, `a`, is not a number. -/
example : ∃ x v, (Proc.exec Ex.steps).made[2]? = some x ∧ x.fig.merged = .ok v ∧
    (∃ es, x.fig.extract (.keyed .char (.any (str "anything"))) = .ok (.entries es) ∧ es.length = 4) ∧
    ∃ e, x.fig.extract (.keyed (.int .u16) (.any (str "anything"))) = .error e ∧ e.head.path = [str "a"] ∧
      e.head.kind = .invalidType (.str (str "a")) (str "u16") ∧ e.head.metadata.isSome :=
  ⟨_, _, rfl, rfl, ⟨_, rfl, rfl⟩, _, rfl, rfl, rfl, rfl⟩

/-- A struct with such a map in an optional field: it comes back, the errors in the map have the whole path, and the
hypotheses of C63 and C69 are met by the type. -/
example : ∃ w e, ((Ty.struct (str "S") (str "S") false [(str "at", none, .option (.keyed Ex.level (.int .u8)))]).ser
      (.struct [.some (.entries Ex.limits)])).serialize = .ok w ∧
    w.deserialize (.struct (str "S") (str "S") false [(str "at", none, .option (.keyed Ex.level (.int .u8)))]) =
      .ok (.struct [.some (.entries Ex.limits)]) ∧
    Value.deserialize (.dict Tag.Default [(str "at", Ex.keyed (str "Most"))])
      (.struct (str "S") (str "S") false [(str "at", none, .option (.keyed Ex.level (.int .u8)))]) = .error e ∧
    e.head.path = [str "at", str "Most"] ∧
    (Ty.struct (str "S") (str "S") false [(str "at", none, .option (.keyed Ex.level (.int .u8)))]).proper false = true :=
  ⟨_, _, rfl, rfl, rfl, rfl, by decide⟩

/-- A map with keys that are booleans is not written. -/
example : ((Ty.keyed .bool .unit).ser (.entries [(.bool true, .unit)])).serialize =
    .error (Error.ofKind (.unsupportedKey (.bool true) (str "string"))) := rfl

end Figment
