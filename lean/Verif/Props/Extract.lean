import Verif.Lemmas.Extract
import Verif.Props.Ser
import Verif.Props.Origin
import Verif.Spec.Types
/-!
# C30, C31, C44: typed extraction
-/
namespace Figment

/-! ## C31 -/

/-- **C31**: extracting a `Value` gives the merged data with the tag of every nested value; only `usize` and `isize`
numbers come back as the narrowest fixed-width number of the same sign that has the same integer. Hence it is `==` to
the merged data, and is the merged data if there are no `usize` and `isize` inside. -/
theorem C31_extract [FloatOps] (steps : List Step) (h : steps.countP Step.isObtain < 2 ^ 64)
    (hp : ∀ s ∈ steps, s.Plain) (x : Made) (hx : x ∈ (Proc.exec steps).made) :
    ∃ g : Num → Num,
      (∀ n, (∀ k, n ≠ .usize k) → (∀ k, n ≠ .isize k) → g n = n) ∧
      (∀ n, (g n).intVal = n.intVal ∧ (g n).isSigned = n.isSigned) ∧
      (∀ k, (g (.usize k)).Narrowest ∧ (g (.isize k)).Narrowest) ∧
      (∀ v w : Value, (v.mapNum g).same w = v.same w) ∧
      (∀ v, x.fig.merged = .ok v → v.noReserved = true →
        x.fig.extract .value = .ok (.value (v.mapNum g)) ∧ x.fig.extractLossy .value = .ok (.value (v.mapNum g))) ∧
      (∀ path v, x.fig.findValue path = .ok v → v.noReserved = true →
        x.fig.extractInner path .value = .ok (.value (v.mapNum g)) ∧
        x.fig.extractInnerLossy path .value = .ok (.value (v.mapNum g))) := by
  have hi := (Proc.exec_inv steps h hp).made x hx
  refine ⟨Num.visited, ?_, Num.visited_intVal, Num.visited_narrowest,
    Value.same_mapNum Num.visited_toActual, ?_, ?_⟩
  · intro n h1 h2
    cases n with
    | usize k => exact absurd rfl (h1 k)
    | isize k => exact absurd rfl (h2 k)
    | _ => rfl
  · intro v hv hr
    obtain ⟨hw, _, hn⟩ := hi.merged hv
    constructor
    · rw [Fig.extract, Fig.extractWith, hv]
      show asValue (Value.de ⟨some x.fig, false⟩ v) = _
      rw [Value.de_named x.fig false hw hr hn]
      rfl
    · rw [Fig.extractLossy, Fig.extractWith, hv]
      show asValue (Value.de ⟨some x.fig, true⟩ v) = _
      rw [Value.de_named x.fig true hw hr hn]
      rfl
  · intro path v hv hr
    have hd : ∀ l, Value.de ⟨some x.fig, l⟩ v = .ok (v.mapNum Num.visited) := by
      intro l
      have hv' := hv
      rw [Fig.findValue] at hv'
      cases hm : x.fig.merged with
      | error e => rw [hm] at hv'; cases hv'
      | ok u =>
        obtain ⟨hw, _, hn⟩ := hi.merged hm
        rw [hm] at hv'
        simp only [Value.find_eq] at hv'
        cases hk : u.getKeys (pathKeys path) with
        | none => rw [hk] at hv'; cases hv'
        | some w =>
          rw [hk] at hv'
          cases hv'
          exact Value.de_named x.fig l (Value.wf_getKeys hw hk) hr (Value.insideNamed_getKeys hn hk)
    have hs : Ty.value.de (De.strict x.fig) v = .ok (.value (v.mapNum Num.visited)) := by
      show asValue (Value.de ⟨some x.fig, false⟩ v) = _
      rw [hd]; rfl
    have hl : Ty.value.de (De.lossyOf x.fig) v = .ok (.value (v.mapNum Num.visited)) := by
      show asValue (Value.de ⟨some x.fig, true⟩ v) = _
      rw [hd]; rfl
    constructor
    · rw [Fig.extractInner, Fig.extractInnerWith, hv]
      dsimp only
      rw [hs]
    · rw [Fig.extractInnerLossy, Fig.extractInnerWith, hv]
      dsimp only
      rw [hl]

example : ∃ x v, (Proc.exec Ex.steps).made[2]? = some x ∧ x.fig.findValue (str "b") = .ok v ∧
    v.noReserved = true ∧ v.mapNum id = v ∧ v.asDict?.isSome := ⟨_, _, rfl, rfl, by decide, rfl, rfl⟩

/-- **C31** (for a value of its own): `Value::deserialize::<Value>` gives the value back, but for tags (all reset) and
the width of `usize` and `isize`. -/
theorem C31_deserialize [FloatOps] (v : Value) (hv : v.WF) (hr : v.noReserved = true) :
    ∃ r, v.deserialize .value = .ok (.value r) ∧ r.strip = r ∧ ∀ w, r.same w = v.same w := by
  refine ⟨(v.mapNum Num.visited).strip, ?_, Value.strip_strip _, fun w => ?_⟩
  · show asValue (Value.de De.plain v) = _
    rw [Value.plain_ok v hv hr]
    rfl
  · have h1 := Value.same_strip (v.mapNum Num.visited).strip w
    rw [Value.strip_strip, Value.same_strip] at h1
    rw [← Value.same_strip, Value.strip_strip, Value.same_strip, Value.same_mapNum Num.visited_toActual]

example : (Value.dict ⟨9⟩ [(str "a", .num ⟨9⟩ (.usize 300#64)), (str "b", .array ⟨7⟩ [.empty ⟨1⟩ .none])]).WF ∧
    (Value.dict ⟨9⟩ [(str "a", .num ⟨9⟩ (.usize 300#64)), (str "b", .array ⟨7⟩ [.empty ⟨1⟩ .none])]).noReserved = true := by
  decide

/-- The proviso of C31 is needed: a dictionary with the reserved key is not given back. -/
theorem C31_reserved [FloatOps] : ∃ v : Value, v.WF ∧ ∃ r, v.deserialize .value = .ok (.value r) ∧ r.same v = false :=
  ⟨.dict Tag.Default [(Value.FIELD1, .bool Tag.Default true)], by decide, .bool Tag.Default true, rfl, rfl⟩

/-! ## C44 -/

/-- **C44**: what `extract` gives, `extract_lossy` gives too; likewise `extract_inner` and `extract_inner_lossy`. -/
theorem C44_strict_lossy [FloatOps] (f : Fig) (t : Ty) (x : Val) :
    (f.extract t = .ok x → f.extractLossy t = .ok x) ∧
    (∀ path, f.extractInner path t = .ok x → f.extractInnerLossy path t = .ok x) := by
  constructor
  · intro h
    rw [Fig.extract, Fig.extractWith] at h
    rw [Fig.extractLossy, Fig.extractWith]
    cases hm : f.merged with
    | error e => rw [hm] at h; cases h
    | ok v =>
      rw [hm] at h
      exact Ty.de_mono t f v x h
  · intro path h
    rw [Fig.extractInner, Fig.extractInnerWith] at h
    rw [Fig.extractInnerLossy, Fig.extractInnerWith]
    cases hm : f.findValue path with
    | error e => rw [hm] at h; cases h
    | ok v =>
      rw [hm] at h
      dsimp only at h ⊢
      cases hd : t.de (De.strict f) v with
      | error e => rw [hd] at h; cases h
      | ok y =>
        rw [hd] at h
        rw [Ty.de_mono t f v y hd]
        exact h

/-- An example type: a struct with a number, an optional list of booleans, and an enum. -/
def Ex.ty : Ty := .struct (str "Config") (str "Config") false
  [(str "a", none, .int .i16), (str "flags", none, .option (.seq .bool)),
   (str "mode", none, .enum (str "Mode") [(str "Off", .unit), (str "Level", .newtype (.int .u8)),
     (str "Range", .struct true [(str "lo", none, .f32), (str "hi", none, .char)])])]

/-- A value of `Ex.ty`. -/
def Ex.val : Val := .struct [.int (-300), .some (.seq [.bool true, .bool false]), .variant (str "Level") (.int 7)]

/-- `Ex.val`, as data, from provider 1. -/
def Ex.valFig : Fig :=
  ⟨Profile.Default, [], .ok [(Profile.Default,
    [(str "a", .num ⟨1⟩ (.i16 (-300#16))), (str "flags", .array ⟨1⟩ [.bool ⟨1⟩ true, .bool ⟨1⟩ false]),
     (str "mode", .dict ⟨1⟩ [(str "Level", .num ⟨1⟩ (.u64 7#64))])])]⟩

example [FloatOps] : Ex.valFig.extract Ex.ty = .ok Ex.val := rfl

/-! ## C30 -/

/-- **C30**: a value of a type serialises, and everything of the content it serialises to, whoever supplied it, is read
as the value, on its own and from every figment, strictly and lossily. The types are those of `Ty.faithful`. -/
theorem C30_value_partial [FloatOps] (t : Ty) (ht : t.faithful = true) (x : Val) (hx : t.Has x) :
    ∃ w, (t.ser x).serialize = .ok w ∧ ∀ w' : Value, w'.strip = w.strip →
      w'.deserialize t = .ok x ∧ ∀ f, t.de (De.strict f) w' = .ok x ∧ t.de (De.lossyOf f) w' = .ok x := by
  obtain ⟨w, h1, _, h2⟩ := Ty.back t ht x hx
  exact ⟨w, h1, fun w' h => ⟨h2 none w' h, fun f => ⟨h2 (some f) w' h, Ty.de_mono t f w' x (h2 (some f) w' h)⟩⟩⟩

theorem Fig.provide_new {p : Provider} {o : Order} {loc : Location} {c c' : BitVec 64} {f : Fig} {pr : Profile} {d : Dict}
    (hp : p.data = .ok [(pr, d)]) (hd : Map.Sorted d) (h : Fig.new.provide p o loc c = (some f, c')) :
    ∃ d', f.value = .ok [(pr, d')] ∧ Map.Sorted d' ∧ Value.stripD d' = Value.stripD d := by
  obtain ⟨tag, _, rfl⟩ := Fig.provide_eq_some h
  have hr : Fig.retagData tag [(pr, d)] = [(pr, Value.mapTagD (fun _ => tag.forProfile pr) d)] := by
    rw [Fig.retagData_eq]; rfl
  refine ⟨Value.mapTagD (fun _ => tag.forProfile pr) d, ?_, Value.sorted_mapTagD _ hd, ?_⟩
  · simp only [Fig.provideWith, hp, Fig.new, Fig.combine, hr]
    rw [coalesceProfiles, Map.coalesce_nil_left _ (List.pairwise_singleton _ _)]
  · have := Value.strip_mapTag (fun _ => tag.forProfile pr) (.dict Tag.Default d)
    simpa [Value.mapTag, Value.strip] using this

theorem Serialized.merged_whole {w : Value} {s : Serialized} (h1 : s.value.serialize = .ok w) (hkey : s.key = none)
    (hdict : ∃ tg d, w = .dict tg d)
    {o : Order} {loc : Location} {c c' : BitVec 64} {f : Fig} (hf : Fig.new.provide s.toProvider o loc c = (some f, c'))
    {p : Profile}
    (hpr : s.profile.same Profile.Default = true ∨ s.profile.same Profile.Global = true ∨ s.profile.same p = true) :
    ∃ w', (f.select p).merged = .ok w' ∧ w'.strip = w.strip := by
  obtain ⟨tg, d, rfl⟩ := hdict
  have h2 := (C28_serialized_dict s (by rw [hkey]; nofun)).1 tg d h1
  have h3 := (C28_serialized_value s).2 _ h1
  obtain ⟨d', h4, h5, h6⟩ := Fig.provide_new h2 (Value.wf_dict.1 h3.1).1 hf
  exact ⟨_, Fig.merged_single h4 h5 hpr, by rw [Value.strip, Value.strip, h6]⟩

/-- **C30**: a value that serialises to a dictionary (a struct or a map, for example), provided by `Serialized` in a
profile that applies, is what extraction at its type gives; in whichever order it is combined. -/
theorem C30_extract_partial [FloatOps] (t : Ty) (ht : t.faithful = true) (x : Val) (hx : t.Has x)
    (s : Serialized) (hs : s.value = t.ser x) (hkey : s.key = none)
    (hdict : ∃ tg d, (t.ser x).serialize = .ok (.dict tg d))
    (o : Order) (loc : Location) (c c' : BitVec 64) (f : Fig) (hf : Fig.new.provide s.toProvider o loc c = (some f, c'))
    (p : Profile)
    (hpr : s.profile.same Profile.Default = true ∨ s.profile.same Profile.Global = true ∨ s.profile.same p = true) :
    (f.select p).extract t = .ok x ∧ (f.select p).extractLossy t = .ok x := by
  have key : (f.select p).extract t = .ok x := by
    obtain ⟨tg, d, hd⟩ := hdict
    obtain ⟨w', h6, h5⟩ := Serialized.merged_whole (by rw [hs]; exact hd) hkey ⟨_, _, rfl⟩ hf hpr
    obtain ⟨w, h7, h8⟩ := C30_value_partial t ht x hx
    rw [Fig.extract, Fig.extractWith, h6]
    refine ((h8 _ ?_).2 (f.select p)).1
    rw [hd] at h7
    rw [← Except.ok.inj h7, h5]
  exact ⟨key, (C44_strict_lossy _ _ _).1 key⟩

theorem Serialized.find_inner {w : Value} {s : Serialized} (h1 : s.value.serialize = .ok w)
    {key : Str} (hkey : s.key = some key) (hk : pathKeys key ≠ [])
    {o : Order} {loc : Location} {c c' : BitVec 64} {f : Fig} (hf : Fig.new.provide s.toProvider o loc c = (some f, c'))
    {p : Profile}
    (hpr : s.profile.same Profile.Default = true ∨ s.profile.same Profile.Global = true ∨ s.profile.same p = true) :
    ∃ w', (f.select p).findValue key = .ok w' ∧ w'.strip = w.strip := by
  obtain ⟨d, h3, h4, h5, _⟩ := C28_serialized_key s key w h1 hkey hk
  have hd : Map.Sorted d := by
    cases hks : pathKeys key with
    | nil => exact absurd hks hk
    | cons k r =>
      obtain ⟨u, hu⟩ := h5 [] k r hks
      rw [Value.getKeys_nil] at hu
      simp only [Option.some.injEq, Value.dict.injEq] at hu
      rw [hu.2]
      exact List.pairwise_singleton _ _
  obtain ⟨d', h6, h7, h8⟩ := Fig.provide_new h3 hd hf
  have h9 : (f.select p).merged = .ok (.dict Tag.Default d') := Fig.merged_single h6 h7 hpr
  have h10 : (Value.dict Tag.Default d').strip = (Value.dict Tag.Default d).strip := by
    rw [Value.strip, Value.strip, h8]
  have h11 := h4 []
  rw [List.append_nil, Value.getKeys_nil] at h11
  have h12 : ((Value.dict Tag.Default d').getKeys (pathKeys key)).map Value.strip = some w.strip := by
    rw [← Value.getKeys_strip, h10, Value.getKeys_strip, h11]; rfl
  cases h13 : (Value.dict Tag.Default d').getKeys (pathKeys key) with
  | none => rw [h13] at h12; cases h12
  | some w' =>
    rw [h13] at h12
    refine ⟨w', ?_, Option.some.inj h12⟩
    rw [Fig.findValue, h9]; simp only [Value.find_eq, h13]

theorem Serialized.extract_inner [FloatOps] {t : Ty} {x : Val} {w : Value} {s : Serialized}
    (h1 : s.value.serialize = .ok w) (h2 : ∀ f w', w'.strip = w.strip → t.de (De.strict f) w' = .ok x)
    {key : Str} (hkey : s.key = some key) (hk : pathKeys key ≠ [])
    {o : Order} {loc : Location} {c c' : BitVec 64} {f : Fig} (hf : Fig.new.provide s.toProvider o loc c = (some f, c'))
    {p : Profile}
    (hpr : s.profile.same Profile.Default = true ∨ s.profile.same Profile.Global = true ∨ s.profile.same p = true) :
    (f.select p).extractInner key t = .ok x ∧ (f.select p).extractInnerLossy key t = .ok x := by
  have main : (f.select p).extractInner key t = .ok x := by
    obtain ⟨w', h14, h15⟩ := Serialized.find_inner h1 hkey hk hf hpr
    rw [Fig.extractInner, Fig.extractInnerWith, h14]
    dsimp only
    rw [h2 (f.select p) w' h15]
  exact ⟨main, (C44_strict_lossy _ _ _).2 key main⟩

/-- **C30**: a value of any type, provided by `Serialized` with a key in a profile that applies, is what extraction at
the key gives. -/
theorem C30_extract_inner_partial [FloatOps] (t : Ty) (ht : t.faithful = true) (x : Val) (hx : t.Has x)
    (s : Serialized) (hs : s.value = t.ser x) (key : Str) (hkey : s.key = some key) (hk : pathKeys key ≠ [])
    (o : Order) (loc : Location) (c c' : BitVec 64) (f : Fig) (hf : Fig.new.provide s.toProvider o loc c = (some f, c'))
    (p : Profile)
    (hpr : s.profile.same Profile.Default = true ∨ s.profile.same Profile.Global = true ∨ s.profile.same p = true) :
    (f.select p).extractInner key t = .ok x ∧ (f.select p).extractInnerLossy key t = .ok x := by
  obtain ⟨w, h1, h2⟩ := C30_value_partial t ht x hx
  rw [← hs] at h1
  exact Serialized.extract_inner h1 (fun f w' h => ((h2 w' h).2 f).1) hkey hk hf hpr

example : Ex.ty.faithful = true := by decide

example : Ex.ty.Has Ex.val := by
  simp only [Ex.ty, Ex.val, Ty.Has, Ty.HasFields]
  refine ⟨_, rfl, ⟨_, _, rfl, ⟨_, rfl, by decide, by decide⟩, _, _, rfl, .inr ⟨_, rfl, _, rfl, ?_⟩, _, _, rfl,
    ⟨_, _, rfl, ?_⟩, rfl⟩, nofun, nofun⟩
  · intro y hy
    simp only [List.mem_cons, List.not_mem_nil, or_false] at hy
    rcases hy with rfl | rfl <;> exact ⟨_, rfl⟩
  · simp only [Ty.HasVariant, VTy.Has, Ty.Has]
    exact .inr ⟨by decide, .inl ⟨trivial, _, rfl, by decide, by decide⟩⟩

/-- A type with magic structs in it, and a value of it. -/
example : (Ty.map (.tagged .relPath)).faithful = true ∧ (Ty.map (.tagged .relPath)).Has
    (.map [(str "a", .struct [.tag ⟨7⟩, .struct [.some (.str (str "/etc/x")), .str (str "y")]])]) := by
  refine ⟨by decide, ?_⟩
  simp only [Ty.tagged, Ty.relPath, Ty.Has, Ty.HasFields]
  refine ⟨_, rfl, List.pairwise_singleton _ _, ?_⟩
  intro e he
  rw [List.mem_singleton] at he
  subst he
  refine ⟨_, rfl, ⟨_, _, rfl, ⟨_, rfl⟩, _, _, rfl, ⟨_, rfl, ⟨_, _, rfl, .inr ⟨_, rfl, _, rfl⟩, _, _, rfl, ⟨_, rfl⟩, rfl⟩,
    nofun, fun _ => nofun⟩, rfl⟩, fun _ t h => ?_, fun h => absurd h (by decide)⟩
  cases h
  decide

example : ∃ tg d, (Ex.ty.ser Ex.val).serialize = .ok (.dict tg d) := ⟨_, _, rfl⟩

example : ∃ f c', Fig.new.provide (Serialized.defaults (Ex.ty.ser Ex.val) Ex.loc (str "Config")).toProvider .Join
    Ex.loc 1#64 = (some f, c') := ⟨_, _, rfl⟩

/-- What is missing in C30 (1): no value at all is read as a 128-bit integer, though they are written. -/
theorem C30_fails_128 [FloatOps] (n : Int) :
    ((Ty.int .u128).ser (.int n)).serialize = .ok (.ofNum (.u128 (BitVec.ofInt 128 n))) ∧
    ((Ty.int .i128).ser (.int n)).serialize = .ok (.ofNum (.i128 (BitVec.ofInt 128 n))) ∧
    ∀ de v x, (Ty.int .u128).de de v ≠ .ok x ∧ (Ty.int .i128).de de v ≠ .ok x :=
  ⟨rfl, rfl, fun _ _ _ => ⟨nofun, nofun⟩⟩

/-- What is missing in C30 (2): `Some(None)` and `Some(())` are written as the empty value, which is read as `None`. -/
theorem C30_fails_nullable [FloatOps] (t : Ty) :
    ((Ty.option (.option t)).ser (.some .none)).serialize = .ok (.ofEmpty .none) ∧
    ((Ty.option .unit).ser (.some .unit)).serialize = .ok (.ofEmpty .unit) ∧
    ∀ c l tag, (Ty.option (.option t)).de ⟨c, l⟩ (.empty tag .none) = .ok .none ∧
      (Ty.option .unit).de ⟨c, l⟩ (.empty tag .unit) = .ok .none :=
  ⟨rfl, rfl, fun c l tag => by constructor <;> cases c <;> rfl⟩

end Figment
