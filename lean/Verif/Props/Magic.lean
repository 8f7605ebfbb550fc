import Verif.Model.Magic
import Verif.Model.DataProvider
import Verif.Lemmas.Magic
import Verif.Lemmas.Walk
import Verif.Props.Extract
/-!
# C50, C51: `RelativePathBuf` and `Tagged`
-/
namespace Figment
variable [FloatOps]

/-! ## C51 -/

/-- **C51**: wherever a value is extracted as a `Tagged<T>`, this succeeds exactly if extracting it as a `T` does, with
the same content, and the tag is the value's. -/
theorem C51_value (t : Ty) (f : Fig) (l : Bool) (v : Value) (hv : v.unreserved = true) (y : Val) :
    (Ty.tagged t).de ⟨some f, l⟩ v = .ok y ↔ ∃ x, t.de ⟨some f, l⟩ v = .ok x ∧ Tagged.ofVal y = some ⟨v.tag, x⟩ := by
  rw [Ty.tagged_de t f l v hv]
  constructor
  · intro h
    cases hx : t.de ⟨some f, l⟩ v with
    | error e => rw [hx] at h; cases h
    | ok x => rw [hx] at h; cases h; exact ⟨x, rfl, rfl⟩
  · rintro ⟨x, hx, hy⟩
    rw [hx]
    have : y = .struct [.tag v.tag, x] := by
      unfold Tagged.ofVal at hy
      split at hy
      · simp only [Option.some.injEq, Tagged.mk.injEq] at hy
        rw [hy.1, hy.2]
      · cases hy
    rw [this]

omit [FloatOps] in
theorem Fig.extractInnerWith_ok {α : Type} {d : Fig → Value → Except Error α} {f : Fig} {path : Str} {v : Value}
    (hv : f.findValue path = .ok v) (x : α) : f.extractInnerWith d path = .ok x ↔ d f v = .ok x := by
  rw [Fig.extractInnerWith, hv]
  dsimp only
  cases d f v with
  | ok y => rfl
  | error e => exact ⟨nofun, nofun⟩

/-- **C51** for `extract_inner` and `extract_inner_lossy`: extracting the value at a path as a `Tagged<T>` succeeds
exactly if extracting it as a `T` does, with the same content; the tag is that of the value found there. -/
theorem C51_extract_inner (t : Ty) (f : Fig) (path : Str) (v : Value) (hv : f.findValue path = .ok v)
    (hr : v.unreserved = true) (y : Val) :
    (f.extractInner path (.tagged t) = .ok y ↔
      ∃ x, f.extractInner path t = .ok x ∧ Tagged.ofVal y = some ⟨v.tag, x⟩) ∧
    (f.extractInnerLossy path (.tagged t) = .ok y ↔
      ∃ x, f.extractInnerLossy path t = .ok x ∧ Tagged.ofVal y = some ⟨v.tag, x⟩) := by
  simp only [Fig.extractInner, Fig.extractInnerLossy, Fig.extractInnerWith_ok hv]
  exact ⟨C51_value t f false v hr y, C51_value t f true v hr y⟩

example : ∃ v, Ex.valFig.findValue (str "mode") = .ok v ∧ v.unreserved = true ∧ v.tag = ⟨1⟩ ∧
    Ex.valFig.extractInner (str "mode") (.tagged (.map (.int .u8))) =
      .ok (.struct [.tag ⟨1⟩, .map [(str "Level", .int 7)]]) := ⟨_, rfl, rfl, rfl, rfl⟩

omit [FloatOps] in
/-- **C51**: equality of `Tagged`s is that of their contents. -/
theorem C51_equality {α : Type} (eq : α → α → Bool) (t s : Tag) (x y : α) :
    (Tagged.mk t x).same eq ⟨s, y⟩ = eq x y := rfl

omit [FloatOps] in
theorem two_written {k0 k1 : Str} (hk : compare k0 k1 = .lt) {w0 w1 : Value} {w' : Value}
    (h : w'.strip = (Value.ofDict (Map.ofList [(k0, w0), (k1, w1)])).strip) :
    ∃ t v0 v1, w' = .dict t [(k0, v0), (k1, v1)] ∧ v0.strip = w0.strip ∧ v1.strip = w1.strip := by
  have hs : Map.ofList [(k0, w0), (k1, w1)] = [(k0, w0), (k1, w1)] := by
    refine Map.ofList_sorted ?_
    rw [Map.Sorted]
    simpa using hk
  rw [hs, Value.strip_ofDict] at h
  obtain ⟨t, d, rfl, hd⟩ := Value.strip_eq_dict h
  match d, hd with
  | [], h => exact nomatch h
  | [_], h => simp [Value.stripD] at h
  | (a, v0) :: (b, v1) :: [], h =>
    simp only [Value.stripD, List.cons.injEq, Prod.mk.injEq] at h
    obtain ⟨⟨rfl, h0⟩, ⟨rfl, h1⟩, _⟩ := h
    exact ⟨t, v0, v1, rfl, h0, h1⟩
  | _ :: _ :: _ :: _, h => simp [Value.stripD] at h

/-- **C51**: a `Tagged` that is serialised under a key in a profile that applies, and extracted there, keeps its content;
and its tag if that is not the default one. -/
theorem C51_round (t : Ty) (ht : t.faithful = true) (x : Val) (hx : t.Has x) (tag : Tag) (htag : tag.isDefault = false)
    (s : Serialized) (hs : s.value = (Ty.tagged t).ser (.struct [.tag tag, x])) (key : Str) (hkey : s.key = some key)
    (hk : pathKeys key ≠ []) (o : Order) (loc : Location) (c c' : BitVec 64) (f : Fig)
    (hf : Fig.new.provide s.toProvider o loc c = (some f, c')) (p : Profile)
    (hpr : s.profile.same Profile.Default = true ∨ s.profile.same Profile.Global = true ∨ s.profile.same p = true) :
    ∃ y, (f.select p).extractInner key (.tagged t) = .ok y ∧ (f.select p).extractInnerLossy key (.tagged t) = .ok y ∧
      Tagged.ofVal y = some ⟨tag, x⟩ := by
  have h := C30_extract_inner_partial (.tagged t) (by
      simp only [Ty.tagged, Ty.faithful, Ty.faithfulFields, ht, Bool.and_true]
      rfl) (.struct [.tag tag, x]) (by
      simp only [Ty.tagged, Ty.Has, Ty.HasFields]
      refine ⟨_, rfl, ⟨_, _, rfl, ⟨_, rfl⟩, _, _, rfl, hx, rfl⟩, ?_, ?_⟩
      · intro _ t' h
        cases h
        exact htag
      · intro h
        exact absurd h (by decide)) s hs key hkey hk o loc c c' f hf p hpr
  exact ⟨_, h.1, h.2, rfl⟩

/-- **C51** (default tag): whoever supplies what a `Tagged` with the default tag is written as, extracting it keeps the
content and gives the supplier's tag. -/
theorem C51_round_default (t : Ty) (ht : t.faithful = true) (x : Val) (hx : t.Has x) :
    ∃ w, ((Ty.tagged t).ser (.struct [.tag Tag.Default, x])).serialize = .ok w ∧ ∀ w' : Value, w'.strip = w.strip →
      ∀ f l, (Ty.tagged t).de ⟨some f, l⟩ w' = .ok (.struct [.tag w'.tag, x]) := by
  obtain ⟨w1, h1, h2⟩ := C30_value_partial t ht x hx
  refine ⟨.ofDict (Map.ofList [(Tagged.FIELD0, .ofNum (.u64 Tag.Default.raw)), (Tagged.FIELD1, w1)]), ?_, ?_⟩
  · simp only [Ty.tagged, Ty.ser, Ty.serFields, Ser.serialize, Ser.serializeFields, h1]
  · intro w' hw'
    obtain ⟨t', v0, v1, rfl, hv0, hv1⟩ := two_written (by decide) hw'
    obtain ⟨t0, rfl⟩ := Value.strip_eq_num hv0
    have key : ∀ f, (Ty.tagged t).de ⟨some f, false⟩
        (.dict t' [(Tagged.FIELD0, .num t0 (.u64 Tag.Default.raw)), (Tagged.FIELD1, v1)]) =
        .ok (.struct [.tag t', x]) := by
      intro f
      show De.deserializeStruct ⟨some f, false⟩ Tagged.NAME (structVisitor _ _ false
        (Ty.deFields [(Tagged.FIELD0, none, .tag), (Tagged.FIELD1, none, t)])) _ = _
      unfold De.deserializeStruct
      dsimp only
      rw [if_neg (by decide), if_neg (by decide), if_pos rfl, R.mapErr_eq_ok]
      unfold De.taggedFrom
      have hfind : (Value.dict t' [(Tagged.FIELD0, .num t0 (.u64 Tag.Default.raw)), (Tagged.FIELD1, v1)]).find
          Tagged.FIELD1 = some v1 := by
        rw [Value.find_eq, show pathKeys Tagged.FIELD1 = [Tagged.FIELD1] by decide, Value.getKeys_dict_cons]
        rfl
      have hd : (if Tag.Default.isDefault = true then true else false) = true := rfl
      simp only [Value.asDict?, hfind, Option.getD_some,
        show Map.get Tagged.FIELD0 [(Tagged.FIELD0, Value.num t0 (.u64 Tag.Default.raw)), (Tagged.FIELD1, v1)] =
          some (Value.num t0 (.u64 Tag.Default.raw)) from rfl,
        show Tag.de De.plain (Value.num t0 (.u64 Tag.Default.raw)) = .ok Tag.Default from rfl,
        show Tag.Default.isDefault = true from rfl, if_true]
      rw [show Map.insert Tagged.FIELD1 v1 (Map.insert Tagged.FIELD0 (Value.ofTag (Value.dict t' _).tag) []) =
        [(Tagged.FIELD0, Value.ofTag t'), (Tagged.FIELD1, v1)] from rfl]
      rw [Ty.deFields, Ty.deFields, Ty.deFields, two_fields (by decide)]
      have htag : MapDe.nextValue Ty.tag.de ⟨some f, false⟩ Tagged.FIELD0 (Value.ofTag t') = .ok (.tag t') := by
        rw [MapDe.nextValue, R.mapErr_eq_ok, Ty.de]
        dsimp only
        rw [Value.tag_ofTag]
        rfl
      rw [htag]
      dsimp only
      rw [MapDe.nextValue, show t.de ⟨some f, false⟩ v1 = .ok x from ((h2 v1 hv1).2 f).1]
      rfl
    intro f l
    cases l with
    | false => exact key f
    | true => exact Ty.de_mono (.tagged t) f _ _ (key f)

example : Ex.ty.faithful = true ∧ (⟨7⟩ : Tag).isDefault = false := by decide

/-! ## C50 -/

theorem Ty.pathBuf_ok {f : Fig} {l : Bool} {v : Value} {x : Val} :
    Ty.pathBuf.de ⟨some f, l⟩ v = .ok x ↔ ∃ s, v.text? = some s ∧ x = .str s := by
  show De.deserializeAny ⟨some f, l⟩ pathVisitor v = .ok x ↔ _
  rw [De.deserializeAny.eq_def, R.mapErr_eq_ok]
  cases v with
  | string t s => exact ⟨fun h => ⟨s, rfl, (Except.ok.inj h).symm⟩, by rintro ⟨_, h, rfl⟩; cases h; rfl⟩
  | char t s => exact ⟨fun h => ⟨[s], rfl, (Except.ok.inj h).symm⟩, by rintro ⟨_, h, rfl⟩; cases h; rfl⟩
  | num t n =>
    dsimp only
    rw [Num.deserializeAny_visited]
    exact ⟨nofun, by rintro ⟨_, h, _⟩; cases h⟩
  | empty t e => cases e <;> exact ⟨nofun, by rintro ⟨_, h, _⟩; cases h⟩
  | _ => exact ⟨nofun, by rintro ⟨_, h, _⟩; cases h⟩

/-- **C50**: extracting the value at a path as a `RelativePathBuf` succeeds exactly if the value is text; the text is the
original path, and the metadata path is the file that `find_metadata` names as the value's source, if it names one. -/
theorem C50_extract_inner (f : Fig) (path : Str) (v : Value) (hv : f.findValue path = .ok v)
    (hr : v.unreserved = true) (y : Val) :
    (f.extractInner path .relPath = .ok y ↔ ∃ s, v.text? = some s ∧ RelPath.ofVal y = some
      ⟨(f.findMetadata path).bind fun m => m.source.bind fun s => s.filePath, s⟩) ∧
    (f.extractInnerLossy path .relPath = .ok y ↔ ∃ s, v.text? = some s ∧ RelPath.ofVal y = some
      ⟨(f.findMetadata path).bind fun m => m.source.bind fun s => s.filePath, s⟩) := by
  have hm : ((f.findMetadata path).bind fun m => m.source.bind fun s => s.filePath) = f.fileOf v := by
    rw [Fig.findMetadata, hv]; rfl
  have key : ∀ l, Ty.relPath.de ⟨some f, l⟩ v = .ok y ↔
      ∃ s, v.text? = some s ∧ RelPath.ofVal y = some ⟨f.fileOf v, s⟩ := by
    intro l
    rw [Ty.relPath_de f l v hr]
    constructor
    · intro h
      cases hx : Ty.pathBuf.de ⟨some f, l⟩ v with
      | error e => rw [hx] at h; cases h
      | ok x =>
        rw [hx] at h
        obtain ⟨s, hs, rfl⟩ := Ty.pathBuf_ok.1 hx
        cases h
        refine ⟨s, hs, ?_⟩
        cases f.fileOf v <;> rfl
    · rintro ⟨s, hs, hy⟩
      rw [Ty.pathBuf_ok.2 ⟨s, hs, rfl⟩]
      dsimp only
      unfold RelPath.ofVal at hy
      split at hy
      · simp only [Option.some.injEq, RelPath.mk.injEq] at hy; rw [← hy.1, hy.2]
      · simp only [Option.some.injEq, RelPath.mk.injEq] at hy; rw [← hy.1, hy.2]
      · cases hy
  simp only [Fig.extractInner, Fig.extractInnerLossy, Fig.extractInnerWith_ok hv, hm]
  exact ⟨key false, key true⟩

/-- A figment with a path from the file `/etc/app/conf.toml`. -/
def Ex.fileFig : Fig :=
  ⟨Profile.Default, [(⟨1⟩, Metadata.from (str "TOML file") (.file (str "/etc/app/conf.toml")))],
    .ok [(Profile.Default, [(str "logs", .string ⟨1⟩ (str "var/log"))])]⟩

example : ∃ v, Ex.fileFig.findValue (str "logs") = .ok v ∧ v.unreserved = true ∧
    Ex.fileFig.extractInner (str "logs") .relPath =
      .ok (.struct [.some (.str (str "/etc/app/conf.toml")), .str (str "var/log")]) ∧
    (RelPath.mk (some (str "/etc/app/conf.toml")) (str "var/log")).relative (fun _ => false) =
      str "/etc/app/var/log" := ⟨_, rfl, rfl, rfl, by decide⟩

omit [FloatOps] in
/-- **C50**: `relative()` is the original path if this has a root or no file is known; otherwise it leads where the
original path leads from the file's directory (from the file itself, if that is a directory). -/
theorem C50_relative (isDir : Str → Bool) (r : RelPath) :
    (Path.hasRoot r.original = true → r.relative isDir = r.original) ∧
    (r.metadataPath = none → r.relative isDir = r.original) ∧
    (∀ m, r.metadataPath = some m → Path.hasRoot r.original = false → isDir m = true →
      Place.of (r.relative isDir) = (Place.of m).walk r.original) ∧
    (∀ dir name, r.metadataPath = some (Path.join dir name) → IsName name →
      Path.hasRoot r.original = false → isDir (Path.join dir name) = false →
      Place.of (r.relative isDir) = (Place.of dir).walk r.original) ∧
    (∀ m, r.metadataPath = some m → (Path.components m = [] ∨ Path.components m = [.rootDir]) → isDir m = false →
      r.relative isDir = r.original) := by
  obtain ⟨mp, p⟩ := r
  refine ⟨fun h => ?_, fun h => ?_, fun m hm h hd => ?_, fun dir name hm hn h hd => ?_, fun m hm hc hd => ?_⟩
  · exact if_pos h
  · simp only at h
    subst h
    by_cases hr : Path.hasRoot p = true
    · exact if_pos hr
    · exact if_neg hr
  · simp only [RelPath.original] at hm h
    subst hm
    unfold RelPath.relative
    simp only [RelPath.original, h, Option.bind_some, hd, if_true, Bool.false_eq_true, if_false]
    rw [Place.of, Place.walk_join]
    rfl
  · simp only [RelPath.original] at hm h
    subst hm
    have hpar : Path.parent (Path.join dir name) = some (Path.collect (Path.components dir)) := by
      unfold Path.parent
      rw [Path.components_join_name dir hn, List.getLast?_concat, List.dropLast_concat]
    unfold RelPath.relative
    simp only [RelPath.original, h, Option.bind_some, hd, Bool.false_eq_true, if_false, hpar]
    rw [Place.of, Place.walk_join]
    congr 1
    rw [Place.walk, Path.components_collect (Path.canon_components dir)]
    rfl
  · simp only at hm
    subst hm
    have hpar : Path.parent m = none := by
      unfold Path.parent
      rcases hc with hc | hc <;> rw [hc] <;> rfl
    unfold RelPath.relative
    simp only [RelPath.original, Option.bind_some, hd, Bool.false_eq_true, if_false, hpar]
    exact ite_self _

example : ∃ dir name, str "/etc/app/conf.toml" = Path.join dir name ∧ IsName name :=
  ⟨str "/etc/app", str "conf.toml", by decide, by decide⟩

/-- **C50**: a path without root, configured in a file that a file provider found (it is the one `find_metadata` names),
leads from the directory of that file. -/
theorem C50_declared (f : Fig) (path : Str) (v : Value) (hv : f.findValue path = .ok v) (hr : v.unreserved = true)
    (s : Str) (hs : v.text? = some s) (hroot : Path.hasRoot s = false) (d : DataProvider) (fmt : Format)
    (fs : FileSystem) (hd : f.findMetadata path = some (d.metadata fmt fs)) (given : Str) (required search : Bool)
    (hsrc : d.source = .file given required search) (dir name : Str)
    (hfound : DataProvider.resolve fs given search = some (Path.join dir name)) (hname : IsName name)
    (isDir : Str → Bool) (hdir : isDir (Path.join dir name) = false) :
    ∃ y r, f.extractInner path .relPath = .ok y ∧ RelPath.ofVal y = some r ∧ r.original = s ∧
      Place.of (r.relative isDir) = (Place.of dir).walk s := by
  have hm : ((f.findMetadata path).bind fun m => m.source.bind fun s => s.filePath) = some (Path.join dir name) := by
    rw [hd]
    unfold DataProvider.metadata
    rw [hsrc]
    dsimp only
    rw [hfound]
    rfl
  have h := ((C50_extract_inner f path v hv hr (.struct [.some (.str (Path.join dir name)), .str s])).1).2
    ⟨s, hs, by rw [hm]; rfl⟩
  exact ⟨_, ⟨some (Path.join dir name), s⟩, h, rfl, rfl,
    (C50_relative isDir ⟨some (Path.join dir name), s⟩).2.2.2.1 dir name rfl hname hroot hdir⟩

/-- A file provider that finds the file of `Ex.fileFig`. -/
example : Ex.fileFig.findMetadata (str "logs") = some ((DataProvider.file (str "conf.toml")).metadata
      ⟨str "TOML", fun _ => .ok [], fun _ => .ok [], id⟩
      ⟨fun p => p == str "/etc/app/conf.toml", fun _ => .ok [], some (str "/etc/app/sub")⟩) ∧
    DataProvider.resolve ⟨fun p => p == str "/etc/app/conf.toml", fun _ => .ok [], some (str "/etc/app/sub")⟩
      (str "conf.toml") true = some (Path.join (str "/etc/app") (str "conf.toml")) := ⟨rfl, by decide⟩

omit [FloatOps] in
/-- **C50**: two `RelativePathBuf`s are equal if what `relative()` gives is, component by component. -/
theorem C50_equality (isDir : Str → Bool) (a b : RelPath) :
    a.same isDir b = true ↔ Path.components (a.relative isDir) = Path.components (b.relative isDir) := by
  rw [RelPath.same, beq_iff_eq]

/-- **C50**: a `RelativePathBuf` with a file that is serialised under a key in a profile that applies, and extracted
there, keeps both paths; so `relative()` is the same. -/
theorem C50_round (m path : Str) (s : Serialized)
    (hs : s.value = Ty.relPath.ser (.struct [.some (.str m), .str path])) (key : Str) (hkey : s.key = some key)
    (hk : pathKeys key ≠ []) (o : Order) (loc : Location) (c c' : BitVec 64) (f : Fig)
    (hf : Fig.new.provide s.toProvider o loc c = (some f, c')) (p : Profile)
    (hpr : s.profile.same Profile.Default = true ∨ s.profile.same Profile.Global = true ∨ s.profile.same p = true) :
    ∃ y, (f.select p).extractInner key .relPath = .ok y ∧ (f.select p).extractInnerLossy key .relPath = .ok y ∧
      RelPath.ofVal y = some ⟨some m, path⟩ := by
  have h := C30_extract_inner_partial .relPath (by decide) (.struct [.some (.str m), .str path]) (by
      simp only [Ty.relPath, Ty.Has, Ty.HasFields]
      exact ⟨_, rfl, ⟨_, _, rfl, .inr ⟨_, rfl, _, rfl⟩, _, _, rfl, ⟨_, rfl⟩, rfl⟩, nofun, fun _ => nofun⟩)
    s hs key hkey hk o loc c c' f hf p hpr
  exact ⟨_, h.1, h.2, rfl⟩

/-- **C50**: whoever supplies what a `RelativePathBuf` without a file is written as, extracting it keeps the path and
gives the supplier's file, if it has one. -/
theorem C50_round_none (path : Str) :
    ∃ w, (Ty.relPath.ser (.struct [.none, .str path])).serialize = .ok w ∧ ∀ w' : Value, w'.strip = w.strip →
      ∀ f l, ∃ y, Ty.relPath.de ⟨some f, l⟩ w' = .ok y ∧ RelPath.ofVal y = some ⟨f.fileOf w', path⟩ := by
  refine ⟨_, rfl, ?_⟩
  intro w' hw'
  obtain ⟨t', v0, v1, rfl, hv0, hv1⟩ := two_written (k0 := RelPath.FIELD0) (k1 := RelPath.FIELD1)
    (w0 := .ofEmpty .none) (w1 := .ofStr path) (by decide) hw'
  obtain ⟨t0, rfl⟩ := Value.strip_eq_empty hv0
  obtain ⟨t1, rfl⟩ := Value.strip_eq_string hv1
  intro f l
  have hfind : (Value.dict t' [(RelPath.FIELD0, .empty t0 .none), (RelPath.FIELD1, .string t1 path)]).find
      RelPath.FIELD1 = some (.string t1 path) := by
    rw [Value.find_eq, show pathKeys RelPath.FIELD1 = [RelPath.FIELD1] by decide, Value.getKeys_dict_cons]
    rfl
  show ∃ y, De.deserializeStruct ⟨some f, l⟩ RelPath.NAME (structVisitor _ _ false
    (Ty.deFields [(RelPath.FIELD0, none, .option .pathBuf), (RelPath.FIELD1, none, .pathBuf)])) _ = .ok y ∧ _
  unfold De.deserializeStruct
  dsimp only
  rw [if_neg (by decide), if_pos rfl]
  unfold De.relPathFrom
  simp only [Value.asDict?, hfind, Option.getD_some,
    show Map.get RelPath.FIELD0 [(RelPath.FIELD0, Value.empty t0 .none), (RelPath.FIELD1, Value.string t1 path)] =
      some (Value.empty t0 .none) from rfl,
    show (Value.empty t0 .none).toEmpty?.isNone = false from rfl, Bool.false_eq_true, if_false]
  rw [show ((Map.get (Value.dict t' [(RelPath.FIELD0, Value.empty t0 Empty.none),
    (RelPath.FIELD1, Value.string t1 path)]).tag f.metadata).bind fun m => m.source.bind Source.filePath) =
    f.fileOf (.dict t' [(RelPath.FIELD0, Value.empty t0 Empty.none), (RelPath.FIELD1, Value.string t1 path)]) from rfl]
  cases f.fileOf (.dict t' [(RelPath.FIELD0, Value.empty t0 Empty.none), (RelPath.FIELD1, Value.string t1 path)]) with
  | none => exact ⟨.struct [.none, .str path], rfl, rfl⟩
  | some m => exact ⟨.struct [.some (.str m), .str path], rfl, rfl⟩

end Figment
