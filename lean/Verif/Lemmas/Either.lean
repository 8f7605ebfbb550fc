import Verif.Model.Either
import Verif.Spec.Either
import Verif.Lemmas.Magic
import Verif.Lemmas.Strip
/-!
# Lemmas: `Either`
-/
namespace Figment

/-- What is extracted for a value as a `Value`. -/
def Value.extracted (v : Value) : Value := (v.mapNum Num.visited).inherit v.tag

namespace Value

theorem strip_inherit (t : Tag) (v : Value) : (v.inherit t).strip = v.strip := by
  induction v using Value.induct generalizing t with
  | hdict u d ih =>
    simp only [inherit, strip, stripD_eq, inheritD_eq, List.map_map]
    congr 1
    exact List.map_congr_left (fun e he => by simp [ih e he])
  | harray u a ih =>
    simp only [inherit, strip, stripA_eq, inheritA_eq, List.map_map]
    congr 1
    exact List.map_congr_left (fun e he => by simp [ih e he])
  | _ => rfl

theorem wf_of_strip {v w : Value} (h : v.strip = w.strip) (hv : v.WF) : w.WF := by
  induction v using Value.induct generalizing w with
  | hdict u d ih =>
    obtain ⟨t, d', rfl, hd⟩ := like_dict h
    rw [wf_dict] at hv ⊢
    refine ⟨?_, ?_⟩
    · have hs : Map.Sorted (stripD d) := by
        rw [stripD_eq]; unfold Map.Sorted; rw [List.pairwise_map]; exact hv.1
      rw [hd, stripD_eq] at hs
      unfold Map.Sorted at hs ⊢
      rw [List.pairwise_map] at hs
      exact hs
    · intro e he
      obtain ⟨k, w⟩ := e
      obtain ⟨i, hi⟩ := List.getElem?_of_mem he
      obtain ⟨v, hv', hs⟩ := getEntry_like hd hi
      exact ih (k, v) (List.mem_of_getElem? hv') hs (hv.2 _ (List.mem_of_getElem? hv'))
  | harray u a ih =>
    obtain ⟨t, a', rfl, ha⟩ := like_array h
    rw [wf_array] at hv ⊢
    intro w hw
    obtain ⟨i, hi⟩ := List.getElem?_of_mem hw
    obtain ⟨v, hv', hs⟩ := getElem_like ha hi
    exact ih v (List.mem_of_getElem? hv') hs (hv _ (List.mem_of_getElem? hv'))
  | hstring t s => obtain ⟨t', rfl⟩ := like_string h; exact hv
  | hchar t s => obtain ⟨t', rfl⟩ := like_char h; exact hv
  | hbool t s => obtain ⟨t', rfl⟩ := like_bool h; exact hv
  | hnum t s => obtain ⟨t', rfl⟩ := like_num h; exact hv
  | hempty t s => obtain ⟨t', rfl⟩ := like_empty h; exact hv

theorem fixedWidthD_iff {d : List (Str × Value)} : fixedWidthD d = true ↔ ∀ e ∈ d, e.2.fixedWidth = true := by
  induction d with
  | nil => simp [fixedWidthD]
  | cons e r ih => simp only [fixedWidthD, Bool.and_eq_true, ih, List.forall_mem_cons]

theorem fixedWidthA_iff {a : List Value} : fixedWidthA a = true ↔ ∀ v ∈ a, v.fixedWidth = true := by
  induction a with
  | nil => simp [fixedWidthA]
  | cons v r ih => simp only [fixedWidthA, Bool.and_eq_true, ih, List.forall_mem_cons]

theorem mapNum_fixed {v : Value} (h : v.fixedWidth = true) : v.mapNum Num.visited = v := by
  induction v using Value.induct with
  | hnum t n =>
    cases n with
    | usize n => cases h
    | isize n => cases h
    | _ => rfl
  | hdict t d ih =>
    rw [fixedWidth, fixedWidthD_iff] at h
    rw [mapNum, mapNumD_eq]
    congr 1
    conv => rhs; rw [← List.map_id d]
    exact List.map_congr_left fun e he => by rw [ih e he (h e he)]; rfl
  | harray t a ih =>
    rw [fixedWidth, fixedWidthA_iff] at h
    rw [mapNum, mapNumA_eq]
    congr 1
    conv => rhs; rw [← List.map_id a]
    exact List.map_congr_left fun e he => by rw [ih e he (h e he)]; rfl
  | _ => rfl

theorem strip_extracted {v : Value} (h : v.fixedWidth = true) : v.extracted.strip = v.strip := by
  rw [extracted, strip_inherit, mapNum_fixed h]

end Value

theorem De.taggedFrom_unreserved {α : Type} (f : Fig) (l : Bool) (V : Visitor α) (v : Value) (h : v.unreserved = true) :
    De.taggedFrom ⟨some f, l⟩ V v =
      V.visitMap ⟨some f, l⟩ [(Tagged.FIELD0, Value.ofTag v.tag), (Tagged.FIELD1, v)] := by
  have hfind : v.find Tagged.FIELD1 = none := Value.unreserved_find h (by decide) (by decide)
  unfold De.taggedFrom
  cases v with
  | dict tg d =>
    simp only [Value.asDict?, Value.unreserved_get h (show Tagged.FIELD0 ∈ reservedFields by decide)]
    rw [hfind]
    rfl
  | _ => simp only [Value.asDict?]; rw [hfind]; rfl

theorem De.relPathFrom_unreserved {α : Type} (f : Fig) (l : Bool) (V : Visitor α) (v : Value)
    (h : v.unreserved = true) : De.relPathFrom ⟨some f, l⟩ f V v =
      V.visitMap ⟨some f, l⟩ (match f.fileOf v with
        | some path => [(RelPath.FIELD0, Value.ofStr path), (RelPath.FIELD1, v)]
        | none => [(RelPath.FIELD1, v)]) := by
  have hfind : v.find RelPath.FIELD1 = none := Value.unreserved_find h (by decide) (by decide)
  unfold De.relPathFrom Fig.fileOf
  cases v with
  | dict tg d =>
    simp only [Value.asDict?, Value.unreserved_get h (show RelPath.FIELD0 ∈ reservedFields by decide)]
    rw [hfind, Option.getD_none]
    cases (Map.get (Value.dict tg d).tag f.metadata).bind fun m => m.source.bind Source.filePath <;> rfl
  | _ =>
    simp only [Value.asDict?]
    rw [hfind, Option.getD_none]
    cases (Map.get (Value.tag _) f.metadata).bind fun m => m.source.bind Source.filePath <;> rfl

/-- `ValueVisitor` on a dictionary with one or two magic fields. -/
theorem visitMap_one (f : Fig) (l : Bool) (k : Str) (v : Value) (hk : k ≠ Value.FIELD0 ∧ k ≠ Value.FIELD1)
    (hw : v.WF) (hr : v.unreserved = true) :
    Value.visitor.visitMap ⟨some f, l⟩ [(k, v)] = .ok (.ofDict [(k, v.extracted)]) := by
  have h1 := Value.de_ok f l v hw (Value.noReserved_of_unreserved v hr)
  rw [Value.de] at h1
  show (match Value.rawDeMap ⟨some f, l⟩ [(k, v)] ⟨[], none, none⟩ with | .ok st => _ | .error e => _) = _
  rw [Value.rawDeMap, Value.visitEntry, if_neg hk.1, if_neg hk.2, h1]
  rfl

theorem visitMap_two (f : Fig) (l : Bool) (k0 k1 : Str) (v0 v : Value) (hk0 : k0 ≠ Value.FIELD0 ∧ k0 ≠ Value.FIELD1)
    (hk : k1 ≠ Value.FIELD0 ∧ k1 ≠ Value.FIELD1) (hlt : compare k1 k0 = .gt) (w : Value)
    (h0 : Value.de ⟨some f, l⟩ v0 = .ok w) (hw : v.WF) (hr : v.unreserved = true) :
    Value.visitor.visitMap ⟨some f, l⟩ [(k0, v0), (k1, v)] = .ok (.ofDict [(k0, w), (k1, v.extracted)]) := by
  have h1 := Value.de_ok f l v hw (Value.noReserved_of_unreserved v hr)
  rw [Value.de] at h1 h0
  show (match Value.rawDeMap ⟨some f, l⟩ [(k0, v0), (k1, v)] ⟨[], none, none⟩ with | .ok st => _ | .error e => _) = _
  rw [Value.rawDeMap, Value.visitEntry, if_neg hk0.1, if_neg hk0.2, h0]
  dsimp only [R.mapErr_ok]
  rw [Value.rawDeMap, Value.visitEntry, if_neg hk.1, if_neg hk.2, h1]
  dsimp only [R.mapErr_ok, Value.rawDeMap, Map.insert]
  rw [hlt]
  rfl

variable [FloatOps] [TextOps]

/-- How an `Either` with `Tagged` is read. -/
theorem Either.de_tagged (cwd : Option Str) (t b : Ty) (f : Fig) (l : Bool) (v : Value) (hw : v.WF)
    (hr : v.unreserved = true) : Either.de cwd (.tagged t) b ⟨some f, l⟩ v =
      match t.de De.plain v.extracted with
      | .ok x => .ok (.left (.struct [.tag v.tag, x]))
      | .error ea =>
        match b.de De.plain v.extracted with
        | .ok y => .ok (.right y)
        | .error eb => .error (Error.ofKind (.message
          ((De.plain.err Tag.Default (MapDe.err Tagged.FIELD1 v.extracted ea)).display cwd ++ str "; " ++ eb.display cwd))) := by
  have hs : De.deserializeStruct ⟨some f, l⟩ Tagged.NAME Value.visitor v =
      .ok (.ofDict [(Tagged.FIELD0, (Value.ofTag v.tag).extracted), (Tagged.FIELD1, v.extracted)]) := by
    unfold De.deserializeStruct
    dsimp only
    rw [if_neg (by decide), if_neg (by decide), if_pos rfl, R.mapErr_eq_ok, De.taggedFrom_unreserved f l _ v hr,
      visitMap_two f l _ _ _ _ (by decide) (by decide) (by decide) _ rfl hw hr]
    rfl
  rw [Either.de]
  simp only [MagicTy.name, hs, MagicTy.ty, Ty.tagged]
  have ha : (Ty.struct (str "Tagged") Tagged.NAME false [(Tagged.FIELD0, none, .tag), (Tagged.FIELD1, none, t)]).de
      De.plain (.ofDict [(Tagged.FIELD0, (Value.ofTag v.tag).extracted), (Tagged.FIELD1, v.extracted)]) =
      match t.de De.plain v.extracted with
      | .ok x => .ok (.struct [.tag v.tag, x])
      | .error e => .error (De.plain.err Tag.Default (MapDe.err Tagged.FIELD1 v.extracted e)) := by
    rw [Ty.de]
    dsimp only
    show R.mapErr (De.plain.err Tag.Default) ((structVisitor _ _ false
      (Ty.deFields [(Tagged.FIELD0, none, .tag), (Tagged.FIELD1, none, t)])).visitMap De.plain _) = _
    rw [Ty.deFields, Ty.deFields, Ty.deFields, two_fields (by decide)]
    have htag : MapDe.nextValue Ty.tag.de De.plain Tagged.FIELD0 (Value.ofTag v.tag).extracted = .ok (.tag v.tag) := by
      rw [MapDe.nextValue, R.mapErr_eq_ok, Ty.de]
      rfl
    rw [htag, MapDe.nextValue]
    cases t.de De.plain v.extracted <;> rfl
  rw [ha]
  cases t.de De.plain v.extracted with
  | ok x => rfl
  | error ea =>
    dsimp only
    rw [show ((Value.ofDict [(Tagged.FIELD0, (Value.ofTag v.tag).extracted), (Tagged.FIELD1, v.extracted)]).asDict?.bind
      fun d => Map.get (MagicTy.tagged t).last d) = some v.extracted from rfl, Option.getD_some]
    cases b.de De.plain v.extracted <;> rfl

/-- How an `Either` with `RelativePathBuf` is read. -/
theorem Either.de_relPath (cwd : Option Str) (b : Ty) (f : Fig) (l : Bool) (v : Value) (hw : v.WF)
    (hr : v.unreserved = true) : Either.de cwd .relPath b ⟨some f, l⟩ v =
      match Ty.pathBuf.de De.plain v.extracted with
      | .ok x => .ok (.left (.struct [Val.ofPath? (f.fileOf v), x]))
      | .error ea =>
        match b.de De.plain v.extracted with
        | .ok y => .ok (.right y)
        | .error eb => .error (Error.ofKind (.message
          ((De.plain.err Tag.Default (MapDe.err RelPath.FIELD1 v.extracted ea)).display cwd ++ str "; " ++ eb.display cwd))) := by
  have hs : De.deserializeStruct ⟨some f, l⟩ RelPath.NAME Value.visitor v =
      .ok (.ofDict (match f.fileOf v with
        | some path => [(RelPath.FIELD0, (Value.ofStr path).extracted), (RelPath.FIELD1, v.extracted)]
        | none => [(RelPath.FIELD1, v.extracted)])) := by
    unfold De.deserializeStruct
    dsimp only
    rw [if_neg (by decide), if_pos rfl, R.mapErr_eq_ok, De.relPathFrom_unreserved f l _ v hr]
    cases f.fileOf v with
    | none => exact visitMap_one f l _ v (by decide) hw hr
    | some p => exact visitMap_two f l _ _ _ _ (by decide) (by decide) (by decide) _ rfl hw hr
  rw [Either.de]
  simp only [MagicTy.name, hs, MagicTy.ty, Ty.relPath]
  cases f.fileOf v with
  | none =>
    dsimp only
    have ha : (Ty.struct (str "RelativePathBuf") RelPath.NAME false
        [(RelPath.FIELD0, none, .option .pathBuf), (RelPath.FIELD1, none, .pathBuf)]).de
        De.plain (.ofDict [(RelPath.FIELD1, v.extracted)]) =
        match Ty.pathBuf.de De.plain v.extracted with
        | .ok x => .ok (.struct [.none, x])
        | .error e => .error (De.plain.err Tag.Default (MapDe.err RelPath.FIELD1 v.extracted e)) := by
      show R.mapErr (De.plain.err Tag.Default) ((structVisitor _ _ false
        (Ty.deFields [(RelPath.FIELD0, none, .option .pathBuf), (RelPath.FIELD1, none, .pathBuf)])).visitMap De.plain _) = _
      rw [Ty.deFields, Ty.deFields, Ty.deFields, show (Ty.option .pathBuf).isOption = true from rfl,
        one_field (by decide), MapDe.nextValue]
      cases Ty.pathBuf.de De.plain v.extracted <;> rfl
    rw [ha]
    cases Ty.pathBuf.de De.plain v.extracted with
    | ok x => rfl
    | error ea =>
      dsimp only
      rw [show ((Value.ofDict [(RelPath.FIELD1, v.extracted)]).asDict?.bind
        fun d => Map.get MagicTy.relPath.last d) = some v.extracted from rfl, Option.getD_some]
      cases b.de De.plain v.extracted <;> rfl
  | some p =>
    dsimp only
    have ha : (Ty.struct (str "RelativePathBuf") RelPath.NAME false
        [(RelPath.FIELD0, none, .option .pathBuf), (RelPath.FIELD1, none, .pathBuf)]).de
        De.plain (.ofDict [(RelPath.FIELD0, (Value.ofStr p).extracted), (RelPath.FIELD1, v.extracted)]) =
        match Ty.pathBuf.de De.plain v.extracted with
        | .ok x => .ok (.struct [.some (.str p), x])
        | .error e => .error (De.plain.err Tag.Default (MapDe.err RelPath.FIELD1 v.extracted e)) := by
      show R.mapErr (De.plain.err Tag.Default) ((structVisitor _ _ false
        (Ty.deFields [(RelPath.FIELD0, none, .option .pathBuf), (RelPath.FIELD1, none, .pathBuf)])).visitMap De.plain _) = _
      rw [Ty.deFields, Ty.deFields, Ty.deFields, two_fields (by decide)]
      have hp : MapDe.nextValue (Ty.option .pathBuf).de De.plain RelPath.FIELD0 (Value.ofStr p).extracted =
          .ok (.some (.str p)) := by
        rw [MapDe.nextValue, R.mapErr_eq_ok, Ty.de]
        rfl
      rw [hp, MapDe.nextValue]
      cases Ty.pathBuf.de De.plain v.extracted <;> rfl
    rw [ha]
    cases Ty.pathBuf.de De.plain v.extracted with
    | ok x => rfl
    | error ea =>
      dsimp only
      rw [show ((Value.ofDict [(RelPath.FIELD0, (Value.ofStr p).extracted), (RelPath.FIELD1, v.extracted)]).asDict?.bind
        fun d => Map.get MagicTy.relPath.last d) = some v.extracted from rfl, Option.getD_some]
      cases b.de De.plain v.extracted <;> rfl

end Figment
