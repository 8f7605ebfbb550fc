import Verif.Lemmas.Extract
/-!
# Lemmas: `Tagged` and `RelativePathBuf`
-/
namespace Figment

theorem Value.keysAllD_iff {P : Str → Bool} {d : List (Str × Value)} :
    Value.keysAllD P d = true ↔ ∀ e ∈ d, P e.1 = true ∧ e.2.keysAll P = true := by
  induction d with
  | nil => simp [Value.keysAllD]
  | cons e d ih => obtain ⟨k, v⟩ := e; simp [Value.keysAllD, ih, and_assoc]

theorem Value.keysAllA_iff {P : Str → Bool} {a : List Value} :
    Value.keysAllA P a = true ↔ ∀ v ∈ a, v.keysAll P = true := by
  induction a with
  | nil => simp [Value.keysAllA]
  | cons v a ih => simp [Value.keysAllA, ih]

theorem Value.noReserved_of_unreserved (v : Value) : v.unreserved = true → v.noReserved = true := by
  unfold Value.unreserved
  induction v using Value.induct with
  | hdict t d ih =>
    intro h
    rw [Value.keysAll, Value.keysAllD_iff] at h
    rw [Value.noReserved, Value.noReservedD_iff]
    intro e he
    have h1 := h e he
    refine ⟨?_, ?_, ih e he h1.2⟩
    · intro hk; rw [hk] at h1; exact absurd h1.1 (by decide)
    · intro hk; rw [hk] at h1; exact absurd h1.1 (by decide)
  | harray t a ih =>
    intro h
    rw [Value.keysAll, Value.keysAllA_iff] at h
    rw [Value.noReserved, Value.noReservedA_iff]
    exact fun e he => ih e he (h e he)
  | _ => intros; rfl

/-- A value without reserved keys has nothing at a reserved key. -/
theorem Value.unreserved_get {t : Tag} {d : List (Str × Value)} (h : (Value.dict t d).unreserved = true) {k : Str}
    (hk : k ∈ reservedFields) : Map.get k d = none := by
  cases hg : Map.get k d with
  | none => rfl
  | some w =>
    obtain ⟨k', hm, hc⟩ := Map.mem_of_get hg
    have := (Value.keysAllD_iff.1 h _ hm).1
    rw [← Std.LawfulEqOrd.eq_of_compare hc] at this
    simp [hk] at this

theorem Value.unreserved_find {v : Value} (h : v.unreserved = true) {k : Str} (hk : k ∈ reservedFields)
    (hp : pathKeys k = [k]) : v.find k = none := by
  rw [Value.find_eq, hp]
  cases v with
  | dict t d => rw [Value.getKeys_dict_cons, Value.unreserved_get h hk]; rfl
  | _ => rw [Value.getKeys_leaf_cons rfl]

theorem Value.keysAll_getKeys {P : Str → Bool} {ks : List Str} {v w : Value} (hv : v.keysAll P = true)
    (h : v.getKeys ks = some w) : w.keysAll P = true := by
  induction ks generalizing v with
  | nil => rw [Value.getKeys_nil] at h; rwa [← Option.some.inj h]
  | cons k ks ih =>
    cases v with
    | dict t d =>
      rw [Value.getKeys_dict_cons] at h
      cases hg : Map.get k d with
      | none => rw [hg] at h; cases h
      | some x =>
        rw [hg] at h
        obtain ⟨k', hm, _⟩ := Map.mem_of_get hg
        exact ih (Value.keysAllD_iff.1 hv _ hm).2 h
    | _ => rw [Value.getKeys_leaf_cons rfl] at h; cases h

/-- A struct with two fields, read from a dictionary with these two keys. -/
theorem two_fields {a b : Str} {deny : Bool} {k0 k1 : Str} {o0 o1 : Bool} {r0 r1 : Seed} (hk : k0 ≠ k1) (de : De)
    (v0 v1 : Value) :
    (structVisitor a b deny [⟨k0, none, o0, r0⟩, ⟨k1, none, o1, r1⟩]).visitMap de [(k0, v0), (k1, v1)] =
      match MapDe.nextValue r0 de k0 v0 with
      | .error e => .error e
      | .ok x0 =>
        match MapDe.nextValue r1 de k1 v1 with
        | .error e => .error e
        | .ok x1 => .ok (.struct [x0, x1]) := by
  unfold structVisitor
  dsimp only
  rw [fieldLoop]
  simp only [List.find?_cons, decide_true]
  cases MapDe.nextValue r0 de k0 v0 with
  | error e => rfl
  | ok x0 =>
    dsimp only
    rw [fieldLoop]
    simp only [List.find?_cons, decide_eq_false hk, decide_true]
    cases MapDe.nextValue r1 de k1 v1 with
    | error e => rfl
    | ok x1 =>
      have hk' : (k0 == k1) = false := beq_eq_false_iff_ne.2 hk
      simp [fieldLoop, fieldFinish, FieldSeed.get, List.lookup_cons, hk']

/-- A struct with two fields, the first optional, read from a dictionary with the second key. -/
theorem one_field {a b : Str} {deny : Bool} {k0 k1 : Str} {o1 : Bool} {r0 r1 : Seed} (hk : k0 ≠ k1) (de : De)
    (v1 : Value) :
    (structVisitor a b deny [⟨k0, none, true, r0⟩, ⟨k1, none, o1, r1⟩]).visitMap de [(k1, v1)] =
      match MapDe.nextValue r1 de k1 v1 with
      | .error e => .error e
      | .ok x1 => .ok (.struct [.none, x1]) := by
  unfold structVisitor
  dsimp only
  rw [fieldLoop]
  simp only [List.find?_cons, decide_eq_false hk, decide_true]
  cases MapDe.nextValue r1 de k1 v1 with
  | error e => rfl
  | ok x1 =>
    have hk' : (k0 == k1) = false := beq_eq_false_iff_ne.2 hk
    simp [fieldLoop, fieldFinish, FieldSeed.get, FieldSeed.missing, List.lookup_cons, hk']

variable [FloatOps]

theorem Ty.tagged_de' {text : Str} {deny : Bool} (t : Ty) (f : Fig) (l : Bool) (v : Value) (h : v.unreserved = true) :
    (Ty.struct text Tagged.NAME deny [(Tagged.FIELD0, none, .tag), (Tagged.FIELD1, none, t)]).de ⟨some f, l⟩ v =
      match t.de ⟨some f, l⟩ v with
      | .ok x => .ok (.struct [.tag v.tag, x])
      | .error e => .error (De.err ⟨some f, l⟩ v.tag (MapDe.err Tagged.FIELD1 v e)) := by
  have hfind : v.find Tagged.FIELD1 = none := Value.unreserved_find h (by decide) (by decide)
  rw [Ty.de]
  dsimp only
  unfold De.deserializeStruct
  dsimp only
  rw [if_neg (by decide), if_neg (by decide), if_pos rfl]
  have hfrom : ∀ V : Visitor Val, De.taggedFrom ⟨some f, l⟩ V v =
      V.visitMap ⟨some f, l⟩ [(Tagged.FIELD0, Value.ofTag v.tag), (Tagged.FIELD1, v)] := by
    intro V
    unfold De.taggedFrom
    cases v with
    | dict tg d =>
      simp only [Value.asDict?, Value.unreserved_get h (show Tagged.FIELD0 ∈ reservedFields by decide)]
      rw [hfind]
      rfl
    | _ => simp only [Value.asDict?]; rw [hfind]; rfl
  rw [hfrom, Ty.deFields, Ty.deFields, Ty.deFields, two_fields (by decide)]
  have htag : MapDe.nextValue Ty.tag.de ⟨some f, l⟩ Tagged.FIELD0 (Value.ofTag v.tag) = .ok (.tag v.tag) := by
    rw [MapDe.nextValue, R.mapErr_eq_ok, Ty.de]
    dsimp only
    rw [Value.tag_ofTag]
    rfl
  rw [htag]
  dsimp only
  rw [MapDe.nextValue]
  cases t.de ⟨some f, l⟩ v <;> rfl

theorem Ty.tagged_de (t : Ty) (f : Fig) (l : Bool) (v : Value) (h : v.unreserved = true) :
    (Ty.tagged t).de ⟨some f, l⟩ v =
      match t.de ⟨some f, l⟩ v with
      | .ok x => .ok (.struct [.tag v.tag, x])
      | .error e => .error (De.err ⟨some f, l⟩ v.tag (MapDe.err Tagged.FIELD1 v e)) := Ty.tagged_de' t f l v h

/-- The file that declares a value: the file of the metadata its tag names. -/
def Fig.fileOf (f : Fig) (v : Value) : Option Str :=
  (Map.get v.tag f.metadata).bind fun m => m.source.bind Source.filePath

theorem Ty.relPath_de' {text : Str} {deny : Bool} (f : Fig) (l : Bool) (v : Value) (h : v.unreserved = true) :
    (Ty.struct text RelPath.NAME deny [(RelPath.FIELD0, none, .option .pathBuf), (RelPath.FIELD1, none, .pathBuf)]).de
        ⟨some f, l⟩ v =
      match Ty.pathBuf.de ⟨some f, l⟩ v with
      | .ok x => .ok (.struct [match f.fileOf v with | some p => .some (.str p) | none => .none, x])
      | .error e => .error (De.err ⟨some f, l⟩ v.tag (MapDe.err RelPath.FIELD1 v e)) := by
  have hfind : v.find RelPath.FIELD1 = none := Value.unreserved_find h (by decide) (by decide)
  show De.deserializeStruct ⟨some f, l⟩ RelPath.NAME (structVisitor _ _ deny
    (Ty.deFields [(RelPath.FIELD0, none, .option .pathBuf), (RelPath.FIELD1, none, .pathBuf)])) v = _
  unfold De.deserializeStruct
  dsimp only
  rw [if_neg (by decide), if_pos rfl]
  have hfrom : ∀ V : Visitor Val, De.relPathFrom ⟨some f, l⟩ f V v =
      V.visitMap ⟨some f, l⟩ (match f.fileOf v with
        | some path => [(RelPath.FIELD0, Value.ofStr path), (RelPath.FIELD1, v)]
        | none => [(RelPath.FIELD1, v)]) := by
    intro V
    unfold De.relPathFrom Fig.fileOf
    cases v with
    | dict tg d =>
      simp only [Value.asDict?, Value.unreserved_get h (show RelPath.FIELD0 ∈ reservedFields by decide)]
      rw [hfind, Option.getD_none]
      cases (Map.get (Value.dict tg d).tag f.metadata).bind fun m => m.source.bind Source.filePath <;> rfl
    | _ =>
      simp only [Value.asDict?]
      rw [hfind, Option.getD_none]
      cases (Map.get (Value.tag _) f.metadata).bind fun m => m.source.bind Source.filePath <;> rfl
  rw [hfrom, Ty.deFields, Ty.deFields, Ty.deFields]
  cases f.fileOf v with
  | none =>
    dsimp only
    rw [show (Ty.option .pathBuf).isOption = true from rfl, one_field (by decide), MapDe.nextValue]
    cases Ty.pathBuf.de ⟨some f, l⟩ v <;> rfl
  | some p =>
    dsimp only
    rw [two_fields (by decide)]
    have hp : MapDe.nextValue (Ty.option .pathBuf).de ⟨some f, l⟩ RelPath.FIELD0 (Value.ofStr p) =
        .ok (.some (.str p)) := by
      rw [MapDe.nextValue, R.mapErr_eq_ok, Ty.de]
      rfl
    rw [hp]
    dsimp only
    rw [MapDe.nextValue]
    cases Ty.pathBuf.de ⟨some f, l⟩ v <;> rfl

theorem Ty.relPath_de (f : Fig) (l : Bool) (v : Value) (h : v.unreserved = true) :
    Ty.relPath.de ⟨some f, l⟩ v =
      match Ty.pathBuf.de ⟨some f, l⟩ v with
      | .ok x => .ok (.struct [match f.fileOf v with | some p => .some (.str p) | none => .none, x])
      | .error e => .error (De.err ⟨some f, l⟩ v.tag (MapDe.err RelPath.FIELD1 v e)) := Ty.relPath_de' f l v h

end Figment
