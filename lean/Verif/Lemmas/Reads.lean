import Verif.Lemmas.Keys
import Verif.Lemmas.De
import Verif.Lemmas.DeValue
import Verif.Lemmas.Find
import Verif.Lemmas.Origin
import Verif.Spec.Equal
/-!
# Lemmas: what deserialisation reads of a figment
-/
namespace Figment

/-- Every tag in the error and its chain satisfies `P`. -/
def Error.tagsIn (P : Tag → Bool) : Error → Bool
  | .last h => P h.tag
  | .cons h p => P h.tag && p.tagsIn P

/-- The two figments have related profiles, and the same metadata for the tags that satisfy `P`. -/
structure Agree (ρ : Profile → Profile → Prop) (P : Tag → Bool) (f g : Fig) : Prop where
  profile : ρ f.profile g.profile
  metadata : ∀ t, P t = true → Map.get t f.metadata = Map.get t g.metadata
  dflt : P Tag.Default = true
  refl : ∀ p, ρ p p

/-- The two errors are the same but for their profiles, which are related, and their tags satisfy `P`. -/
def Error.AlikeIn (ρ : Profile → Profile → Prop) (P : Tag → Bool) (e e' : Error) : Prop :=
  Error.Alike ρ e e' ∧ e.tagsIn P = true

/-- The two results are equal, but for the profiles in errors, and if they are an error its tags satisfy `P`. -/
inductive Res {α : Type _} (ρ : Profile → Profile → Prop) (P : Tag → Bool) : R α → R α → Prop
  | ok (x : α) : Res ρ P (.ok x) (.ok x)
  | err {e e' : Error} (h : Error.AlikeIn ρ P e e') : Res ρ P (.error e) (.error e')

namespace Res
variable {α β : Type _} {ρ : Profile → Profile → Prop} {P : Tag → Bool}

theorem fail (h : P Tag.Default = true) (k : Kind) : Res ρ P (.error (Error.ofKind k) : R α) (.error (Error.ofKind k)) :=
  .err ⟨.last ⟨rfl, .none, rfl, rfl, rfl⟩, h⟩

theorem mapErr {r r' : R α} (h : Res ρ P r r') {k k' : Error → Error}
    (hk : ∀ e e', Error.AlikeIn ρ P e e' → Error.AlikeIn ρ P (k e) (k' e')) : Res ρ P (r.mapErr k) (r'.mapErr k') := by
  cases h with
  | ok x => exact .ok x
  | err h => exact .err (hk _ _ h)

@[elab_as_elim]
theorem elim {motive : R α → R α → Prop} {r r' : R α} (h : Res ρ P r r') (error : ∀ e e', Error.AlikeIn ρ P e e' →
    motive (.error e) (.error e')) (ok : ∀ x, motive (.ok x) (.ok x)) : motive r r' := by
  cases h with
  | ok x => exact ok x
  | err h => exact error _ _ h

@[elab_as_elim]
theorem elim₁ {motive : R α → Prop} {r : R α} (h : Res ρ P r r) (error : ∀ e, Error.AlikeIn ρ P e e → motive (.error e))
    (ok : ∀ x, motive (.ok x)) : motive r := by
  cases r with
  | ok x => exact ok x
  | error e => cases h with | err h => exact error _ h
end Res

section
variable {ρ : Profile → Profile → Prop} {P : Tag → Bool} {f g : Fig}

theorem Error.Alike.tag {e e' : Error} (h : Error.Alike ρ e e') : e.head.tag = e'.head.tag := by
  cases h <;> exact ErrorHead.Alike.tag ‹_›

theorem Error.AlikeIn.mapHead {e e' : Error} {k : ErrorHead → ErrorHead} (h : Error.AlikeIn ρ P e e')
    (hk : ∀ x x' : ErrorHead, P x.tag = true → ErrorHead.Alike ρ x x' →
      P (k x).tag = true ∧ ErrorHead.Alike ρ (k x) (k x')) : Error.AlikeIn ρ P (e.mapHead k) (e'.mapHead k) := by
  obtain ⟨h, ht⟩ := h
  cases h with
  | last a => exact ⟨.last (hk _ _ ht a).2, (hk _ _ ht a).1⟩
  | cons a b =>
    rw [Error.tagsIn, Bool.and_eq_true] at ht
    refine ⟨.cons (hk _ _ ht.1 a).2 b, ?_⟩
    rw [Error.mapHead, Error.tagsIn, Bool.and_eq_true]
    exact ⟨(hk _ _ ht.1 a).1, ht.2⟩

theorem Error.AlikeIn.ofKind (h : P Tag.Default = true) (k : Kind) :
    Error.AlikeIn ρ P (Error.ofKind k) (Error.ofKind k) := ⟨.last ⟨rfl, .none, rfl, rfl, rfl⟩, h⟩

theorem Error.AlikeIn.prefixed {e e' : Error} (h : Error.AlikeIn ρ P e e') (k : Str) :
    Error.AlikeIn ρ P (e.prefixed k) (e'.prefixed k) :=
  h.mapHead fun _ _ ht a => ⟨ht, ⟨a.tag, a.profile, a.metadata, congrArg (k :: ·) a.path, a.kind⟩⟩

theorem Error.AlikeIn.retagged {e e' : Error} (h : Error.AlikeIn ρ P e e') {t : Tag} (ht : P t = true) :
    Error.AlikeIn ρ P (e.retagged t) (e'.retagged t) := by
  unfold Error.retagged
  rw [h.1.tag]
  split
  · exact h.mapHead fun _ _ _ a => ⟨ht, ⟨rfl, a.profile, a.metadata, a.path, a.kind⟩⟩
  · exact h

theorem Agree.resolved (a : Agree ρ P f g) {e e' : Error} (h : Error.AlikeIn ρ P e e') :
    Error.AlikeIn ρ P (e.resolved f.metadata f.profile) (e'.resolved g.metadata g.profile) := by
  have hh : ∀ x x' : ErrorHead, P x.tag = true → ErrorHead.Alike ρ x x' → ErrorHead.Alike ρ
      (Error.resolved.resolveHead f.metadata f.profile x) (Error.resolved.resolveHead g.metadata g.profile x') := by
    intro x x' hx h
    refine ⟨h.tag, ?_, ?_, h.path, h.kind⟩
    · show Both ρ (x.tag.profile.or _) (x'.tag.profile.or _)
      rw [h.tag]
      cases x'.tag.profile with
      | none => exact .some a.profile
      | some p => exact .some (a.refl p)
    · show Map.get x.tag _ = Map.get x'.tag _
      rw [← h.tag]
      exact a.metadata _ hx
  obtain ⟨h, ht⟩ := h
  induction h with
  | last h => exact ⟨.last (hh _ _ ht h), ht⟩
  | cons h _ ih =>
    rw [Error.tagsIn, Bool.and_eq_true] at ht
    refine ⟨.cons (hh _ _ ht.1 h) (ih ht.2).1, ?_⟩
    rw [Error.resolved, Error.tagsIn, Bool.and_eq_true]
    exact ⟨ht.1, (ih ht.2).2⟩

theorem Agree.err (a : Agree ρ P f g) {l : Bool} {t : Tag} (ht : P t = true) (e e' : Error)
    (h : Error.AlikeIn ρ P e e') : Error.AlikeIn ρ P (De.err ⟨some f, l⟩ t e) (De.err ⟨some g, l⟩ t e') :=
  a.resolved (h.retagged ht)

theorem Value.tagsAll_elem {a : List Value} (h : Value.tagsAllA P a = true) {v : Value} (hv : v ∈ a) :
    v.tagsAll P = true := by
  induction a with
  | nil => cases hv
  | cons x r ih =>
    rw [Value.tagsAllA, Bool.and_eq_true] at h
    rcases List.mem_cons.1 hv with rfl | hv
    · exact h.1
    · exact ih h.2 hv

/-- The seed reads nothing of a figment but its profile and the metadata for the tags in the value. -/
def Seed.Reads {α : Type _} (ρ : Profile → Profile → Prop) (P : Tag → Bool) (f g : Fig) (s : De → Value → R α) : Prop :=
  ∀ l v, v.tagsAll P = true → Res ρ P (s ⟨some f, l⟩ v) (s ⟨some g, l⟩ v)

/-- The same for a visitor. -/
structure Visitor.Reads {α : Type} (ρ : Profile → Profile → Prop) (P : Tag → Bool) (f g : Fig) (V : Visitor α) : Prop where
  bool : ∀ b, Res ρ P (V.visitBool b) (V.visitBool b)
  num : ∀ n, Res ρ P (V.visitNum n) (V.visitNum n)
  str : ∀ s, Res ρ P (V.visitStr s) (V.visitStr s)
  char : ∀ c, Res ρ P (V.visitChar c) (V.visitChar c)
  none : Res ρ P V.visitNone V.visitNone
  unit : Res ρ P V.visitUnit V.visitUnit
  some : ∀ l v, v.tagsAll P = true → Res ρ P (V.visitSome ⟨.some f, l⟩ v) (V.visitSome ⟨.some g, l⟩ v)
  newtype : ∀ l v, v.tagsAll P = true → Res ρ P (V.visitNewtype ⟨.some f, l⟩ v) (V.visitNewtype ⟨.some g, l⟩ v)
  seq : ∀ l a, Value.tagsAllA P a = true → Res ρ P (V.visitSeq ⟨.some f, l⟩ a) (V.visitSeq ⟨.some g, l⟩ a)
  map : ∀ l d, Value.tagsAllD P d = true → Res ρ P (V.visitMap ⟨.some f, l⟩ d) (V.visitMap ⟨.some g, l⟩ d)
  estr : ∀ s, Res ρ P (V.visitEnum (.str s)) (V.visitEnum (.str s))
  eu32 : ∀ n, Res ρ P (V.visitEnum (.u32 n)) (V.visitEnum (.u32 n))
  emap : ∀ l d, Value.tagsAllD P d = true →
    Res ρ P (V.visitEnum (.map ⟨.some f, l⟩ d)) (V.visitEnum (.map ⟨.some g, l⟩ d))

/-- Closes a goal about a method the visitor leaves at serde's default. -/
macro "dflt" a:term : tactic =>
  `(tactic| (intros; first | exact Res.fail (Agree.dflt $a) _ | exact Res.ok _))

variable {α : Type} {V : Visitor α}

theorem num_reads (hV : V.Reads ρ P f g) (n : Num) : Res ρ P (n.deserializeAny V) (n.deserializeAny V) := by
  cases n <;> exact hV.num _

theorem empty_reads (hV : V.Reads ρ P f g) (n : Empty) : Res ρ P (n.deserializeAny V) (n.deserializeAny V) := by
  cases n with
  | none => exact hV.none
  | unit => exact hV.unit

theorem any_reads (a : Agree ρ P f g) (hV : V.Reads ρ P f g) : Seed.Reads ρ P f g (fun de v => de.deserializeAny V v) := by
  intro l v hv
  dsimp only
  rw [De.deserializeAny.eq_def, De.deserializeAny.eq_def ⟨some g, l⟩]
  refine Res.mapErr ?_ (a.err (Value.tagsAll_tag hv))
  cases v with
  | string t s => exact hV.str s
  | char t s => exact hV.char s
  | bool t s => exact hV.bool s
  | num t n => exact num_reads hV n
  | empty t e => exact empty_reads hV e
  | dict t d => rw [Value.tagsAll, Bool.and_eq_true] at hv; exact hV.map l d hv.2
  | array t d => rw [Value.tagsAll, Bool.and_eq_true] at hv; exact hV.seq l d hv.2

theorem option_reads (a : Agree ρ P f g) (hV : V.Reads ρ P f g) :
    Seed.Reads ρ P f g (fun de v => de.deserializeOption V v) := by
  intro l v hv
  show Res ρ P (R.mapErr _ _) (R.mapErr _ _)
  refine Res.mapErr ?_ (a.err (Value.tagsAll_tag hv))
  cases v with
  | empty t e => exact empty_reads hV e
  | _ => exact hV.some l _ hv

theorem enum_reads (a : Agree ρ P f g) (hV : V.Reads ρ P f g) :
    Seed.Reads ρ P f g (fun de v => de.deserializeEnum V v) := by
  intro l v hv
  show Res ρ P (R.mapErr _ _) (R.mapErr _ _)
  refine Res.mapErr ?_ (a.err (Value.tagsAll_tag hv))
  cases v with
  | string t s => exact hV.estr s
  | dict t d => rw [Value.tagsAll, Bool.and_eq_true] at hv; exact hV.emap l d hv.2
  | num t n =>
    dsimp only
    cases n.toU32 with
    | some k => exact hV.eu32 k
    | none => exact any_reads a hV l _ hv
  | _ => exact any_reads a hV l _ hv

theorem Value.tagsAllD_insert {k : Str} {v : Value} {d : Dict} (hv : v.tagsAll P = true)
    (hd : Value.tagsAllD P d = true) : Value.tagsAllD P (Map.insert k v d) = true := by
  induction d with
  | nil => simp [Map.insert, Value.tagsAllD, hv]
  | cons e r ih =>
    obtain ⟨k', v'⟩ := e
    rw [Value.tagsAllD, Bool.and_eq_true] at hd
    rw [Map.insert]
    cases compare k k' <;> simp [Value.tagsAllD, hv, hd.1, hd.2, ih hd.2]

theorem Value.tagsAll_find {v w : Value} {s : Str} (hv : v.tagsAll P = true) (h : v.find s = some w) :
    w.tagsAll P = true := by
  rw [Value.find_eq] at h
  exact Value.tagsAll_getKeys hv h

theorem Value.tagsAll_findD {v : Value} {s : Str} (hv : v.tagsAll P = true) :
    ((v.find s).getD v).tagsAll P = true := by
  cases h : v.find s with
  | none => exact hv
  | some w => exact Value.tagsAll_find hv h

theorem Value.tagsAll_asDict {v : Value} {d : Dict} (hv : v.tagsAll P = true) (h : v.asDict? = some d) :
    Value.tagsAllD P d = true := by
  cases v with
  | dict t x => rw [Value.tagsAll, Bool.and_eq_true] at hv; cases h; exact hv.2
  | _ => cases h

theorem struct_reads (a : Agree ρ P f g) (name : Str) (hV : V.Reads ρ P f g) :
    Seed.Reads ρ P f g (fun de v => de.deserializeStruct name V v) := by
  intro l v hv
  show Res ρ P (R.mapErr _ _) (R.mapErr _ _)
  refine Res.mapErr ?_ (a.err (Value.tagsAll_tag hv))
  have ht : ∀ t, (Value.ofTag t).tagsAll P = true := fun t => a.dflt
  split
  · exact hV.map l _ (Value.tagsAllD_insert hv (Value.tagsAllD_insert (ht _) rfl))
  split
  · unfold De.relPathFrom
    rw [← a.metadata _ (Value.tagsAll_tag hv)]
    have hfresh : Value.tagsAllD P (Map.insert RelPath.FIELD1 ((v.find RelPath.FIELD1).getD v)
        (match (Map.get v.tag f.metadata).bind fun m => m.source.bind Source.filePath with
          | some path => Map.insert RelPath.FIELD0 (.ofStr path) []
          | none => [])) = true := by
      refine Value.tagsAllD_insert (Value.tagsAll_findD hv) ?_
      split
      · exact Value.tagsAllD_insert a.dflt rfl
      · rfl
    cases hd : v.asDict? with
    | none => exact hV.map l _ hfresh
    | some d =>
      dsimp only
      cases Map.get RelPath.FIELD0 d with
      | none => exact hV.map l _ hfresh
      | some mpv =>
        dsimp only
        split
        · exact hV.map l _ (Value.tagsAll_asDict hv hd)
        · exact hV.map l _ hfresh
  split
  · unfold De.taggedFrom
    have hfresh : Value.tagsAllD P (Map.insert Tagged.FIELD1 ((v.find Tagged.FIELD1).getD v)
        (Map.insert Tagged.FIELD0 (Value.ofTag v.tag) [])) = true :=
      Value.tagsAllD_insert (Value.tagsAll_findD hv) (Value.tagsAllD_insert (ht _) rfl)
    cases hd : v.asDict? with
    | none => exact hV.map l _ hfresh
    | some d =>
      dsimp only
      cases Map.get Tagged.FIELD0 d with
      | none => exact hV.map l _ hfresh
      | some tagv =>
        dsimp only
        cases Tag.de De.plain tagv with
        | error e => exact hV.map l _ hfresh
        | ok t =>
          dsimp only
          split
          · exact hV.map l _ hfresh
          · exact hV.map l _ (Value.tagsAll_asDict hv hd)
  · exact any_reads a hV l v hv

/-- The errors of the visitor's methods, for a deserialiser without a figment, have the default tag. -/
structure Visitor.Leaf (V : Visitor α) : Prop where
  seq : ∀ de v, ∃ k, V.visitSeq de v = .error (Error.ofKind k)
  map : ∀ de v, ∃ k, V.visitMap de v = .error (Error.ofKind k)

theorem plain_reads (a : Agree ρ P f g) (hV : V.Reads ρ P f g) (hl : V.Leaf) {v : Value} (hv : v.tagsAll P = true) :
    Res ρ P (De.plain.deserializeAny V v) (De.plain.deserializeAny V v) := by
  rw [De.deserializeAny.eq_def]
  refine Res.mapErr ?_ (fun _ _ he => he.retagged (Value.tagsAll_tag hv))
  cases v with
  | string t s => exact hV.str s
  | char t s => exact hV.char s
  | bool t s => exact hV.bool s
  | num t n => exact num_reads hV n
  | empty t e => exact empty_reads hV e
  | dict t d => obtain ⟨k, hk⟩ := hl.map De.plain d; dsimp only; rw [hk]; exact Res.fail a.dflt k
  | array t d => obtain ⟨k, hk⟩ := hl.seq De.plain d; dsimp only; rw [hk]; exact Res.fail a.dflt k

theorem bool_reads (a : Agree ρ P f g) (hV : V.Reads ρ P f g) (hl : V.Leaf) :
    Seed.Reads ρ P f g (fun de v => de.deserializeBool V v) := by
  intro l v hv
  show Res ρ P (R.mapErr _ _) (R.mapErr _ _)
  refine Res.mapErr ?_ (a.err (Value.tagsAll_tag hv))
  have h : (De.interpretAsBool ⟨some f, l⟩ v).tagsAll P = true := by
    unfold De.interpretAsBool
    split
    · split
      · exact Value.tagsAll_tag hv
      · exact hv
    · exact hv
  exact plain_reads a hV hl h

theorem number_reads [FloatOps] (a : Agree ρ P f g) (hV : V.Reads ρ P f g) (hl : V.Leaf) :
    Seed.Reads ρ P f g (fun de v => de.deserializeNum V v) := by
  intro l v hv
  show Res ρ P (R.mapErr _ _) (R.mapErr _ _)
  refine Res.mapErr ?_ (a.err (Value.tagsAll_tag hv))
  have h : (De.interpretAsNum ⟨some f, l⟩ v).tagsAll P = true := by
    unfold De.interpretAsNum
    split
    · split
      · exact Value.tagsAll_tag hv
      · exact hv
    · exact hv
  exact plain_reads a hV hl h

/-! ## Accesses and loops -/

theorem nextValue_reads {β : Type _} {s : De → Value → R β} (hs : Seed.Reads ρ P f g s) (l : Bool) (k : Str) {v : Value}
    (hv : v.tagsAll P = true) : Res ρ P (MapDe.nextValue s ⟨some f, l⟩ k v) (MapDe.nextValue s ⟨some g, l⟩ k v) :=
  (hs l v hv).mapErr fun _ _ he =>
    (he.prefixed k).retagged (Value.tagsAll_tag hv)

theorem nextElement_reads {β : Type _} {s : De → Value → R β} (hs : Seed.Reads ρ P f g s) (l : Bool) (i : Nat) {v : Value}
    (hv : v.tagsAll P = true) : Res ρ P (SeqDe.nextElement s ⟨some f, l⟩ i v) (SeqDe.nextElement s ⟨some g, l⟩ i v) :=
  (hs l v hv).mapErr fun _ _ he => he.prefixed _

theorem seqLoop_reads {s : Seed} (hs : Seed.Reads ρ P f g s) (l : Bool) : ∀ (r : List Value) (i : Nat),
    Value.tagsAllA P r = true → Res ρ P (seqLoop s ⟨some f, l⟩ i r) (seqLoop s ⟨some g, l⟩ i r)
  | [], _, _ => .ok _
  | v :: r, i, h => by
    rw [Value.tagsAllA, Bool.and_eq_true] at h
    rw [seqLoop, seqLoop]
    refine (nextElement_reads hs l i h.1).elim (fun _ _ => Res.err) fun x => ?_
    exact (seqLoop_reads hs l r (i + 1) h.2).elim (fun _ _ => Res.err) fun xs => .ok _

theorem mapLoop_reads {s : Seed} (hs : Seed.Reads ρ P f g s) (l : Bool) : ∀ (r : List (Str × Value)),
    Value.tagsAllD P r = true → Res ρ P (mapLoop s ⟨some f, l⟩ r) (mapLoop s ⟨some g, l⟩ r)
  | [], _ => .ok _
  | (k, v) :: r, h => by
    rw [Value.tagsAllD, Bool.and_eq_true] at h
    rw [mapLoop, mapLoop]
    refine (nextValue_reads hs l k h.1).elim (fun _ _ => Res.err) fun x => ?_
    exact (mapLoop_reads hs l r h.2).elim (fun _ _ => Res.err) fun xs => .ok _

theorem keyedLoop_reads [FloatOps] (a : Agree ρ P f g) (kt : Ty) {s : Seed} (hs : Seed.Reads ρ P f g s) (l : Bool) :
    ∀ (r : List (Str × Value)), Value.tagsAllD P r = true →
      Res ρ P (keyedLoop kt.deKey s ⟨some f, l⟩ r) (keyedLoop kt.deKey s ⟨some g, l⟩ r)
  | [], _ => .ok _
  | (k, v) :: r, h => by
    rw [Value.tagsAllD, Bool.and_eq_true] at h
    rw [keyedLoop, keyedLoop]
    cases h0 : kt.deKey k with
    | error e =>
      obtain ⟨kind, rfl, _⟩ := (Ty.deKey_error kt k e).1 h0
      exact .err (((Error.AlikeIn.ofKind a.dflt _).prefixed k).retagged (Value.tagsAll_tag h.1))
    | ok y =>
      dsimp only [R.mapErr_ok]
      refine (nextValue_reads hs l k h.1).elim (fun _ _ => Res.err) fun x => ?_
      exact (keyedLoop_reads a kt hs l r h.2).elim (fun _ _ => Res.err) fun xs => .ok _

theorem tupleLoop_reads (a : Agree ρ P f g) (ex : Str) (l : Bool) : ∀ (fs : List (Option Val × Seed)),
    (∀ p ∈ fs, Seed.Reads ρ P f g p.2) → ∀ (r : List Value) (i : Nat), Value.tagsAllA P r = true →
    Res ρ P (tupleLoop ex ⟨some f, l⟩ i fs r) (tupleLoop ex ⟨some g, l⟩ i fs r)
  | [], _, r, i, _ => by cases r <;> exact .ok _
  | (some x, s) :: fs, hs, [], i, h => by
    rw [tupleLoop, tupleLoop]
    exact (tupleLoop_reads a ex l fs (fun p hp => hs p (.tail _ hp)) [] (i + 1) h).elim (fun _ _ => Res.err) fun xs => .ok _
  | (none, s) :: fs, hs, [], i, h => by
    rw [tupleLoop, tupleLoop]
    exact .fail a.dflt _
  | (d, s) :: fs, hs, v :: r, i, h => by
    rw [Value.tagsAllA, Bool.and_eq_true] at h
    rw [tupleLoop, tupleLoop]
    have hx : Seed.Reads ρ P f g s := hs (d, s) (.head _)
    refine (nextElement_reads hx l i h.1).elim (fun _ _ => Res.err) fun x => ?_
    exact (tupleLoop_reads a ex l fs (fun p hp => hs p (.tail _ hp)) r (i + 1) h.2).elim (fun _ _ => Res.err) fun xs => .ok _

theorem fieldLoop_reads (a : Agree ρ P f g) (l deny : Bool) {fs : List FieldSeed}
    (hs : ∀ s ∈ fs, Seed.Reads ρ P f g s.run) : ∀ (r : List (Str × Value)) (acc : List (Str × Val)),
    Value.tagsAllD P r = true → Res ρ P (fieldLoop ⟨some f, l⟩ deny fs r acc) (fieldLoop ⟨some g, l⟩ deny fs r acc)
  | [], _, _ => .ok _
  | (k, v) :: r, acc, h => by
    rw [Value.tagsAllD, Bool.and_eq_true] at h
    rw [fieldLoop, fieldLoop]
    cases hf : fs.find? (fun f => f.name = k) with
    | some s =>
      dsimp only
      refine (nextValue_reads (hs s (List.mem_of_find?_eq_some hf)) l k h.1).elim (fun _ _ => Res.err) fun x => ?_
      exact fieldLoop_reads a l deny hs r _ h.2
    | none =>
      dsimp only
      split
      · exact .err (((Error.AlikeIn.ofKind a.dflt _).prefixed k).retagged (Value.tagsAll_tag h.1))
      · exact fieldLoop_reads a l deny hs r acc h.2

theorem fieldFinish_reads (a : Agree ρ P f g) (acc : List (Str × Val)) : ∀ fs : List FieldSeed,
    Res ρ P (fieldFinish acc fs) (fieldFinish acc fs)
  | [] => .ok _
  | s :: fs => by
    rw [fieldFinish]
    have hs : Res ρ P (s.get acc) (s.get acc) := by
      unfold FieldSeed.get
      cases acc.lookup s.name with
      | some x => exact .ok _
      | none =>
        show Res ρ P s.missing s.missing
        unfold FieldSeed.missing
        cases s.dflt with
        | some x => exact .ok _
        | none =>
          dsimp only
          split
          · exact .ok _
          · exact .fail a.dflt _
    refine Res.elim₁ hs (fun _ => Res.err) fun x => ?_
    exact (fieldFinish_reads a acc fs).elim₁ (fun _ => Res.err) fun xs => .ok _

/-! ## Visitors -/

theorem boolVisitor_reads (a : Agree ρ P f g) : boolVisitor.Reads ρ P f g := by constructor <;> dflt a
theorem stringVisitor_reads (a : Agree ρ P f g) : stringVisitor.Reads ρ P f g := by constructor <;> dflt a
theorem pathVisitor_reads (a : Agree ρ P f g) : pathVisitor.Reads ρ P f g := by constructor <;> dflt a
theorem unitVisitor_reads (a : Agree ρ P f g) (s : Str) : (unitVisitor s).Reads ρ P f g := by constructor <;> dflt a

theorem charVisitor_reads (a : Agree ρ P f g) : charVisitor.Reads ρ P f g := by
  constructor
  case str =>
    intro s
    unfold charVisitor
    dsimp only
    split <;> dflt a
  all_goals dflt a

theorem flagVisitor_reads (a : Agree ρ P f g) : flagVisitor.Reads ρ P f g := by
  have hs : ∀ s, Res ρ P (flagVisitor.visitStr s) (flagVisitor.visitStr s) := by
    intro s
    unfold flagVisitor
    dsimp only
    split
    · dflt a
    split <;> dflt a
  constructor
  case str => exact hs
  case char => exact fun c => hs [c]
  case num =>
    intro n
    unfold flagVisitor
    dsimp only
    split
    · split <;> dflt a
    · dflt a
  all_goals dflt a

theorem parsedVisitor_reads (a : Agree ρ P f g) (s : Str) (parse : Str → Except Str Val) :
    (parsedVisitor s parse).Reads ρ P f g := by
  have hs : ∀ t, Res ρ P ((parsedVisitor s parse).visitStr t) ((parsedVisitor s parse).visitStr t) := by
    intro t
    unfold parsedVisitor
    dsimp only
    split
    · dflt a
    · exact .fail a.dflt _
  constructor
  case str => exact hs
  case char => exact fun c => hs [c]
  all_goals dflt a

theorem converted_reads (a : Agree ρ P f g) (conv : Val → Except Str Val) {r r' : R Val} (h : Res ρ P r r') :
    Res ρ P (converted conv r) (converted conv r') := by
  cases h with
  | err h => exact .err h
  | ok x =>
    unfold converted
    dsimp only
    split
    · exact .ok _
    · exact .fail a.dflt _

theorem intVisitor_reads (a : Agree ρ P f g) (t : IntTy) : (intVisitor t).Reads ρ P f g := by
  constructor
  case num =>
    intro n
    unfold intVisitor
    dsimp only
    split
    · split <;> dflt a
    · dflt a
  all_goals dflt a

theorem f32Visitor_reads [FloatOps] (a : Agree ρ P f g) : f32Visitor.Reads ρ P f g := by
  constructor
  case num => intro n; cases n <;> dflt a
  all_goals dflt a

theorem f64Visitor_reads [FloatOps] (a : Agree ρ P f g) : f64Visitor.Reads ρ P f g := by
  constructor
  case num => intro n; cases n <;> dflt a
  all_goals dflt a

theorem tagVisitor_reads (a : Agree ρ P f g) : tagVisitor.Reads ρ P f g := by
  constructor
  case num => intro n; cases n <;> dflt a
  all_goals dflt a

theorem optionVisitor_reads (a : Agree ρ P f g) {s : Seed} (hs : Seed.Reads ρ P f g s) :
    (optionVisitor s).Reads ρ P f g := by
  constructor
  case some =>
    intro l v hv
    unfold optionVisitor
    dsimp only
    exact (hs l v hv).elim (fun _ _ => Res.err) fun x => .ok _
  all_goals dflt a

theorem newtypeVisitor_reads (a : Agree ρ P f g) (n : Str) {s : Seed} (hs : Seed.Reads ρ P f g s) :
    (newtypeVisitor n s).Reads ρ P f g := by
  constructor
  case newtype =>
    intro l v hv
    unfold newtypeVisitor
    dsimp only
    exact (hs l v hv).elim (fun _ _ => Res.err) fun x => .ok _
  all_goals dflt a

theorem seqVisitor_reads (a : Agree ρ P f g) {s : Seed} (hs : Seed.Reads ρ P f g s) : (seqVisitor s).Reads ρ P f g := by
  constructor
  case seq =>
    intro l v hv
    unfold seqVisitor
    dsimp only
    exact (seqLoop_reads hs l v 0 hv).elim (fun _ _ => Res.err) fun x => .ok _
  all_goals dflt a

theorem mapVisitor_reads (a : Agree ρ P f g) {s : Seed} (hs : Seed.Reads ρ P f g s) : (mapVisitor s).Reads ρ P f g := by
  constructor
  case map =>
    intro l v hv
    unfold mapVisitor
    dsimp only
    exact (mapLoop_reads hs l v hv).elim (fun _ _ => Res.err) fun x => .ok _
  all_goals dflt a

theorem pairsVisitor_reads (a : Agree ρ P f g) {s : Seed} (hs : Seed.Reads ρ P f g s) : (pairsVisitor s).Reads ρ P f g := by
  constructor
  case map =>
    intro l v hv
    unfold pairsVisitor
    dsimp only
    exact (mapLoop_reads hs l v hv).elim (fun _ _ => Res.err) fun x => .ok _
  all_goals dflt a

theorem keyedVisitor_reads [FloatOps] (a : Agree ρ P f g) (kt : Ty) {s : Seed} (hs : Seed.Reads ρ P f g s) :
    (keyedVisitor kt.deKey s).Reads ρ P f g := by
  constructor
  case map =>
    intro l v hv
    unfold keyedVisitor
    dsimp only
    exact (keyedLoop_reads a kt hs l v hv).elim (fun _ _ => Res.err) fun x => .ok _
  all_goals dflt a

theorem tupleVisitor_reads (a : Agree ρ P f g) (x y : Str) {ss : List Seed} (hs : ∀ s ∈ ss, Seed.Reads ρ P f g s) :
    (tupleVisitor x y ss).Reads ρ P f g := by
  constructor
  case seq =>
    intro l v hv
    unfold tupleVisitor
    dsimp only
    refine Res.elim (tupleLoop_reads a _ l _ (fun p hp => ?_) v 0 hv) (fun _ _ => Res.err) (fun x => .ok _)
    obtain ⟨s, h1, rfl⟩ := List.mem_map.1 hp
    exact hs s h1
  all_goals dflt a

theorem structVisitor_reads (a : Agree ρ P f g) (x y : Str) (deny : Bool) {ss : List FieldSeed}
    (hs : ∀ s ∈ ss, Seed.Reads ρ P f g s.run) : (structVisitor x y deny ss).Reads ρ P f g := by
  constructor
  case seq =>
    intro l v hv
    unfold structVisitor
    dsimp only
    refine Res.elim (tupleLoop_reads a _ l _ (fun p hp => ?_) v 0 hv) (fun _ _ => Res.err) (fun x => .ok _)
    obtain ⟨s, h1, rfl⟩ := List.mem_map.1 hp
    exact hs s h1
  case map =>
    intro l v hv
    unfold structVisitor
    dsimp only
    refine (fieldLoop_reads a l deny hs v [] hv).elim (fun _ _ => Res.err) fun acc => ?_
    dsimp only
    exact (fieldFinish_reads a acc ss).elim₁ (fun _ => Res.err) fun x => .ok _
  all_goals dflt a

/-- The same for a variant. -/
def VariantSeed.Reads (ρ : Profile → Profile → Prop) (P : Tag → Bool) (f g : Fig) (s : VariantSeed) : Prop :=
  Res ρ P s.alone s.alone ∧
  ∀ l k v, v.tagsAll P = true → Res ρ P (s.with ⟨some f, l⟩ k v) (s.with ⟨some g, l⟩ k v)

theorem asVariant_res {n : Str} {r r' : R Val} (h : Res ρ P r r') : Res ρ P (asVariant n r) (asVariant n r') := by
  cases h with
  | ok x => exact .ok _
  | err h => exact .err h

theorem enumVisitor_reads (a : Agree ρ P f g) (n : Str) {vs : List (Str × VariantSeed)}
    (hs : ∀ s ∈ vs, s.2.Reads ρ P f g) : (enumVisitor n vs).Reads ρ P f g := by
  constructor
  case estr =>
    intro s
    unfold enumVisitor
    dsimp only
    cases h : vs.lookup s with
    | none => exact .fail a.dflt _
    | some v => exact asVariant_res (hs _ (lookup_mem h)).1
  case eu32 =>
    intro k
    unfold enumVisitor
    dsimp only
    cases h : vs[k.toNat]? with
    | none => exact .fail a.dflt _
    | some v => exact asVariant_res (hs _ (List.mem_of_getElem? h)).1
  case emap =>
    intro l d hd
    unfold enumVisitor
    dsimp only
    cases d with
    | nil => exact .fail a.dflt _
    | cons e r =>
      obtain ⟨k, v⟩ := e
      rw [Value.tagsAllD, Bool.and_eq_true] at hd
      dsimp only
      cases h : vs.lookup k with
      | none =>
        exact .err (((Error.AlikeIn.ofKind a.dflt _).prefixed k).retagged (Value.tagsAll_tag hd.1))
      | some s => exact asVariant_res ((hs _ (lookup_mem h)).2 l k v hd.1)
  all_goals dflt a

/-! ## `Value` -/

theorem tag_reads (a : Agree ρ P f g) : Seed.Reads ρ P f g Tag.de := any_reads a (tagVisitor_reads a)

theorem deOfRaw_reads (a : Agree ρ P f g) (l : Bool) {v : Value} (hv : v.tagsAll P = true) {r r' : R Value}
    (h : Res ρ P r r') : Res ρ P (Value.deOfRaw ⟨some f, l⟩ v r) (Value.deOfRaw ⟨some g, l⟩ v r') := by
  unfold Value.deOfRaw
  dsimp only
  refine Res.mapErr ?_ (a.err (Value.tagsAll_tag hv))
  have hn : ∀ x : Fig, MapDe.nextValue Tag.de ⟨some x, l⟩ Value.FIELD0 (Value.ofTag v.tag) = .ok v.tag := fun _ => rfl
  rw [hn f, hn g]
  have hk : ∀ e e' : Error, Error.AlikeIn ρ P e e' →
      Error.AlikeIn ρ P (MapDe.err Value.FIELD1 v e) (MapDe.err Value.FIELD1 v e') := fun _ _ he =>
    (he.prefixed _).retagged (Value.tagsAll_tag hv)
  dsimp only
  exact (h.mapErr hk).elim (fun _ _ => Res.err) fun x => .ok _

mutual
theorem rawDe_reads (a : Agree ρ P f g) (l : Bool) : (v : Value) → v.tagsAll P = true →
    Res ρ P (Value.rawDe ⟨some f, l⟩ v) (Value.rawDe ⟨some g, l⟩ v)
  | .string _ _, _ => .ok _
  | .char _ _, _ => .ok _
  | .bool _ _, _ => .ok _
  | .num _ n, _ => by cases n <;> exact .ok _
  | .empty _ _, _ => .ok _
  | .dict t d, h => by
    rw [Value.tagsAll, Bool.and_eq_true] at h
    rw [Value.rawDe, Value.rawDe]
    exact (rawDeMap_reads a l d ⟨[], none, none⟩ h.2).elim (fun e e' he => .err (a.err h.1 e e' he)) fun st => .ok _
  | .array t d, h => by
    rw [Value.tagsAll, Bool.and_eq_true] at h
    rw [Value.rawDe, Value.rawDe]
    exact (rawDeSeq_reads a l 0 d h.2).elim (fun e e' he => .err (a.err h.1 e e' he)) fun st => .ok _
theorem rawDeMap_reads (a : Agree ρ P f g) (l : Bool) : (d : List (Str × Value)) → (st : Value.MapState) →
    Value.tagsAllD P d = true → Res ρ P (Value.rawDeMap ⟨some f, l⟩ d st) (Value.rawDeMap ⟨some g, l⟩ d st)
  | [], _, _ => .ok _
  | (k, v) :: r, st, h => by
    rw [Value.tagsAllD, Bool.and_eq_true] at h
    rw [Value.rawDeMap, Value.rawDeMap]
    suffices hs : Res ρ P (Value.visitEntry ⟨some f, l⟩ k v (Value.deOfRaw ⟨some f, l⟩ v (Value.rawDe ⟨some f, l⟩ v)) (Value.rawDe ⟨some f, l⟩ v) st)
        (Value.visitEntry ⟨some g, l⟩ k v (Value.deOfRaw ⟨some g, l⟩ v (Value.rawDe ⟨some g, l⟩ v)) (Value.rawDe ⟨some g, l⟩ v) st) by
      exact hs.elim (fun _ _ => Res.err) fun st' => rawDeMap_reads a l r st' h.2
    have hr := rawDe_reads a l v h.1
    have hk : ∀ e e' : Error, Error.AlikeIn ρ P e e' → Error.AlikeIn ρ P (MapDe.err k v e) (MapDe.err k v e') :=
      fun _ _ he => (he.prefixed _).retagged (Value.tagsAll_tag h.1)
    unfold Value.visitEntry
    split
    · exact (nextValue_reads (tag_reads a) l k h.1).elim (fun _ _ => Res.err) fun t => .ok _
    split
    · exact (hr.mapErr hk).elim (fun _ _ => Res.err) fun x => .ok _
    · exact ((deOfRaw_reads a l h.1 hr).mapErr hk).elim (fun _ _ => Res.err) fun x => .ok _
theorem rawDeSeq_reads (a : Agree ρ P f g) (l : Bool) : (i : Nat) → (d : List Value) → Value.tagsAllA P d = true →
    Res ρ P (Value.rawDeSeq ⟨some f, l⟩ i d) (Value.rawDeSeq ⟨some g, l⟩ i d)
  | _, [], _ => .ok _
  | i, v :: r, h => by
    rw [Value.tagsAllA, Bool.and_eq_true] at h
    rw [Value.rawDeSeq, Value.rawDeSeq]
    have hk : ∀ e e' : Error, Error.AlikeIn ρ P e e' →
        Error.AlikeIn ρ P (e.prefixed (Dec.ofNat i)) (e'.prefixed (Dec.ofNat i)) := fun _ _ he => he.prefixed _
    refine ((deOfRaw_reads a l h.1 (rawDe_reads a l v h.1)).mapErr hk).elim (fun _ _ => Res.err) fun x => ?_
    dsimp only
    exact (rawDeSeq_reads a l (i + 1) r h.2).elim (fun _ _ => Res.err) fun xs => .ok _
end

theorem value_reads (a : Agree ρ P f g) : Seed.Reads ρ P f g Value.de :=
  fun l v hv => deOfRaw_reads a l hv (rawDe_reads a l v hv)

/-! ## Types -/

theorem leaf_ok {V : Visitor Val} (h1 : ∀ de v, ∃ k, V.visitSeq de v = .error (Error.ofKind k))
    (h2 : ∀ de v, ∃ k, V.visitMap de v = .error (Error.ofKind k)) : V.Leaf := ⟨h1, h2⟩

theorem anyVisitor_reads (a : Agree ρ P f g) (x : Str) {s : Seed} (hs : Seed.Reads ρ P f g s) :
    (anyVisitor x s).Reads ρ P f g := by
  constructor
  case num => intro n; cases n <;> dflt a
  case seq =>
    intro l v hv
    unfold anyVisitor
    dsimp only
    exact (seqLoop_reads hs l v 0 hv).elim (fun _ _ => Res.err) fun x => .ok _
  case map =>
    intro l v hv
    unfold anyVisitor
    dsimp only
    exact (mapLoop_reads hs l v hv).elim (fun _ _ => Res.err) fun x => .ok _
  all_goals dflt a

theorem anyN_reads (a : Agree ρ P f g) (x : Str) : ∀ n, Seed.Reads ρ P f g (anyN x n)
  | 0 => fun _ _ _ => .fail a.dflt _
  | n + 1 => any_reads a (anyVisitor_reads a x (anyN_reads a x n))

theorem flatLoop_reads (a : Agree ρ P f g) (l : Bool) {fs : List FieldSeed}
    (hs : ∀ s ∈ fs, Seed.Reads ρ P f g s.run) : ∀ (r : List (Str × Value)),
    Value.tagsAllD P r = true → Res ρ P (flatLoop fs ⟨some f, l⟩ r) (flatLoop fs ⟨some g, l⟩ r)
  | [], _ => .ok _
  | (k, v) :: r, h => by
    rw [Value.tagsAllD, Bool.and_eq_true] at h
    rw [flatLoop, flatLoop]
    have hk : Seed.Reads ρ P f g (flatSeed fs k) := by
      unfold flatSeed
      cases hf : fs.find? (fun f => f.name = k) with
      | none => exact fun l v hv => anyN_reads a _ v.depth l v hv
      | some s => exact hs s (List.mem_of_find?_eq_some hf)
    refine (nextValue_reads hk l k h.1).elim (fun _ _ => Res.err) fun x => ?_
    exact (flatLoop_reads a l hs r h.2).elim (fun _ _ => Res.err) fun xs => .ok _

theorem flatVisitor_reads (a : Agree ρ P f g) (x : Str) {fs : List FieldSeed}
    (conv : List Val → List (Str × Val) → Except Kind Val) (hs : ∀ s ∈ fs, Seed.Reads ρ P f g s.run) :
    (flatVisitor x fs conv).Reads ρ P f g := by
  constructor
  case map =>
    intro l v hv
    unfold flatVisitor
    dsimp only
    refine (flatLoop_reads a l hs v hv).elim (fun _ _ => Res.err) fun acc => ?_
    dsimp only
    refine (fieldFinish_reads a acc fs).elim₁ (fun _ => Res.err) fun xs => ?_
    dsimp only
    cases conv xs (acc.filter fun e => (fs.find? (fun f => f.name = e.1)).isNone) with
    | ok x => exact .ok _
    | error k => exact .fail a.dflt _
  all_goals dflt a

variable [FloatOps]

mutual
/-- Deserialisation at any type reads nothing of the figment but its profile and the metadata of the tags in the value. -/
theorem Ty.reads (a : Agree ρ P f g) : (t : Ty) → Seed.Reads ρ P f g t.de
  | .bool => bool_reads a (boolVisitor_reads a) (leaf_ok (fun _ _ => ⟨_, rfl⟩) (fun _ _ => ⟨_, rfl⟩))
  | .int t => by
    have h := number_reads a (intVisitor_reads a t) (leaf_ok (fun _ _ => ⟨_, rfl⟩) (fun _ _ => ⟨_, rfl⟩))
    cases t <;> first | exact h | exact fun l v hv => .fail a.dflt _
  | .f32 => number_reads a (f32Visitor_reads a) (leaf_ok (fun _ _ => ⟨_, rfl⟩) (fun _ _ => ⟨_, rfl⟩))
  | .f64 => number_reads a (f64Visitor_reads a) (leaf_ok (fun _ _ => ⟨_, rfl⟩) (fun _ _ => ⟨_, rfl⟩))
  | .char => any_reads a (charVisitor_reads a)
  | .string => any_reads a (stringVisitor_reads a)
  | .pathBuf => any_reads a (pathVisitor_reads a)
  | .unit => any_reads a (unitVisitor_reads a _)
  | .unitStruct n => any_reads a (unitVisitor_reads a _)
  | .option t => option_reads a (optionVisitor_reads a (Ty.reads a t))
  | .newtype n t => fun l v hv => (newtypeVisitor_reads a n (Ty.reads a t)).newtype l v hv
  | .seq t => any_reads a (seqVisitor_reads a (Ty.reads a t))
  | .tuple ts => any_reads a (tupleVisitor_reads a _ _ (Ty.readsEach a ts))
  | .tupleStruct n ts => any_reads a (tupleVisitor_reads a _ _ (Ty.readsEach a ts))
  | .map t => any_reads a (mapVisitor_reads a (Ty.reads a t))
  | .struct n name deny fs => struct_reads a name (structVisitor_reads a _ _ deny (Ty.readsFields a fs))
  | .enum n vs => enum_reads a (enumVisitor_reads a n (Ty.readsVariants a n vs))
  | .value => fun l v hv => by
    show Res ρ P (asValue (Value.de ⟨some f, l⟩ v)) (asValue (Value.de ⟨some g, l⟩ v))
    exact (value_reads a l v hv).elim (fun _ _ => Res.err) fun x => .ok _
  | .tag => fun l v hv => by
    show Res ρ P (asTag (Tag.de ⟨some f, l⟩ v)) (asTag (Tag.de ⟨some g, l⟩ v))
    exact (tag_reads a l v hv).elim (fun _ _ => Res.err) fun x => .ok _
  | .flag => any_reads a (flagVisitor_reads a)
  | .pairs t => any_reads a (pairsVisitor_reads a (Ty.reads a t))
  | .keyed kt t => any_reads a (keyedVisitor_reads a kt (Ty.reads a t))
  | .parsed s parse _ => any_reads a (parsedVisitor_reads a s parse)
  | .via t conv _ => fun l v hv => converted_reads a conv (Ty.reads a t l v hv)
  | .any s => fun l v hv => anyN_reads a s v.depth l v hv
  | .flat n fs conv _ => any_reads a (flatVisitor_reads a _ conv (Ty.readsFields a fs))
theorem Ty.readsEach (a : Agree ρ P f g) : (ts : List Ty) → ∀ s ∈ Ty.deEach ts, Seed.Reads ρ P f g s
  | [], s, h => by rw [Ty.deEach] at h; cases h
  | t :: ts, s, h => by
    rw [Ty.deEach] at h
    rcases List.mem_cons.1 h with h | h
    · rw [h]; exact Ty.reads a t
    · exact Ty.readsEach a ts s h
theorem Ty.readsFields (a : Agree ρ P f g) : (fs : List (Str × Option Val × Ty)) →
    ∀ s ∈ Ty.deFields fs, Seed.Reads ρ P f g s.run
  | [], s, h => by rw [Ty.deFields] at h; cases h
  | (n, d, t) :: fs, s, h => by
    rw [Ty.deFields] at h
    rcases List.mem_cons.1 h with h | h
    · rw [h]; exact Ty.reads a t
    · exact Ty.readsFields a fs s h
theorem Ty.readsVariants (a : Agree ρ P f g) (n : Str) : (vs : List (Str × VTy)) →
    ∀ s ∈ Ty.deVariants n vs, s.2.Reads ρ P f g
  | [], s, h => by rw [Ty.deVariants] at h; cases h
  | (m, v) :: vs, s, h => by
    rw [Ty.deVariants] at h
    rcases List.mem_cons.1 h with h | h
    · rw [h]; exact VTy.reads a _ v
    · exact Ty.readsVariants a n vs s h
theorem VTy.reads (a : Agree ρ P f g) (n : Str) : (v : VTy) → (v.de n).Reads ρ P f g
  | .unit => ⟨.ok _, fun l k _ hv => nextValue_reads (any_reads a (unitVisitor_reads a _)) l k hv⟩
  | .newtype t => ⟨.fail a.dflt _, fun l k _ hv => nextValue_reads (Ty.reads a t) l k hv⟩
  | .tuple ts => ⟨.fail a.dflt _, fun l k _ hv =>
      nextValue_reads (any_reads a (tupleVisitor_reads a _ _ (Ty.readsEach a ts))) l k hv⟩
  | .struct deny fs => ⟨.fail a.dflt _, fun l k _ hv =>
      nextValue_reads (any_reads a (structVisitor_reads a _ _ deny (Ty.readsFields a fs))) l k hv⟩
end
end
end Figment
