import Verif.Lemmas.Either
import Verif.Props.Magic
import Verif.Props.Means
/-!
# C64: `Either`
-/
namespace Figment
variable [FloatOps] [TextOps]

omit [TextOps] in
/-- Reading a value as a type without the crate's own in it gives the same with a figment, strictly, and without;
and does not depend on tags. -/
theorem Ty.de_strip (t : Ty) (ht : t.proper false = true) (f : Fig) {v w : Value} (hv : v.WF) (h : v.strip = w.strip)
    (x : Val) : t.de De.plain w = .ok x ↔ t.de (De.strict f) v = .ok x := by
  rw [show De.strict f = ⟨some f, false⟩ from rfl, show De.plain = ⟨none, false⟩ from rfl,
    Ty.means none false false (fun _ => ⟨rfl, rfl⟩) t ht w ⟨Value.wf_of_strip h hv, nofun⟩ x,
    Ty.means (some f) false false nofun t ht v ⟨hv, nofun⟩ x]
  exact (Ty.means_strip t ht h x).symm

omit [FloatOps] [TextOps] in
theorem Except.not_ok_iff {ε α : Type} {r : Except ε α} : (∃ e, r = .error e) ↔ ∀ x, r ≠ .ok x := by
  cases r with
  | ok x => exact ⟨fun ⟨_, h⟩ => (nomatch h), fun h => (h x rfl).elim⟩
  | error e => exact ⟨fun _ => nofun, fun _ => ⟨e, rfl⟩⟩

/-- **C64**, wherever a value is extracted as an `Either<A, B>`, strictly or not: it is a `Left` exactly if `extract`
could read it as an `A`, with the same content; otherwise a `Right` exactly if `extract` could read it as a `B`, with the
same content; otherwise it fails. This is the English property but for: lossy extraction (`C64_fails_lossy`), the
crate's own types inside of `A` and `B` (`C64_fails_magic`), and `usize` and `isize` (`C64_fails_index`). -/
theorem C64_value_partial (cwd : Option Str) (a : MagicTy) (ha : a.proper = true) (b : Ty) (hb : b.proper false = true)
    (f : Fig) (l : Bool) (v : Value) (hv : v.WF) (hr : v.unreserved = true) (hn : v.fixedWidth = true) :
    Either.Picks (Either.de cwd a b ⟨some f, l⟩ v) (a.ty.de (De.strict f) v) (b.de (De.strict f) v) := by
  have hs := (Value.strip_extracted hn).symm
  have key : ∀ (t : Ty) (ht : t.proper false = true) (mk : Val → Val) (_ : ∀ x y, mk x = mk y → x = y)
      (g : Error → Error) (h : Error → Error → Error) (ra : R Val),
      (ra = match t.de (De.strict f) v with | .ok x => .ok (mk x) | .error e => .error (g e)) →
      Either.Picks (match t.de De.plain v.extracted with
        | .ok x => .ok (.left (mk x))
        | .error ea => match b.de De.plain v.extracted with
          | .ok y => .ok (.right y)
          | .error eb => .error (h ea eb)) ra (b.de (De.strict f) v) := by
    intro t ht mk hmk g h ra hra
    have h1 := fun x => Ty.de_strip t ht f hv hs x
    have h2 := fun x => Ty.de_strip b hb f hv hs x
    have e1 : (∃ e, ra = .error e) ↔ ∃ e, t.de De.plain v.extracted = .error e := by
      rw [Except.not_ok_iff (r := t.de De.plain _)]
      simp only [Ne, h1]
      rw [← Except.not_ok_iff, hra]
      cases t.de (De.strict f) v with
      | ok x => simp
      | error e => simp
    have e2 : (∃ e, b.de (De.strict f) v = .error e) ↔ ∃ e, b.de De.plain v.extracted = .error e := by
      rw [Except.not_ok_iff, Except.not_ok_iff]
      simp only [Ne, h2]
    have e3 : ∀ x, ra = .ok x ↔ ∃ y, t.de De.plain v.extracted = .ok y ∧ x = mk y := by
      intro x
      simp only [h1]
      rw [hra]
      cases t.de (De.strict f) v with
      | ok x => simp [eq_comm]
      | error e => simp
    refine ⟨fun x => ?_, fun y => ?_, ?_⟩
    · rw [e3]
      cases hx : t.de De.plain v.extracted with
      | ok y => simp [eq_comm]
      | error e => cases b.de De.plain v.extracted <;> simp
    · rw [e1, ← h2]
      cases hx : t.de De.plain v.extracted with
      | ok y => simp
      | error e => cases b.de De.plain v.extracted <;> simp
    · rw [e1, e2]
      cases hx : t.de De.plain v.extracted with
      | ok y => simp
      | error e => cases b.de De.plain v.extracted <;> simp
  cases a with
  | tagged t =>
    rw [Either.de_tagged cwd t b f l v hv hr]
    exact key t ha (fun x => .struct [.tag v.tag, x]) (by intro x y h; simpa using h) _ _ _ (Ty.tagged_de t f false v hr)
  | relPath =>
    rw [Either.de_relPath cwd b f l v hv hr]
    refine key .pathBuf rfl (fun x => .struct [Val.ofPath? (f.fileOf v), x]) (by intro x y h; simpa using h)
      (fun e => De.err ⟨some f, false⟩ v.tag (MapDe.err RelPath.FIELD1 v e)) _ _ ?_
    rw [show MagicTy.relPath.ty = Ty.relPath from rfl, show De.strict f = ⟨some f, false⟩ from rfl, Ty.relPath_de f false v hr]
    cases Ty.pathBuf.de ⟨some f, false⟩ v with
    | error e => rfl
    | ok x => cases f.fileOf v <;> rfl

omit [FloatOps] [TextOps] in
theorem Value.fixedWidth_getKeys {ks : List Str} {v w : Value} (hv : v.fixedWidth = true)
    (h : v.getKeys ks = some w) : w.fixedWidth = true := by
  induction ks generalizing v with
  | nil => rw [Value.getKeys_nil] at h; rwa [← Option.some.inj h]
  | cons k ks ih =>
    cases v with
    | dict t d =>
      rw [Value.getKeys_dict_cons] at h
      cases hg : Map.get k d with
      | none => rw [hg] at h; cases h
      | some x =>
        rw [hg] at h
        obtain ⟨k', hm, _⟩ := Map.mem_of_get hg
        rw [Value.fixedWidth, Value.fixedWidthD_iff] at hv
        exact ih (hv _ hm) h
    | _ => rw [Value.getKeys_leaf_cons rfl] at h; cases h

omit [FloatOps] [TextOps] in
theorem Either.Picks.errors {r : R (Either Val Val)} {a b : R Val} {e e' e'' : Error} (hr : r = .error e)
    (ha : a = .error e') (hb : b = .error e'') : Either.Picks r a b := by
  subst hr ha hb
  exact ⟨fun _ => ⟨nofun, nofun⟩, fun _ => ⟨nofun, nofun⟩, ⟨fun _ => ⟨⟨_, rfl⟩, _, rfl⟩, fun _ => ⟨_, rfl⟩⟩⟩

/-- **C64** for `extract` and `extract_lossy`: `Either<A, B>` is what `extract` gives for `A`, or else what it gives
for `B`. -/
theorem C64_extract_partial (steps : List Step) (h : steps.countP Step.isObtain < 2 ^ 64) (hp : ∀ s ∈ steps, s.Plain)
    (x : Made) (hx : x ∈ (Proc.exec steps).made)
    (hm : ∀ v, x.fig.merged = .ok v → v.unreserved = true ∧ v.fixedWidth = true)
    (cwd : Option Str) (a : MagicTy) (ha : a.proper = true) (b : Ty) (hb : b.proper false = true) :
    Either.Picks (x.fig.extractEither cwd a b) (x.fig.extract a.ty) (x.fig.extract b) ∧
    Either.Picks (x.fig.extractLossyEither cwd a b) (x.fig.extract a.ty) (x.fig.extract b) := by
  simp only [Fig.extractEither, Fig.extractLossyEither, Fig.extract, Fig.extractWith]
  cases hv : x.fig.merged with
  | error e => exact ⟨.errors rfl rfl rfl, .errors rfl rfl rfl⟩
  | ok v =>
    obtain ⟨hw, _, _⟩ := ((Proc.exec_inv steps h hp).made x hx).merged hv
    obtain ⟨hr, hn⟩ := hm v hv
    exact ⟨C64_value_partial cwd a ha b hb x.fig false v hw hr hn, C64_value_partial cwd a ha b hb x.fig true v hw hr hn⟩

omit [FloatOps] [TextOps] in
theorem Fig.extractInnerWith_eq {α : Type} {d : Fig → Value → R α} {f : Fig} {path : Str} {v : Value}
    (hv : f.findValue path = .ok v) : f.extractInnerWith d path = R.mapErr (Error.withPath path) (d f v) := by
  rw [Fig.extractInnerWith, hv]
  dsimp only
  cases d f v <;> rfl

/-- **C64** for `extract_inner` and `extract_inner_lossy`, for every path. -/
theorem C64_extract_inner_partial (steps : List Step) (h : steps.countP Step.isObtain < 2 ^ 64)
    (hp : ∀ s ∈ steps, s.Plain) (x : Made) (hx : x ∈ (Proc.exec steps).made)
    (hm : ∀ v, x.fig.merged = .ok v → v.unreserved = true ∧ v.fixedWidth = true)
    (cwd : Option Str) (a : MagicTy) (ha : a.proper = true) (b : Ty) (hb : b.proper false = true) (path : Str) :
    Either.Picks (x.fig.extractInnerEither cwd path a b) (x.fig.extractInner path a.ty) (x.fig.extractInner path b) ∧
    Either.Picks (x.fig.extractInnerLossyEither cwd path a b) (x.fig.extractInner path a.ty)
      (x.fig.extractInner path b) := by
  simp only [Fig.extractInnerEither, Fig.extractInnerLossyEither, Fig.extractInner]
  cases hf : x.fig.findValue path with
  | error e =>
    simp only [Fig.extractInnerWith, hf]
    exact ⟨.errors rfl rfl rfl, .errors rfl rfl rfl⟩
  | ok u =>
    simp only [Fig.extractInnerWith_eq hf]
    rw [Fig.findValue] at hf
    cases hv : x.fig.merged with
    | error e => rw [hv] at hf; cases hf
    | ok v =>
      rw [hv] at hf
      simp only [Value.find_eq] at hf
      cases hk : v.getKeys (pathKeys path) with
      | none => rw [hk] at hf; cases hf
      | some w =>
        rw [hk] at hf
        cases hf
        obtain ⟨hw, _, _⟩ := ((Proc.exec_inv steps h hp).made x hx).merged hv
        obtain ⟨hr, hn⟩ := hm v hv
        have key := fun l => C64_value_partial cwd a ha b hb x.fig l u (Value.wf_getKeys hw hk)
          (Value.keysAll_getKeys hr hk) (Value.fixedWidth_getKeys hn hk)
        have wrap : ∀ {r : R (Either Val Val)} {ra rb : R Val}, Either.Picks r ra rb → Either.Picks
            (r.mapErr (Error.withPath path)) (ra.mapErr (Error.withPath path)) (rb.mapErr (Error.withPath path)) := by
          intro r ra rb hpk
          obtain ⟨h1, h2, h3⟩ := hpk
          cases r with
          | error e =>
            obtain ⟨⟨_, rfl⟩, _, rfl⟩ := h3.1 ⟨e, rfl⟩
            exact .errors rfl rfl rfl
          | ok z =>
            cases z with
            | left z =>
              rw [(h1 z).1 rfl]
              exact ⟨fun y => by simp, fun y => by simp, by simp⟩
            | right z =>
              obtain ⟨⟨_, rfl⟩, rfl⟩ := (h2 z).1 rfl
              exact ⟨fun y => by simp, fun y => by simp, by simp⟩
        exact ⟨wrap (key false), wrap (key true)⟩

/-- **C64**, for every `A` and `B`, and `usize` and `isize` too: extracting an `Either<Tagged<T>, B>` is extracting a
`Value`, and reading that as a `T`, or else as a `B`, with `Value::deserialize`. -/
theorem C64_tagged (cwd : Option Str) (t b : Ty) (f : Fig) (l : Bool) (v : Value) (hv : v.WF)
    (hr : v.unreserved = true) : ∃ u, Ty.value.de ⟨some f, l⟩ v = .ok (.value u) ∧
      Either.Picks (Either.de cwd (.tagged t) b ⟨some f, l⟩ v)
        ((u.deserialize t).map fun x => .struct [.tag v.tag, x]) (u.deserialize b) := by
  refine ⟨v.extracted, ?_, ?_⟩
  · show asValue (Value.de ⟨some f, l⟩ v) = _
    rw [Value.de_ok f l v hv (Value.noReserved_of_unreserved v hr)]
    rfl
  · rw [Either.de_tagged cwd t b f l v hv hr, Value.deserialize, Value.deserialize]
    cases t.de De.plain v.extracted with
    | ok x => exact ⟨fun y => by simp [Except.map], fun y => by simp [Except.map], by simp [Except.map]⟩
    | error e =>
      cases b.de De.plain v.extracted with
      | ok x => exact ⟨fun y => by simp [Except.map], fun y => by simp [Except.map], by simp [Except.map]⟩
      | error e => exact .errors rfl rfl rfl

/-- **C64**, for every `B`: extracting an `Either<RelativePathBuf, B>` gives a path exactly from text, with the file the
value comes from; else it is extracting a `Value` and reading that as a `B`, with `Value::deserialize`. -/
theorem C64_relative (cwd : Option Str) (b : Ty) (f : Fig) (l : Bool) (v : Value) (hv : v.WF)
    (hr : v.unreserved = true) : ∃ u, Ty.value.de ⟨some f, l⟩ v = .ok (.value u) ∧
      (∀ x, Either.de cwd .relPath b ⟨some f, l⟩ v = .ok (.left x) ↔
        ∃ s, v.text? = some s ∧ RelPath.ofVal x = some ⟨f.fileAt v.tag, s⟩) ∧
      (∀ y, Either.de cwd .relPath b ⟨some f, l⟩ v = .ok (.right y) ↔ v.text? = none ∧ u.deserialize b = .ok y) := by
  refine ⟨v.extracted, ?_, ?_⟩
  · show asValue (Value.de ⟨some f, l⟩ v) = _
    rw [Value.de_ok f l v hv (Value.noReserved_of_unreserved v hr)]
    rfl
  · rw [Either.de_relPath cwd b f l v hv hr, Value.deserialize]
    have hp : Ty.pathBuf.de De.plain v.extracted = match v.text? with
        | some s => .ok (.str s)
        | none => Ty.pathBuf.de De.plain v.extracted := by
      cases v <;> rfl
    have hx : ∀ s x, RelPath.ofVal x = some ⟨f.fileAt v.tag, s⟩ ↔ x = .struct [Val.ofPath? (f.fileAt v.tag), .str s] := by
      intro s x
      generalize f.fileAt v.tag = o
      constructor
      · intro h
        unfold RelPath.ofVal at h
        split at h
        · cases h; rfl
        · cases h; rfl
        · cases h
      · rintro rfl
        cases o <;> rfl
    have hn : v.text? = none → ∃ e, Ty.pathBuf.de De.plain v.extracted = .error e := by
      intro h
      cases v with
      | string t s => cases h
      | char t s => cases h
      | num t n =>
        show ∃ e, Ty.pathBuf.de De.plain (.num _ n.visited) = .error e
        generalize n.visited = m
        cases m <;> exact ⟨_, rfl⟩
      | empty t e => cases e <;> exact ⟨_, rfl⟩
      | _ => exact ⟨_, rfl⟩
    cases ht : v.text? with
    | some s =>
      rw [ht] at hp
      rw [hp]
      refine ⟨fun x => ?_, fun y => by simp⟩
      simp only [hx]
      simp [Fig.fileOf, Fig.fileAt, eq_comm]
    | none =>
      obtain ⟨e, he⟩ := hn ht
      rw [he]
      cases b.de De.plain v.extracted <;> simp

/-- **C64** outside of a figment: `Value::deserialize` of an `Either<A, B>` reads a `Value`, that as an `A`, or else as a
`B`. -/
theorem C64_deserialize (cwd : Option Str) (a : MagicTy) (b : Ty) (v u : Value)
    (hu : v.deserialize .value = .ok (.value u)) (hr : u.unreserved = true) :
    Either.Picks (Either.de cwd a b De.plain v) (u.deserialize a.ty) (u.deserialize b) := by
  have hs : De.plain.deserializeStruct a.name Value.visitor v = .ok u := by
    show De.plain.deserializeAny Value.visitor v = .ok u
    rw [← Value.de_plain]
    have : asValue (Value.de De.plain v) = .ok (.value u) := hu
    cases h : Value.de De.plain v with
    | error e => rw [h] at this; cases this
    | ok w => rw [h] at this; cases this; rfl
  have hl : ((u.asDict?).bind fun d => Map.get a.last d).getD u = u := by
    cases u with
    | dict tg d =>
      show (Map.get a.last d).getD _ = _
      rw [Value.unreserved_get hr (show a.last ∈ reservedFields by cases a with
        | tagged t => show Tagged.FIELD1 ∈ _; decide
        | relPath => decide)]
      rfl
    | _ => rfl
  rw [Either.de, hs, Value.deserialize, Value.deserialize]
  dsimp only
  rw [hl]
  cases a.ty.de De.plain u with
  | ok x => exact ⟨fun y => by simp, fun y => by simp, by simp⟩
  | error ea =>
    cases b.de De.plain u with
    | ok x => exact ⟨fun y => by simp, fun y => by simp, by simp⟩
    | error e => exact .errors rfl rfl rfl

/-- Outside of a figment, text is never the `Left` of an `Either<RelativePathBuf, String>`. -/
example (cwd : Option Str) : (Ex.s "true").deserialize .value = .ok (.value (Ex.s "true")) ∧
    (Ex.s "true").unreserved = true ∧
    Either.de cwd .relPath .string De.plain (Ex.s "true") = .ok (.right (.str (str "true"))) := ⟨rfl, rfl, rfl⟩

omit [FloatOps] in
theorem Error.kind_infix (cwd : Option Str) (e : Error) : e.head.kind.display <:+: e.display cwd := by
  have h : ∀ h : ErrorHead, h.kind.display <:+: h.display cwd := by
    intro h
    unfold ErrorHead.display
    exact ⟨[], _, by rw [List.nil_append, List.append_assoc]⟩
  cases e with
  | last h' => exact h h'
  | cons h' p =>
    rw [Error.display, List.append_assoc]
    exact (h h').trans ⟨[], _, rfl⟩

/-- **C64**: the error of a failed extraction of an `Either<Tagged<T>, B>` says what is wrong as a `T` and what is wrong
as a `B`. -/
theorem C64_message (cwd : Option Str) (t b : Ty) (f : Fig) (l : Bool) (v : Value) (hv : v.WF)
    (hr : v.unreserved = true) (e : Error) (he : Either.de cwd (.tagged t) b ⟨some f, l⟩ v = .error e) :
    ∃ u ea eb m, Ty.value.de ⟨some f, l⟩ v = .ok (.value u) ∧ u.deserialize t = .error ea ∧ u.deserialize b = .error eb ∧
      e.head.kind = .message m ∧ ea.head.kind.display <:+: m ∧ str "; " ++ eb.display cwd <:+ m := by
  rw [Either.de_tagged cwd t b f l v hv hr] at he
  cases ha : t.de De.plain v.extracted with
  | ok x => rw [ha] at he; cases he
  | error ea =>
    rw [ha] at he
    cases hb : b.de De.plain v.extracted with
    | ok x => rw [hb] at he; cases he
    | error eb =>
      rw [hb] at he
      cases he
      refine ⟨v.extracted, ea, eb, _, ?_, ha, hb, rfl, ?_, ?_⟩
      · show asValue (Value.de ⟨some f, l⟩ v) = _
        rw [Value.de_ok f l v hv (Value.noReserved_of_unreserved v hr)]
        rfl
      · have hk : ∀ (g : ErrorHead → ErrorHead) (e : Error), (e.mapHead g).head = g e.head := by
          intro g e; cases e <;> rfl
        have h1 : ∀ tag e, (Error.retagged tag e).head.kind = e.head.kind := by
          intro tag e
          unfold Error.retagged
          split
          · rw [hk]
          · rfl
        have h2 : (De.plain.err Tag.Default (MapDe.err Tagged.FIELD1 v.extracted ea)).head.kind = ea.head.kind := by
          show (Error.retagged _ (Error.retagged _ (Error.prefixed _ ea))).head.kind = _
          rw [h1, h1, Error.prefixed, hk]
        rw [← h2]
        exact (Error.kind_infix cwd _).trans ⟨[], _, (List.append_assoc _ _ _).symm⟩
      · exact ⟨_, (List.append_assoc _ _ _).symm⟩

/-! ## Round trip -/

omit [FloatOps] [TextOps] in
theorem Value.noReserved_of_strip {v w : Value} (h : v.strip = w.strip) (hv : v.noReserved = true) :
    w.noReserved = true := by
  induction v using Value.induct generalizing w with
  | hdict u d ih =>
    obtain ⟨t, d', rfl, hd⟩ := Value.like_dict h
    rw [Value.noReserved, Value.noReservedD_iff] at hv ⊢
    intro e he
    obtain ⟨k, w⟩ := e
    obtain ⟨i, hi⟩ := List.getElem?_of_mem he
    obtain ⟨v, hv', hs⟩ := Value.getEntry_like hd hi
    have h1 := hv _ (List.mem_of_getElem? hv')
    exact ⟨h1.1, h1.2.1, ih (k, v) (List.mem_of_getElem? hv') hs h1.2.2⟩
  | harray u a ih =>
    obtain ⟨t, a', rfl, ha⟩ := Value.like_array h
    rw [Value.noReserved, Value.noReservedA_iff] at hv ⊢
    intro w hw
    obtain ⟨i, hi⟩ := List.getElem?_of_mem hw
    obtain ⟨v, hv', hs⟩ := Value.getElem_like ha hi
    exact ih v (List.mem_of_getElem? hv') hs (hv _ (List.mem_of_getElem? hv'))
  | hstring t s => obtain ⟨t', rfl⟩ := Value.like_string h; rfl
  | hchar t s => obtain ⟨t', rfl⟩ := Value.like_char h; rfl
  | hbool t s => obtain ⟨t', rfl⟩ := Value.like_bool h; rfl
  | hnum t s => obtain ⟨t', rfl⟩ := Value.like_num h; rfl
  | hempty t s => obtain ⟨t', rfl⟩ := Value.like_empty h; rfl

omit [FloatOps] [TextOps] in
theorem Value.fixedWidth_of_strip {v w : Value} (h : v.strip = w.strip) (hv : v.fixedWidth = true) :
    w.fixedWidth = true := by
  induction v using Value.induct generalizing w with
  | hdict u d ih =>
    obtain ⟨t, d', rfl, hd⟩ := Value.like_dict h
    rw [Value.fixedWidth, Value.fixedWidthD_iff] at hv ⊢
    intro e he
    obtain ⟨k, w⟩ := e
    obtain ⟨i, hi⟩ := List.getElem?_of_mem he
    obtain ⟨v, hv', hs⟩ := Value.getEntry_like hd hi
    exact ih (k, v) (List.mem_of_getElem? hv') hs (hv _ (List.mem_of_getElem? hv'))
  | harray u a ih =>
    obtain ⟨t, a', rfl, ha⟩ := Value.like_array h
    rw [Value.fixedWidth, Value.fixedWidthA_iff] at hv ⊢
    intro w hw
    obtain ⟨i, hi⟩ := List.getElem?_of_mem hw
    obtain ⟨v, hv', hs⟩ := Value.getElem_like ha hi
    exact ih v (List.mem_of_getElem? hv') hs (hv _ (List.mem_of_getElem? hv'))
  | hstring t s => obtain ⟨t', rfl⟩ := Value.like_string h; rfl
  | hchar t s => obtain ⟨t', rfl⟩ := Value.like_char h; rfl
  | hbool t s => obtain ⟨t', rfl⟩ := Value.like_bool h; rfl
  | hnum t s => obtain ⟨t', rfl⟩ := Value.like_num h; cases s <;> first | rfl | exact hv
  | hempty t s => obtain ⟨t', rfl⟩ := Value.like_empty h; rfl

/-- **C64**: a `Left(Tagged)` that names a provider, written and read by whoever supplies it, is itself again. -/
theorem C64_round_left (cwd : Option Str) (t b : Ty) (ht : t.faithful = true) (x : Val) (hx : t.Has x) (tag : Tag)
    (htag : tag.isDefault = false) (w1 : Value) (h1 : (t.ser x).serialize = .ok w1) (hr : w1.noReserved = true)
    (hn : w1.fixedWidth = true) :
    ∃ w, (Either.ser (.tagged t) b (.left (.struct [.tag tag, x]))).serialize = .ok w ∧ ∀ w' : Value, w'.strip = w.strip →
      ∀ f l, Either.de cwd (.tagged t) b ⟨some f, l⟩ w' = .ok (.left (.struct [.tag tag, x])) := by
  obtain ⟨w1', h1', h2⟩ := C30_value_partial t ht x hx
  rw [h1] at h1'
  cases h1'
  refine ⟨.ofDict (Map.ofList [(Tagged.FIELD0, .ofNum (.u64 tag.raw)), (Tagged.FIELD1, w1)]), ?_, ?_⟩
  · simp only [Either.ser, MagicTy.ty, Ty.tagged, Ty.ser, Ty.serFields, Ser.serialize, Ser.serializeFields, h1]
  · intro w' hw' f l
    obtain ⟨t', v0, v1, rfl, hv0, hv1⟩ := two_written (by decide) hw'
    obtain ⟨t0, rfl⟩ := Value.strip_eq_num hv0
    have hw1 : v1.WF := Value.wf_of_strip hv1.symm (Ser.serialize_fresh _ _ h1).1
    have hr1 := Value.noReserved_of_strip hv1.symm hr
    have hn1 := Value.fixedWidth_of_strip hv1.symm hn
    have hde := Value.de_ok f l v1 hw1 hr1
    rw [Value.de] at hde
    have hs : De.deserializeStruct ⟨some f, l⟩ Tagged.NAME Value.visitor
        (.dict t' [(Tagged.FIELD0, .num t0 (.u64 tag.raw)), (Tagged.FIELD1, v1)]) =
        .ok (.ofDict [(Tagged.FIELD0, (Value.num t0 (.u64 tag.raw)).extracted), (Tagged.FIELD1, v1.extracted)]) := by
      unfold De.deserializeStruct
      dsimp only
      rw [if_neg (by decide), if_neg (by decide), if_pos rfl, R.mapErr_eq_ok]
      unfold De.taggedFrom
      simp only [Value.asDict?,
        show Map.get Tagged.FIELD0 [(Tagged.FIELD0, Value.num t0 (.u64 tag.raw)), (Tagged.FIELD1, v1)] =
          some (Value.num t0 (.u64 tag.raw)) from rfl,
        show Tag.de De.plain (Value.num t0 (.u64 tag.raw)) = .ok tag from rfl, htag, Bool.false_eq_true, if_false]
      show (match Value.rawDeMap ⟨some f, l⟩ [(Tagged.FIELD0, .num t0 (.u64 tag.raw)), (Tagged.FIELD1, v1)]
        ⟨[], none, none⟩ with | .ok st => _ | .error e => _) = _
      rw [Value.rawDeMap, Value.visitEntry, if_neg (by decide), if_neg (by decide),
        show Value.deOfRaw ⟨some f, l⟩ (.num t0 (.u64 tag.raw)) (Value.rawDe ⟨some f, l⟩ (.num t0 (.u64 tag.raw))) =
          .ok (Value.num t0 (.u64 tag.raw)).extracted from Value.de_ok f l (.num t0 (.u64 tag.raw)) (by unfold Value.WF; rfl) rfl]
      dsimp only [R.mapErr_ok]
      rw [Value.rawDeMap, Value.visitEntry, if_neg (by decide), if_neg (by decide), hde]
      rfl
    rw [Either.de]
    simp only [MagicTy.name, hs, MagicTy.ty, Ty.tagged]
    have ha : (Ty.struct (str "Tagged") Tagged.NAME false [(Tagged.FIELD0, none, .tag), (Tagged.FIELD1, none, t)]).de
        De.plain (.ofDict [(Tagged.FIELD0, (Value.num t0 (.u64 tag.raw)).extracted), (Tagged.FIELD1, v1.extracted)]) =
        .ok (.struct [.tag tag, x]) := by
      rw [Ty.de]
      dsimp only
      show R.mapErr (De.plain.err Tag.Default) ((structVisitor _ _ false
        (Ty.deFields [(Tagged.FIELD0, none, .tag), (Tagged.FIELD1, none, t)])).visitMap De.plain _) = _
      rw [Ty.deFields, Ty.deFields, Ty.deFields, two_fields (by decide)]
      have htag : MapDe.nextValue Ty.tag.de De.plain Tagged.FIELD0 (Value.num t0 (.u64 tag.raw)).extracted =
          .ok (.tag tag) := by
        rw [MapDe.nextValue, R.mapErr_eq_ok, Ty.de]
        rfl
      have := (h2 v1.extracted ((Value.strip_extracted hn1).trans hv1)).1
      rw [Value.deserialize] at this
      rw [htag, MapDe.nextValue, this]
      rfl
    rw [ha]

/-- **C64**: a `Right`, written and read by whoever supplies it, is itself again, if it cannot be read as an `A`. -/
theorem C64_round_right (cwd : Option Str) (a : MagicTy) (ha : a.proper = true) (b : Ty) (hb : b.proper false = true)
    (hf : b.faithful = true) (y : Val) (hy : b.Has y) (w : Value)
    (hw : (Either.ser a b (.right y)).serialize = .ok w) (hn : w.fixedWidth = true)
    (w' : Value) (hw' : w'.strip = w.strip) (hr' : w'.unreserved = true) (f : Fig) (l : Bool)
    (hne : ∃ e, a.ty.de (De.strict f) w' = .error e) :
    Either.de cwd a b ⟨some f, l⟩ w' = .ok (.right y) := by
  obtain ⟨w1', h1', h2⟩ := C30_value_partial b hf y hy
  rw [Either.ser] at hw
  rw [hw] at h1'
  cases h1'
  have hwf : w'.WF := Value.wf_of_strip hw'.symm (Ser.serialize_fresh _ _ hw).1
  exact ((C64_value_partial cwd a ha b hb f l w' hwf hr' (Value.fixedWidth_of_strip hw'.symm hn)).2.1 y).2
    ⟨hne, ((h2 w' hw').2 f).1⟩

example : (Ty.seq (.int .u8)).faithful = true ∧ (Ty.seq (.int .u8)).Has (.seq [.int 3]) ∧
    ∃ w, ((Ty.seq (.int .u8)).ser (.seq [.int 3])).serialize = .ok w ∧ w.noReserved = true ∧ w.unreserved = true ∧
      w.fixedWidth = true ∧ ∀ f, ∃ e, (MagicTy.tagged .string).ty.de (De.strict f) w = .error e := by
  refine ⟨by decide, ?_, _, rfl, rfl, rfl, rfl, fun f => ⟨_, rfl⟩⟩
  rw [Ty.Has]
  refine ⟨_, rfl, ?_⟩
  simp [Ty.Has, IntTy.min, IntTy.max]

/-! ## Where it fails -/

/-- A figment with a word, a `usize` and a list in it, all from one provider with metadata. -/
def Ex.eitherFig : Fig :=
  Fig.provideWith Fig.new (Provider.plain (Metadata.named (str "one")) (.ok [(Profile.Default,
    [(str "index", .num Tag.Default (.usize 0#64)), (str "list", Ex.a [Ex.n 1, Ex.n 2]), (str "word", Ex.s "true")])]))
    .Merge Ex.loc ⟨1#64⟩

/-- C64 fails for lossy extraction: where `extract_inner_lossy` reads an `A`, it gives a `Right` for `Either<A, B>`. -/
theorem C64_fails_lossy (cwd : Option Str) :
    Ex.eitherFig.extractInnerLossy (str "word") (MagicTy.tagged .bool).ty = .ok (.struct [.tag ⟨1⟩, .bool true]) ∧
    Ex.eitherFig.extractInnerLossyEither cwd (str "word") (.tagged .bool) .string = .ok (.right (.str (str "true"))) :=
  ⟨rfl, rfl⟩

/-- C64 fails for the crate's own types inside of it: `extract_inner` reads a `RelativePathBuf` and a
`Tagged<RelativePathBuf>`, but neither `Either<Tagged<u8>, RelativePathBuf>` nor
`Either<Tagged<RelativePathBuf>, u8>`. -/
theorem C64_fails_magic (cwd : Option Str) :
    (∃ x, Ex.eitherFig.extractInner (str "word") .relPath = .ok x) ∧
    (∃ e, Ex.eitherFig.extractInnerEither cwd (str "word") (.tagged (.int .u8)) .relPath = .error e) ∧
    (∃ x, Ex.eitherFig.extractInner (str "word") (MagicTy.tagged .relPath).ty = .ok x) ∧
    (∃ e, Ex.eitherFig.extractInnerEither cwd (str "word") (.tagged .relPath) (.int .u8) = .error e) :=
  ⟨⟨_, rfl⟩, ⟨_, rfl⟩, ⟨_, rfl⟩, ⟨_, rfl⟩⟩

/-- C64 fails for `usize`: `extract_inner` reads no enum from one, but `Either<_, Enum>` does. -/
theorem C64_fails_index (cwd : Option Str) :
    (∃ e, Ex.eitherFig.extractInner (str "index") (.enum (str "E") [(str "Off", .unit)]) = .error e) ∧
    Ex.eitherFig.extractInnerEither cwd (str "index") (.tagged .bool) (.enum (str "E") [(str "Off", .unit)]) =
      .ok (.right (.variant (str "Off") .unit)) := ⟨⟨_, rfl⟩, rfl⟩

/-- The errors of `Either` do not say which provider supplied the value (cf. C46). -/
theorem C64_fails_provenance (cwd : Option Str) : (Ex.eitherFig.findMetadata (str "list")).isSome = true ∧
    ∃ e, Ex.eitherFig.extractInnerEither cwd (str "list") (.tagged .bool) .string = .error e ∧
      e.head.tag = Tag.Default ∧ e.head.metadata = none ∧ e.head.profile = none := ⟨rfl, _, rfl, rfl, rfl, rfl⟩

/-- The hypotheses of C64 are met, and each of the three cases occurs. -/
example (cwd : Option Str) : ∃ v, Ex.fig1.merged = .ok v ∧ v.WF ∧ v.unreserved = true ∧ v.fixedWidth = true ∧
    Ex.fig1.extractInnerEither cwd (str "a") (.tagged (.int .i16)) .string = .ok (.left (.struct [.tag ⟨1⟩, .int 1])) ∧
    Ex.fig1.extractInnerEither cwd (str "b.y") (.tagged (.int .i16)) (.seq (.int .u8)) =
      .ok (.right (.seq [.int 3, .int 4])) ∧
    ∃ e, Ex.fig1.extractInnerEither cwd (str "b") (.tagged (.int .i16)) .string = .error e :=
  ⟨_, rfl, by decide, by decide, by decide, rfl, rfl, _, rfl⟩

example : ∃ x ∈ (Proc.exec Ex.steps).made, ∀ v, x.fig.merged = .ok v → v.unreserved = true ∧ v.fixedWidth = true :=
  ⟨_, List.mem_of_getElem? (i := 2) rfl, fun v h => by cases h; decide⟩

end Figment
