import Verif.Props.Blame
import Verif.Props.Complains
/-!
# C72: types that are parsed from text, or converted from another type

Types like `IpAddr`, which are read by parsing text, and types with `#[serde(try_from)]` or `deserialize_with`, which are
read as another type and then converted. Extraction succeeds exactly when the parser, or the conversion, does, gives just
what it gives, and fails with its message. (What becomes of such types inside others is in C63 and C69, of whose
universe of types they are.)
-/
namespace Figment
variable [FloatOps]

/-- The four ways of extraction: lossy or not, the whole or the value at a path. -/
def Fig.extractBy (f : Fig) (lossy : Bool) : Option Str → Ty → R Val
  | none, t => if lossy then f.extractLossy t else f.extract t
  | some path, t => if lossy then f.extractInnerLossy path t else f.extractInner path t

/-- What is extracted from: the whole, or the value at the path. -/
def Fig.sourceOf (f : Fig) : Option Str → R Value
  | none => f.merged
  | some path => f.findValue path

/-- The keys the requested path adds to the path of an error. -/
def requestedKeys : Option Str → List Str
  | none => []
  | some path => (Str.splitOn '.' path).filter fun k => !k.isEmpty

/-- What `extract_inner` makes of an error. -/
def requestedAt : Option Str → Error → Error
  | none, e => e
  | some path, e => e.withPath path

theorem Fig.extractBy_ok {f : Fig} {l : Bool} {at_ : Option Str} {v : Value} (h : f.sourceOf at_ = .ok v) (t : Ty) :
    f.extractBy l at_ t = R.mapErr (requestedAt at_) (t.de ⟨some f, l⟩ v) := by
  cases at_ with
  | none =>
    replace h : f.merged = .ok v := h
    cases l with
    | false =>
      show f.extract t = _
      rw [Fig.extract, Fig.extractWith, h]
      show t.de ⟨some f, false⟩ v = _
      cases t.de ⟨some f, false⟩ v <;> rfl
    | true =>
      show f.extractLossy t = _
      rw [Fig.extractLossy, Fig.extractWith, h]
      show t.de ⟨some f, true⟩ v = _
      cases t.de ⟨some f, true⟩ v <;> rfl
  | some path =>
    replace h : f.findValue path = .ok v := h
    cases l with
    | false =>
      show f.extractInner path t = _
      rw [Fig.extractInner, Fig.extractInnerWith, h]
      dsimp only
      rw [show De.strict f = ⟨some f, false⟩ from rfl]
      cases t.de ⟨some f, false⟩ v <;> rfl
    | true =>
      show f.extractInnerLossy path t = _
      rw [Fig.extractInnerLossy, Fig.extractInnerWith, h]
      dsimp only
      rw [show De.lossyOf f = ⟨some f, true⟩ from rfl]
      cases t.de ⟨some f, true⟩ v <;> rfl

theorem Fig.extractBy_error {f : Fig} {l : Bool} {at_ : Option Str} {e : Error} (h : f.sourceOf at_ = .error e) (t : Ty) :
    f.extractBy l at_ t = .error e := by
  cases at_ with
  | none =>
    replace h : f.merged = .error e := h
    cases l with
    | false => show f.extract t = _; rw [Fig.extract, Fig.extractWith, h]
    | true => show f.extractLossy t = _; rw [Fig.extractLossy, Fig.extractWith, h]
  | some path =>
    replace h : f.findValue path = .error e := h
    cases l with
    | false => show f.extractInner path t = _; rw [Fig.extractInner, Fig.extractInnerWith, h]
    | true => show f.extractInnerLossy path t = _; rw [Fig.extractInnerLossy, Fig.extractInnerWith, h]

omit [FloatOps] in
theorem requestedAt_head (at_ : Option Str) (e : Error) :
    (requestedAt at_ e).head = { e.head with path := e.head.path ++ requestedKeys at_ } := by
  cases at_ with
  | none => simp [requestedAt, requestedKeys]
  | some path => exact Error.withPath_head path e

theorem Fig.extractBy_iff {f : Fig} {l : Bool} {at_ : Option Str} {t : Ty} {x : Val} :
    f.extractBy l at_ t = .ok x ↔ ∃ v, f.sourceOf at_ = .ok v ∧ t.de ⟨some f, l⟩ v = .ok x := by
  cases h : f.sourceOf at_ with
  | error e =>
    rw [Fig.extractBy_error h]
    exact ⟨nofun, fun ⟨_, h, _⟩ => nomatch h⟩
  | ok v =>
    rw [Fig.extractBy_ok h]
    constructor
    · intro h1
      cases h2 : t.de ⟨some f, l⟩ v with
      | ok y => rw [h2] at h1; exact ⟨v, rfl, h2.trans h1⟩
      | error e => rw [h2] at h1; cases h1
    · rintro ⟨v', h1, h2⟩
      cases h1
      rw [h2]
      rfl

/-- **C72**: a type that is parsed is extracted exactly from text that its parser accepts, as what the parser gives. -/
theorem C72_parsed (f : Fig) (lossy : Bool) (at_ : Option Str) (expecting : Str) (parse : Str → Except Str Val)
    (text : Val → Str) (x : Val) :
    f.extractBy lossy at_ (.parsed expecting parse text) = .ok x ↔
      ∃ v s, f.sourceOf at_ = .ok v ∧ v.text? = some s ∧ parse s = .ok x := by
  rw [Fig.extractBy_iff]
  constructor
  · rintro ⟨v, h1, h2⟩
    obtain ⟨s, h3, h4⟩ := parsed_iff.1 h2
    exact ⟨v, s, h1, h3, h4⟩
  · rintro ⟨v, s, h1, h3, h4⟩
    exact ⟨v, h1, parsed_iff.2 ⟨s, h3, h4⟩⟩

/-- **C72**: when the parser refuses the text, the error has the parser's message, the requested path, and the
provenance of the text. -/
theorem C72_parsed_error (f : Fig) (lossy : Bool) (at_ : Option Str) (expecting : Str) (parse : Str → Except Str Val)
    (text : Val → Str) (v : Value) (s m : Str) (hv : f.sourceOf at_ = .ok v) (hs : v.text? = some s)
    (hm : parse s = .error m) :
    ∃ e, f.extractBy lossy at_ (.parsed expecting parse text) = .error e ∧ e.head.kind = .message m ∧
      e.head.path = requestedKeys at_ ∧ e.head.tag = v.tag ∧ e.head.metadata = Map.get v.tag f.metadata ∧
      e.head.profile = some (v.tag.profile.getD f.profile) := by
  have hd : (Ty.parsed expecting parse text).de ⟨some f, lossy⟩ v =
      .error (De.err ⟨some f, lossy⟩ v.tag (Error.ofKind (.message m))) := by
    rw [Ty.de]
    show De.deserializeAny _ _ v = _
    rw [any_visit]
    cases v with
    | string t x => cases hs; simp only [Visitor.visit, parsedVisitor, hm]; rfl
    | char t c => cases hs; simp only [Visitor.visit, parsedVisitor]; rw [hm]; rfl
    | _ => cases hs
  refine ⟨_, by rw [Fig.extractBy_ok hv, hd]; rfl, ?_⟩
  rw [requestedAt_head]
  obtain ⟨h1, h2, _, h4⟩ := De.err_head ⟨some f, lossy⟩ v.tag (Error.ofKind (.message m))
  have h4' : (De.err ⟨some f, lossy⟩ v.tag (Error.ofKind (.message m))).head.tag = v.tag := h4
  obtain ⟨h5, h6⟩ := De.err_resolved (some f) lossy v.tag (Error.ofKind (.message m)) nofun
  rw [h4'] at h5 h6
  refine ⟨h2, ?_, h4', h5, h6⟩
  show _ ++ requestedKeys at_ = _
  rw [h1]
  rfl

/-- **C72**: a type with a conversion is extracted exactly from what the other type is extracted from, if the conversion
succeeds, as what it gives. -/
theorem C72_via (f : Fig) (lossy : Bool) (at_ : Option Str) (t : Ty) (conv : Val → Except Str Val) (back : Val → Val)
    (x : Val) :
    f.extractBy lossy at_ (.via t conv back) = .ok x ↔ ∃ y, f.extractBy lossy at_ t = .ok y ∧ conv y = .ok x := by
  simp only [Fig.extractBy_iff, Ty.de, converted_eq_ok]
  exact ⟨fun ⟨v, h, y, h1, h2⟩ => ⟨y, ⟨v, h, h1⟩, h2⟩, fun ⟨y, ⟨v, h, h1⟩, h2⟩ => ⟨v, h, y, h1, h2⟩⟩

/-- **C72**: errors of the other type are left as they are. When the conversion refuses the value, the error has its
message and the requested path; but nothing of the provenance. -/
theorem C72_via_error (f : Fig) (lossy : Bool) (at_ : Option Str) (t : Ty) (conv : Val → Except Str Val)
    (back : Val → Val) :
    (∀ e, f.extractBy lossy at_ t = .error e → f.extractBy lossy at_ (.via t conv back) = .error e) ∧
    (∀ y m, f.extractBy lossy at_ t = .ok y → conv y = .error m →
      ∃ e, f.extractBy lossy at_ (.via t conv back) = .error e ∧ e.head.kind = .message m ∧
        e.head.path = requestedKeys at_ ∧ e.head.tag = Tag.Default ∧ e.head.metadata = none ∧ e.head.profile = none) := by
  constructor
  · intro e h
    cases hs : f.sourceOf at_ with
    | error e' =>
      rw [Fig.extractBy_error hs] at h ⊢
      exact h
    | ok v =>
      rw [Fig.extractBy_ok hs] at h ⊢
      rw [Ty.de]
      cases hd : t.de ⟨some f, lossy⟩ v with
      | ok x => rw [hd] at h; cases h
      | error e' => rw [hd] at h; rw [← h]; dsimp only; rw [hd]; rfl
  · intro y m h hm
    obtain ⟨v, hs, hd⟩ := Fig.extractBy_iff.1 h
    refine ⟨requestedAt at_ (Error.ofKind (.message m)), ?_, ?_⟩
    · rw [Fig.extractBy_ok hs, Ty.de]
      dsimp only
      rw [hd]
      simp only [converted, hm]
      rfl
    · rw [requestedAt_head]
      exact ⟨rfl, rfl, rfl, rfl, rfl⟩

/-! ## Cases -/

/-- Port numbers, converted from `u16`: not zero. -/
def Ex.port : Ty := .via (.int .u16)
  (fun | .int 0 => .error (str "no port") | x => .ok x) id

/-- Answers, parsed from text. -/
def Ex.answer : Ty := .parsed (str "yes or no")
  (fun s => if s = str "yes" then .ok (.bool true) else if s = str "no" then .ok (.bool false) else .error (str "what?"))
  (fun | .bool true => str "yes" | _ => str "no")

/-- A figment with one provider, `{ "a" = { "ok" = "yes", "port" = 0, "x" = "maybe" } }`. -/
def Ex.convFig : Fig :=
  ⟨Profile.Default, [(⟨1⟩, Metadata.named (str "one"))],
    .ok [(Profile.Default, [(str "a", .dict ⟨1⟩ [(str "ok", .string ⟨1⟩ (str "yes")),
      (str "port", .num ⟨1⟩ (.u8 0)), (str "x", .string ⟨1⟩ (str "maybe"))])])]⟩

example : Ex.convFig.extractInner (str "a.ok") Ex.answer = .ok (.bool true) := by rfl
example : ∃ v, Ex.convFig.sourceOf (some (str "a.x")) = .ok v ∧ v.text? = some (str "maybe") := ⟨_, rfl, rfl⟩
example : ∃ e, Ex.convFig.extractInner (str "a.x") Ex.answer = .error e ∧
    e.head.kind = .message (str "what?") ∧ e.head.path = [str "a", str "x"] ∧
    e.head.metadata = some (Metadata.named (str "one")) := ⟨_, rfl, rfl, rfl, rfl⟩
example : Ex.convFig.extractInner (str "a.port") (.int .u16) = .ok (.int 0) := by rfl
example : Ex.port.ordinary true = true ∧ Ex.port.proper true = true ∧ Ex.answer.proper true = true := by decide

/-- The message of a conversion of the value that is asked for says nothing of its provenance (value/de.rs:73-181 see
nothing of it): C46 fails for it. -/
theorem C72_fails : ∃ v e, Ex.convFig.findValue (str "a.port") = .ok v ∧
    (Map.get v.tag Ex.convFig.metadata).isSome ∧ Ex.convFig.extractInner (str "a.port") Ex.port = .error e ∧
    e.head.kind = .message (str "no port") ∧ e.head.metadata = none := ⟨_, _, rfl, rfl, rfl, rfl, rfl⟩

/-- As the field of a struct it does. -/
example : ∃ e, Ex.convFig.extractInner (str "a") (.struct (str "S") (str "S") false [(str "port", none, Ex.port)]) =
    .error e ∧ e.head.kind = .message (str "no port") ∧ e.head.path = [str "port", str "a"] ∧
    e.head.metadata = some (Metadata.named (str "one")) := ⟨_, rfl, rfl, rfl, rfl⟩

/-- Numbers of one digit, converted from `u8`: not nine. -/
def Ex.digit : Ty := .via (.int .u8) (fun | .int 9 => .error (str "nine") | x => .ok x) id

/-- Inside an array whose elements are of several providers, the message of a conversion names the provider of the first
elements, not that of the element it points at: `SeqDe` leaves errors as they are (value/de.rs:244-256). In the figment,
the array `b.y` is `[3, 4]` of the provider `one`, adjoined with `[9]` of the provider `two`. -/
theorem C46_fails_element : ∃ x v w e, (Proc.exec Ex.steps).made[2]? = some x ∧
    x.fig.findValue (str "b.y") = .ok v ∧ x.fig.extractInner (str "b.y") (.seq Ex.digit) = .error e ∧
    e.head.path = [str "2", str "b", str "y"] ∧ e.head.kind = .message (str "nine") ∧ v.Leads false [str "2"] w ∧
    (Map.get w.tag x.fig.metadata).map Metadata.name = some (str "two") ∧
    e.head.metadata.map Metadata.name = some (str "one") :=
  ⟨_, _, _, _, rfl, rfl, rfl, rfl, rfl, .index (i := 2) rfl (.here _), rfl, rfl⟩

/-- Other errors of the element name its provider. -/
example : ∃ x e, (Proc.exec Ex.steps).made[2]? = some x ∧
    x.fig.extractInner (str "b.y") (.tuple [.int .u8, .int .u8, .via .bool (fun x => .ok x) id]) = .error e ∧
    e.head.path = [str "2", str "b", str "y"] ∧ e.head.metadata.map Metadata.name = some (str "two") :=
  ⟨_, _, rfl, rfl, rfl, rfl⟩

/-- Uniform data, as in C46 for messages. -/
example : ∃ v, Ex.convFig.merged = .ok v ∧ v.uniform = true ∧ (Ty.map (.map Ex.port)).loose = false := ⟨_, rfl, rfl, rfl⟩

end Figment
