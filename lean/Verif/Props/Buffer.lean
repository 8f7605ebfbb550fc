import Verif.Props.Convert
import Verif.Props.Means
import Verif.Props.Extract
import Verif.Lemmas.Buffer
/-!
# C74: types that take data as it is

`#[serde(untagged)]` enums, and other libraries' types of any data: the value is first taken as it is (the type `any`),
and then converted. What they are is decided by the data alone: not by its provenance, nor by whether the extraction is
lossy. All data is taken, and all of it is seen, except 128-bit integers. (What becomes of such types inside others is in
C63 and C69, and that they round-trip in C30, of whose universe of types they are.)
-/
namespace Figment
variable [FloatOps]

/-- **C74**: extraction as a type that takes data as it is succeeds exactly when the conversion accepts the data that is
asked for, and gives just what it gives. -/
theorem C74_extract (f : Fig) (lossy : Bool) (at_ : Option Str) (expecting : Str) (conv : Val → Except Str Val)
    (back : Val → Val) (x : Val) :
    f.extractBy lossy at_ (.via (.any expecting) conv back) = .ok x ↔
      ∃ v y, f.sourceOf at_ = .ok v ∧ v.Buffers y ∧ conv y = .ok x := by
  rw [C72_via]
  simp only [Fig.extractBy_iff, buffers_iff]
  exact ⟨fun ⟨y, ⟨v, h, h1⟩, h2⟩ => ⟨v, y, h, h1, h2⟩, fun ⟨v, y, h, h1, h2⟩ => ⟨y, ⟨v, h, h1⟩, h2⟩⟩

/-- **C74**: lossy extraction does the same as extraction, also when it fails: text is not read as a number or boolean. -/
theorem C74_lossy (f : Fig) (at_ : Option Str) (expecting : Str) (conv : Val → Except Str Val) (back : Val → Val) :
    f.extractBy true at_ (.via (.any expecting) conv back) = f.extractBy false at_ (.via (.any expecting) conv back) := by
  cases h : f.sourceOf at_ with
  | error e => rw [Fig.extractBy_error h, Fig.extractBy_error h]
  | ok v =>
    rw [Fig.extractBy_ok h, Fig.extractBy_ok h, Ty.de, Ty.de]
    dsimp only
    rw [anyN_lossless expecting f true false]

/-- **C74**: where the data is from does not matter, nor which profile, provider or figment gave it; the crate's own types
that do depend on it, like `RelativePathBuf`, have nothing to go by when inside such a type. -/
theorem C74_provenance (f f' : Fig) (lossy lossy' : Bool) (at_ at_' : Option Str) (v w : Value)
    (h : f.sourceOf at_ = .ok v) (h' : f'.sourceOf at_' = .ok w) (hs : v.strip = w.strip)
    (expecting : Str) (conv : Val → Except Str Val) (back : Val → Val) (x : Val) :
    f.extractBy lossy at_ (.via (.any expecting) conv back) = .ok x ↔
      f'.extractBy lossy' at_' (.via (.any expecting) conv back) = .ok x := by
  rw [C74_extract, C74_extract]
  constructor
  · rintro ⟨v1, y, h1, h2, h3⟩
    rw [h] at h1
    cases h1
    exact ⟨w, y, h', Value.buffers_like v w hs y h2, h3⟩
  · rintro ⟨v1, y, h1, h2, h3⟩
    rw [h'] at h1
    cases h1
    exact ⟨v, y, h, Value.buffers_like w v hs.symm y h2, h3⟩

/-- **C74**: there is just one thing that data is taken as, and it tells all there is to know about the data but its
provenance: data that is taken as the same is the same. (Of numbers as wide as the machine's addresses it tells the
value but not the type.) -/
theorem C74_faithful (v w : Value) (x y : Val) (hv : v.Buffers x) :
    (v.Buffers y → x = y) ∧
    (v.fixedWidth = true → w.fixedWidth = true → w.Buffers x → v.strip = w.strip) := by
  constructor
  · intro h
    have h1 := (buffers_iff [] (De.strict Fig.new) v x).2 hv
    rw [(buffers_iff [] (De.strict Fig.new) v y).2 h] at h1
    exact (Except.ok.inj h1).symm
  · exact fun h1 h2 h3 => Value.buffers_inj v w x hv h3 h1 h2

omit [FloatOps] in
/-- What is extracted from is well-formed. -/
theorem Made.source_wf (steps : List Step) (h : steps.countP Step.isObtain < 2 ^ 64) (hp : ∀ s ∈ steps, s.Plain)
    (x : Made) (hx : x ∈ (Proc.exec steps).made) (at_ : Option Str) (v : Value) (hv : x.fig.sourceOf at_ = .ok v) :
    v.WF := by
  cases at_ with
  | none => exact (((Proc.exec_inv steps h hp).made x hx).merged hv).1
  | some path =>
    replace hv : x.fig.findValue path = .ok v := hv
    rw [Fig.findValue] at hv
    cases hm : x.fig.merged with
    | error e => rw [hm] at hv; cases hv
    | ok u =>
      rw [hm] at hv
      obtain ⟨hw, _, _⟩ := ((Proc.exec_inv steps h hp).made x hx).merged hm
      simp only [Value.find_eq] at hv
      cases hk : u.getKeys (pathKeys path) with
      | none => rw [hk] at hv; cases hv
      | some u' => rw [hk] at hv; cases hv; exact Value.wf_getKeys hw hk

/-- **C74**: all data is taken, unless there is a 128-bit integer somewhere in it. -/
theorem C74_taken (steps : List Step) (h : steps.countP Step.isObtain < 2 ^ 64) (hp : ∀ s ∈ steps, s.Plain)
    (x : Made) (hx : x ∈ (Proc.exec steps).made) (lossy : Bool) (at_ : Option Str) (v : Value)
    (hv : x.fig.sourceOf at_ = .ok v) (expecting : Str) :
    (∃ y, x.fig.extractBy lossy at_ (.any expecting) = .ok y) ↔ ∀ p w, v.Leads false p w → w.is128 = false := by
  have hw := Made.source_wf steps h hp x hx at_ v hv
  have key : (∃ y, x.fig.extractBy lossy at_ (.any expecting) = .ok y) ↔ ∃ y, v.Buffers y := by
    refine exists_congr fun y => ?_
    rw [Fig.extractBy_iff]
    constructor
    · rintro ⟨v1, h1, h2⟩
      rw [hv] at h1
      cases h1
      exact (buffers_iff _ _ _ _).1 h2
    · exact fun h => ⟨v, hv, (buffers_iff _ _ _ _).2 h⟩
  rw [key]
  exact ⟨Value.buffers_small v, Value.small_buffers v hw⟩

/-- **C74**: when extraction of data that is there fails, the error is that of a 128-bit integer at the path it gives, or
the message of the conversion of the whole, and then it points at nothing inside: its path is the one asked for. -/
theorem C74_error (steps : List Step) (h : steps.countP Step.isObtain < 2 ^ 64) (hp : ∀ s ∈ steps, s.Plain)
    (x : Made) (hx : x ∈ (Proc.exec steps).made) (lossy : Bool) (at_ : Option Str) (v : Value)
    (hv : x.fig.sourceOf at_ = .ok v) (expecting : Str) (conv : Val → Except Str Val) (back : Val → Val) (e : Error)
    (he : x.fig.extractBy lossy at_ (.via (.any expecting) conv back) = .error e) :
    (∃ p w, v.Leads false p w ∧ w.is128 = true ∧ e.head.path = p ++ requestedKeys at_ ∧
      e.head.kind = .invalidType w.shown expecting) ∨
    ((∀ p w, v.Leads false p w → w.is128 = false) ∧ ∃ y m, v.Buffers y ∧ conv y = .error m ∧
      e.head.kind = .message m ∧ e.head.path = requestedKeys at_) := by
  have hw := Made.source_wf steps h hp x hx at_ v hv
  cases hd : (Ty.any expecting).de ⟨some x.fig, lossy⟩ v with
  | error e' =>
    have h1 : x.fig.extractBy lossy at_ (.any expecting) = .error (requestedAt at_ e') := by
      rw [Fig.extractBy_ok hv, hd]; rfl
    have h2 := (C72_via_error x.fig lossy at_ (.any expecting) conv back).1 _ h1
    rw [he] at h2
    cases h2
    obtain ⟨w, hl, h3, h4⟩ := Value.refuses_leads v e'.head.path hw
      ((refuses_iff expecting ⟨some x.fig, lossy⟩ e'.head.kind v e'.head.path).1 ⟨e', hd, rfl, rfl⟩)
    exact .inl ⟨_, w, hl, h3, by rw [requestedAt_head], by rw [requestedAt_head]; exact h4⟩
  | ok y =>
    have hy := (buffers_iff _ _ _ _).1 hd
    refine .inr ⟨Value.buffers_small v ⟨y, hy⟩, y, ?_⟩
    have h1 : x.fig.extractBy lossy at_ (.any expecting) = .ok y := by
      rw [Fig.extractBy_ok hv, hd]; rfl
    cases hc : conv y with
    | ok z =>
      rw [(C72_via x.fig lossy at_ (.any expecting) conv back z).2 ⟨y, h1, hc⟩] at he
      cases he
    | error m =>
      obtain ⟨e', h2, h3, h4, _⟩ := (C72_via_error x.fig lossy at_ (.any expecting) conv back).2 y m h1 hc
      rw [he] at h2
      cases h2
      exact ⟨m, hy, rfl, h3, h4⟩

/-- `#[serde(untagged)] enum { Small(u8), Name(String), List(Vec<..>) }`, with the values left as they are. -/
def Ex.untagged : Ty := .via (.any (str "any value"))
  (fun
    | .value (.num _ (.u8 k)) => .ok (.int k.toNat)
    | .str s => .ok (.str s)
    | .seq l => .ok (.seq l)
    | _ => .error (str "data did not match any variant"))
  (fun
    | .int i => .value (.ofNum (.u8 (BitVec.ofInt 8 i)))
    | x => x)

/-- A figment with one provider, `{ "a" = 1, "b" = "1", "c" = [2, { "k" = 2^64 as u128 }], "d" = {} }`. -/
def Ex.bufFig : Fig :=
  ⟨Profile.Default, [(⟨1⟩, Metadata.named (str "one"))],
    .ok [(Profile.Default, [(str "a", .num ⟨1⟩ (.u8 1)), (str "b", .string ⟨1⟩ (str "1")),
      (str "c", .array ⟨1⟩ [.num ⟨1⟩ (.u8 2), .dict ⟨1⟩ [(str "k", .num ⟨1⟩ (.u128 0x10000000000000000))]]),
      (str "d", .dict ⟨1⟩ [])])]⟩

example : Ex.bufFig.extractInner (str "a") Ex.untagged = .ok (.int 1) := by rfl
example : Ex.bufFig.extractInner (str "b") Ex.untagged = .ok (.str (str "1")) := by rfl
example : Ex.bufFig.extractInnerLossy (str "b") Ex.untagged = .ok (.str (str "1")) := by rfl
example : ∃ v, Ex.bufFig.sourceOf (some (str "a")) = .ok v ∧ v.Buffers (.value (.ofNum (.u8 1))) ∧ v.fixedWidth = true :=
  ⟨_, rfl, ⟨by decide, _, Num.narrowing_visited, rfl⟩, rfl⟩
/-- The 128-bit integer is pointed at, but that is all that is wrong with the list. -/
example : ∃ e, Ex.bufFig.extractInner (str "c") Ex.untagged = .error e ∧
    e.head.kind = .invalidType (.other (str "integer `18446744073709551616` as u128")) (str "any value") ∧
    e.head.path = [str "1", str "k", str "c"] ∧ e.head.metadata = some (Metadata.named (str "one")) := ⟨_, rfl, rfl, rfl, rfl⟩
example : ∃ e, Ex.bufFig.extractInner (str "d") Ex.untagged = .error e ∧
    e.head.kind = .message (str "data did not match any variant") ∧ e.head.path = [str "d"] := ⟨_, rfl, rfl, rfl⟩

/-- The type round-trips, so that C30 is about it. -/
example : Ex.untagged.faithful = true ∧ Ex.untagged.Has (.seq [.str (str "a"), .value (.ofNum (.u8 3))]) :=
  ⟨rfl, .seq _ (by simpa using ⟨.str _, .num _ (by decide) nofun nofun⟩), rfl⟩

/-- A figment of a history, with data that is taken and data that is not. -/
example : ∃ x v, (Proc.exec Ex.steps).made[2]? = some x ∧ x.fig.sourceOf (some (str "b")) = .ok v ∧
    ∃ y, v.Buffers y := by
  refine ⟨_, _, rfl, rfl, ?_⟩
  exact Value.small_buffers _ (by decide) (fun p w h => by
    refine Value.buffers_small _ ?_ p w h
    exact ⟨_, (buffers_iff [] (De.strict Fig.new) _ _).1 rfl⟩)

/-- Lossy extraction is not lossy inside such types: it reads the text `"1"` as a number where the type is `u8`, but not
where the type is an untagged enum with a variant of `u8` (value/de.rs:73-103: only calls for booleans and numbers are
lossy, and a buffer calls `deserialize_any`). -/
theorem C74_lossy_inside_fails : Ex.bufFig.extractInnerLossy (str "b") (.int .u8) = .ok (.int 1) ∧
    Ex.bufFig.extractInnerLossy (str "b") Ex.untagged = .ok (.str (str "1")) ∧
    (∃ e, Ex.bufFig.extractInnerLossy (str "b") (.via (.any (str "any value"))
      (fun | .value (.num _ (.u8 k)) => .ok (.int k.toNat) | _ => .error (str "data did not match any variant")) id) =
        .error e) := ⟨rfl, rfl, _, rfl⟩

end Figment
