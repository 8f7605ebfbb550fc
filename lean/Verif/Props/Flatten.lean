import Verif.Props.Buffer
import Verif.Lemmas.Flatten
/-!
# C77: structs with flattened fields

A struct with fields marked `#[serde(flatten)]` (the type `flat`): the entries of the dictionary that are no fields of the
struct are taken as they are, all of them, and the flattened fields are made of them, by serde and without the crate
(`conv`). The other fields are those of the same struct without the flattened ones (`struct`), so the theorems compare the
two. (What becomes of such types inside others is in C63 and C69, and that they round-trip in C30, of whose universe of
types they are.)
-/
namespace Figment
open Value
variable [FloatOps]

/-- **C77**: extraction as a struct with flattened fields succeeds exactly when what is asked for is a dictionary, the
struct without the flattened fields can be extracted from it, and the flattened fields can be made of the other entries;
and gives just what is made of both. -/
theorem C77_extract (steps : List Step) (h : steps.countP Step.isObtain < 2 ^ 64) (hp : ∀ s ∈ steps, s.Plain)
    (x : Made) (hx : x ∈ (Proc.exec steps).made) (lossy : Bool) (at_ : Option Str) (n name : Str)
    (hname : magicNames.contains name = false) (fs : List (Str × Option Val × Ty)) (hn : (fs.map (·.1)).Nodup)
    (conv : List Val → List (Str × Val) → Except Kind Val) (back : Val → List Val × List (Str × Val)) (y : Val) :
    x.fig.extractBy lossy at_ (.flat n fs conv back) = .ok y ↔
      ∃ tag d xs rest, x.fig.sourceOf at_ = .ok (.dict tag d) ∧
        x.fig.extractBy lossy at_ (.struct n name false fs) = .ok (.struct xs) ∧
        Value.BuffersD (d.filter fun e => !(fs.map (·.1)).contains e.1) rest ∧ conv xs rest = .ok y := by
  rw [Fig.extractBy_iff]
  constructor
  · rintro ⟨v, hv, hd⟩
    obtain ⟨tag, d, xs, r, rfl, h1, h2⟩ :=
      (flat_vs_struct (name := name) hname hn (Made.source_wf steps h hp x hx at_ v hv) y).1 hd
    exact ⟨tag, d, xs, r, hv, Fig.extractBy_iff.2 ⟨_, hv, h1⟩, h2⟩
  · rintro ⟨tag, d, xs, r, hv, h1, h2⟩
    obtain ⟨v, hv', h1⟩ := Fig.extractBy_iff.1 h1
    rw [hv] at hv'
    cases hv'
    exact ⟨_, hv, (flat_vs_struct hname hn (Made.source_wf steps h hp x hx at_ _ hv) y).2 ⟨tag, d, xs, r, rfl, h1, h2⟩⟩

/-- **C77**: of the entries that are flattened, nothing but the data matters: not where it is from, nor whether
extraction is lossy. If two extractions, of the same data, agree on the fields that are not flattened, they agree. -/
theorem C77_data (steps : List Step) (h : steps.countP Step.isObtain < 2 ^ 64) (hp : ∀ s ∈ steps, s.Plain)
    (x x' : Made) (hx : x ∈ (Proc.exec steps).made) (hx' : x' ∈ (Proc.exec steps).made) (lossy lossy' : Bool)
    (at_ at_' : Option Str) (v v' : Value) (hv : x.fig.sourceOf at_ = .ok v) (hv' : x'.fig.sourceOf at_' = .ok v')
    (hs : v.strip = v'.strip) (n name : Str) (hname : magicNames.contains name = false)
    (fs : List (Str × Option Val × Ty)) (hn : (fs.map (·.1)).Nodup)
    (hsame : ∀ y, x.fig.extractBy lossy at_ (.struct n name false fs) = .ok y ↔
      x'.fig.extractBy lossy' at_' (.struct n name false fs) = .ok y)
    (conv : List Val → List (Str × Val) → Except Kind Val) (back : Val → List Val × List (Str × Val)) (y : Val) :
    x.fig.extractBy lossy at_ (.flat n fs conv back) = .ok y ↔
      x'.fig.extractBy lossy' at_' (.flat n fs conv back) = .ok y := by
  rw [C77_extract steps h hp x hx lossy at_ n name hname fs hn, C77_extract steps h hp x' hx' lossy' at_' n name hname fs hn]
  constructor
  · rintro ⟨tag, d, xs, r, h1, h2, h3, h4⟩
    rw [hv] at h1
    cases h1
    obtain ⟨tag', d', rfl, hd⟩ := like_dict hs
    exact ⟨tag', d', xs, r, hv', (hsame _).1 h2,
      Value.buffersD_like _ _ (stripD_filter (fun k => !(fs.map (·.1)).contains k) hd) r h3, h4⟩
  · rintro ⟨tag, d, xs, r, h1, h2, h3, h4⟩
    rw [hv'] at h1
    cases h1
    obtain ⟨tag', d', rfl, hd⟩ := like_dict hs.symm
    exact ⟨tag', d', xs, r, hv, (hsame _).2 h2,
      Value.buffersD_like _ _ (stripD_filter (fun k => !(fs.map (·.1)).contains k) hd) r h3, h4⟩

/-- **C77**: when extraction of data that is there fails, then because it is no dictionary; or with the path and kind of
the error of the struct without the flattened fields; or because there is a 128-bit integer in an entry that is flattened,
at the path of the error; or with what is wrong with the flattened fields, and then it points at nothing inside: its path
is the one asked for, whichever entry is at fault. -/
theorem C77_error (steps : List Step) (h : steps.countP Step.isObtain < 2 ^ 64) (hp : ∀ s ∈ steps, s.Plain)
    (x : Made) (hx : x ∈ (Proc.exec steps).made) (lossy : Bool) (at_ : Option Str) (v : Value)
    (hv : x.fig.sourceOf at_ = .ok v) (n name : Str)
    (hname : magicNames.contains name = false) (fs : List (Str × Option Val × Ty)) (hn : (fs.map (·.1)).Nodup)
    (conv : List Val → List (Str × Val) → Except Kind Val) (back : Val → List Val × List (Str × Val)) (e : Error)
    (he : x.fig.extractBy lossy at_ (.flat n fs conv back) = .error e) :
    ((∀ tag d, v ≠ .dict tag d) ∧ e.head.kind = .invalidType v.shown (str "struct " ++ n) ∧
      e.head.path = requestedKeys at_) ∨
    (∃ e', x.fig.extractBy lossy at_ (.struct n name false fs) = .error e' ∧ e'.head.kind = e.head.kind ∧
      e'.head.path = e.head.path) ∨
    ∃ tag d, v = .dict tag d ∧
      ((∃ key w p u, (key, w) ∈ d ∧ key ∉ fs.map (·.1) ∧ w.Leads false p u ∧ u.is128 = true ∧
        e.head.kind = .invalidType u.shown (str "any value") ∧ e.head.path = key :: p ++ requestedKeys at_) ∨
      ∃ xs rest, x.fig.extractBy lossy at_ (.struct n name false fs) = .ok (.struct xs) ∧
        Value.BuffersD (d.filter fun e => !(fs.map (·.1)).contains e.1) rest ∧ conv xs rest = .error e.head.kind ∧
        e.head.path = requestedKeys at_) := by
  have hw := Made.source_wf steps h hp x hx at_ v hv
  rw [Fig.extractBy_ok hv] at he ⊢
  cases hd : (Ty.flat n fs conv back).de ⟨some x.fig, lossy⟩ v with
  | ok y => rw [hd] at he; cases he
  | error e0 =>
    rw [hd] at he
    have he' : requestedAt at_ e0 = e := Except.error.inj he
    subst he'
    simp only [requestedAt_head]
    rcases flat_vs_struct_fails (name := name) hname hn hw ⟨e0, hd, rfl, rfl⟩ with ⟨h1, h2, h3⟩ | ⟨tag, d, rfl, h1⟩
    · exact .inl ⟨h1, h3, by rw [h2]; rfl⟩
    rcases h1 with ⟨e', h1, h2, h3⟩ | ⟨key, w, p', h1, h2, h3, h4⟩ | ⟨xs, r, h1, h2, h3, h4⟩
    · refine .inr (.inl ⟨requestedAt at_ e', by rw [h1]; rfl, ?_, ?_⟩)
      · rw [requestedAt_head]; exact h3
      · rw [requestedAt_head]; simp only [h2]
    · obtain ⟨u, hl, h5, h6⟩ := Value.refuses_leads w p' ((Value.wf_dict.1 hw).2 _ h1) h4
      exact .inr (.inr ⟨tag, d, rfl, .inl ⟨key, w, p', u, h1, h2, hl, h5, h6, by rw [h3]⟩⟩)
    · exact .inr (.inr ⟨tag, d, rfl, .inr ⟨xs, r, by rw [h1]; rfl, h2, h3, by rw [h4]; rfl⟩⟩)

/-- `struct { id: u8, #[serde(flatten)] inner: Inner }` with `struct Inner { port: u8 }`, as a struct of both. -/
def Ex.flat : Ty := .flat (str "Server") [(str "id", none, .int .u8)]
  (fun xs rest => match xs, rest.lookup (str "port") with
    | [.int i], some (.value (.num _ (.u8 k))) => .ok (.struct [.int i, .int k.toNat])
    | _, some (.str s) => .error (.invalidType (.str s) (str "u8"))
    | _, none => .error (.missingField (str "port"))
    | _, _ => .error (.message (str "other")))
  (fun
    | .struct [i, .int k] => ([i], [(str "port", .value (.ofNum (.u8 (BitVec.ofInt 8 k))))])
    | _ => ([], []))

/-- The same without `flatten`: `struct { id: u8, port: u8 }`. -/
def Ex.unflat : Ty := .struct (str "Server") (str "Server") false [(str "id", none, .int .u8), (str "port", none, .int .u8)]

/-- A figment with one provider and three tables: `a` is good, `b` has a port that is text, and `c` a 128-bit integer. -/
def Ex.flatFig : Fig :=
  ⟨Profile.Default, [(⟨1⟩, Metadata.named (str "one"))],
    .ok [(Profile.Default, [
      (str "a", .dict ⟨1⟩ [(str "id", .num ⟨1⟩ (.u8 1)), (str "port", .num ⟨1⟩ (.u8 80))]),
      (str "b", .dict ⟨1⟩ [(str "id", .num ⟨1⟩ (.u8 1)), (str "port", .string ⟨1⟩ (str "80"))]),
      (str "c", .dict ⟨1⟩ [(str "id", .num ⟨1⟩ (.u8 1)), (str "x", .array ⟨1⟩ [.num ⟨1⟩ (.i128 5)])]),
      (str "d", .dict ⟨1⟩ [(str "port", .num ⟨1⟩ (.u8 80))]),
      (str "e", .num ⟨1⟩ (.u8 80))])]⟩

example : Ex.flatFig.extractInner (str "a") Ex.flat = .ok (.struct [.int 1, .int 80]) := by rfl
example : Ex.flatFig.extractInner (str "a") Ex.unflat = .ok (.struct [.int 1, .int 80]) := by rfl
/-- The errors of `C77_error`, in its order. -/
example : ∃ e, Ex.flatFig.extractInner (str "e") Ex.flat = .error e ∧
    e.head.kind = .invalidType (.unsigned 80) (str "struct Server") ∧ e.head.path = [str "e"] := ⟨_, rfl, rfl, rfl⟩
example : ∃ e, Ex.flatFig.extractInner (str "d") Ex.flat = .error e ∧
    e.head.kind = .missingField (str "id") ∧ e.head.path = [str "d"] := ⟨_, rfl, rfl, rfl⟩
example : ∃ e, Ex.flatFig.extractInner (str "c") Ex.flat = .error e ∧
    e.head.kind = .invalidType (.other (str "integer `5` as i128")) (str "any value") ∧
    e.head.path = [str "x", str "0", str "c"] := ⟨_, rfl, rfl, rfl⟩
example : ∃ e, Ex.flatFig.extractInner (str "b") Ex.flat = .error e ∧
    e.head.kind = .invalidType (.str (str "80")) (str "u8") ∧ e.head.path = [str "b"] := ⟨_, rfl, rfl, rfl⟩
/-- The type round-trips, so that C30 is about it. -/
example : Ex.flat.faithful = true ∧ Ex.flat.Has (.struct [.int 1, .int 80]) := by
  refine ⟨by decide, ?_⟩
  rw [Ex.flat, Ty.Has]
  dsimp only
  refine ⟨⟨_, [], rfl, ⟨1, rfl, by decide, by decide⟩, rfl⟩, by simp [Map.Sorted], ?_, rfl⟩
  simp only [List.mem_singleton, forall_eq]
  exact ⟨.num _ (by decide) nofun nofun, by decide⟩

/-- A figment of a history. -/
example : ∃ x tag d, (Proc.exec Ex.steps).made[2]? = some x ∧ x.fig.sourceOf none = .ok (.dict tag d) ∧
    ∃ r, Value.BuffersD (d.filter fun e => !([str "a"]).contains e.1) r := by
  refine ⟨_, _, _, rfl, rfl, ?_⟩
  exact ⟨_, (buffersD_iff [] De.plain _ _).1 rfl⟩

/-- Two ways in which a flattened struct does not do what the struct with the same fields does: `extract_lossy` does not
read text as a number inside of it; and errors do not point at the field that is at fault. -/
theorem C77_unflat_fails :
    (Ex.flatFig.extractInnerLossy (str "b") Ex.unflat = .ok (.struct [.int 1, .int 80]) ∧
      ∃ e, Ex.flatFig.extractInnerLossy (str "b") Ex.flat = .error e) ∧
    (∃ e, Ex.flatFig.extractInner (str "b") Ex.unflat = .error e ∧ e.head.path = [str "port", str "b"]) ∧
    ∃ e, Ex.flatFig.extractInner (str "b") Ex.flat = .error e ∧ e.head.path = [str "b"] :=
  ⟨⟨rfl, _, rfl⟩, ⟨_, rfl, rfl⟩, _, rfl, rfl⟩

end Figment
