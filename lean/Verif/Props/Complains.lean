import Verif.Lemmas.ComplainsTy
import Verif.Props.Means
/-!
# C69: extraction fails exactly when something is wrong with the value, and the error says what

The specification is `Ty.Complains` (Spec/Complains): it says of each type which values are not accepted, where in them
the first fault is, and which. Together with `Ty.Means` of C63 it says of every value what extraction gives.
-/
namespace Figment
variable [FloatOps]

/-- **C69**, for any figment and value: reading `v` as the type `t` is an error with the path `p` and the kind `k` if
and only if, read as `t`, the first fault of `v` is `k`, at the path `p` in it. -/
theorem C69_value (f : Fig) (b : Bool) (t : Ty) (ht : t.proper b = true) (v : Value) (hv : v.WF)
    (hr : b = true → v.unreserved = true) (p : List Str) (k : Kind) :
    ((∃ e, t.de (De.strict f) v = .error e ∧ e.head.path = p ∧ e.head.kind = k) ↔ t.Complains false f.fileAt v p k) ∧
    ((∃ e, t.de (De.lossyOf f) v = .error e ∧ e.head.path = p ∧ e.head.kind = k) ↔ t.Complains true f.fileAt v p k) :=
  ⟨Ty.complains (some f) false b nofun k t ht v ⟨hv, hr⟩ p, Ty.complains (some f) true b nofun k t ht v ⟨hv, hr⟩ p⟩

/-- **C69**: `extract` is an error with the path `p` and the kind `k` if and only if, read as the type, the first fault
of the merged data is `k`, at `p`; `extract_lossy` likewise, with the lossy readings of numbers and booleans. -/
theorem C69_extract (steps : List Step) (h : steps.countP Step.isObtain < 2 ^ 64) (hp : ∀ s ∈ steps, s.Plain)
    (x : Made) (hx : x ∈ (Proc.exec steps).made) (b : Bool) (t : Ty) (ht : t.proper b = true) (v : Value)
    (hm : x.fig.merged = .ok v) (hr : b = true → v.unreserved = true) (p : List Str) (k : Kind) :
    ((∃ e, x.fig.extract t = .error e ∧ e.head.path = p ∧ e.head.kind = k) ↔ t.Complains false x.fig.fileAt v p k) ∧
    ((∃ e, x.fig.extractLossy t = .error e ∧ e.head.path = p ∧ e.head.kind = k) ↔
      t.Complains true x.fig.fileAt v p k) := by
  obtain ⟨hw, _, _⟩ := ((Proc.exec_inv steps h hp).made x hx).merged hm
  rw [Fig.extract, Fig.extractWith, hm, Fig.extractLossy, Fig.extractWith, hm]
  exact C69_value x.fig b t ht v hw hr p k

/-- **C69**: `Error::missing` of an error of `extract` says that the first fault of the merged data, read as the type, is a
missing field. -/
theorem C69_is_missing (steps : List Step) (h : steps.countP Step.isObtain < 2 ^ 64) (hp : ∀ s ∈ steps, s.Plain)
    (x : Made) (hx : x ∈ (Proc.exec steps).made) (b : Bool) (t : Ty) (ht : t.proper b = true) (v : Value)
    (hm : x.fig.merged = .ok v) (hr : b = true → v.unreserved = true) :
    (∃ e, x.fig.extract t = .error e ∧ e.missing = true) ↔
      ∃ p name, t.Complains false x.fig.fileAt v p (.missingField name) := by
  have key : ∀ e : Error, e.missing = true ↔ ∃ name, e.head.kind = .missingField name := by
    intro e
    unfold Error.missing
    split
    · rename_i name hk
      exact ⟨fun _ => ⟨name, hk⟩, fun _ => rfl⟩
    · rename_i hk
      exact ⟨nofun, fun ⟨name, e'⟩ => absurd e' (hk name)⟩
  constructor
  · rintro ⟨e, he, hmi⟩
    obtain ⟨name, hk⟩ := (key e).1 hmi
    exact ⟨e.head.path, name, (C69_extract steps h hp x hx b t ht v hm hr _ _).1.1 ⟨e, he, rfl, hk⟩⟩
  · rintro ⟨p, name, hc⟩
    obtain ⟨e, he, _, hk⟩ := (C69_extract steps h hp x hx b t ht v hm hr _ _).1.2 hc
    exact ⟨e, he, (key e).2 ⟨name, hk⟩⟩

omit [FloatOps] in
/-- What `extract_inner` makes of the errors. -/
theorem Fig.extractInnerWith_fails {α : Type} {de : Fig → Value → R α} {f : Fig} {v : Value} (hm : f.merged = .ok v)
    (path : Str) (p : List Str) (k : Kind) :
    (∃ e, f.extractInnerWith de path = .error e ∧ e.head.path = p ∧ e.head.kind = k) ↔
      (v.getKeys (pathKeys path) = none ∧ p = [] ∧ k = .missingField path) ∨
      ∃ u p', v.getKeys (pathKeys path) = some u ∧ p = p' ++ (Str.splitOn '.' path).filter (fun key => !key.isEmpty) ∧
        ∃ e, de f u = .error e ∧ e.head.path = p' ∧ e.head.kind = k := by
  rw [Fig.extractInnerWith, Fig.findValue, hm]
  simp only [Value.find_eq]
  cases hk : v.getKeys (pathKeys path) with
  | none =>
    dsimp only
    constructor
    · rintro ⟨e, h, h1, h2⟩
      cases h
      exact .inl ⟨rfl, h1.symm, h2.symm⟩
    · rintro (⟨_, rfl, rfl⟩ | ⟨_, _, h, _⟩)
      · exact ⟨_, rfl, rfl, rfl⟩
      · cases h
  | some u =>
    dsimp only
    constructor
    · rintro ⟨e, h, h1, h2⟩
      cases hd : de f u with
      | ok x => rw [hd] at h; cases h
      | error e' =>
        rw [hd] at h
        cases h
        rw [Error.withPath_head] at h1 h2
        exact .inr ⟨u, e'.head.path, rfl, h1.symm, e', hd, rfl, h2⟩
    · rintro (⟨h, _⟩ | ⟨_, p', h, rfl, e, h1, rfl, rfl⟩)
      · cases h
      · cases h
        rw [h1]
        exact ⟨_, rfl, by rw [Error.withPath_head], by rw [Error.withPath_head]⟩

/-- **C69**, for `extract_inner` and `extract_inner_lossy`: the error is that the path is missing if there is no value
at it, else the first fault of that value, read as the type. (The path of the error is the one within the value followed
by the one asked for: see `C45_fails`.) -/
theorem C69_extract_inner (steps : List Step) (h : steps.countP Step.isObtain < 2 ^ 64) (hp : ∀ s ∈ steps, s.Plain)
    (x : Made) (hx : x ∈ (Proc.exec steps).made) (b : Bool) (t : Ty) (ht : t.proper b = true) (v : Value)
    (hm : x.fig.merged = .ok v) (hr : b = true → v.unreserved = true) (path : Str) (p : List Str) (k : Kind) :
    ((∃ e, x.fig.extractInner path t = .error e ∧ e.head.path = p ∧ e.head.kind = k) ↔
      (v.getKeys (pathKeys path) = none ∧ p = [] ∧ k = .missingField path) ∨
      ∃ u p', v.getKeys (pathKeys path) = some u ∧ p = p' ++ (Str.splitOn '.' path).filter (fun key => !key.isEmpty) ∧
        t.Complains false x.fig.fileAt u p' k) ∧
    ((∃ e, x.fig.extractInnerLossy path t = .error e ∧ e.head.path = p ∧ e.head.kind = k) ↔
      (v.getKeys (pathKeys path) = none ∧ p = [] ∧ k = .missingField path) ∨
      ∃ u p', v.getKeys (pathKeys path) = some u ∧ p = p' ++ (Str.splitOn '.' path).filter (fun key => !key.isEmpty) ∧
        t.Complains true x.fig.fileAt u p' k) := by
  obtain ⟨hw, _, _⟩ := ((Proc.exec_inv steps h hp).made x hx).merged hm
  have key := fun u (hu : v.getKeys (pathKeys path) = some u) p => C69_value x.fig b t ht u (Value.wf_getKeys hw hu)
    (fun hb => Value.keysAll_getKeys (hr hb) hu) p k
  constructor
  · rw [Fig.extractInner, Fig.extractInnerWith_fails hm]
    refine or_congr Iff.rfl (exists_congr fun u => exists_congr fun p' => and_congr_right fun hu =>
      and_congr_right fun _ => ?_)
    exact (key u hu p').1
  · rw [Fig.extractInnerLossy, Fig.extractInnerWith_fails hm]
    refine or_congr Iff.rfl (exists_congr fun u => exists_congr fun p' => and_congr_right fun hu =>
      and_congr_right fun _ => ?_)
    exact (key u hu p').2

/-- **C69**, for `Value::deserialize`: likewise, for the types without the crate's own in them. -/
theorem C69_deserialize (t : Ty) (ht : t.proper false = true) (v : Value) (hv : v.WF) (p : List Str) (k : Kind) :
    (∃ e, v.deserialize t = .error e ∧ e.head.path = p ∧ e.head.kind = k) ↔ t.Complains false (fun _ => none) v p k :=
  Ty.complains none false false (fun _ => ⟨rfl, rfl⟩) k t ht v ⟨hv, nofun⟩ p

/-- **C69**: of every value, read as a type, either there is something it is or there is something wrong with it, and
not both; and there is only one first fault. -/
theorem C69_either (f : Fig) (lossy : Bool) (b : Bool) (t : Ty) (ht : t.proper b = true) (v : Value) (hv : v.WF)
    (hr : b = true → v.unreserved = true) :
    ((∃ y, t.Means lossy f.fileAt v y) ∨ ∃ p k, t.Complains lossy f.fileAt v p k) ∧
    (∀ y p k, t.Means lossy f.fileAt v y → ¬ t.Complains lossy f.fileAt v p k) ∧
    (∀ p k p' k', t.Complains lossy f.fileAt v p k → t.Complains lossy f.fileAt v p' k' → p = p' ∧ k = k') := by
  have hm := fun y => Ty.means (some f) lossy b nofun t ht v ⟨hv, hr⟩ y
  have hc := fun p k => Ty.complains (some f) lossy b nofun k t ht v ⟨hv, hr⟩ p
  refine ⟨?_, ?_, ?_⟩
  · cases h : t.de ⟨some f, lossy⟩ v with
    | ok y => exact .inl ⟨y, (hm y).1 h⟩
    | error e => exact .inr ⟨_, _, (hc _ _).1 ⟨e, h, rfl, rfl⟩⟩
  · intro y p k h h'
    obtain ⟨e, he, _⟩ := (hc p k).2 h'
    rw [(hm y).2 h] at he
    cases he
  · intro p k p' k' h h'
    obtain ⟨e, he, rfl, rfl⟩ := (hc p k).2 h
    obtain ⟨e', he', rfl, rfl⟩ := (hc p' k').2 h'
    rw [he] at he'
    cases he'
    exact ⟨rfl, rfl⟩

/-! `C69_extract` and `C69_extract_inner`, spelled out for some types, to be read without the specification. -/

/-- **C69**, integers: if the value at the path is a number, `extract_inner` fails because of its value if and only if
it is an integer out of the range of the type, and then says which it is and which type was asked for. -/
theorem C69_integer (steps : List Step) (h : steps.countP Step.isObtain < 2 ^ 64) (hp : ∀ s ∈ steps, s.Plain)
    (x : Made) (hx : x ∈ (Proc.exec steps).made) (v : Value) (hm : x.fig.merged = .ok v)
    (path : Str) (t : IntTy) (ht : t ≠ .u128 ∧ t ≠ .i128) (tag : Tag) (n : Num)
    (hn : v.getKeys (pathKeys path) = some (.num tag n)) (a : Actual) (s : Str) :
    (∃ e, x.fig.extractInner path (.int t) = .error e ∧ e.head.kind = .invalidValue a s) ↔
      (∃ i, n.intVal = some i ∧ n.width ≠ some 128 ∧ (i < t.min ∨ t.max < i)) ∧ a = (Value.num tag n).shown ∧ s = t.name := by
  have hx' := fun p => (C69_extract_inner steps h hp x hx false (.int t) rfl v hm nofun path p (.invalidValue a s)).1
  have : (∃ e, x.fig.extractInner path (.int t) = .error e ∧ e.head.kind = .invalidValue a s) ↔
      ∃ p e, x.fig.extractInner path (.int t) = .error e ∧ e.head.path = p ∧ e.head.kind = .invalidValue a s :=
    ⟨fun ⟨e, h, h'⟩ => ⟨_, e, h, rfl, h'⟩, fun ⟨_, e, h, _, h'⟩ => ⟨e, h, h'⟩⟩
  rw [this]
  simp only [hx', hn, Ty.Complains, Value.IsNum, Bool.false_eq_true, false_and, or_false, Num.IsInt, Value.ToldNum,
    if_neg (not_or.2 ht)]
  constructor
  · rintro ⟨p, ⟨h, _⟩ | ⟨u, p', hu, _, _, a', ha, ⟨m, i, ⟨tag', rfl⟩, ⟨h1, h2⟩, h3, h4⟩ | ⟨_, h4⟩⟩⟩
    · cases h
    · cases hu
      cases h4
      refine ⟨⟨i, h1, h2, h3⟩, ?_, rfl⟩
      obtain ⟨m, ⟨_, h⟩, rfl⟩ | ⟨h, rfl⟩ := ha
      · cases h; rfl
      · rfl
    · cases h4
  · rintro ⟨⟨i, h1, h2, h3⟩, rfl, rfl⟩
    exact ⟨_, .inr ⟨_, [], rfl, rfl, rfl, _, .inl ⟨n, ⟨tag, rfl⟩, rfl⟩, .inl ⟨n, i, ⟨tag, rfl⟩, ⟨h1, h2⟩, h3, rfl⟩⟩⟩

/-- **C69**, missing fields: when the merged data is read as a struct, the error is that the field `name` is missing from
it if and only if every entry of the data that is a field's is fine, there are no other entries if these are denied, and
`name` is the first field without an entry that has no default and is not an `Option`. -/
theorem C69_missing (steps : List Step) (h : steps.countP Step.isObtain < 2 ^ 64) (hp : ∀ s ∈ steps, s.Plain)
    (x : Made) (hx : x ∈ (Proc.exec steps).made) (b : Bool) (n : Str) (deny : Bool) (fs : List (Str × Option Val × Ty))
    (ht : (Ty.struct n n deny fs).proper b = true) (hn : n ≠ Tagged.NAME ∧ n ≠ RelPath.NAME)
    (tag : Tag) (d : Dict)
    (hm : x.fig.merged = .ok (.dict tag d)) (hr : b = true → (Value.dict tag d).unreserved = true) (name : Str) :
    (∃ e, x.fig.extract (.struct n n deny fs) = .error e ∧ e.head.path = [] ∧ e.head.kind = .missingField name) ↔
      (∀ e ∈ d, Ty.GoodField false x.fig.fileAt deny e.1 fs e.2) ∧ FirstLacking fs d name := by
  rw [(C69_extract steps h hp x hx b _ ht _ hm hr [] (.missingField name)).1]
  simp only [Ty.Complains, if_neg hn.1, if_neg hn.2]
  constructor
  · rintro (⟨h, _⟩ | ⟨tag', d', h, ⟨i, key, w, _, ⟨p', h', _⟩ | ⟨_, _, h', _⟩, _⟩ | ⟨h1, _, m, h2, h3⟩⟩ | ⟨_, _, h, _⟩)
    · exact absurd rfl (h tag d)
    · cases h'
    · cases h'
    · cases h
      cases h3
      exact ⟨h1, h2⟩
    · cases h
  · rintro ⟨h1, h2⟩
    exact .inr (.inl ⟨tag, d, rfl, .inr ⟨h1, rfl, name, h2, rfl⟩⟩)

/-- **C69**, unknown fields: when the merged data is read as a struct that denies unknown fields, the error is that the
field `key` is unknown if and only if `key` is the first entry of the data, in the order of keys, that is no field's, and
the entries before it are fine. -/
theorem C69_unknown (steps : List Step) (h : steps.countP Step.isObtain < 2 ^ 64) (hp : ∀ s ∈ steps, s.Plain)
    (x : Made) (hx : x ∈ (Proc.exec steps).made) (b : Bool) (n : Str) (deny : Bool) (fs : List (Str × Option Val × Ty))
    (ht : (Ty.struct n n deny fs).proper b = true) (hn : n ≠ Tagged.NAME ∧ n ≠ RelPath.NAME)
    (tag : Tag) (d : Dict)
    (hm : x.fig.merged = .ok (.dict tag d)) (hr : b = true → (Value.dict tag d).unreserved = true) (key : Str)
    (hf : key ∉ fs.map (·.1)) (names : List Str) :
    (∃ e, x.fig.extract (.struct n n deny fs) = .error e ∧ e.head.path = [key] ∧ e.head.kind = .unknownField key names) ↔
      deny = true ∧ names = fs.map (·.1) ∧ ∃ (i : Nat) (w : Value), d[i]? = some (key, w) ∧
        ∀ j, j < i → ∀ e, d[j]? = some e → Ty.GoodField false x.fig.fileAt deny e.1 fs e.2 := by
  have none : ∀ (fs : List (Str × Option Val × Ty)), key ∉ fs.map (·.1) → ∀ w p k,
      ¬ Ty.ComplainsField false x.fig.fileAt key fs w p k := by
    intro fs
    induction fs with
    | nil => intro _ w p k h; rw [Ty.ComplainsField] at h; exact h
    | cons f fs ih =>
      obtain ⟨m, o, t⟩ := f
      intro hk w p k h
      rw [Ty.ComplainsField] at h
      rw [List.map_cons, List.mem_cons, not_or] at hk
      obtain ⟨h, _⟩ | ⟨_, h⟩ := h
      · exact hk.1 h.symm
      · exact ih hk.2 w p k h
  rw [(C69_extract steps h hp x hx b _ ht _ hm hr [key] (.unknownField key names)).1]
  simp only [Ty.Complains, if_neg hn.1, if_neg hn.2]
  constructor
  · rintro (⟨h, _⟩ | ⟨tag', d', h, ⟨i, key', w, hi, ⟨p', h', hc⟩ | ⟨hd, hk, h', h''⟩, hg⟩ | ⟨_, h', _⟩⟩ | ⟨_, _, h, _⟩)
    · exact absurd rfl (h tag d)
    · cases h'
      exact absurd hc (none fs hf _ _ _)
    · cases h; cases h'; cases h''
      exact ⟨hd, rfl, i, w, hi, hg⟩
    · cases h'
    · cases h
  · rintro ⟨h1, rfl, i, w, hi, hg⟩
    exact .inr (.inl ⟨tag, d, rfl, .inl ⟨i, key, w, hi, .inr ⟨h1, hf, rfl, rfl⟩, hg⟩⟩)

/-- Data for `Ex.ty` with three faults: a number out of range, an element of `flags` that is not a boolean, and no
`mode`; and an entry that is no field of `Ex.ty`. -/
def Ex.faulty : Value := .dict ⟨1⟩
  [(str "a", .num ⟨1⟩ (.i32 70000#32)), (str "flags", .array ⟨1⟩ [.bool ⟨1⟩ true, .string ⟨1⟩ (str "no")]),
   (str "other", .num ⟨1⟩ (.u8 1#8))]

/-- The first fault is the number's. -/
example : Ex.faulty.WF ∧
    Ex.ty.Complains false Ex.valFig.fileAt Ex.faulty [str "a"] (.invalidValue (.signed 70000) (str "i16")) :=
  ⟨by decide, (C69_value Ex.valFig false Ex.ty (by decide) _ (by decide) nofun _ _).1.1 ⟨_, rfl, rfl, rfl⟩⟩

/-- Without the first fault, the second is the fault; it is none in a lossy extraction, where the text is read as a
boolean, and the third is. -/
example : Ex.ty.Complains false Ex.valFig.fileAt
      (.dict ⟨1⟩ [(str "flags", .array ⟨1⟩ [.bool ⟨1⟩ true, .string ⟨1⟩ (str "no")])])
      [str "flags", str "1"] (.invalidType (.str (str "no")) (str "a boolean")) ∧
    Ex.ty.Complains true Ex.valFig.fileAt
      (.dict ⟨1⟩ [(str "a", .num ⟨1⟩ (.i32 70#32)), (str "flags", .array ⟨1⟩ [.bool ⟨1⟩ true, .string ⟨1⟩ (str "no")])])
      [] (.missingField (str "mode")) :=
  ⟨(C69_value Ex.valFig false Ex.ty (by decide) _ (by decide) nofun _ _).1.1 ⟨_, rfl, rfl, rfl⟩,
    (C69_value Ex.valFig false Ex.ty (by decide) _ (by decide) nofun _ _).2.1 ⟨_, rfl, rfl, rfl⟩⟩

/-- A fault within a variant of an enum, and a variant without its content. -/
example : Ex.ty.Complains false Ex.valFig.fileAt
      (.dict ⟨1⟩ [(str "mode", .dict ⟨1⟩ [(str "Range", .dict ⟨1⟩ [(str "mid", .bool ⟨1⟩ true)])])])
      [str "mode", str "Range", str "mid"] (.unknownField (str "mid") [str "lo", str "hi"]) ∧
    Ex.ty.Complains false Ex.valFig.fileAt (.dict ⟨1⟩ [(str "mode", .string ⟨1⟩ (str "Level"))])
      [str "mode"] (.invalidType .unitVariant (str "newtype variant")) :=
  ⟨(C69_value Ex.valFig false Ex.ty (by decide) _ (by decide) nofun _ _).1.1 ⟨_, rfl, rfl, rfl⟩,
    (C69_value Ex.valFig false Ex.ty (by decide) _ (by decide) nofun _ _).1.1 ⟨_, rfl, rfl, rfl⟩⟩

/-- The crate's own types: what is wrong with a `Tagged` is found in its value. -/
example : Ex.bigTy.Complains false Ex.valFig.fileAt (.dict ⟨1⟩ [(str "logs", .bool ⟨1⟩ true)])
    [str "logs", str "___figment_relative_path"] (.invalidType (.bool true) (str "path string")) :=
  (C69_value Ex.valFig true Ex.bigTy (by decide) _ (by decide) (fun _ => rfl) _ _).1.1 ⟨_, rfl, rfl, rfl⟩

omit [FloatOps] in
/-- The names of the integer types that errors say were expected. -/
theorem C69_names : IntTy.u8.name = str "u8" ∧ IntTy.u16.name = str "u16" ∧ IntTy.u32.name = str "u32" ∧
    IntTy.u64.name = str "u64" ∧ IntTy.u128.name = str "u128" ∧ IntTy.usize.name = str "usize" ∧ IntTy.i8.name = str "i8" ∧
    IntTy.i16.name = str "i16" ∧ IntTy.i32.name = str "i32" ∧ IntTy.i64.name = str "i64" ∧ IntTy.i128.name = str "i128" ∧
    IntTy.isize.name = str "isize" := ⟨rfl, rfl, rfl, rfl, rfl, rfl, rfl, rfl, rfl, rfl, rfl, rfl⟩

end Figment
