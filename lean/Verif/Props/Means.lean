import Verif.Lemmas.Means
import Verif.Props.Blame
/-!
# C63: extraction gives exactly what the value means

The specification is `Ty.Means` (Spec/Means): it says of each type which values are accepted and what is read.
-/
namespace Figment
variable [FloatOps]

/-- **C63**, for any figment and value: reading `v` as the type `t` gives `x` if and only if, read as `t`, `v` is `x`.
(If the crate's own types occur in `t`, the value must not have the keys the crate reserves.) -/
theorem C63_value (f : Fig) (b : Bool) (t : Ty) (ht : t.proper b = true) (v : Value) (hv : v.WF) (hr : b = true → v.unreserved = true) (x : Val) :
    (t.de (De.strict f) v = .ok x ↔ t.Means false f.fileAt v x) ∧
    (t.de (De.lossyOf f) v = .ok x ↔ t.Means true f.fileAt v x) :=
  ⟨Ty.means (some f) false b nofun t ht v ⟨hv, hr⟩ x, Ty.means (some f) true b nofun t ht v ⟨hv, hr⟩ x⟩

/-- **C63**: `extract` gives `y` if and only if, read as the type, the merged data is `y`; `extract_lossy` likewise, with
the lossy readings of numbers and booleans. -/
theorem C63_extract (steps : List Step) (h : steps.countP Step.isObtain < 2 ^ 64) (hp : ∀ s ∈ steps, s.Plain)
    (x : Made) (hx : x ∈ (Proc.exec steps).made) (b : Bool) (t : Ty) (ht : t.proper b = true) (v : Value)
    (hm : x.fig.merged = .ok v) (hr : b = true → v.unreserved = true) (y : Val) :
    (x.fig.extract t = .ok y ↔ t.Means false x.fig.fileAt v y) ∧
    (x.fig.extractLossy t = .ok y ↔ t.Means true x.fig.fileAt v y) := by
  obtain ⟨hw, _, _⟩ := ((Proc.exec_inv steps h hp).made x hx).merged hm
  rw [Fig.extract, Fig.extractWith, hm, Fig.extractLossy, Fig.extractWith, hm]
  exact C63_value x.fig b t ht v hw hr y

/-- **C63**, for `extract_inner` and `extract_inner_lossy`: they give `y` if and only if there is a value at the path
and, read as the type, it is `y`. -/
theorem C63_extract_inner (steps : List Step) (h : steps.countP Step.isObtain < 2 ^ 64) (hp : ∀ s ∈ steps, s.Plain)
    (x : Made) (hx : x ∈ (Proc.exec steps).made) (b : Bool) (t : Ty) (ht : t.proper b = true) (v : Value)
    (hm : x.fig.merged = .ok v) (hr : b = true → v.unreserved = true) (path : Str) (y : Val) :
    (x.fig.extractInner path t = .ok y ↔
      ∃ u, v.getKeys (pathKeys path) = some u ∧ t.Means false x.fig.fileAt u y) ∧
    (x.fig.extractInnerLossy path t = .ok y ↔
      ∃ u, v.getKeys (pathKeys path) = some u ∧ t.Means true x.fig.fileAt u y) := by
  obtain ⟨hw, _, _⟩ := ((Proc.exec_inv steps h hp).made x hx).merged hm
  cases hk : v.getKeys (pathKeys path) with
  | none =>
    have hf : ∃ e, x.fig.findValue path = .error e := by
      rw [Fig.findValue, hm]
      simp only [Value.find_eq, hk]
      exact ⟨_, rfl⟩
    obtain ⟨e, hf⟩ := hf
    rw [Fig.extractInner, Fig.extractInnerWith, hf, Fig.extractInnerLossy, Fig.extractInnerWith, hf]
    exact ⟨⟨nofun, nofun⟩, ⟨nofun, nofun⟩⟩
  | some u =>
    have hf : x.fig.findValue path = .ok u := by
      rw [Fig.findValue, hm]
      simp only [Value.find_eq, hk]
    obtain ⟨h1, h2⟩ := C63_value x.fig b t ht u (Value.wf_getKeys hw hk) (fun hb => Value.keysAll_getKeys (hr hb) hk) y
    rw [Fig.extractInner, Fig.extractInnerWith, hf, Fig.extractInnerLossy, Fig.extractInnerWith, hf]
    dsimp only
    constructor
    · constructor
      · intro he
        cases hd : t.de (De.strict x.fig) u with
        | error e => rw [hd] at he; cases he
        | ok z => rw [hd] at he; cases he; exact ⟨u, rfl, h1.1 hd⟩
      · rintro ⟨_, hu, he⟩
        cases hu
        rw [h1.2 he]
    · constructor
      · intro he
        cases hd : t.de (De.lossyOf x.fig) u with
        | error e => rw [hd] at he; cases he
        | ok z => rw [hd] at he; cases he; exact ⟨u, rfl, h2.1 hd⟩
      · rintro ⟨_, hu, he⟩
        cases hu
        rw [h2.2 he]

/-- **C63**, for `Value::deserialize`: likewise, for the types without the crate's own in them. -/
theorem C63_deserialize (t : Ty) (ht : t.proper false = true) (v : Value) (hv : v.WF) (x : Val) :
    v.deserialize t = .ok x ↔ t.Means false (fun _ => none) v x :=
  Ty.means none false false (fun _ => ⟨rfl, rfl⟩) t ht v ⟨hv, nofun⟩ x

/-- A value is at most one thing, read as a type. -/
theorem C63_unique (f : Fig) (lossy : Bool) (b : Bool) (t : Ty) (ht : t.proper b = true) (v : Value) (hv : v.WF)
    (hr : b = true → v.unreserved = true) (x y : Val) (hx : t.Means lossy f.fileAt v x) (hy : t.Means lossy f.fileAt v y) :
    x = y :=
  Except.ok.inj (((Ty.means (some f) lossy b nofun t ht v ⟨hv, hr⟩ x).2 hx).symm.trans
    ((Ty.means (some f) lossy b nofun t ht v ⟨hv, hr⟩ y).2 hy))

/-! `C63_extract_inner`, spelled out for some types, to be read without the specification. -/

/-- **C63**, integers: `extract_inner` gives an integer if and only if the value at the path is that integer, as a
number of any but the 128-bit types, and it fits in the type asked for. It is never truncated, wrapped or parsed. -/
theorem C63_integer (steps : List Step) (h : steps.countP Step.isObtain < 2 ^ 64) (hp : ∀ s ∈ steps, s.Plain)
    (x : Made) (hx : x ∈ (Proc.exec steps).made) (v : Value) (hm : x.fig.merged = .ok v)
    (path : Str) (t : IntTy) (ht : t ≠ .u128 ∧ t ≠ .i128) (i : Int) :
    x.fig.extractInner path (.int t) = .ok (.int i) ↔
      (∃ tag n, v.getKeys (pathKeys path) = some (.num tag n) ∧ n.intVal = some i ∧ n.width ≠ some 128) ∧
        t.min ≤ i ∧ i ≤ t.max := by
  rw [(C63_extract_inner steps h hp x hx false (.int t) rfl v hm nofun path _).1]
  simp only [Ty.Means, Value.IsNum, Bool.false_eq_true, false_and, or_false, Num.IsInt]
  constructor
  · rintro ⟨u, hu, _, _, n, j, ⟨tag, rfl⟩, ⟨h1, h2⟩, h3, h4, h5⟩
    cases h5
    exact ⟨⟨tag, n, hu, h1, h2⟩, h3, h4⟩
  · rintro ⟨⟨tag, n, hu, h1, h2⟩, h3, h4⟩
    exact ⟨_, hu, ht.1, ht.2, n, i, ⟨tag, rfl⟩, ⟨h1, h2⟩, h3, h4, rfl⟩

omit [FloatOps] in
/-- **C63**, what fits in an integer type: what a word of its bits stands for, in two's complement if it is signed.
(`usize` and `isize` have 64 bits.) -/
theorem C63_fits (i : Int) :
    (IntTy.u8.min ≤ i ∧ i ≤ IntTy.u8.max ↔ ∃ b : BitVec 8, i = b.toNat) ∧
    (IntTy.u16.min ≤ i ∧ i ≤ IntTy.u16.max ↔ ∃ b : BitVec 16, i = b.toNat) ∧
    (IntTy.u32.min ≤ i ∧ i ≤ IntTy.u32.max ↔ ∃ b : BitVec 32, i = b.toNat) ∧
    (IntTy.u64.min ≤ i ∧ i ≤ IntTy.u64.max ↔ ∃ b : BitVec 64, i = b.toNat) ∧
    (IntTy.usize.min ≤ i ∧ i ≤ IntTy.usize.max ↔ ∃ b : BitVec 64, i = b.toNat) ∧
    (IntTy.u128.min ≤ i ∧ i ≤ IntTy.u128.max ↔ ∃ b : BitVec 128, i = b.toNat) ∧
    (IntTy.i8.min ≤ i ∧ i ≤ IntTy.i8.max ↔ ∃ b : BitVec 8, i = b.toInt) ∧
    (IntTy.i16.min ≤ i ∧ i ≤ IntTy.i16.max ↔ ∃ b : BitVec 16, i = b.toInt) ∧
    (IntTy.i32.min ≤ i ∧ i ≤ IntTy.i32.max ↔ ∃ b : BitVec 32, i = b.toInt) ∧
    (IntTy.i64.min ≤ i ∧ i ≤ IntTy.i64.max ↔ ∃ b : BitVec 64, i = b.toInt) ∧
    (IntTy.isize.min ≤ i ∧ i ≤ IntTy.isize.max ↔ ∃ b : BitVec 64, i = b.toInt) ∧
    (IntTy.i128.min ≤ i ∧ i ≤ IntTy.i128.max ↔ ∃ b : BitVec 128, i = b.toInt) := by
  have unsigned : ∀ (w : Nat) (m : Int), m = 2 ^ w - 1 → (0 ≤ i ∧ i ≤ m ↔ ∃ b : BitVec w, i = b.toNat) := by
    rintro w m rfl
    constructor
    · rintro ⟨h1, h2⟩
      refine ⟨BitVec.ofNat w i.toNat, ?_⟩
      have h3 : i.toNat < 2 ^ w := by
        have : ((2 : Int) ^ w) = ((2 ^ w : Nat) : Int) := by simp
        omega
      rw [BitVec.toNat_ofNat, Nat.mod_eq_of_lt h3]
      omega
    · rintro ⟨b, rfl⟩
      have h3 := b.isLt
      have : ((2 : Int) ^ w) = ((2 ^ w : Nat) : Int) := by simp
      omega
  have signed : ∀ (w : Nat) (l m : Int), l = -2 ^ w → m = 2 ^ w - 1 →
      (l ≤ i ∧ i ≤ m ↔ ∃ b : BitVec (w + 1), i = b.toInt) := by
    rintro w l m rfl rfl
    have hw : ((2 : Int) ^ w) = ((2 ^ w : Nat) : Int) := by simp
    have hw' : 2 ^ (w + 1) = 2 * 2 ^ w := by rw [Nat.pow_succ]; omega
    constructor
    · rintro ⟨h1, h2⟩
      refine ⟨BitVec.ofInt (w + 1) i, ?_⟩
      rw [BitVec.toInt_ofInt, Int.bmod_eq_of_le (by omega) (by omega)]
    · rintro ⟨b, rfl⟩
      have h1 := b.toInt_lt
      have h2 := b.le_toInt
      simp only [Nat.add_sub_cancel] at h1 h2
      omega
  exact ⟨unsigned 8 _ rfl, unsigned 16 _ rfl, unsigned 32 _ rfl, unsigned 64 _ rfl, unsigned 64 _ rfl, unsigned 128 _ rfl,
    signed 7 _ _ rfl rfl, signed 15 _ _ rfl rfl, signed 31 _ _ rfl rfl, signed 63 _ _ rfl rfl, signed 63 _ _ rfl rfl,
    signed 127 _ _ rfl rfl⟩

example : IntTy.u8.max = 255 ∧ IntTy.i8.min = -128 ∧ IntTy.i8.max = 127 := ⟨rfl, rfl, rfl⟩

/-- **C63**, text: `extract_inner` gives a `String` if and only if the value at the path is a string or a character and
that is its text. -/
theorem C63_text (steps : List Step) (h : steps.countP Step.isObtain < 2 ^ 64) (hp : ∀ s ∈ steps, s.Plain)
    (x : Made) (hx : x ∈ (Proc.exec steps).made) (v : Value) (hm : x.fig.merged = .ok v)
    (path s : Str) :
    x.fig.extractInner path .string = .ok (.str s) ↔
      ∃ tag, v.getKeys (pathKeys path) = some (.string tag s) ∨
        ∃ c, v.getKeys (pathKeys path) = some (.char tag c) ∧ s = [c] := by
  rw [(C63_extract_inner steps h hp x hx false .string rfl v hm nofun path _).1]
  simp only [Ty.Means]
  constructor
  · rintro ⟨u, hu, _, hs, ht⟩
    cases hs
    cases u with
    | string tag s' => cases ht; exact ⟨tag, .inl hu⟩
    | char tag c => cases ht; exact ⟨tag, .inr ⟨c, hu, rfl⟩⟩
    | _ => cases ht
  · rintro ⟨tag, hu | ⟨c, hu, rfl⟩⟩
    · exact ⟨_, hu, s, rfl, rfl⟩
    · exact ⟨_, hu, [c], rfl, rfl⟩

/-- **C63**, characters: `extract_inner` gives a `char` if and only if the value at the path is that character or the
string of it alone. -/
theorem C63_char (steps : List Step) (h : steps.countP Step.isObtain < 2 ^ 64) (hp : ∀ s ∈ steps, s.Plain)
    (x : Made) (hx : x ∈ (Proc.exec steps).made) (v : Value) (hm : x.fig.merged = .ok v)
    (path : Str) (c : Char) :
    x.fig.extractInner path .char = .ok (.char c) ↔
      ∃ tag, v.getKeys (pathKeys path) = some (.char tag c) ∨ v.getKeys (pathKeys path) = some (.string tag [c]) := by
  rw [(C63_extract_inner steps h hp x hx false .char rfl v hm nofun path _).1]
  simp only [Ty.Means]
  constructor
  · rintro ⟨u, hu, _, hs, ht⟩
    cases hs
    cases u with
    | string tag s' => cases ht; exact ⟨tag, .inr hu⟩
    | char tag c => cases ht; exact ⟨tag, .inl hu⟩
    | _ => cases ht
  · rintro ⟨tag, hu | hu⟩
    · exact ⟨_, hu, c, rfl, rfl⟩
    · exact ⟨_, hu, c, rfl, rfl⟩

/-- **C63**, booleans: `extract_inner` gives a `bool` if and only if the value at the path is that boolean. -/
theorem C63_bool (steps : List Step) (h : steps.countP Step.isObtain < 2 ^ 64) (hp : ∀ s ∈ steps, s.Plain)
    (x : Made) (hx : x ∈ (Proc.exec steps).made) (v : Value) (hm : x.fig.merged = .ok v)
    (path : Str) (b : Bool) :
    x.fig.extractInner path .bool = .ok (.bool b) ↔ ∃ tag, v.getKeys (pathKeys path) = some (.bool tag b) := by
  rw [(C63_extract_inner steps h hp x hx false .bool rfl v hm nofun path _).1]
  simp only [Ty.Means, Value.IsBool, Bool.false_eq_true, false_and, or_false]
  constructor
  · rintro ⟨u, hu, _, hs, tag, rfl⟩
    cases hs
    exact ⟨tag, hu⟩
  · rintro ⟨tag, hu⟩
    exact ⟨_, hu, b, rfl, tag, rfl⟩

/-- **C63**, lists: `extract_inner` gives a `Vec` if and only if the value at the path is an array of the same length,
each of whose elements is the `Vec`'s. -/
theorem C63_list (steps : List Step) (h : steps.countP Step.isObtain < 2 ^ 64) (hp : ∀ s ∈ steps, s.Plain)
    (x : Made) (hx : x ∈ (Proc.exec steps).made) (v : Value) (hm : x.fig.merged = .ok v)
    (b : Bool) (hr : b = true → v.unreserved = true)
    (path : Str) (t : Ty) (ht : t.proper b = true) (l : List Val) :
    x.fig.extractInner path (.seq t) = .ok (.seq l) ↔
      ∃ tag a, v.getKeys (pathKeys path) = some (.array tag a) ∧ a.length = l.length ∧
        ∀ (i : Nat) w y, a[i]? = some w → l[i]? = some y → t.Means false x.fig.fileAt w y := by
  rw [(C63_extract_inner steps h hp x hx b (.seq t) (by rw [Ty.proper]; exact ht) v hm hr path _).1]
  simp only [Ty.Means]
  constructor
  · rintro ⟨u, hu, tag, a, l', rfl, hl, h1⟩
    cases hl
    exact ⟨tag, a, hu, h1⟩
  · rintro ⟨tag, a, hu, h1⟩
    exact ⟨_, hu, tag, a, l, rfl, rfl, h1⟩

/-- **C63**, options: `extract_inner` of an `Option` gives `None` if and only if the value at the path is there and
empty, and `Some` of what the value is, read as the type inside, if and only if it is not empty. A missing value is an
error, not `None`. -/
theorem C63_option (steps : List Step) (h : steps.countP Step.isObtain < 2 ^ 64) (hp : ∀ s ∈ steps, s.Plain)
    (x : Made) (hx : x ∈ (Proc.exec steps).made) (v : Value) (hm : x.fig.merged = .ok v)
    (b : Bool) (hr : b = true → v.unreserved = true)
    (path : Str) (t : Ty) (ht : t.proper b = true) :
    (x.fig.extractInner path (.option t) = .ok .none ↔ ∃ tag e, v.getKeys (pathKeys path) = some (.empty tag e)) ∧
    (∀ y, x.fig.extractInner path (.option t) = .ok (.some y) ↔
      (∀ tag e, v.getKeys (pathKeys path) ≠ some (.empty tag e)) ∧ x.fig.extractInner path t = .ok y) := by
  have hp' : (Ty.option t).proper b = true := by rw [Ty.proper]; exact ht
  constructor
  · rw [(C63_extract_inner steps h hp x hx b _ hp' v hm hr path _).1]
    simp only [Ty.Means]
    constructor
    · rintro ⟨u, hu, ⟨_, tag, e, rfl⟩ | ⟨_, _, hy, _⟩⟩
      · exact ⟨tag, e, hu⟩
      · cases hy
    · rintro ⟨tag, e, hu⟩
      exact ⟨_, hu, .inl ⟨trivial, tag, e, rfl⟩⟩
  · intro y
    rw [(C63_extract_inner steps h hp x hx b _ hp' v hm hr path _).1,
      (C63_extract_inner steps h hp x hx b t ht v hm hr path _).1]
    simp only [Ty.Means]
    constructor
    · rintro ⟨u, hu, ⟨hy, _⟩ | ⟨hne, _, hy, h1⟩⟩
      · cases hy
      · cases hy
        refine ⟨fun tag e he => ?_, u, hu, h1⟩
        rw [hu] at he
        cases he
        exact hne tag e rfl
    · rintro ⟨hne, u, hu, h1⟩
      refine ⟨u, hu, .inr ⟨fun tag e he => ?_, y, rfl, h1⟩⟩
      subst he
      exact hne tag e hu

/-! ## C42, C20: reading numbers and tags -/

/-- **C42**, deserialisation: a number of any kind, `usize` and `isize` among them, is read as an integer only of its own
value, by every deserialiser of the crate; and read as a `Value`, it is a number of the same value and signedness. -/
theorem C42_deserialised (de : De) (tag : Tag) (n : Num) :
    (∀ t x, (Ty.int t).de de (.num tag n) = .ok x → ∃ i, n.intVal = some i ∧ x = .int i ∧ t.min ≤ i ∧ i ≤ t.max) ∧
    (∃ m tag', Ty.value.de de (.num tag n) = .ok (.value (.num tag' m)) ∧ m.intVal = n.intVal ∧
      m.isSigned = n.isSigned ∧ m.toActual = n.toActual) := by
  constructor
  · intro t x h
    have hany : ∀ l : De, l.deserializeAny (intVisitor t) (.num tag n) = .ok x →
        ∃ i, n.intVal = some i ∧ x = .int i ∧ t.min ≤ i ∧ i ≤ t.max := by
      intro l h
      rw [any_iff] at h
      dsimp only at h
      rw [Num.deserializeAny_visited] at h
      obtain ⟨i, h1, h2, h3, h4⟩ := int_iff.1 h
      exact ⟨i, h1.1, h4, h2, h3⟩
    have hnum : De.deserializeNum de (intVisitor t) (.num tag n) = .ok x →
        ∃ i, n.intVal = some i ∧ x = .int i ∧ t.min ≤ i ∧ i ≤ t.max := by
      intro h
      unfold De.deserializeNum at h
      cases hc : de.config with
      | none => rw [hc] at h; exact hany de h
      | some f =>
        rw [hc] at h
        dsimp only at h
        rw [R.mapErr_eq_ok] at h
        refine hany De.plain ?_
        have : de.interpretAsNum (.num tag n) = .num tag n := by
          unfold De.interpretAsNum
          cases de.lossy <;> rfl
        rw [← this]
        exact h
    cases t with
    | u128 => cases h
    | i128 => cases h
    | _ => exact hnum h
  · obtain ⟨h1, h2⟩ := Num.visited_intVal n
    obtain ⟨c, l⟩ := de
    cases c with
    | none => exact ⟨n.visited, Tag.Default, by cases n <;> rfl, h1, h2, Num.visited_toActual n⟩
    | some f =>
      refine ⟨n.visited, if tag.named then tag else tag, ?_, h1, h2, Num.visited_toActual n⟩
      rw [Ty.de]
      dsimp only
      rw [Value.de_ok f l (.num tag n) (by rw [Value.WF]; trivial) rfl]
      rfl

example : (Ty.int .u8).de De.plain (.num ⟨3⟩ (.usize 200#64)) = .ok (.int 200) ∧
    Ty.value.de De.plain (.num ⟨3⟩ (.isize (-200#64))) = .ok (.value (.num Tag.Default (.i16 (-200#16)))) := ⟨rfl, rfl⟩

/-- **C20**, serialisation: every tag, all 64 bits of it, is serialised to a number, from which every deserialiser of the
crate reads the same tag, whatever the number's own tag. -/
theorem C20_serde (t : Tag) : ∃ w, (Ty.tag.ser (.tag t)).serialize = .ok w ∧ ∀ w' : Value, w'.strip = w.strip →
    w'.deserialize .tag = .ok (.tag t) ∧
    ∀ f, Ty.tag.de (De.strict f) w' = .ok (.tag t) ∧ Ty.tag.de (De.lossyOf f) w' = .ok (.tag t) :=
  C30_value_partial .tag rfl (.tag t) ⟨t, rfl⟩

/-- The struct of `Ex.ty`, with a `Tagged` and a `RelativePathBuf` in it. -/
def Ex.bigTy : Ty := .struct (str "C") (str "C") true
  [(str "conf", none, Ex.ty), (str "logs", none, .relPath), (str "n", none, .tagged .value)]

/-- The types are proper, also those with magic types in them. -/
example : Ex.ty.proper false = true ∧ Ex.bigTy.proper true = true ∧ Ex.bigTy.proper false = false := by decide

/-- What `Ex.fileFig` has at `logs`, read as some types. -/
example : ∃ v, Ex.fileFig.findValue (str "logs") = .ok v ∧ v.WF ∧ v.unreserved = true ∧
    Ty.relPath.Means false Ex.fileFig.fileAt v
      (.struct [.some (.str (str "/etc/app/conf.toml")), .str (str "var/log")]) ∧
    (∀ x, ¬ Ty.char.Means false Ex.fileFig.fileAt v x) := by
  refine ⟨_, rfl, by decide, rfl, ?_, ?_⟩
  · exact (C63_value Ex.fileFig true .relPath (by decide) _ (by decide) (fun _ => rfl) _).1.1 rfl
  · intro x hx
    rw [Ty.Means] at hx
    obtain ⟨c, _, h⟩ := hx
    cases h

/-- The merged data of `Ex.valFig`, read as a struct with an enum, an option and a list in it. -/
example : ∃ v, Ex.valFig.merged = .ok v ∧ v.WF ∧
    Ex.ty.Means false Ex.valFig.fileAt v Ex.val :=
  ⟨_, rfl, by decide, (C63_value Ex.valFig false Ex.ty (by decide) _ (by decide) nofun _).1.1 rfl⟩

/-- A figment of the process of `Ex.steps`, with data. -/
example : ∃ x v, (Proc.exec Ex.steps).made[1]? = some x ∧ x.fig.merged = .ok v ∧ v.unreserved = true ∧
    v.getKeys (pathKeys (str "a")) ≠ none := by
  refine ⟨_, _, rfl, rfl, by decide, by decide⟩

end Figment
