import Verif.Model.Display
import Verif.Lemmas.Error
import Verif.Lemmas.Find
import Verif.Lemmas.Print
/-!
# C49: error messages
-/
namespace Figment
variable [TextOps]

theorem Error.items_display (cwd : Option Str) (e : Error) :
    e.display cwd = Str.join (str "\n") (e.items.map (Error.display cwd)) := by
  induction e with
  | last h => rfl
  | cons h p ih =>
    rw [Error.display, ih, Error.items, List.map_cons]
    cases p <;> rfl

/-- **C49**: the message of an error is the messages of the errors that iterating over it yields, on lines of their own,
in that order. -/
theorem C49_chain (cwd : Option Str) (e : Error) (l : List Error) (h : Error.Yields (some e) l) :
    e.display cwd = Str.join (str "\n") (l.map (Error.display cwd)) := by
  rw [Error.yields_iff.1 h, Error.items_display]

/-- **C49**: the message of one error is that of its kind; then, if profile and metadata are known and there is a path,
the path as the metadata interpolates it, as a quoted string; then, if there is metadata, its source, if it has one, and
its name. -/
theorem C49_parts (cwd : Option Str) (e : Error) (h : e.prev = none) :
    ∃ key place, e.display cwd = e.head.kind.display ++ key ++ place ∧
      (∀ p m, e.head.profile = some p → e.head.metadata = some m → e.head.path ≠ [] →
        key = str " for key " ++ TextOps.debugStr (m.interpolate p e.head.path)) ∧
      (e.head.profile = none ∨ e.head.metadata = none ∨ e.head.path = [] → key = []) ∧
      (∀ m s, e.head.metadata = some m → m.source = some s →
        place = str " in " ++ s.display cwd ++ str " " ++ m.name) ∧
      (∀ m, e.head.metadata = some m → m.source = none → place = str " in " ++ m.name) ∧
      (e.head.metadata = none → place = []) := by
  cases e with
  | cons hd p => cases h
  | last hd =>
    refine ⟨_, _, rfl, ?_, ?_, ?_, ?_, ?_⟩
    · intro p m h1 h2 h3
      simp only [Error.head] at h1 h2 h3
      simp only [Error.head, h1, h2]
      rw [if_pos h3]
    · intro h1
      simp only [Error.head] at h1 ⊢
      cases h2 : hd.profile with
      | none => rfl
      | some p =>
        cases h3 : hd.metadata with
        | none => rfl
        | some m =>
          rw [h2, h3] at h1
          dsimp only
          rw [if_neg]
          rcases h1 with h1 | h1 | h1
          · cases h1
          · cases h1
          · exact fun h => h h1
    · intro m s h1 h2
      simp only [Error.head] at h1 ⊢
      simp only [h1, h2]
    · intro m h1 h2
      simp only [Error.head] at h1 ⊢
      simp only [h1, h2]
    · intro h1
      simp only [Error.head] at h1 ⊢
      simp only [h1]

/-- What a kind says was found, and what was expected, each as text. -/
def Kind.says : Kind → List Str
  | .message m => [m]
  | .invalidType a e => [a.display, e]
  | .invalidValue a e => [a.display, e]
  | .invalidLength n e => [Dec.ofNat n, e]
  | .unknownVariant v e => v :: e
  | .unknownField v e => v :: e
  | .missingField v => [v]
  | .duplicateField v => [v]
  | .isizeOutOfRange n => [Dec.ofInt n]
  | .usizeOutOfRange n => [Dec.ofNat n]
  | .unsupported a => [a.display]
  | .unsupportedKey a e => [a.display, e]

omit [TextOps] in
theorem OneOf.loop_eq (i : Nat) (l : List Str) : OneOf.loop (i + 1) l =
    (l.map fun a => str ", `" ++ a ++ str "`").flatten := by
  induction l generalizing i with
  | nil => rfl
  | cons a r ih =>
    rw [OneOf.loop, ih, if_pos (Nat.succ_pos i)]
    simp [str]

omit [TextOps] in
theorem OneOf.mem_infix {l : List Str} {a : Str} (h : a ∈ l) : a <:+: OneOf.display l := by
  have hflat : ∀ (r : List Str), a ∈ r → ∃ x y, (r.map fun a => str ", `" ++ a ++ str "`").flatten = x ++ a ++ y := by
    intro r hr
    obtain ⟨r1, r2, rfl⟩ := List.append_of_mem hr
    refine ⟨(r1.map fun a => str ", `" ++ a ++ str "`").flatten ++ str ", `",
      str "`" ++ (r2.map fun a => str ", `" ++ a ++ str "`").flatten, ?_⟩
    simp
  match l, h with
  | [b], h =>
    rw [List.mem_singleton] at h
    subst h
    exact ⟨str "`", str "`", rfl⟩
  | [b, c], h =>
    rcases List.mem_cons.1 h with rfl | h
    · exact ⟨str "`", str "` or `" ++ c ++ str "`", by simp [OneOf.display]⟩
    · rw [List.mem_singleton] at h
      subst h
      exact ⟨str "`" ++ b ++ str "` or `", str "`", by simp [OneOf.display]⟩
  | b :: c :: d :: r, h =>
    show a <:+: str "one of " ++ OneOf.loop 0 (b :: c :: d :: r)
    rw [OneOf.loop, OneOf.loop_eq]
    rcases List.mem_cons.1 h with rfl | h
    · exact ⟨str "one of `", str "`" ++ ((c :: d :: r).map fun a => str ", `" ++ a ++ str "`").flatten, by simp [str]⟩
    · obtain ⟨x, y, hxy⟩ := hflat _ h
      exact ⟨str "one of `" ++ b ++ str "`" ++ x, y, by rw [hxy]; simp [str]⟩

/-- **C49**: the message of a kind contains everything the kind says: what was found, what was expected, every
alternative. -/
theorem C49_kind (k : Kind) (s : Str) (h : s ∈ k.says) : s <:+: k.display := by
  have hmid : ∀ a b c d e : Str, b <:+: a ++ b ++ c ++ d ++ e := fun a b c d e => ⟨a, c ++ d ++ e, by simp⟩
  have hmid2 : ∀ a b c d e : Str, d <:+: a ++ b ++ c ++ d ++ e := fun a b c d e => ⟨a ++ b ++ c, e, by simp⟩
  cases k with
  | message m => rw [List.mem_singleton.1 h]; exact List.infix_refl _
  | unknownVariant v e =>
    rcases List.mem_cons.1 h with rfl | h
    · exact hmid _ _ _ _ _
    · exact (OneOf.mem_infix h).trans (hmid2 _ _ _ _ _)
  | unknownField v e =>
    rcases List.mem_cons.1 h with rfl | h
    · exact hmid _ _ _ _ _
    · exact (OneOf.mem_infix h).trans (hmid2 _ _ _ _ _)
  | unsupportedKey a e =>
    simp only [Kind.says, List.mem_cons, List.not_mem_nil, or_false] at h
    rcases h with rfl | rfl
    · exact hmid _ _ _ _ _
    · exact hmid2 _ _ _ _ _
  | invalidType a e | invalidValue a e | invalidLength n e =>
    simp only [Kind.says, List.mem_cons, List.not_mem_nil, or_false] at h
    rcases h with rfl | rfl
    · have := hmid (a := ?_) ?_ ?_ ?_ []
      rw [List.append_nil] at this
      exact this
    · have := hmid2 ?_ ?_ ?_ s []
      rw [List.append_nil] at this
      exact this
  | missingField a | duplicateField a | unsupported a | isizeOutOfRange a | usizeOutOfRange a =>
    rw [Kind.says, List.mem_singleton] at h
    subst h
    exact ⟨_, _, rfl⟩

omit [TextOps] in
/-- The texts in backquotes. -/
def quoted (s : Str) : List Str := odd (Str.splitOn '`' s)
where
  /-- The second element, the fourth, and so on. -/
  odd : List Str → List Str
    | _ :: a :: r => a :: odd r
    | _ => []

omit [TextOps] in
theorem quoted_cons (a b : Str) (r : Str) (ha : '`' ∉ a) (hb : '`' ∉ b) :
    quoted (a ++ str "`" ++ b ++ str "`" ++ r) = b :: quoted r := by
  have e : a ++ str "`" ++ b ++ str "`" ++ r = a ++ '`' :: (b ++ '`' :: r) := by simp [str]
  rw [quoted, e, Str.splitOn_append, Str.splitOn_append, Str.splitOn_of_not_mem ha, Str.splitOn_of_not_mem hb]
  rfl

omit [TextOps] in
theorem quoted_flat {r : List Str} (h : ∀ a ∈ r, '`' ∉ a) :
    quoted (r.map fun a => str ", `" ++ a ++ str "`").flatten = r := by
  induction r with
  | nil => rfl
  | cons a r ih =>
    rw [List.map_cons, List.flatten_cons,
      show str ", `" ++ a ++ str "`" = str ", " ++ str "`" ++ a ++ str "`" by simp [str],
      quoted_cons _ _ _ (by decide) (h a (.head _)), ih fun x hx => h x (.tail _ hx)]

omit [TextOps] in
/-- **C49**: the list of alternatives shows each exactly once, in order: the texts in backquotes are the alternatives. -/
theorem C49_alternatives (l : List Str) (h : ∀ a ∈ l, '`' ∉ a) : quoted (OneOf.display l) = l := by
  match l, h with
  | [], _ => decide
  | [a], h =>
    have := quoted_cons [] a [] (by decide) (h a (.head _))
    rw [List.append_nil] at this
    exact this
  | [a, b], h =>
    have h2 := quoted_cons (str " or ") b [] (by decide) (h b (.tail _ (.head _)))
    have h1 := quoted_cons [] a (str " or " ++ str "`" ++ b ++ str "`" ++ []) (by decide) (h a (.head _))
    rw [h2] at h1
    simpa [OneOf.display, str, quoted, quoted.odd, Str.splitOn] using h1
  | a :: b :: c :: r, h =>
    show quoted (str "one of " ++ OneOf.loop 0 (a :: b :: c :: r)) = _
    rw [OneOf.loop, OneOf.loop_eq]
    have h1 := quoted_cons (str "one of ") a ((b :: c :: r).map fun a => str ", `" ++ a ++ str "`").flatten
      (by decide) (h a (.head _))
    rw [quoted_flat fun x hx => h x (.tail _ hx)] at h1
    rw [← h1]
    simp [str]

omit [TextOps] in
/-- A formatter for the examples, which quotes without escaping. -/
abbrev Ex.textOps : TextOps := ⟨fun _ => [], fun s => '"' :: s ++ ['"'], fun c => ['\'', c, '\''], fun _ => []⟩

omit [TextOps] in
/-- A chain of two errors, the first with a key and a source. -/
example : @Error.display Ex.textOps none
      ((Error.ofKind (.message (str "one"))).chain (.last ⟨Tag.Default, some Profile.Default,
        some (Metadata.from (str "TOML file") (.custom (str "x"))), [str "a"], .missingField (str "b")⟩)) =
    str "missing field `b` for key \"default.a\" in x TOML file\none" := by decide

omit [TextOps] in
example : Error.Yields (some ((Error.ofKind (.message (str "one"))).chain (Error.ofKind (.message (str "two")))))
    [Error.ofKind (.message (str "two")), Error.ofKind (.message (str "one"))] :=
  Error.yields_iff.2 rfl

example : str "f" ∈ (Kind.unknownField (str "g") [str "e", str "f"]).says := .tail _ (.tail _ (.head _))

example : OneOf.display [str "a", str "b", str "c"] = str "one of `a`, `b`, `c`" := by decide

/-- Which kind of thing a message of what was found is about, told from its first letters. -/
def Actual.kindSaid : Str → Nat
  | 'b' :: 'o' :: _ => 0
  | 'u' :: 'n' :: 's' :: _ => 1
  | 's' :: 'i' :: _ => 2
  | 'f' :: _ => 3
  | 'c' :: _ => 4
  | 's' :: 't' :: 'r' :: 'i' :: _ => 5
  | 'b' :: 'y' :: _ => 6
  | ['u', 'n', 'i', 't'] => 7
  | 'o' :: _ => 8
  | 'n' :: 'e' :: 'w' :: '-' :: 't' :: 'y' :: 'p' :: 'e' :: ' ' :: 's' :: _ => 9
  | 's' :: 'e' :: _ => 10
  | 'm' :: _ => 11
  | 'e' :: _ => 12
  | 'u' :: _ => 13
  | 'n' :: _ => 14
  | 't' :: _ => 15
  | _ => 16

/-- The number of the kind, as in `kindSaid`. -/
def Actual.kindIs : Actual → Nat
  | .bool _ => 0 | .unsigned _ => 1 | .signed _ => 2 | .float _ => 3 | .char _ => 4 | .str _ => 5 | .bytes _ => 6
  | .unit => 7 | .option => 8 | .newtypeStruct => 9 | .seq => 10 | .map => 11 | .enum => 12 | .unitVariant => 13
  | .newtypeVariant => 14 | .tupleVariant => 15 | .structVariant => 16 | .other _ => 17

theorem Actual.kindSaid_display (a : Actual) (ha : ∀ s, a ≠ .other s) : Actual.kindSaid a.display = a.kindIs := by
  cases a with
  | other s => exact absurd rfl (ha s)
  | _ => rfl

/-- **C49**, what was found, in words. -/
theorem C49_words : (Actual.bool true).display = str "bool true" ∧ (Actual.bool false).display = str "bool false" ∧
    (∀ n, (Actual.unsigned n).display = str "unsigned int `" ++ Dec.ofNat n.toNat ++ str "`") ∧
    (∀ n, (Actual.signed n).display = str "signed int `" ++ Dec.ofInt n.toInt ++ str "`") ∧
    (∀ x, (Actual.float x).display = str "float `" ++ TextOps.float x ++ str "`") ∧
    (∀ c, (Actual.char c).display = str "char " ++ TextOps.debugChar c) ∧
    (∀ s, (Actual.str s).display = str "string " ++ TextOps.debugStr s) ∧
    (∀ s, (Actual.bytes s).display = str "bytes " ++ TextOps.debugBytes s) ∧
    Actual.unit.display = str "unit" ∧ Actual.option.display = str "option" ∧
    Actual.newtypeStruct.display = str "new-type struct" ∧ Actual.seq.display = str "sequence" ∧
    Actual.map.display = str "map" ∧ Actual.enum.display = str "enum" ∧ Actual.unitVariant.display = str "unit variant" ∧
    Actual.newtypeVariant.display = str "new-type variant" ∧ Actual.tupleVariant.display = str "tuple variant" ∧
    Actual.structVariant.display = str "struct variant" ∧ ∀ s, (Actual.other s).display = s :=
  ⟨rfl, rfl, fun _ => rfl, fun _ => rfl, fun _ => rfl, fun _ => rfl, fun _ => rfl, fun _ => rfl, rfl, rfl, rfl, rfl, rfl, rfl,
    rfl, rfl, rfl, rfl, fun _ => rfl⟩

/-- **C49**, the words for each kind of error: what was found and what was expected, the name or the number at fault. -/
theorem C49_kinds :
    (∀ m, (Kind.message m).display = m) ∧
    (∀ a e, (Kind.invalidType a e).display = str "invalid type: found " ++ a.display ++ str ", expected " ++ e) ∧
    (∀ a e, (Kind.invalidValue a e).display = str "invalid value " ++ a.display ++ str ", expected " ++ e) ∧
    (∀ n e, (Kind.invalidLength n e).display = str "invalid length " ++ Dec.ofNat n ++ str ", expected " ++ e) ∧
    (∀ v e, (Kind.unknownVariant v e).display
      = str "unknown variant: found `" ++ v ++ str "`, expected `" ++ OneOf.display e ++ str "`") ∧
    (∀ v e, (Kind.unknownField v e).display
      = str "unknown field: found `" ++ v ++ str "`, expected `" ++ OneOf.display e ++ str "`") ∧
    (∀ v, (Kind.missingField v).display = str "missing field `" ++ v ++ str "`") ∧
    (∀ v, (Kind.duplicateField v).display = str "duplicate field `" ++ v ++ str "`") ∧
    (∀ n, (Kind.isizeOutOfRange n).display = str "signed integer `" ++ Dec.ofInt n ++ str "` is out of range") ∧
    (∀ n, (Kind.usizeOutOfRange n).display = str "unsigned integer `" ++ Dec.ofNat n ++ str "` is out of range") ∧
    (∀ a, (Kind.unsupported a).display = str "unsupported type `" ++ a.display ++ str "`") ∧
    (∀ a e, (Kind.unsupportedKey a e).display
      = str "unsupported type `" ++ a.display ++ str "` for key: must be `" ++ e ++ str "`") :=
  ⟨fun _ => rfl, fun _ _ => rfl, fun _ _ => rfl, fun _ _ => rfl, fun _ _ => rfl, fun _ _ => rfl, fun _ => rfl, fun _ => rfl,
    fun _ => rfl, fun _ => rfl, fun _ => rfl, fun _ _ => rfl⟩

/-- **C49**, what was found: the message says exactly what was found: different things have different texts, if they have
as quoted strings, characters, bytes and as floating point numbers. (`other` is a text of the type's own, and of numbers
that are none there are many with one text.) -/
theorem C49_found (hf : ∀ x y, x.isNan = false → y.isNan = false → TextOps.float x = TextOps.float y → x = y)
    (hc : ∀ c c', TextOps.debugChar c = TextOps.debugChar c' → c = c')
    (hs : ∀ s s', TextOps.debugStr s = TextOps.debugStr s' → s = s')
    (hy : ∀ s s', TextOps.debugBytes s = TextOps.debugBytes s' → s = s')
    (a b : Actual) (ha : ∀ s, a ≠ .other s) (hb : ∀ s, b ≠ .other s)
    (hn : ∀ x, a = .float x ∨ b = .float x → x.isNan = false) (h : a.display = b.display) : a = b := by
  have hk : a.kindIs = b.kindIs := by
    rw [← Actual.kindSaid_display a ha, ← Actual.kindSaid_display b hb, h]
  cases a <;> cases b <;> cases hk <;> try rfl
  case bool.bool x y =>
    cases x <;> cases y <;> first | rfl | exact absurd (List.append_cancel_left h) (by decide)
  case unsigned.unsigned x y =>
    have := List.append_cancel_left (List.append_cancel_right h)
    have := congrArg (Dec.digitsVal 0) this
    rw [Dec.digitsVal_ofNat, Dec.digitsVal_ofNat] at this
    rw [BitVec.eq_of_toNat_eq this]
  case signed.signed x y =>
    have := Dec.ofInt_inj (List.append_cancel_left (List.append_cancel_right h))
    rw [BitVec.eq_of_toInt_eq this]
  case float.float x y => 
    rw [hf _ _ (hn _ (.inl rfl)) (hn _ (.inr rfl)) (List.append_cancel_left (List.append_cancel_right h))]
  case char.char x y => rw [hc _ _ (List.append_cancel_left h)]
  case str.str x y => rw [hs _ _ (List.append_cancel_left h)]
  case bytes.bytes x y => rw [hy _ _ (List.append_cancel_left h)]
  case other.other s _ => exact absurd rfl (ha s)

/-- There are such texts. -/
example : ∃ ops : TextOps, (∀ x y, x.isNan = false → y.isNan = false → ops.float x = ops.float y → x = y) ∧
    (∀ c c', ops.debugChar c = ops.debugChar c' → c = c') ∧ (∀ s s', ops.debugStr s = ops.debugStr s' → s = s') ∧
    (∀ s s', ops.debugBytes s = ops.debugBytes s' → s = s') :=
  ⟨⟨fun x => List.replicate x.toNat 'x', id, fun c => [c], fun b => b.map fun x => Char.ofNat x.toNat⟩,
    fun x y _ _ h => BitVec.eq_of_toNat_eq (by simpa using congrArg List.length h),
    fun c c' h => (List.cons.inj h).1, fun s s' h => h,
    fun s s' h => List.map_inj_right (f := fun x : BitVec 8 => Char.ofNat x.toNat)
      (fun x y h => by
        have key : ∀ z : BitVec 8, (Char.ofNat z.toNat).toNat = z.toNat := fun z => by
          have : z.toNat.isValidChar := .inl (by have := z.isLt; omega)
          rw [Char.ofNat, dif_pos this]
          rfl
        exact BitVec.eq_of_toNat_eq (by rw [← key x, ← key y, h])) |>.1 h⟩

end Figment
