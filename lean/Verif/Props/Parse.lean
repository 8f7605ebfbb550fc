import Verif.Lemmas.Miscut
/-!
# C32-C35: values as text

`Writes s v` (Spec/Text.lean) is the grammar: the text `s` is the value `v` written down. `CleanText` excludes
the one thing the code gets wrong: a character that is not ASCII between a double quote and the first backslash
after it.
-/
namespace Figment
variable [FloatOps]

/-! ## C32 -/

/-- **C32** (termination): parsing ends for every text. It has no error outcome, so it ends with a value or with a
panic. -/
theorem C32_terminates (s : Str) : (∃ v, Value.parse s = .ok v) ∨ Value.parse s = .panic := by
  cases h : Value.parse s with
  | ok v => exact .inl ⟨v, rfl⟩
  | err e => cases e
  | panic => exact .inr rfl
  | loop => exact absurd h (Value.parse_no_loop s)

/-- **C32**, for clean text: parsing gives a value. Missing: text with a character that is not ASCII between a
double quote and the first backslash after it, for which it is false (`C32_panics`). -/
theorem C32_never_fails_partial (s : Str) (h : CleanText s) : ∃ v, Value.parse s = .ok v :=
  Value.parse_clean_good h

omit [FloatOps] in
/-- Text is clean if it is all ASCII, or without backslash, or without double quote. -/
theorem C32_clean (s : Str) (h : (∀ c ∈ s, c.toNat < 128) ∨ '\\' ∉ s ∨ '"' ∉ s) : CleanText s := by
  rcases h with h | h | h
  · exact .of_ascii h
  · exact .of_no_backslash h
  · exact .of_no_quote h

-- Text of all three kinds, none of it a simple word.
example : CleanText (str "{ a = [\"x\\ty\", 'c'], b = \"\\") := C32_clean _ (.inl (by decide))
example : CleanText (str "[ \"é\", {\"ü\" = 'ß'} ]") := C32_clean _ (.inr (.inl (by decide)))
example : CleanText (str "{é = c:\\dir, 'ü'") := C32_clean _ (.inr (.inr (by decide)))

/-- C32 fails for other text: parsing it panics. -/
theorem C32_panics : Value.parse (str "\"é\\n\"") = .panic := rfl

/-- **C32** for all text: exactly which text makes parsing panic. Reading values from the front, a quoted string or
key comes whose text derails: the number of characters before its first backslash is, as a number of bytes, within
a character. All other text gives a value. -/
theorem C32_panics_iff (s : Str) : (Value.parse s = .panic ↔ Meets (Miscuts false) Derails (Str.trim s)) ∧
    ((∃ v, Value.parse s = .ok v) ↔ ¬ Meets (Miscuts false) Derails (Str.trim s)) := by
  refine ⟨Value.parse_panic_iff s, ?_⟩
  rw [← Value.parse_panic_iff]
  constructor
  · rintro ⟨v, h⟩ h'; rw [h] at h'; cases h'
  · intro h
    exact (C32_terminates s).resolve_right h

omit [FloatOps] in
theorem derails_example : Derails (str "é\\n") := by
  refine ⟨str "é", str "n", rfl, by decide, by decide, ?_⟩
  rintro ⟨a, b, h, hl⟩
  cases a with
  | nil => cases hl
  | cons c a =>
    obtain rfl : c = 'é' := (List.cons.inj h).1.symm
    have h2 : Str.byteLen ('é' :: a) = 2 + Str.byteLen a := rfl
    have h3 : (str "é").length = 1 := rfl
    omega

-- Deep inside other values.
example : Meets (Miscuts false) Derails (str "[ 1, , {k = x, \"é\\n\" = 2}") :=
  .array (a := []) Ws.nil <| .cons (s := str " 1") (r := str " , {k = x, \"é\\n\" = 2}") (v := .ofNum (.usize 1))
      (.bare (a := str " ") (b := []) (s := str "1") (by decide) Ws.nil (by decide) (by decide) (by decide) (by decide)
        (by decide) (by decide) (.unsigned (n := 1#64) (by decide) (by decide)
          ⟨str "1", by decide, by decide, .inl ⟨rfl, rfl⟩⟩)) <|
    .skip (s := str " ") (by decide) <| .here <|
    .dict (a := str " ") (by decide) <|
    .cons (a := []) (k := str "k") (b := str " ") (s := str " x") (r := str " \"é\\n\" = 2}") (v := .ofStr (str "x")) Ws.nil
      (.ident (by decide)) (by decide)
      (.bare (a := str " ") (b := []) (s := str "x") (by decide) Ws.nil (by decide) (by decide) (by decide) (by decide)
        (by decide) (by decide) ((Parser.bare_iff _ _).1 rfl)) <|
    .key (a := str " ") (s := str "é\\n") (r := str " = 2}") (by decide)
      (.plain (by decide) (by decide) <| .pair _ .nil) derails_example

/-! ## C33 -/

omit [FloatOps] in
/-- **C33**: the text that `Value.write` gives for a value of strings, characters, booleans, unsigned and negative
machine-size integers, `f64` but NaN, arrays and dictionaries parses as that value (with the default provenance), whatever
white space is around it. -/
theorem C33_round_trip (v : Value) (hv : v.writable = true) (hwf : v.wf = true) (a b : Str) (ha : Ws a) (hb : Ws b) :
    @Value.parse FloatOps.std (a ++ (v.write ++ b)) = .ok v.strip := by
  letI := FloatOps.std
  rw [← Value.parse_trim, Str.trim_surround ha hb, Value.parse_trim]
  have h := v.write_reads hv hwf
  have h1 : Reads Parser.CodeQuoted v.write v.strip := h.mono fun _ _ _ _ _ hq => hq.code
  exact Value.parse_of_reads h1

omit [FloatOps] in
/-- **C33** (which values have a text): a value is that of some text exactly if it is the unit or of the kinds above, with
the default provenance and with dictionaries that are maps. -/
theorem C33_exact (v : Value) : (∃ s, @Value.parse FloatOps.std s = .ok v) ↔
    v = .ofEmpty .unit ∨ (v.writable = true ∧ v.wf = true ∧ v.strip = v) := by
  letI := FloatOps.std
  constructor
  · rintro ⟨s, h⟩
    by_cases hs : Ws s
    · rw [Value.parse_ws hs] at h; cases h; exact .inl rfl
    · refine .inr ?_
      by_cases hr : ∃ v, Reads Parser.CodeQuoted (Str.trim s) v
      · obtain ⟨w, hw⟩ := hr
        rw [Value.parse_reads hw] at h; cases h
        obtain ⟨h1, h2⟩ := hw.writable
        exact ⟨h1, hw.wf, h2⟩
      · rcases Value.parse_text hs hr with h' | h'
        · rw [h'] at h; cases h; exact ⟨rfl, rfl, rfl⟩
        · rw [h'] at h; cases h
  · rintro (rfl | ⟨h1, h2, h3⟩)
    · exact ⟨[], Value.parse_ws Ws.nil⟩
    · have := C33_round_trip v h1 h2 [] [] Ws.nil Ws.nil
      rw [h3] at this
      exact ⟨_, this⟩

/-- A dictionary with a nested array, an escape, numbers of both signs, and the floating point number `-0.1`. -/
def C33_example : Value :=
  .ofDict [(str "a b", .ofArray [.ofNum (.usize 5#64), .ofNum (.isize (-7)), .ofBool true, .ofStr (str "é\"\n")]),
    (str "f", .ofNum (.f64 0xbfb999999999999a#64)), (str "k", .ofChar 'ü'), (str "z", .ofDict [])]

omit [FloatOps] in
theorem C33_example_ok : C33_example.writable = true ∧ C33_example.wf = true := by decide +kernel

example : C33_example.writable = true ∧ C33_example.wf = true ∧
    @Value.parse FloatOps.std (str " " ++ (C33_example.write ++ str "\n")) = .ok C33_example :=
  ⟨C33_example_ok.1, C33_example_ok.2,
    C33_round_trip C33_example C33_example_ok.1 C33_example_ok.2 (str " ") (str "\n") (by decide) (by decide)⟩

-- Both signs of zero, infinity, and what no text stands for.
example : @Value.parse FloatOps.std (str "-0.0") = .ok (.ofNum (.f64 0x8000000000000000#64)) ∧
    @Value.parse FloatOps.std (str "-0") = .ok (.ofNum (.isize 0)) ∧
    @Value.parse FloatOps.std (str "1.0e999") = .ok (.ofNum (.f64 0x7ff0000000000000#64)) := by decide +kernel
example : ¬ ∃ s, @Value.parse FloatOps.std s = .ok (.ofArray [.ofNum (.f32 0#32)]) := by
  rw [C33_exact]
  rintro (h | ⟨h, _⟩) <;> cases h

/-! ## C34 -/

omit [FloatOps] in
/-- **C34** (`escape`, for text whose part before the first backslash is ASCII): the outcome is a text exactly if
the escapes are all well-formed and there is no control character, and it is then the text they stand for;
otherwise it is an error. Missing: other text, for which it is false (`C34_fails`). -/
theorem C34_unescape_partial (s : Str) (h : ∀ a b, s = a ++ '\\' :: b → '\\' ∉ a → ∀ c ∈ a, c.toNat < 128) :
    (∀ t, escape s = .ok t ↔ Unescapes true s t) ∧ ((∃ e, escape s = .err e) ↔ ¬ ∃ t, Unescapes true s t) :=
  escape_spec h

omit [FloatOps] in
/-- **C34**: a text with escapes stands for one text at most. -/
theorem C34_unique (q : Bool) (s t t' : Str) (h : Unescapes q s t) (h' : Unescapes q s t') : t = t' :=
  h.functional h'

omit [FloatOps] in
/-- **C34**: text without backslash and control characters is kept, all of it. -/
theorem C34_kept (s : Str) (h : ∀ c ∈ s, c ≠ '\\' ∧ ¬ isControl c) : escape s = .ok s :=
  escape_of_no_backslash (fun hm => (h _ hm).1 rfl) fun c hc => (h c hc).2

example : ∀ c ∈ str "é \"ü\" ß", c ≠ '\\' ∧ ¬ isControl c := by decide

/-- **C34** (quoted strings in values, for clean text): a quoted string stands for the text with every escape replaced
by the character it names and all else kept; with an unknown or truncated escape, a control character or a quote
that is not escaped, it is no quoted string and the text stays as it is, quotes included. Missing: other text, for
which it is false (`C34_fails`, `C34_loses`). -/
theorem C34_quoted_partial (s : Str) (h : CleanText ('"' :: (s ++ ['"']))) :
    (∀ t, Unescapes false s t → Value.parse ('"' :: (s ++ ['"'])) = .ok (.ofStr t)) ∧
    ((¬ ∃ t, Unescapes false s t) → Value.parse ('"' :: (s ++ ['"'])) = .ok (.ofStr ('"' :: (s ++ ['"'])))) := by
  constructor
  · intro t ht
    have h1 : Writes ('"' :: (s ++ ['"'])) (.ofStr t) := Reads.string (a := []) (b := []) Ws.nil Ws.nil ht
    exact Value.parse_of_reads ((reads_clean h).2 h1)
  · intro hn
    have h1 : ¬ ∃ v, Reads Parser.CodeQuoted (Str.trim ('"' :: (s ++ ['"']))) v := by
      rintro ⟨v, hv⟩
      rw [Str.trim_quoted] at hv
      obtain ⟨t, ht, _⟩ := hv.quoted_inv
      exact hn ht.wellformed
    rcases Value.parse_text (quoted_not_ws _) h1 with h2 | h2
    · rw [h2, Str.trim_quoted]
    · obtain ⟨v, hv⟩ := Value.parse_clean_good h
      rw [h2] at hv; cases hv

example : Unescapes false (str "a\\t\\u00e9\\\\b") (str "a\té\\b") :=
  .plain (by decide) (by decide) (by decide) <| .named (c := 't') (by decide) <|
  .hex4 (ds := str "00e9") rfl (by decide) rfl <| .named (c := '\\') (by decide) <|
  .plain (by decide) (by decide) (by decide) .nil

example : ¬ ∃ t, Unescapes false (str "a\\x") t := by
  rintro ⟨t, h⟩
  obtain ⟨_, _, t', _, h⟩ := h.of_plain (by decide)
  obtain ⟨m, r, _, h, _⟩ := h.of_escape
  cases h

omit [FloatOps] in
/-- C34 fails for *every* text with an escape and, before the first one, a character that is not ASCII: `escape`
does not give what the text stands for. -/
theorem C34_fails (pre rest t : Str) (hp : '\\' ∉ pre) (c : Char) (hc : c ∈ pre) (hn : ¬ c.toNat < 128)
    (hu : Unescapes true (pre ++ '\\' :: rest) t) : escape (pre ++ '\\' :: rest) ≠ .ok t :=
  escape_unclean hp hc hn hu

omit [FloatOps] in
/-- **C34** for all text: exactly what becomes of it. Without a backslash it is kept. With one, the text after it is
as it stands for, but the text before it is replaced by as many bytes as it has characters. It panics when these
bytes are not whole characters. -/
theorem C34_exact (s : Str) : (∀ t, escape s = .ok t ↔ Miscuts true s t) ∧ (escape s = .panic ↔ Derails s) ∧
    ((∃ e, escape s = .err e) ↔ ¬ Derails s ∧ ¬ ∃ t, Unescapes true s t) := by
  refine ⟨escape_ok_iff s, escape_panic_iff s, ?_⟩
  constructor
  · rintro ⟨e, he⟩
    refine ⟨fun h => ?_, fun ⟨t, h⟩ => ?_⟩
    · rw [(escape_panic_iff s).2 h] at he; cases he
    · exact escape_err_not_unescapes he h
  · rintro ⟨h1, h2⟩
    cases h : escape s with
    | ok t => exact absurd ((escape_ok_iff s t).1 h).unescapes h2
    | err e => exact ⟨e, rfl⟩
    | panic => exact absurd ((escape_panic_iff s).1 h) h1
    | loop => exact absurd h (escape_total s)

example : Miscuts true (str "éa\\n") (str "é\n") :=
  .cut (pre := str "éa") (rest := str "n") (a := str "é") (b := str "a\\n") (t := str "\n") (by decide) rfl rfl
    (.plain (by decide) (by decide) (by decide) <| .plain (by decide) (by decide) (by decide) <|
      .named (c := 'n') (by decide) .nil) rfl

omit [FloatOps] in
/-- **C34**: what becomes of text is what it stands for exactly when there is no backslash, or only ASCII before the
first one. -/
theorem C34_right_iff (s t : Str) (ht : Unescapes true s t) :
    Miscuts true s t ↔ ∀ pre rest, s = pre ++ '\\' :: rest → '\\' ∉ pre → ∀ c ∈ pre, c.toNat < 128 := by
  rw [← escape_ok_iff]
  constructor
  · rintro h pre rest rfl hp c hc
    exact Classical.byContradiction fun hn => escape_unclean hp hc hn ht h
  · intro h
    exact ((escape_spec h).1 t).2 ht

/-- C34 fails: a character is lost. -/
theorem C34_loses : Value.parse (str "\"éa\\n\"") = .ok (.ofStr (str "é\n")) := rfl

/-! ## C35 -/

/-- **C35**: only the trimmed text matters. -/
theorem C35_trim (s : Str) : Value.parse (Str.trim s) = Value.parse s ∧
    ∀ a b : Str, Ws a → Ws b → Value.parse (a ++ (s ++ b)) = Value.parse s := by
  refine ⟨Value.parse_trim s, fun a b ha hb => ?_⟩
  rw [← Value.parse_trim, Str.trim_surround ha hb, Value.parse_trim]

/-- **C35**: text that is not a value written down is itself, trimmed (unless parsing it panics). -/
theorem C35_text (s : Str) (hs : ¬ Ws s) (h : ¬ ∃ v, Writes (Str.trim s) v) :
    Value.parse s = .ok (.ofStr (Str.trim s)) ∨ Value.parse s = .panic :=
  Value.parse_text hs fun ⟨_, hv⟩ => h (hv.weaken fun _ _ hq => hq.wellformed)

/-- **C35** (for clean text): what any text parses to: nothing gives the unit value; a value written down gives that
value; anything else gives the trimmed text. Missing: text that is not clean. -/
theorem C35_grammar_partial (s : Str) (hc : CleanText s) (v : Value) : Value.parse s = .ok v ↔
    (Ws s ∧ v = .ofEmpty .unit) ∨ Writes (Str.trim s) v ∨
    (¬ Ws s ∧ (¬ ∃ w, Writes (Str.trim s) w) ∧ v = .ofStr (Str.trim s)) := by
  by_cases hw : Ws s
  · rw [Value.parse_ws hw]
    constructor
    · intro h; exact .inl ⟨hw, (Out.ok.inj h).symm⟩
    · rintro (⟨_, rfl⟩ | h | ⟨h, _⟩)
      · rfl
      · rw [Str.trim_ws hw] at h; exact absurd Ws.nil h.ne_ws
      · exact absurd hw h
  · by_cases hx : ∃ w, Writes (Str.trim s) w
    · obtain ⟨w, h1⟩ := hx
      have h2 := Value.parse_reads ((reads_clean hc.trim).2 h1)
      rw [h2]
      constructor
      · intro h; rw [← Out.ok.inj h]; exact .inr (.inl h1)
      · rintro (⟨h, _⟩ | h | ⟨_, h, _⟩)
        · exact absurd h hw
        · rw [← h2, Value.parse_reads ((reads_clean hc.trim).2 h)]
        · exact absurd ⟨w, h1⟩ h
    · have h2 : Value.parse s = .ok (.ofStr (Str.trim s)) := by
        rcases C35_text s hw hx with h2 | h2
        · exact h2
        · obtain ⟨v, hv⟩ := Value.parse_clean_good hc
          rw [h2] at hv; cases hv
      rw [h2]
      constructor
      · intro h; exact .inr (.inr ⟨hw, hx, (Out.ok.inj h).symm⟩)
      · rintro (⟨h, _⟩ | h | ⟨_, _, rfl⟩)
        · exact absurd h hw
        · exact absurd ⟨v, h⟩ hx
        · rfl

/-- **C35** for all text, with quoted strings as the code reads them (`Miscuts`, which C34 describes): nothing gives
the unit value; a value written down gives that value; anything else gives the trimmed text, unless parsing panics,
which C32 describes. -/
theorem C35_exact (s : Str) (v : Value) : Value.parse s = .ok v ↔
    (Ws s ∧ v = .ofEmpty .unit) ∨ Reads (Miscuts false) (Str.trim s) v ∨
    (¬ Ws s ∧ (¬ ∃ w, Reads (Miscuts false) (Str.trim s) w) ∧ ¬ Meets (Miscuts false) Derails (Str.trim s) ∧
      v = .ofStr (Str.trim s)) := by
  rw [← Value.parse_panic_iff, ← codeQuoted_eq]
  by_cases hw : Ws s
  · rw [Value.parse_ws hw]
    constructor
    · intro h; exact .inl ⟨hw, (Out.ok.inj h).symm⟩
    · rintro (⟨_, rfl⟩ | h | ⟨h, _⟩)
      · rfl
      · rw [Str.trim_ws hw] at h; exact absurd Ws.nil h.ne_ws
      · exact absurd hw h
  · by_cases hx : ∃ w, Reads Parser.CodeQuoted (Str.trim s) w
    · obtain ⟨w, h1⟩ := hx
      have h2 := Value.parse_reads h1
      rw [h2]
      constructor
      · intro h; rw [← Out.ok.inj h]; exact .inr (.inl h1)
      · rintro (⟨h, _⟩ | h | ⟨_, h, _⟩)
        · exact absurd h hw
        · rw [← h2, Value.parse_reads h]
        · exact absurd ⟨w, h1⟩ h
    · constructor
      · intro h
        rcases Value.parse_text hw hx with h2 | h2
        · rw [h2] at h
          exact .inr (.inr ⟨hw, hx, by rw [h2]; simp, (Out.ok.inj h).symm⟩)
        · rw [h2] at h; cases h
      · rintro (⟨h, _⟩ | h | ⟨_, _, h, rfl⟩)
        · exact absurd h hw
        · exact absurd ⟨v, h⟩ hx
        · exact (Value.parse_text hw hx).resolve_right h

example : Reads (Miscuts false) (str "[\"éa\\n\"]") (.ofArray [.ofStr (str "é\n")]) :=
  .array (a := []) (b := []) Ws.nil Ws.nil <| .last <| .string (a := []) (b := []) (s := str "éa\\n") Ws.nil Ws.nil <|
    Miscuts.cut (pre := str "éa") (rest := str "n") (a := str "é") (b := str "a\\n") (t := str "\n") (by decide) rfl rfl
      (.plain (by decide) (by decide) (by decide) <| .plain (by decide) (by decide) (by decide) <|
        .named (c := 'n') (by decide) .nil) rfl

/-- **C35**: no text is two values. -/
theorem C35_unambiguous_partial (s : Str) (hc : CleanText s) (v w : Value) (hv : Writes s v) (hw : Writes s w) : v = w := by
  have h1 := Value.parse_of_reads ((reads_clean hc).2 hv)
  rw [Value.parse_of_reads ((reads_clean hc).2 hw)] at h1
  exact (Out.ok.inj h1).symm

/-- **C35**: text without separators, dot and leading quote that is no boolean and no integer in range is itself. -/
theorem C35_plain (s : Str) (hs : s ≠ []) (hsep : ∀ c ∈ s, c ∉ separators ∧ c ≠ '.') (hq : s.head? ≠ some '"')
    (hq' : s.head? ≠ some '\'') (ht : Str.trim s = s) (hb : s ≠ str "true" ∧ s ≠ str "false")
    (hn : ∀ n : Int, IntText s n → if s.head? = some '-' then n < -(2 ^ 63) else 2 ^ 64 ≤ n) :
    Value.parse s = .ok (.ofStr s) := by
  obtain ⟨a, b, _, _, _, h3, h4⟩ := Str.trim_split s
  rw [ht] at h3 h4
  have hbare : Bare s (.ofStr s) := by
    refine .text hb.1 hb.2 (fun h => (hsep '.' h).2 rfl) ?_
    rintro ⟨n, h1, h2⟩
    have := hn n h1
    by_cases hh : s.head? = some '-'
    · rw [if_pos hh] at this h2; omega
    · rw [if_neg hh] at this h2; omega
  have := Reads.bare (Q := Parser.CodeQuoted) (a := []) (b := []) Ws.nil Ws.nil hs (fun c hc => (hsep c hc).1) hq hq' h3 h4 hbare
  exact Value.parse_of_reads (by simpa using this)

omit [FloatOps] in
example : let s := str "-- héllo \"wörld\" = 12"
    s ≠ [] ∧ (∀ c ∈ s, c ∉ separators ∧ c ≠ '.') ∧ s.head? ≠ some '"' ∧ s.head? ≠ some '\'' ∧ Str.trim s = s ∧
    (s ≠ str "true" ∧ s ≠ str "false") ∧
    ∀ n : Int, IntText s n → if s.head? = some '-' then n < -(2 ^ 63) else 2 ^ 64 ≤ n := by
  refine ⟨by decide, by decide, by decide, by decide, by decide, by decide, ?_⟩
  rintro n ⟨ds, _, hd, ⟨h, _⟩ | ⟨h, _⟩ | ⟨h, _⟩⟩
  · exact absurd (hd ' ' (by rw [← h]; decide)) (by decide)
  · cases h
  · have := (List.cons.inj h).2
    exact absurd (hd ' ' (by rw [← this]; decide)) (by decide)

-- Not values: `[a` is not closed, `a, b` has more than one item.
example : Value.parse (str " [a ") = .ok (.ofStr (str "[a")) ∧ Value.parse (str "a, b") = .ok (.ofStr (str "a, b")) :=
  ⟨rfl, rfl⟩
example : Value.parse (str " [a, , 'b',] ") = .ok (.ofArray [.ofStr (str "a"), .ofStr [], .ofChar 'b']) := rfl

end Figment
