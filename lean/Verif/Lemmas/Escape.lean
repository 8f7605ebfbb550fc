import Verif.Model.Parse
import Verif.Spec.Text
/-! # Lemmas about unescaping -/
namespace Figment

theorem charOfNat_some {n : Nat} {c : Char} : charOfNat n = some c ↔ n = c.toNat := by
  unfold charOfNat
  constructor
  · intro h
    split at h
    · rename_i hv
      simp only [Option.some.injEq] at h
      rw [← h]
      show n = (Char.ofNatAux n hv).val.toNat
      simp only [Char.ofNatAux]
      have := UInt32.toNat_ofNatLT (n := n) (h := by rcases hv with h | h <;> (simp [UInt32.size]; omega))
      exact this.symm
    · cases h
  · intro h
    subst h
    have hv : c.toNat.isValidChar := c.valid
    rw [dif_pos hv]
    congr 1

theorem Hex.isDigit_le {c : Char} (h : Hex.isDigit c = true) : c.toNat ≤ 0x7f := by
  simp only [Hex.isDigit, Bool.or_eq_true, Bool.and_eq_true, decide_eq_true_eq, Char.le_def, UInt32.le_iff_toNat_le] at h
  have e1 : '9'.val.toNat = 57 := rfl
  have e2 : 'f'.val.toNat = 102 := rfl
  have e3 : 'F'.val.toNat = 70 := rfl
  show c.val.toNat ≤ 127
  omega

theorem hexDigits_append {ds s : Str} (hd : ∀ c ∈ ds, Hex.isDigit c = true) :
    hexDigits ds.length (ds ++ s) = .ok (ds, s) := by
  induction ds with
  | nil => rfl
  | cons c r ih =>
    have h1 := hd c (by simp)
    simp only [List.length_cons, List.cons_append, hexDigits]
    rw [if_pos (by simp [h1, Hex.isDigit_le h1]), ih fun x hx => hd x (by simp [hx])]
    rfl

theorem hexDigits_ok {n : Nat} {s ds r : Str} (h : hexDigits n s = .ok (ds, r)) :
    s = ds ++ r ∧ ds.length = n ∧ ∀ c ∈ ds, Hex.isDigit c = true := by
  induction n generalizing s ds with
  | zero =>
    simp only [hexDigits, Out.ok.injEq, Prod.mk.injEq] at h
    obtain ⟨rfl, rfl⟩ := h
    simp
  | succ n ih =>
    cases s with
    | nil => cases h
    | cons c s =>
      simp only [hexDigits] at h
      split at h
      · rename_i hc
        cases hh : hexDigits n s with
        | ok p =>
          obtain ⟨a, b⟩ := p
          rw [hh] at h
          simp only [Out.bind, Out.ok.injEq, Prod.mk.injEq] at h
          obtain ⟨rfl, rfl⟩ := h
          obtain ⟨h1, h2, h3⟩ := ih hh
          refine ⟨by rw [h1]; rfl, by simp [h2], ?_⟩
          intro x hx
          rcases List.mem_cons.1 hx with rfl | hx
          · simp only [Bool.and_eq_true] at hc; exact hc.2
          · exact h3 x hx
        | err e => rw [hh] at h; cases h
        | panic => rw [hh] at h; cases h
        | loop => rw [hh] at h; cases h
      · cases h

theorem hexDigits_total (n : Nat) (s : Str) : (∃ p, hexDigits n s = .ok p) ∨ ∃ e, hexDigits n s = .err e := by
  induction n generalizing s with
  | zero => exact .inl ⟨_, rfl⟩
  | succ n ih =>
    cases s with
    | nil => exact .inr ⟨_, rfl⟩
    | cons c s =>
      simp only [hexDigits]
      split
      · rcases ih s with ⟨p, hp⟩ | ⟨e, he⟩
        · rw [hp]; exact .inl ⟨_, rfl⟩
        · rw [he]; exact .inr ⟨_, rfl⟩
      · exact .inr ⟨_, rfl⟩

theorem hex_append {ds s : Str} {m : Char} (hd : ∀ c ∈ ds, Hex.isDigit c = true) (hv : Hex.val 0 ds = m.toNat) :
    hex (ds ++ s) ds.length = .ok (m, s) := by
  simp only [hex, hexDigits_append hd, Out.bind, charOfNat_some.2 hv]

theorem hex_ok {n : Nat} {s r : Str} {m : Char} (h : hex s n = .ok (m, r)) :
    ∃ ds, s = ds ++ r ∧ ds.length = n ∧ (∀ c ∈ ds, Hex.isDigit c = true) ∧ Hex.val 0 ds = m.toNat := by
  rw [hex] at h
  rcases hexDigits_total n s with ⟨⟨ds, r'⟩, hp⟩ | ⟨e, he⟩
  · rw [hp] at h
    simp only [Out.bind] at h
    cases hc : charOfNat (Hex.val 0 ds) with
    | none => rw [hc] at h; cases h
    | some c =>
      rw [hc] at h
      simp only [Out.ok.injEq, Prod.mk.injEq] at h
      obtain ⟨rfl, rfl⟩ := h
      obtain ⟨h1, h2, h3⟩ := hexDigits_ok hp
      exact ⟨ds, h1, h2, h3, charOfNat_some.1 hc⟩
  · rw [he] at h; cases h

theorem hex_total (s : Str) (n : Nat) : (∃ p, hex s n = .ok p) ∨ ∃ e, hex s n = .err e := by
  rw [hex]
  rcases hexDigits_total n s with ⟨⟨ds, r'⟩, hp⟩ | ⟨e, he⟩
  · rw [hp]
    simp only [Out.bind]
    cases hc : charOfNat (Hex.val 0 ds) with
    | none => exact .inr ⟨_, rfl⟩
    | some c => exact .inl ⟨_, rfl⟩
  · rw [he]; exact .inr ⟨_, rfl⟩

theorem escapePlain_iff {c : Char} : escapePlain c = true ↔ ¬ isControl c := by
  have h : c.toNat ≤ 0x10ffff := by
    have := c.valid
    show c.val.toNat ≤ _
    rcases this with h | h
    · have : c.val.toNat < 0xd800 := h; omega
    · have : c.val.toNat < 0x110000 := h.2; omega
  simp only [escapePlain, isControl, Bool.or_eq_true, Bool.and_eq_true, decide_eq_true_eq]
  omega

/-- Reading one escape: the character and the rest. -/
def readEscape : Str → Out EscapeError (Char × Str)
  | '"' :: r => .ok ('"', r)
  | '\\' :: r => .ok ('\\', r)
  | 'b' :: r => .ok (Char.ofNat 0x8, r)
  | 'f' :: r => .ok (Char.ofNat 0xc, r)
  | 'n' :: r => .ok ('\n', r)
  | 'r' :: r => .ok ('\r', r)
  | 't' :: r => .ok ('\t', r)
  | 'u' :: r => hex r 4
  | 'U' :: r => hex r 8
  | c :: _ => .err (.invalidEscape c)
  | [] => .err .unterminatedString

theorem escapeLoop_escape (string : Str) (n i : Nat) (chars val : Str) :
    ∃ j, escapeLoop string (n + 1) i ('\\' :: chars) (some val) =
      (readEscape chars).bind fun (c, r) => escapeLoop string n j r (some (val ++ [c])) := by
  rw [escapeLoop.eq_def]
  dsimp only
  rw [if_pos rfl]
  split
  all_goals first
    | exact ⟨i + 2, rfl⟩
    | exact ⟨i + 6, rfl⟩
    | exact ⟨i + 10, rfl⟩
    | exact ⟨0, rfl⟩
    | skip
  refine ⟨0, ?_⟩
  simp only [readEscape, Out.bind]

theorem escapeLoop_none (string : Str) (n i : Nat) (chars : Str) :
    escapeLoop string (n + 1) i ('\\' :: chars) none =
      match Str.sliceTo string i with
      | none => .panic
      | some val => escapeLoop string (n + 1) i ('\\' :: chars) (some val) := by
  rw [escapeLoop.eq_def]
  dsimp only
  rw [if_pos rfl]
  cases hs : Str.sliceTo string i with
  | none => rfl
  | some val =>
    simp only
    rw [escapeLoop.eq_def]
    dsimp only
    rw [if_pos rfl]

theorem escapeLoop_plain (string : Str) (n i : Nat) {c : Char} (hc : c ≠ '\\') (hp : ¬ isControl c) (chars : Str)
    (o : Option Str) :
    escapeLoop string (n + 1) i (c :: chars) o = escapeLoop string n (i + 1) chars (o.map (· ++ [c])) := by
  rw [escapeLoop.eq_def]
  dsimp only
  rw [if_neg hc, if_pos (escapePlain_iff.2 hp)]

theorem readEscape_named {c m : Char} (h : (c, m) ∈ namedEscapes) (r : Str) : readEscape (c :: r) = .ok (m, r) := by
  simp only [namedEscapes, List.mem_cons, Prod.mk.injEq, List.not_mem_nil, or_false] at h
  rcases h with ⟨rfl, rfl⟩ | ⟨rfl, rfl⟩ | ⟨rfl, rfl⟩ | ⟨rfl, rfl⟩ | ⟨rfl, rfl⟩ | ⟨rfl, rfl⟩ | ⟨rfl, rfl⟩ <;> rfl

theorem readEscape_hex4 (r : Str) : readEscape ('u' :: r) = hex r 4 := rfl
theorem readEscape_hex8 (r : Str) : readEscape ('U' :: r) = hex r 8 := rfl

/-- What one escape can be. -/
theorem readEscape_ok {s r : Str} {m : Char} (h : readEscape s = .ok (m, r)) :
    (∃ c, s = c :: r ∧ (c, m) ∈ namedEscapes) ∨
    (∃ ds, s = 'u' :: (ds ++ r) ∧ ds.length = 4 ∧ (∀ c ∈ ds, Hex.isDigit c = true) ∧ Hex.val 0 ds = m.toNat) ∨
    (∃ ds, s = 'U' :: (ds ++ r) ∧ ds.length = 8 ∧ (∀ c ∈ ds, Hex.isDigit c = true) ∧ Hex.val 0 ds = m.toNat) := by
  unfold readEscape at h
  split at h
  iterate 7
    · simp only [Out.ok.injEq, Prod.mk.injEq] at h
      obtain ⟨rfl, rfl⟩ := h
      exact .inl ⟨_, rfl, by decide⟩
  · obtain ⟨ds, h1, h2, h3, h4⟩ := hex_ok h
    exact .inr (.inl ⟨ds, by rw [h1], h2, h3, h4⟩)
  · obtain ⟨ds, h1, h2, h3, h4⟩ := hex_ok h
    exact .inr (.inr ⟨ds, by rw [h1], h2, h3, h4⟩)
  · cases h
  · cases h

theorem readEscape_total (s : Str) : (∃ p, readEscape s = .ok p) ∨ ∃ e, readEscape s = .err e := by
  unfold readEscape
  split
  iterate 7 exact .inl ⟨_, rfl⟩
  · exact hex_total _ _
  · exact hex_total _ _
  · exact .inr ⟨_, rfl⟩
  · exact .inr ⟨_, rfl⟩

theorem readEscape_shorter {s r : Str} {m : Char} (h : readEscape s = .ok (m, r)) : r.length < s.length := by
  rcases readEscape_ok h with ⟨c, rfl, _⟩ | ⟨ds, rfl, hl, _⟩ | ⟨ds, rfl, hl, _⟩ <;> simp <;> omega

theorem Unescapes.escape {q : Bool} {s t r : Str} {m : Char} (h : readEscape s = .ok (m, r)) (hr : Unescapes q r t) :
    Unescapes q ('\\' :: s) (m :: t) := by
  rcases readEscape_ok h with ⟨c, rfl, hc⟩ | ⟨ds, rfl, hl, hd, hv⟩ | ⟨ds, rfl, hl, hd, hv⟩
  · exact .named hc hr
  · exact .hex4 hl hd hv hr
  · exact .hex8 hl hd hv hr

/-- An escape in text that stands for something. -/
theorem Unescapes.of_escape {q : Bool} {s t : Str} (h : Unescapes q ('\\' :: s) t) :
    ∃ m r t', readEscape s = .ok (m, r) ∧ t = m :: t' ∧ Unescapes q r t' := by
  generalize hs : '\\' :: s = s' at h
  cases h with
  | nil => cases hs
  | plain h1 _ _ _ => exact absurd (List.cons.inj hs).1.symm h1
  | named h1 hr =>
    obtain rfl := (List.cons.inj hs).2
    exact ⟨_, _, _, readEscape_named h1 _, rfl, hr⟩
  | hex4 hl hd hv hr =>
    obtain rfl := (List.cons.inj hs).2
    exact ⟨_, _, _, by rw [readEscape_hex4, ← hl]; exact hex_append hd hv, rfl, hr⟩
  | hex8 hl hd hv hr =>
    obtain rfl := (List.cons.inj hs).2
    exact ⟨_, _, _, by rw [readEscape_hex8, ← hl]; exact hex_append hd hv, rfl, hr⟩

theorem Unescapes.of_plain {q : Bool} {c : Char} {s t : Str} (hc : c ≠ '\\') (h : Unescapes q (c :: s) t) :
    ¬ isControl c ∧ (c = '"' → q = true) ∧ ∃ t', t = c :: t' ∧ Unescapes q s t' := by
  generalize hs : c :: s = s' at h
  cases h with
  | nil => cases hs
  | plain _ h2 h3 h4 =>
    obtain ⟨rfl, rfl⟩ := List.cons.inj hs
    exact ⟨h2, h3, _, rfl, h4⟩
  | named _ _ => exact absurd (List.cons.inj hs).1 hc
  | hex4 _ _ _ _ => exact absurd (List.cons.inj hs).1 hc
  | hex8 _ _ _ _ => exact absurd (List.cons.inj hs).1 hc

/-- Once output is allocated, the loop does what the specification says. -/
theorem escapeLoop_spec (string : Str) : ∀ (n i : Nat) (s val : Str), s.length ≤ n →
    (∀ t, Unescapes true s t → escapeLoop string n i s (some val) = .ok (val ++ t)) ∧
    ((∃ t, Unescapes true s t) ∨ ∃ e, escapeLoop string n i s (some val) = .err e) := by
  intro n
  induction n with
  | zero =>
    intro i s val hn
    cases s with
    | nil =>
      refine ⟨fun t ht => ?_, .inl ⟨_, .nil⟩⟩
      cases ht; simp [escapeLoop]
    | cons c s => simp at hn
  | succ n ih =>
    intro i s val hn
    cases s with
    | nil =>
      refine ⟨fun t ht => ?_, .inl ⟨_, .nil⟩⟩
      cases ht; simp [escapeLoop]
    | cons c s =>
      simp only [List.length_cons, Nat.add_le_add_iff_right] at hn
      by_cases hc : c = '\\'
      · subst hc
        obtain ⟨j, hj⟩ := escapeLoop_escape string n i s val
        rw [hj]
        constructor
        · intro t ht
          obtain ⟨m, r, t', h1, rfl, h2⟩ := ht.of_escape
          have := readEscape_shorter h1
          rw [h1]
          simp only [Out.bind]
          rw [(ih j r (val ++ [m]) (by omega)).1 t' h2]
          simp
        · rcases readEscape_total s with ⟨⟨m, r⟩, h1⟩ | ⟨e, he⟩
          · have := readEscape_shorter h1
            rw [h1]
            simp only [Out.bind]
            rcases (ih j r (val ++ [m]) (by omega)).2 with ⟨t, ht⟩ | he
            · exact .inl ⟨_, .escape h1 ht⟩
            · exact .inr he
          · rw [he]; exact .inr ⟨_, rfl⟩
      · by_cases hp : isControl c
        · constructor
          · intro t ht; exact absurd hp (ht.of_plain hc).1
          · right
            rw [escapeLoop.eq_def]
            dsimp only
            rw [if_neg hc, if_neg (by rw [escapePlain_iff]; simpa using hp)]
            exact ⟨_, rfl⟩
        · rw [escapeLoop_plain string n i hc hp]
          simp only [Option.map_some]
          constructor
          · intro t ht
            obtain ⟨_, _, t', rfl, h2⟩ := ht.of_plain hc
            rw [(ih (i + 1) s (val ++ [c]) hn).1 t' h2]; simp
          · rcases (ih (i + 1) s (val ++ [c]) hn).2 with ⟨t, ht⟩ | he
            · exact .inl ⟨_, .plain hc hp (fun _ => rfl) ht⟩
            · exact .inr he

theorem Unescapes.self {s : Str} (h : ∀ c ∈ s, c ≠ '\\' ∧ ¬ isControl c) : Unescapes true s s := by
  induction s with
  | nil => exact .nil
  | cons c s ih =>
    exact .plain (h c (by simp)).1 (h c (by simp)).2 (fun _ => rfl) (ih fun x hx => h x (by simp [hx]))

/-- Before output is allocated. -/
theorem escapeLoop_borrowed (string : Str) : ∀ (pre rest : Str) (n i : Nat), (pre ++ rest).length ≤ n →
    (∀ c ∈ pre, c ≠ '\\' ∧ ¬ isControl c) →
    escapeLoop string n i (pre ++ rest) none = escapeLoop string (n - pre.length) (i + pre.length) rest none
  | [], rest, n, i, _, _ => rfl
  | c :: pre, rest, n, i, hn, h => by
    cases n with
    | zero => simp at hn
    | succ n =>
      simp only [List.cons_append, List.length_cons, Nat.add_le_add_iff_right] at hn
      rw [List.cons_append, escapeLoop_plain string n i (h c (by simp)).1 (h c (by simp)).2]
      rw [Option.map_none, escapeLoop_borrowed string pre rest n (i + 1) hn fun x hx => h x (by simp [hx])]
      simp only [List.length_cons]
      congr 1 <;> omega

theorem Str.sliceTo_ascii {pre rest : Str} (h : ∀ c ∈ pre, c.toNat < 128) :
    Str.sliceTo (pre ++ rest) pre.length = some pre := by
  induction pre with
  | nil => cases rest <;> rfl
  | cons c pre ih =>
    have hc : Str.utf8Len c = 1 := by simp [Str.utf8Len, h c (by simp)]
    simp only [List.cons_append, List.length_cons, Str.sliceTo, hc]
    rw [if_pos (by omega), Nat.add_sub_cancel, ih fun x hx => h x (by simp [hx])]
    rfl

/-- The text up to the first backslash. -/
theorem Str.split_backslash (s : Str) :
    ('\\' ∉ s) ∨ ∃ pre rest, s = pre ++ '\\' :: rest ∧ '\\' ∉ pre := by
  induction s with
  | nil => exact .inl (by simp)
  | cons c s ih =>
    by_cases hc : c = '\\'
    · exact .inr ⟨[], s, by simp [hc], by simp⟩
    · rcases ih with h | ⟨pre, rest, rfl, h⟩
      · exact .inl (by simp [h, Ne.symm hc])
      · exact .inr ⟨c :: pre, rest, rfl, by simp [h, Ne.symm hc]⟩

theorem escape_bad {s : Str} {pre rest : Str} {c : Char} (hs : s = pre ++ c :: rest) (hp : ∀ x ∈ pre, x ≠ '\\' ∧ ¬ isControl x)
    (hc : isControl c) : escape s = .err (.invalidCharInString c) := by
  rw [escape]
  conv => lhs; arg 4; rw [hs]
  rw [escapeLoop_borrowed s pre (c :: rest) _ _ (by rw [hs]; simp) hp]
  have hlen : s.length - pre.length = rest.length + 1 := by rw [hs]; simp
  have hb : c ≠ '\\' := by
    rintro rfl
    rcases hc with ⟨h, _⟩ | h <;> exact absurd h (by decide)
  rw [hlen, escapeLoop.eq_def]
  dsimp only
  rw [if_neg hb, if_neg (by rw [escapePlain_iff]; simpa using hc)]

/-- The first control character, if any. -/
theorem Str.split_control (s : Str) :
    (∀ x ∈ s, ¬ isControl x) ∨ ∃ pre c rest, s = pre ++ c :: rest ∧ (∀ x ∈ pre, ¬ isControl x) ∧ isControl c := by
  induction s with
  | nil => exact .inl (by simp)
  | cons c s ih =>
    by_cases hc : isControl c
    · exact .inr ⟨[], c, s, rfl, by simp, hc⟩
    · rcases ih with h | ⟨pre, c', rest, rfl, h, h'⟩
      · refine .inl fun x hx => ?_
        rcases List.mem_cons.1 hx with rfl | hx
        · exact hc
        · exact h x hx
      · refine .inr ⟨c :: pre, c', rest, rfl, fun x hx => ?_, h'⟩
        rcases List.mem_cons.1 hx with rfl | hx
        · exact hc
        · exact h x hx

theorem Unescapes.prefix_plain {q : Bool} {pre s t : Str} (hp : '\\' ∉ pre) (h : Unescapes q (pre ++ s) t) :
    (∀ c ∈ pre, ¬ isControl c) ∧ ∃ t', t = pre ++ t' ∧ Unescapes q s t' := by
  induction pre generalizing t with
  | nil => exact ⟨by simp, t, rfl, h⟩
  | cons c pre ih =>
    obtain ⟨h1, _, t', rfl, h2⟩ := h.of_plain (by intro hc; simp [hc] at hp)
    obtain ⟨h3, t'', rfl, h4⟩ := ih (by intro hc; simp [hc] at hp) h2
    refine ⟨fun x hx => ?_, t'', rfl, h4⟩
    rcases List.mem_cons.1 hx with rfl | hx
    · exact h1
    · exact h3 x hx

theorem Unescapes.append_plain {pre s t : Str} (hp : '\\' ∉ pre) (hc : ∀ c ∈ pre, ¬ isControl c)
    (h : Unescapes true s t) : Unescapes true (pre ++ s) (pre ++ t) := by
  induction pre with
  | nil => exact h
  | cons c pre ih =>
    exact .plain (by intro hh; simp [hh] at hp) (hc c (by simp)) (fun _ => rfl)
      (ih (by intro hh; simp [hh] at hp) fun x hx => hc x (by simp [hx]))

/-- Exactly what `escape` does with text that has an escape: the part before is cut at a byte offset that is
the number of characters. -/
theorem escape_exact {pre rest : Str} (hp : '\\' ∉ pre) (hc : ∀ c ∈ pre, ¬ isControl c) :
    escape (pre ++ '\\' :: rest) =
      match Str.sliceTo (pre ++ '\\' :: rest) pre.length with
      | none => .panic
      | some q => escapeLoop (pre ++ '\\' :: rest) (rest.length + 1) pre.length ('\\' :: rest) (some q) := by
  have hn : (pre ++ '\\' :: rest).length = (rest.length + 1) + pre.length := by simp; omega
  rw [escape, escapeLoop_borrowed _ pre ('\\' :: rest) _ _ (Nat.le_refl _) (fun c hcm => ⟨fun he => hp (he ▸ hcm), hc c hcm⟩)]
  rw [hn, Nat.add_sub_cancel, Nat.zero_add, escapeLoop_none]

theorem escape_of_no_backslash {s : Str} (h : '\\' ∉ s) (hc : ∀ c ∈ s, ¬ isControl c) : escape s = .ok s := by
  have := escapeLoop_borrowed s s [] s.length 0 (by simp) (fun c hcm => ⟨fun he => h (he ▸ hcm), hc c hcm⟩)
  rw [List.append_nil] at this
  rw [escape, this]
  simp [escapeLoop]

/-- `escape` always ends, possibly with a panic. -/
theorem escape_total (s : Str) : escape s ≠ .loop := by
  rcases Str.split_backslash s with h | ⟨pre, rest, rfl, hp⟩
  · rcases Str.split_control s with hc | ⟨a, c, b, rfl, ha, hc⟩
    · rw [escape_of_no_backslash h hc]; simp
    · rw [escape_bad rfl (fun x hx => ⟨fun he => h (by rw [← he]; simp [hx]), ha x hx⟩) hc]; simp
  · rcases Str.split_control pre with hc | ⟨a, c, b, rfl, ha, hc⟩
    · rw [escape_exact hp hc]
      split
      · simp
      · rename_i q _
        rcases escapeLoop_spec (pre ++ '\\' :: rest) (rest.length + 1) pre.length ('\\' :: rest) q (by simp) with ⟨h1, h2⟩
        rcases h2 with ⟨t, ht⟩ | ⟨e, he⟩
        · rw [h1 t ht]; simp
        · rw [he]; simp
    · rw [List.append_assoc, escape_bad (s := a ++ (c :: b ++ '\\' :: rest)) rfl
        (fun x hx => ⟨fun he => hp (by rw [← he]; simp [hx]), ha x hx⟩) hc]
      simp

/-- With an ASCII part before the first backslash, `escape` is as specified. -/
theorem escape_spec {s : Str} (h : ∀ a b, s = a ++ '\\' :: b → '\\' ∉ a → ∀ c ∈ a, c.toNat < 128) :
    (∀ t, escape s = .ok t ↔ Unescapes true s t) ∧ ((∃ e, escape s = .err e) ↔ ¬ ∃ t, Unescapes true s t) := by
  have key : (∃ t, Unescapes true s t ∧ (∀ t', Unescapes true s t' → t' = t) ∧ escape s = .ok t) ∨
      ((¬ ∃ t, Unescapes true s t) ∧ ∃ e, escape s = .err e) := by
    rcases Str.split_backslash s with hb | ⟨pre, rest, rfl, hp⟩
    · rcases Str.split_control s with hc | ⟨a, c, b, rfl, ha, hc⟩
      · refine .inl ⟨s, .self fun c hcm => ⟨fun he => hb (he ▸ hcm), hc c hcm⟩, ?_, escape_of_no_backslash hb hc⟩
        intro t ht
        rw [← List.append_nil s] at ht
        obtain ⟨_, t', rfl, h2⟩ := ht.prefix_plain hb
        cases h2; simp
      · refine .inr ⟨?_, _, escape_bad rfl (fun x hx => ⟨fun he => hb (by rw [← he]; simp [hx]), ha x hx⟩) hc⟩
        rintro ⟨t, ht⟩
        rw [← List.append_nil (a ++ c :: b)] at ht
        exact (ht.prefix_plain hb).1 c (by simp) hc
    · rcases Str.split_control pre with hc | ⟨a, c, b, rfl, ha, hc⟩
      · have hslice := Str.sliceTo_ascii (rest := '\\' :: rest) (h pre rest rfl hp)
        have hex := escape_exact (rest := rest) hp hc
        rw [hslice] at hex
        simp only at hex
        rcases escapeLoop_spec (pre ++ '\\' :: rest) (rest.length + 1) pre.length ('\\' :: rest) pre (by simp) with ⟨h1, h2⟩
        rw [← hex] at h1 h2
        rcases h2 with ⟨t, ht⟩ | ⟨e, he⟩
        · refine .inl ⟨pre ++ t, .append_plain hp hc ht, ?_, h1 t ht⟩
          intro t' ht'
          obtain ⟨_, t'', rfl, h3⟩ := ht'.prefix_plain hp
          have := (h1 t ht).symm.trans (h1 t'' h3)
          exact (Out.ok.inj this).symm
        · refine .inr ⟨?_, e, he⟩
          rintro ⟨t, ht⟩
          obtain ⟨_, t', rfl, h3⟩ := ht.prefix_plain hp
          rw [h1 t' h3] at he; cases he
      · refine .inr ⟨?_, _, by
          rw [List.append_assoc]
          exact escape_bad (s := a ++ (c :: b ++ '\\' :: rest)) rfl
            (fun x hx => ⟨fun he => hp (by rw [← he]; simp [hx]), ha x hx⟩) hc⟩
        rintro ⟨t, ht⟩
        exact (ht.prefix_plain hp).1 c (by simp) hc
  rcases key with ⟨t, h1, h2, h3⟩ | ⟨h1, e, h2⟩
  · refine ⟨fun t' => ⟨fun h4 => ?_, fun h4 => ?_⟩, ?_⟩
    · rw [h3] at h4; rw [← Out.ok.inj h4]; exact h1
    · rw [h2 t' h4, h3]
    · rw [h3]
      constructor
      · rintro ⟨e, he⟩; cases he
      · intro hh; exact absurd ⟨t, h1⟩ hh
  · refine ⟨fun t' => ⟨fun h4 => ?_, fun h4 => absurd ⟨t', h4⟩ h1⟩, fun _ => h1, fun _ => ⟨e, h2⟩⟩
    rw [h2] at h4; cases h4

end Figment
