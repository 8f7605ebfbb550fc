import Verif.Lemmas.Escape
/-! # Lemmas about white space, quoted strings and keys -/
namespace Figment

namespace Ws
theorem nil : Ws [] := by simp [Ws]
theorem append {a b : Str} (ha : Ws a) (hb : Ws b) : Ws (a ++ b) := by
  intro c hc
  rcases List.mem_append.1 hc with h | h
  · exact ha c h
  · exact hb c h
theorem of_append {a b : Str} (h : Ws (a ++ b)) : Ws a ∧ Ws b :=
  ⟨fun c hc => h c (by simp [hc]), fun c hc => h c (by simp [hc])⟩
theorem reverse {a : Str} (h : Ws a) : Ws a.reverse := fun c hc => h c (List.mem_reverse.1 hc)
end Ws

namespace Str

theorem trimStart_ws {a : Str} (ha : Ws a) (s : Str) : trimStart (a ++ s) = trimStart s := by
  induction a with
  | nil => rfl
  | cons c a ih =>
    have := ha c (by simp)
    rw [List.cons_append, trimStart, List.dropWhile_cons, if_pos this]
    exact ih fun x hx => ha x (by simp [hx])

theorem trimStart_cons {c : Char} (h : isWs c = false) (s : Str) : trimStart (c :: s) = c :: s := by
  rw [trimStart, List.dropWhile_cons, if_neg (by simp [h])]

/-- No white space in front. -/
def Trimmed (s : Str) : Prop := ∀ c, s.head? = some c → isWs c = false

theorem Trimmed.eq {s : Str} (h : Trimmed s) : trimStart s = s := by
  cases s with
  | nil => rfl
  | cons c s => exact trimStart_cons (h c rfl) s

theorem trimStart_trimmed (s : Str) : Trimmed (trimStart s) := by
  induction s with
  | nil => intro c hc; simp [trimStart] at hc
  | cons c s ih =>
    by_cases h : isWs c = true
    · rw [trimStart, List.dropWhile_cons, if_pos h]; exact ih
    · intro x hx
      rw [trimStart_cons (by simpa using h)] at hx
      simp only [List.head?_cons, Option.some.injEq] at hx
      subst hx; simpa using h

theorem trimStart_split (s : Str) : ∃ a, Ws a ∧ s = a ++ trimStart s := by
  induction s with
  | nil => exact ⟨[], Ws.nil, rfl⟩
  | cons c s ih =>
    by_cases h : isWs c = true
    · obtain ⟨a, ha, hs⟩ := ih
      refine ⟨c :: a, ?_, ?_⟩
      · intro x hx
        rcases List.mem_cons.1 hx with rfl | hx
        · exact h
        · exact ha x hx
      · rw [trimStart, List.dropWhile_cons, if_pos h]
        exact congrArg (c :: ·) hs
    · exact ⟨[], Ws.nil, by rw [trimStart_cons (by simpa using h)]; rfl⟩

theorem trimStart_suffix (s : Str) : trimStart s <:+ s := List.dropWhile_suffix _

theorem trimStart_length (s : Str) : (trimStart s).length ≤ s.length := (trimStart_suffix s).length_le

theorem trimEnd_split (s : Str) : ∃ b, Ws b ∧ s = trimEnd s ++ b := by
  obtain ⟨a, ha, hs⟩ := trimStart_split s.reverse
  refine ⟨a.reverse, ha.reverse, ?_⟩
  have := congrArg List.reverse hs
  rw [List.reverse_reverse, List.reverse_append] at this
  exact this

theorem trimEnd_last (s : Str) : ∀ c, (trimEnd s).getLast? = some c → isWs c = false := by
  intro c hc
  rw [trimEnd, List.getLast?_reverse] at hc
  exact trimStart_trimmed s.reverse c hc

theorem head?_append_of_ne {a b : Str} (h : a ≠ []) : (a ++ b).head? = a.head? := by
  cases a with
  | nil => exact absurd rfl h
  | cons c a => rfl

theorem trimEnd_of_last {s b : Str} (hb : Ws b) (h : ∀ c, s.getLast? = some c → isWs c = false) :
    trimEnd (s ++ b) = s := by
  rw [trimEnd, List.reverse_append]
  have h1 := trimStart_ws hb.reverse s.reverse
  rw [trimStart] at h1
  rw [h1]
  have h2 : Trimmed s.reverse := by intro c hc; exact h c (by rw [List.head?_reverse] at hc; exact hc)
  rw [h2.eq, List.reverse_reverse]

/-- What trimming is: white space on both sides, and no more. -/
theorem trim_split (s : Str) : ∃ a b, Ws a ∧ Ws b ∧ s = a ++ (trim s ++ b) ∧
    (∀ c, (trim s).head? = some c → isWs c = false) ∧ (∀ c, (trim s).getLast? = some c → isWs c = false) := by
  obtain ⟨a, ha, h1⟩ := trimStart_split s
  obtain ⟨b, hb, h2⟩ := trimEnd_split (trimStart s)
  refine ⟨a, b, ha, hb, ?_, ?_, trimEnd_last _⟩
  · rw [trim, ← h2]; exact h1
  · intro c hc
    apply trimStart_trimmed s c
    rw [h2, head?_append_of_ne]
    · exact hc
    · intro h
      rw [trim, h] at hc
      cases hc

theorem trim_of_split {a s b : Str} (ha : Ws a) (hb : Ws b) (h1 : ∀ c, s.head? = some c → isWs c = false)
    (h2 : ∀ c, s.getLast? = some c → isWs c = false) : trim (a ++ (s ++ b)) = s := by
  rw [trim, trimStart_ws ha]
  cases s with
  | nil =>
    rw [List.nil_append]
    have : trimStart b = [] := by have := trimStart_ws hb []; rw [List.append_nil] at this; rw [this]; rfl
    rw [this]; rfl
  | cons c s =>
    rw [List.cons_append, trimStart_cons (h1 c rfl), ← List.cons_append]
    exact trimEnd_of_last hb h2

theorem trim_trim (s : Str) : trim (trim s) = trim s := by
  obtain ⟨a, b, _, _, _, h3, h4⟩ := trim_split s
  have := trim_of_split Ws.nil Ws.nil h3 h4
  rwa [List.nil_append, List.append_nil] at this

theorem trim_ws {a : Str} (h : Ws a) : trim a = [] := by
  have := trim_of_split (s := []) h Ws.nil (by simp) (by simp)
  rwa [List.nil_append, List.append_nil] at this

theorem trim_eq_nil {s : Str} (h : trim s = []) : Ws s := by
  obtain ⟨a, b, ha, hb, hs, _⟩ := trim_split s
  rw [h] at hs
  rw [hs]
  exact ha.append hb

theorem trim_surround {a b : Str} (ha : Ws a) (hb : Ws b) (s : Str) : trim (a ++ (s ++ b)) = trim s := by
  obtain ⟨c, d, hc, hd, hs, h3, h4⟩ := trim_split s
  have : a ++ (s ++ b) = (a ++ c) ++ (trim s ++ (d ++ b)) := by
    conv => lhs; rw [hs]
    simp
  rw [this, trim_of_split (ha.append hc) (hd.append hb) h3 h4]

end Str

namespace CleanText
theorem suffix {a s : Str} (h : CleanText (a ++ s)) : CleanText s := by
  intro x y z hs h1 h2 c hc
  exact h (a ++ x) y z (by rw [hs]; simp) h1 h2 c hc
theorem «prefix» {s b : Str} (h : CleanText (s ++ b)) : CleanText s := by
  intro x y z hs h1 h2 c hc
  exact h x y (z ++ b) (by rw [hs]; simp) h1 h2 c hc
theorem of_suffix {r s : Str} (h : CleanText s) (hr : r <:+ s) : CleanText r := by
  obtain ⟨a, rfl⟩ := hr
  exact h.suffix
theorem trim {s : Str} (h : CleanText s) : CleanText (Str.trim s) := by
  obtain ⟨a, b, _, _, hs, _⟩ := Str.trim_split s
  rw [hs] at h
  exact h.suffix.prefix
theorem of_ascii {s : Str} (h : ∀ c ∈ s, c.toNat < 128) : CleanText s := by
  rintro x y z rfl _ _ c hc
  exact h c (by simp [hc])
theorem of_no_backslash {s : Str} (h : '\\' ∉ s) : CleanText s := by
  rintro x y z rfl
  exact absurd (by simp) h
theorem of_no_quote {s : Str} (h : '"' ∉ s) : CleanText s := by
  rintro x y z rfl
  exact absurd (by simp) h
end CleanText

/-- The text before the first backslash is ASCII. -/
def AsciiFront (s : Str) : Prop := ∀ a b, s = a ++ '\\' :: b → '\\' ∉ a → ∀ c ∈ a, c.toNat < 128

theorem escape_front_total {s : Str} (h : AsciiFront s) : (∃ t, escape s = .ok t) ∨ ∃ e, escape s = .err e := by
  obtain ⟨h1, h2⟩ := escape_spec h
  by_cases hu : ∃ t, Unescapes true s t
  · obtain ⟨t, ht⟩ := hu
    exact .inl ⟨t, (h1 t).2 ht⟩
  · exact .inr (h2.2 hu)

namespace Parser

/-- No quote that is not escaped; the flag says whether the text starts after a backslash. -/
def NoQuote : Bool → Str → Prop
  | _, [] => True
  | true, _ :: r => NoQuote false r
  | false, c :: r => if c = '\\' then NoQuote true r else c ≠ '"' ∧ NoQuote false r

theorem quotedInner_split (e : Bool) (s : Str) :
    s = (quotedInner e s).1 ++ (quotedInner e s).2 ∧ NoQuote e (quotedInner e s).1 := by
  induction s generalizing e with
  | nil => cases e <;> simp [quotedInner, NoQuote]
  | cons c r ih =>
    cases e with
    | true =>
      obtain ⟨h1, h2⟩ := ih false
      refine ⟨?_, ?_⟩
      · simp only [quotedInner, List.cons_append, List.cons.injEq, true_and]; exact h1
      · simp only [quotedInner, NoQuote]; exact h2
    | false =>
      by_cases hc : c = '\\'
      · obtain ⟨h1, h2⟩ := ih true
        simp only [quotedInner, if_pos hc]
        refine ⟨?_, ?_⟩
        · simp only [List.cons_append, List.cons.injEq, true_and]; exact h1
        · simp only [NoQuote, if_pos hc]; exact h2
      · by_cases hq : c = '"'
        · simp [quotedInner, hq, NoQuote]
        · obtain ⟨h1, h2⟩ := ih false
          simp only [quotedInner, if_neg hc, if_pos (show c ≠ '"' from hq)]
          refine ⟨?_, ?_⟩
          · simp only [List.cons_append, List.cons.injEq, true_and]; exact h1
          · simp only [NoQuote, if_neg hc]; exact ⟨hq, h2⟩

theorem hexDigit_ne {c : Char} (h : Hex.isDigit c = true) : c ≠ '\\' ∧ c ≠ '"' := by
  constructor <;> (rintro rfl; revert h; decide)

theorem noQuote_hex {ds s : Str} (hd : ∀ c ∈ ds, Hex.isDigit c = true) : NoQuote false (ds ++ s) ↔ NoQuote false s := by
  induction ds with
  | nil => rfl
  | cons c r ih =>
    obtain ⟨h1, h2⟩ := hexDigit_ne (hd c (by simp))
    rw [List.cons_append, NoQuote, if_neg h1, ih fun x hx => hd x (by simp [hx])]
    simp [h2]

theorem quotedInner_hex {ds s : Str} (hd : ∀ c ∈ ds, Hex.isDigit c = true) :
    quotedInner false (ds ++ s) = (ds ++ (quotedInner false s).1, (quotedInner false s).2) := by
  induction ds with
  | nil => rfl
  | cons c r ih =>
    obtain ⟨h1, h2⟩ := hexDigit_ne (hd c (by simp))
    rw [List.cons_append, quotedInner, if_neg h1, if_pos h2, ih fun x hx => hd x (by simp [hx])]
    rfl

end Parser

namespace Unescapes

theorem loosen {s t : Str} (h : Unescapes false s t) : Unescapes true s t := by
  induction h with
  | nil => exact .nil
  | plain h hc _ _ ih => exact .plain h hc (fun _ => rfl) ih
  | named h _ ih => exact .named h ih
  | hex4 hl hd hv _ ih => exact .hex4 hl hd hv ih
  | hex8 hl hd hv _ ih => exact .hex8 hl hd hv ih

theorem tighten {s t : Str} (h : Unescapes true s t) (hq : Parser.NoQuote false s) : Unescapes false s t := by
  induction h with
  | nil => exact .nil
  | plain h hc _ _ ih =>
    rw [Parser.NoQuote, if_neg h] at hq
    exact .plain h hc (fun he => absurd he hq.1) (ih hq.2)
  | named h _ ih =>
    rw [Parser.NoQuote, if_pos rfl, Parser.NoQuote] at hq
    exact .named h (ih hq)
  | hex4 hl hd hv _ ih =>
    rw [Parser.NoQuote, if_pos rfl, Parser.NoQuote, Parser.noQuote_hex hd] at hq
    exact .hex4 hl hd hv (ih hq)
  | hex8 hl hd hv _ ih =>
    rw [Parser.NoQuote, if_pos rfl, Parser.NoQuote, Parser.noQuote_hex hd] at hq
    exact .hex8 hl hd hv (ih hq)

theorem quotedInner {s t : Str} (h : Unescapes false s t) (r : Str) :
    Parser.quotedInner false (s ++ '"' :: r) = (s, '"' :: r) := by
  induction h with
  | nil => simp [Parser.quotedInner]
  | plain h hc hq _ ih =>
    rw [List.cons_append, Parser.quotedInner, if_neg h, if_pos (fun he => by simpa using hq he), ih]
  | named h _ ih =>
    rw [List.cons_append, List.cons_append, Parser.quotedInner, if_pos rfl, Parser.quotedInner, ih]
  | hex4 hl hd hv _ ih =>
    rw [List.cons_append, List.cons_append, Parser.quotedInner, if_pos rfl, Parser.quotedInner, List.append_assoc,
      Parser.quotedInner_hex hd, ih]
  | hex8 hl hd hv _ ih =>
    rw [List.cons_append, List.cons_append, Parser.quotedInner, if_pos rfl, Parser.quotedInner, List.append_assoc,
      Parser.quotedInner_hex hd, ih]

end Unescapes

namespace Parser

theorem eat_ok {c d : Char} {s r : Str} (h : eat c s = .ok (d, r)) : s = c :: r := by
  cases s with
  | nil => cases h
  | cons x s =>
    simp only [eat] at h
    split at h
    · rename_i hx
      simp only [Out.ok.injEq, Prod.mk.injEq] at h
      rw [hx, h.2]
    · cases h

theorem eat_cons (c : Char) (r : Str) : eat c (c :: r) = .ok (c, r) := by simp [eat]

theorem eat_total (c : Char) (s : Str) : (∃ r, eat c s = .ok (c, r) ∧ s = c :: r) ∨ eat c s = .err (.expected c) := by
  cases s with
  | nil => exact .inr rfl
  | cons x s =>
    by_cases hx : x = c
    · subst hx; exact .inl ⟨s, eat_cons _ _, rfl⟩
    · exact .inr (by simp [eat, hx])

/-- The outcome of a parser is never one of the two bad ones. -/
def Good {α : Type _} (o : P α) : Prop := (∃ p, o = .ok p) ∨ ∃ e, o = .err e

theorem quotedStr_eq (s : Str) : quotedStr ('"' :: s) =
    (eat '"' (quotedInner false s).2).bind fun (_, cursor) =>
      ((escape (quotedInner false s).1).mapErr ParseError.escape).bind fun t => .ok (t, cursor) := by
  simp only [quotedStr, eat_cons, Out.bind]

theorem quotedStr_no_loop (s : Str) : quotedStr s ≠ .loop := by
  rw [quotedStr]
  rcases eat_total '"' s with ⟨r, h1, rfl⟩ | h1
  · rw [h1]
    simp only [Out.bind]
    rcases eat_total '"' (quotedInner false r).2 with ⟨r', h2, _⟩ | h2
    · rw [h2]
      simp only
      have := escape_total (quotedInner false r).1
      cases he : escape (quotedInner false r).1 <;> simp_all [Out.mapErr]
    · rw [h2]; simp
  · rw [h1]; simp [Out.bind]

theorem noQuote_front {a b : Str} (h : NoQuote false (a ++ b)) (hb : '\\' ∉ a) : '"' ∉ a := by
  induction a with
  | nil => simp
  | cons c a ih =>
    simp only [List.mem_cons, not_or] at hb
    rw [List.cons_append, NoQuote, if_neg (Ne.symm hb.1)] at h
    simp only [List.mem_cons, not_or]
    exact ⟨Ne.symm h.1, ih h.2 hb.2⟩

theorem CleanText.front {x : Str} {b : Str} (hc : CleanText ('"' :: (x ++ b))) (hq : NoQuote false x) : AsciiFront x := by
  rintro y z rfl hy c hcm
  exact hc [] y (z ++ b) (by simp) (noQuote_front hq hy) hy c hcm

theorem quotedStr_good {s : Str} (hc : CleanText s) : Good (quotedStr s) := by
  rw [quotedStr]
  rcases eat_total '"' s with ⟨r, h1, rfl⟩ | h1
  · rw [h1]
    simp only [Out.bind]
    rcases eat_total '"' (quotedInner false r).2 with ⟨r', h2, _⟩ | h2
    · rw [h2]
      simp only
      obtain ⟨e1, e2⟩ := quotedInner_split false r
      have hcl : AsciiFront (quotedInner false r).1 := by
        rw [e1] at hc
        exact CleanText.front hc e2
      rcases escape_front_total hcl with ⟨t, ht⟩ | ⟨e, he⟩
      · rw [ht]; exact .inl ⟨_, rfl⟩
      · rw [he]; exact .inr ⟨_, rfl⟩
    · rw [h2]; exact .inr ⟨_, rfl⟩
  · rw [h1]; exact .inr ⟨_, rfl⟩

theorem quotedStr_suffix {s t r : Str} (h : quotedStr s = .ok (t, r)) : r <:+ s ∧ r.length < s.length := by
  rw [quotedStr] at h
  rcases eat_total '"' s with ⟨s, h1, rfl⟩ | h1
  · rw [h1] at h
    simp only [Out.bind] at h
    rcases eat_total '"' (quotedInner false s).2 with ⟨r', h2, h3⟩ | h2
    · rw [h2] at h
      simp only at h
      have hs := (quotedInner_split false s).1
      rw [h3] at hs
      cases he : escape (quotedInner false s).1 <;> rw [he] at h <;> simp only [Out.mapErr] at h
      · simp only [Out.ok.injEq, Prod.mk.injEq] at h
        obtain ⟨rfl, rfl⟩ := h
        constructor
        · refine ⟨'"' :: ((quotedInner false s).1 ++ ['"']), ?_⟩
          conv => rhs; rw [hs]
          simp
        · rw [hs]; simp; omega
      all_goals cases h
    · rw [h2] at h; cases h
  · rw [h1] at h; cases h

/-- What the code makes of the text between double quotes. -/
def CodeQuoted (x t : Str) : Prop := ∀ r, quotedStr ('"' :: (x ++ '"' :: r)) = .ok (t, r)

theorem quotedInner_other {e : Bool} {x r : Str} (h : quotedInner e (x ++ '"' :: r) = (x, '"' :: r)) (r' : Str) :
    quotedInner e (x ++ '"' :: r') = (x, '"' :: r') := by
  induction x generalizing e with
  | nil =>
    cases e with
    | false => simp [quotedInner]
    | true => simp [quotedInner] at h
  | cons c x ih =>
    cases e with
    | true =>
      simp only [List.cons_append, quotedInner, Prod.mk.injEq, List.cons.injEq, true_and] at h ⊢
      have := ih (e := false) (Prod.ext h.1 h.2)
      rw [this]; simp
    | false =>
      by_cases hc : c = '\\'
      · simp only [List.cons_append, quotedInner, if_pos hc, Prod.mk.injEq, List.cons.injEq, true_and] at h ⊢
        have := ih (e := true) (Prod.ext h.1 h.2)
        rw [this]; simp
      · by_cases hq : c ≠ '"'
        · simp only [List.cons_append, quotedInner, if_neg hc, if_pos hq, Prod.mk.injEq, List.cons.injEq, true_and] at h ⊢
          have := ih (e := false) (Prod.ext h.1 h.2)
          rw [this]; simp
        · simp [quotedInner, hc, hq] at h

/-- What is read of a quoted string. -/
theorem quotedStr_ok {s t r : Str} (h : quotedStr s = .ok (t, r)) :
    ∃ x, s = '"' :: (x ++ '"' :: r) ∧ NoQuote false x ∧ escape x = .ok t ∧ CodeQuoted x t := by
  rw [quotedStr] at h
  rcases eat_total '"' s with ⟨s, h1, rfl⟩ | h1
  · rw [h1] at h
    simp only [Out.bind] at h
    rcases eat_total '"' (quotedInner false s).2 with ⟨r', h2, h3⟩ | h2
    · rw [h2] at h
      simp only at h
      obtain ⟨hs, hq⟩ := quotedInner_split false s
      rw [h3] at hs
      cases he : escape (quotedInner false s).1 <;> rw [he] at h <;> simp only [Out.mapErr] at h
      · simp only [Out.ok.injEq, Prod.mk.injEq] at h
        obtain ⟨rfl, rfl⟩ := h
        refine ⟨(quotedInner false s).1, by rw [← hs], hq, he, ?_⟩
        intro r2
        rw [quotedStr_eq, quotedInner_other (r := r') (by rw [← hs]; exact Prod.ext rfl h3) r2]
        simp only [eat_cons, Out.bind]
        rw [he]; rfl
      all_goals cases h
    · rw [h2] at h; cases h
  · rw [h1] at h; cases h

theorem CodeQuoted.noQuote {x t : Str} (h : CodeQuoted x t) : NoQuote false x ∧ escape x = .ok t := by
  obtain ⟨y, e, h1, h2, _⟩ := quotedStr_ok (h [])
  have := List.append_cancel_right (List.cons.inj e).2
  rw [this]; exact ⟨h1, h2⟩

theorem CodeQuoted.of_spec {x t : Str} (hc : AsciiFront x) (hu : Unescapes false x t) : CodeQuoted x t := by
  intro r
  rw [quotedStr_eq, hu.quotedInner]
  simp only [eat_cons, Out.bind]
  rw [((escape_spec hc).1 t).2 hu.loosen]
  rfl

theorem CodeQuoted.spec {x t : Str} (hc : AsciiFront x) (h : CodeQuoted x t) : Unescapes false x t := by
  obtain ⟨h1, h2⟩ := h.noQuote
  exact (((escape_spec hc).1 t).1 h2).tighten h1

theorem isIdentChar_iff {c : Char} : isIdentChar c = true ↔ (c.isAlphanum = true ∨ c = '_' ∨ c = '-') := by
  simp only [isIdentChar, Char.isAlphanum, Char.isAlpha, Char.isUpper, Char.isLower, Char.isDigit, Bool.or_eq_true,
    Bool.and_eq_true, decide_eq_true_eq, ge_iff_le, Char.le_def]
  constructor
  · rintro ((((h | h) | h) | h) | h)
    · exact .inl (.inl (.inr h))
    · exact .inl (.inl (.inl h))
    · exact .inl (.inr h)
    · exact .inr (.inl h)
    · exact .inr (.inr h)
  · rintro (((h | h) | h) | h | h)
    · exact .inl (.inl (.inl (.inr h)))
    · exact .inl (.inl (.inl (.inl h)))
    · exact .inl (.inl (.inr h))
    · exact .inl (.inr h)
    · exact .inr h

theorem key_no_loop (s : Str) : key s ≠ .loop := by
  rw [key]; split
  · exact quotedStr_no_loop s
  · simp

theorem key_good {s : Str} (h : CleanText s) : Good (key s) := by
  rw [key]; split
  · exact quotedStr_good h
  · exact .inl ⟨_, rfl⟩

theorem key_suffix {s k r : Str} (h : key s = .ok (k, r)) : r <:+ s := by
  rw [key] at h; split at h
  · exact (quotedStr_suffix h).1
  · simp only [substr, Out.ok.injEq, Prod.mk.injEq] at h
    rw [← h.2]; exact List.dropWhile_suffix _

theorem key_sound {s k r : Str} (h : key s = .ok (k, r)) : ∃ x, s = x ++ r ∧ KeyText CodeQuoted x k := by
  rw [key] at h; split at h
  · obtain ⟨x, rfl, _, _, hu⟩ := quotedStr_ok h
    exact ⟨'"' :: (x ++ ['"']), by simp, .quoted hu⟩
  · simp only [substr, Out.ok.injEq, Prod.mk.injEq] at h
    obtain ⟨rfl, rfl⟩ := h
    exact ⟨_, (List.takeWhile_append_dropWhile).symm, .ident fun c hcm => isIdentChar_iff.1 (by
      have := List.all_takeWhile (p := isIdentChar) (l := s)
      exact List.all_eq_true.1 this c hcm)⟩

theorem takeWhile_append_stop {p : Char → Bool} {s r : Str} (hs : ∀ c ∈ s, p c = true)
    (hr : ∀ c, r.head? = some c → p c = false) : (s ++ r).takeWhile p = s ∧ (s ++ r).dropWhile p = r := by
  induction s with
  | nil =>
    cases r with
    | nil => exact ⟨rfl, rfl⟩
    | cons c r => simp [hr c rfl]
  | cons c s ih =>
    obtain ⟨h1, h2⟩ := ih fun x hx => hs x (by simp [hx])
    simp [hs c (by simp), h1, h2]

/-- A key is read whole when white space or `=` follows. -/
theorem key_complete {x k r : Str} (hk : KeyText CodeQuoted x k)
    (hr : ∀ c, r.head? = some c → isIdentChar c = false ∧ c ≠ '"') : key (x ++ r) = .ok (k, r) := by
  cases hk with
  | ident h =>
    have hp : peek '"' (x ++ r) = false := by
      cases hx : x with
      | nil =>
        cases hr' : r with
        | nil => rfl
        | cons c r => simp [peek, (hr c (by rw [hr']; rfl)).2]
      | cons c x' =>
        have h2 := isIdentChar_iff.2 (h c (by rw [hx]; simp))
        have : c ≠ '"' := by rintro rfl; revert h2; decide
        simp [peek, this]
    obtain ⟨h1, h2⟩ := takeWhile_append_stop (p := isIdentChar) (fun c hcm => isIdentChar_iff.2 (h c hcm)) (fun c hcm => (hr c hcm).1)
    rw [key, hp]
    simp [substr, h1, h2]
  | quoted h =>
    rename_i s
    rw [key, if_pos (by simp [peek])]
    have := h r
    simpa using this

end Parser
end Figment
