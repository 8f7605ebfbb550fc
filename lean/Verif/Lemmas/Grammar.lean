import Verif.Lemmas.Parse
/-! # The parser of values against the grammar -/
namespace Figment
namespace Parser

section Delimited
variable {τ ν : Type} {extend : τ → ν → τ} {stop : Char} {value : Str → P ν}

/-- One round of the loop of `delimited`. -/
theorem delimitedLoop_peek {n : Nat} {r : Str} {acc : τ} :
    delimitedLoop extend stop value (n + 1) (stop :: r) acc = .ok (acc, r) := by
  simp [delimitedLoop, peek, eat, Out.bind]

theorem delimitedLoop_step {n : Nat} {c : Str} {acc : τ} (h : c.head? ≠ some stop) :
    delimitedLoop extend stop value (n + 1) c acc =
      (value c).bind fun (v, cursor) =>
        match eat ',' (Str.trimStart cursor) with
        | .ok (_, cursor) => delimitedLoop extend stop value n (Str.trimStart cursor) (extend acc v)
        | _ => (eat stop (Str.trimStart cursor)).bind fun (_, cursor) => .ok (extend acc v, cursor) := by
  rw [delimitedLoop, if_neg (by simpa [peek] using h)]
  rfl

theorem eat_comma_cases (s : Str) : (∃ r, s = ',' :: r ∧ eat ',' s = .ok (',', r)) ∨
    s.head? ≠ some ',' := by
  cases s with
  | nil => exact .inr (by simp)
  | cons c r =>
    by_cases hc : c = ','
    · subst hc; exact .inl ⟨r, rfl, eat_cons _ _⟩
    · exact .inr (by simpa using hc)

/-- The ways in which a round can end well. -/
theorem delimitedLoop_ok {n : Nat} {c r : Str} {acc a : τ}
    (h : delimitedLoop extend stop value (n + 1) c acc = .ok (a, r)) :
    (c = stop :: r ∧ a = acc) ∨
    (c.head? ≠ some stop ∧ ∃ v c1, value c = .ok (v, c1) ∧
      ((∃ c2, Str.trimStart c1 = ',' :: c2 ∧
          delimitedLoop extend stop value n (Str.trimStart c2) (extend acc v) = .ok (a, r)) ∨
       ((Str.trimStart c1).head? ≠ some ',' ∧ Str.trimStart c1 = stop :: r ∧ a = extend acc v))) := by
  by_cases hc : c.head? = some stop
  · cases c with
    | nil => cases hc
    | cons x c =>
      obtain rfl := Option.some.inj hc
      rw [delimitedLoop_peek] at h
      simp only [Out.ok.injEq, Prod.mk.injEq] at h
      exact .inl ⟨by rw [h.2], h.1.symm⟩
  · right
    rw [delimitedLoop_step hc] at h
    refine ⟨hc, ?_⟩
    cases hv : value c with
    | ok p =>
      obtain ⟨v, c1⟩ := p
      refine ⟨v, c1, rfl, ?_⟩
      rw [hv] at h
      simp only [Out.bind] at h
      rcases eat_comma_cases (Str.trimStart c1) with ⟨c2, e1, e2⟩ | e1
      · rw [e2] at h
        exact .inl ⟨c2, e1, h⟩
      · right
        have h' : (match eat stop (Str.trimStart c1) with
            | .ok (_, cursor) => (Out.ok (extend acc v, cursor) : P τ)
            | .err e => .err e
            | .panic => .panic
            | .loop => .loop) = .ok (a, r) := by
          rw [← h]
          cases hh : eat ',' (Str.trimStart c1) with
          | ok p =>
            obtain ⟨x, y⟩ := p
            exact absurd (by rw [eat_ok hh]; rfl) e1
          | err _ => cases eat stop (Str.trimStart c1) <;> rfl
          | panic => cases eat stop (Str.trimStart c1) <;> rfl
          | loop => cases eat stop (Str.trimStart c1) <;> rfl
        rcases eat_total stop (Str.trimStart c1) with ⟨y, e3, e4⟩ | e3
        · rw [e3] at h'
          simp only [Out.ok.injEq, Prod.mk.injEq] at h'
          exact ⟨e1, by rw [e4, h'.2], h'.1.symm⟩
        · rw [e3] at h'; cases h'
    | err e => rw [hv] at h; cases h
    | panic => rw [hv] at h; cases h
    | loop => rw [hv] at h; cases h

theorem delimitedLoop_suffix (hv : ∀ c v r, value c = .ok (v, r) → r <:+ c) {n : Nat} {c r : Str} {acc a : τ}
    (h : delimitedLoop extend stop value n c acc = .ok (a, r)) : r <:+ c := by
  induction n generalizing c acc with
  | zero => cases h
  | succ n ih =>
    rcases delimitedLoop_ok h with ⟨rfl, _⟩ | ⟨_, v, c1, h1, h2⟩
    · exact List.suffix_cons _ _
    · have s1 := hv _ _ _ h1
      have s2 := Str.trimStart_suffix c1
      rcases h2 with ⟨c2, h3, h4⟩ | ⟨_, h3, _⟩
      · have s3 := Str.trimStart_suffix c2
        rw [h3] at s2
        exact (ih h4).trans (s3.trans ((List.suffix_cons _ _).trans (s2.trans s1)))
      · rw [h3] at s2
        exact (List.suffix_cons _ _).trans (s2.trans s1)

/-- The loop ends in a good way whenever the items do. -/
theorem delimitedLoop_outcome (Bad : ∀ {α : Type}, P α → Prop)
    (hbad : ∀ {α : Type} {o : P α}, Bad o → (∀ p, o ≠ .ok p) ∧ ∀ e, o ≠ .err e)
    (hloop : ∀ {α β : Type} {o : P α} {f : α × Str → P β}, Bad (o.bind f) → Bad o ∨ ∃ p, o = .ok p ∧ Bad (f p))
    (c0 : Str) (hv : ∀ c, c <:+ c0 → ¬ Bad (value c)) (hs : ∀ c v r, value c = .ok (v, r) → r <:+ c)
    {n : Nat} {c : Str} {acc : τ} (hn : c.length < n) (hc : c <:+ c0) :
    ¬ Bad (delimitedLoop extend stop value n c acc) := by
  induction n generalizing c acc with
  | zero => omega
  | succ n ih =>
    intro hb
    by_cases hp : c.head? = some stop
    · cases c with
      | nil => cases hp
      | cons x c =>
        obtain rfl := Option.some.inj hp
        rw [delimitedLoop_peek] at hb
        exact (hbad hb).1 _ rfl
    · rw [delimitedLoop_step hp] at hb
      rcases hloop hb with hb | ⟨⟨v, c1⟩, h1, hb⟩
      · exact hv c hc hb
      · have s1 := hs _ _ _ h1
        rcases eat_comma_cases (Str.trimStart c1) with ⟨c2, e1, e2⟩ | e1
        · simp only [e2] at hb
          have s2 := Str.trimStart_suffix c1
          rw [e1] at s2
          have s3 := Str.trimStart_suffix c2
          have s4 : c2 <:+ c := (List.suffix_cons _ _).trans (s2.trans s1)
          have l1 := s1.length_le
          have l2 := s2.length_le
          have l3 := s3.length_le
          simp only [List.length_cons] at l2
          exact ih (by omega) (s3.trans (s4.trans hc)) hb
        · have hb' : Bad ((eat stop (Str.trimStart c1)).bind fun (_, cursor) =>
              (Out.ok (extend acc v, cursor) : P τ)) := by
            cases hh : eat ',' (Str.trimStart c1) with
            | ok p =>
              obtain ⟨x, y⟩ := p
              exact absurd (by rw [eat_ok hh]; rfl) e1
            | err e => simp only [hh] at hb; exact hb
            | panic => simp only [hh] at hb; exact hb
            | loop => simp only [hh] at hb; exact hb
          rcases eat_total stop (Str.trimStart c1) with ⟨y, e3, _⟩ | e3
          · rw [e3] at hb'; exact (hbad hb').1 _ rfl
          · rw [e3] at hb'; exact (hbad hb').2 _ rfl

end Delimited

section
variable [FloatOps]

/-- The value at a cursor without white space in front. -/
def body (n : Nat) (cursor : Str) : P Value :=
  match cursor.head? with
  | some '"' => (quotedStr cursor).bind fun (s, cursor) => .ok (.ofStr s, cursor)
  | some '\'' => (quotedChar cursor).bind fun (c, cursor) => .ok (.ofChar c, cursor)
  | some '[' =>
    (delimited [] (fun a v => a ++ [v]) '[' ']' (valueP n) cursor).bind fun (a, cursor) =>
      .ok (.ofArray a, cursor)
  | some '{' =>
    (delimited [] (fun d e => Map.insert e.1 e.2 d) '{' '}' (dictItem (valueP n)) cursor).bind
      fun (d, cursor) => .ok (.ofDict d, cursor)
  | some _ =>
    let (s, cursor) := substr isNotSeparator cursor
    .ok (bare (Str.trim s), cursor)
  | none => .ok (.ofEmpty .unit, cursor)

theorem valueP_succ (n : Nat) (c : Str) :
    valueP (n + 1) c = (body n (Str.trimStart c)).bind fun (v, cursor) => .ok (v, Str.trimStart cursor) := rfl

theorem body_quote (n : Nat) (s : Str) :
    body n ('"' :: s) = (quotedStr ('"' :: s)).bind fun (s, cursor) => .ok (.ofStr s, cursor) := rfl
theorem body_char (n : Nat) (s : Str) :
    body n ('\'' :: s) = (quotedChar ('\'' :: s)).bind fun (c, cursor) => .ok (.ofChar c, cursor) := rfl
theorem body_array (n : Nat) (s : Str) : body n ('[' :: s) =
    (delimitedLoop (fun (a : List Value) v => a ++ [v]) ']' (valueP n) ((Str.trimStart s).length + 1) (Str.trimStart s) []).bind
      fun (a, cursor) => .ok (.ofArray a, cursor) := rfl
theorem body_dict (n : Nat) (s : Str) : body n ('{' :: s) =
    (delimitedLoop (fun (d : Dict) (e : Str × Value) => Map.insert e.1 e.2 d) '}' (dictItem (valueP n))
      ((Str.trimStart s).length + 1) (Str.trimStart s) []).bind fun (d, cursor) => .ok (.ofDict d, cursor) := rfl
theorem body_nil (n : Nat) : body n [] = .ok (.ofEmpty .unit, []) := rfl

/-- The characters that choose the form of a value. -/
def openers : List Char := ['"', '\'', '[', '{']

theorem body_bare (n : Nat) {c : Char} (hc : c ∉ openers) (s : Str) : body n (c :: s) =
    .ok (bare (Str.trim ((c :: s).takeWhile isNotSeparator)), (c :: s).dropWhile isNotSeparator) := by
  simp only [openers, List.mem_cons, List.not_mem_nil, or_false, not_or] at hc
  obtain ⟨h1, h2, h3, h4⟩ := hc
  unfold body
  simp only [List.head?_cons, substr]

omit [FloatOps] in
/-- The shapes of a cursor. -/
theorem cursor_cases (s : Str) : s = [] ∨ (∃ r, s = '"' :: r) ∨ (∃ r, s = '\'' :: r) ∨ (∃ r, s = '[' :: r) ∨
    (∃ r, s = '{' :: r) ∨ ∃ c r, s = c :: r ∧ c ∉ openers := by
  cases s with
  | nil => exact .inl rfl
  | cons c r =>
    by_cases h1 : c = '"'
    · exact .inr (.inl ⟨r, by rw [h1]⟩)
    by_cases h2 : c = '\''
    · exact .inr (.inr (.inl ⟨r, by rw [h2]⟩))
    by_cases h3 : c = '['
    · exact .inr (.inr (.inr (.inl ⟨r, by rw [h3]⟩)))
    by_cases h4 : c = '{'
    · exact .inr (.inr (.inr (.inr (.inl ⟨r, by rw [h4]⟩))))
    exact .inr (.inr (.inr (.inr (.inr ⟨c, r, rfl, by simp [openers, h1, h2, h3, h4]⟩))))

omit [FloatOps] in
theorem bind_ok {ε α β : Type _} {o : Out ε α} {f : α → Out ε β} {b : β} (h : o.bind f = .ok b) :
    ∃ a, o = .ok a ∧ f a = .ok b := by
  cases o with
  | ok a => exact ⟨a, rfl, h⟩
  | err e => cases h
  | panic => cases h
  | loop => cases h

omit [FloatOps] in
theorem quotedChar_ok {s r : Str} {c : Char} (h : quotedChar s = .ok (c, r)) : s = '\'' :: c :: '\'' :: r := by
  rw [quotedChar] at h
  obtain ⟨⟨_, s1⟩, h1, h⟩ := bind_ok h
  obtain ⟨⟨x, s2⟩, h2, h⟩ := bind_ok h
  obtain ⟨⟨_, s3⟩, h3, h⟩ := bind_ok h
  simp only [Out.ok.injEq, Prod.mk.injEq] at h
  obtain ⟨rfl, rfl⟩ := h
  have e1 := eat_ok h1
  have e3 := eat_ok h3
  cases s1 with
  | nil => cases h2
  | cons y s1 =>
    simp only [eatAny, Out.ok.injEq, Prod.mk.injEq] at h2
    rw [e1, h2.1, h2.2, e3]

omit [FloatOps] in
theorem quotedChar_good (s : Str) : Good (quotedChar s) := by
  rw [quotedChar]
  rcases eat_total '\'' s with ⟨r, h1, _⟩ | h1
  · rw [h1]
    cases r with
    | nil => exact .inr ⟨_, rfl⟩
    | cons x r =>
      simp only [Out.bind, eatAny]
      rcases eat_total '\'' r with ⟨r', h2, _⟩ | h2
      · rw [h2]; exact .inl ⟨_, rfl⟩
      · rw [h2]; exact .inr ⟨_, rfl⟩
  · rw [h1]; exact .inr ⟨_, rfl⟩

omit [FloatOps] in
theorem dictItem_suffix {value : Str → P Value} (hv : ∀ c v r, value c = .ok (v, r) → r <:+ c) :
    ∀ c v r, dictItem value c = .ok (v, r) → r <:+ c := by
  intro c v r h
  rw [dictItem] at h
  obtain ⟨⟨k, c1⟩, h1, h⟩ := bind_ok h
  obtain ⟨⟨_, c2⟩, h2, h⟩ := bind_ok h
  obtain ⟨⟨w, c3⟩, h3, h⟩ := bind_ok h
  simp only [Out.ok.injEq, Prod.mk.injEq] at h
  obtain ⟨_, rfl⟩ := h
  have s2 := Str.trimStart_suffix c1
  rw [eat_ok h2] at s2
  exact (hv _ _ _ h3).trans ((Str.trimStart_suffix _).trans ((List.suffix_cons _ _).trans (s2.trans (key_suffix h1))))

theorem valueP_suffix (n : Nat) : ∀ c v r, valueP n c = .ok (v, r) → r <:+ c := by
  induction n with
  | zero => intro c v r h; cases h
  | succ n ih =>
    intro c v r h
    rw [valueP_succ] at h
    obtain ⟨⟨w, c1⟩, h1, h⟩ := bind_ok h
    simp only [Out.ok.injEq, Prod.mk.injEq] at h
    obtain ⟨rfl, rfl⟩ := h
    refine (Str.trimStart_suffix c1).trans (List.IsSuffix.trans ?_ (Str.trimStart_suffix c))
    rcases cursor_cases (Str.trimStart c) with e | ⟨s, e⟩ | ⟨s, e⟩ | ⟨s, e⟩ | ⟨s, e⟩ | ⟨x, s, e, hx⟩ <;> rw [e] at h1 ⊢
    · rw [body_nil] at h1
      simp only [Out.ok.injEq, Prod.mk.injEq] at h1
      rw [← h1.2]; exact List.suffix_refl _
    · rw [body_quote] at h1
      obtain ⟨⟨t, c2⟩, h2, h1⟩ := bind_ok h1
      simp only [Out.ok.injEq, Prod.mk.injEq] at h1
      rw [← h1.2]; exact (quotedStr_suffix h2).1
    · rw [body_char] at h1
      obtain ⟨⟨t, c2⟩, h2, h1⟩ := bind_ok h1
      simp only [Out.ok.injEq, Prod.mk.injEq] at h1
      rw [← h1.2, quotedChar_ok h2]
      exact ⟨['\'', t, '\''], rfl⟩
    · rw [body_array] at h1
      obtain ⟨⟨t, c2⟩, h2, h1⟩ := bind_ok h1
      simp only [Out.ok.injEq, Prod.mk.injEq] at h1
      rw [← h1.2]
      exact (delimitedLoop_suffix ih h2).trans ((Str.trimStart_suffix s).trans (List.suffix_cons _ _))
    · rw [body_dict] at h1
      obtain ⟨⟨t, c2⟩, h2, h1⟩ := bind_ok h1
      simp only [Out.ok.injEq, Prod.mk.injEq] at h1
      rw [← h1.2]
      exact (delimitedLoop_suffix (dictItem_suffix ih) h2).trans ((Str.trimStart_suffix s).trans (List.suffix_cons _ _))
    · rw [body_bare n hx] at h1
      simp only [Out.ok.injEq, Prod.mk.injEq] at h1
      rw [← h1.2]; exact List.dropWhile_suffix _

/-- One lemma for both bad outcomes: a predicate of outcomes which neither results nor errors have and which
propagates. -/
theorem valueP_outcome (Bad : ∀ {α : Type}, P α → Prop) (C : Str → Prop)
    (hbad : ∀ {α : Type} {o : P α}, Bad o → (∀ p, o ≠ .ok p) ∧ ∀ e, o ≠ .err e)
    (hbind : ∀ {α β : Type} {o : P α} {f : α × Str → P β}, Bad (o.bind f) → Bad o ∨ ∃ p, o = .ok p ∧ Bad (f p))
    (hC : ∀ a s, C (a ++ s) → C s) (hq : ∀ s, C s → ¬ Bad (quotedStr s)) :
    ∀ n c, c.length < n → C c → ¬ Bad (valueP n c) := by
  have hCs : ∀ {r s : Str}, r <:+ s → C s → C r := by
    rintro r s ⟨a, rfl⟩ h; exact hC a r h
  have hk : ∀ s, C s → ¬ Bad (key s) := by
    intro s hs hb
    rw [key] at hb
    split at hb
    · exact hq s hs hb
    · exact (hbad hb).1 _ rfl
  intro n
  induction n with
  | zero => intro c h; omega
  | succ n ih =>
    intro c hn hc hb
    rw [valueP_succ] at hb
    have st := Str.trimStart_suffix c
    have hc' := hCs st hc
    have hl := st.length_le
    rcases hbind hb with hb | ⟨p, _, hb⟩
    rotate_left
    · exact (hbad hb).1 _ rfl
    rcases cursor_cases (Str.trimStart c) with e | ⟨s, e⟩ | ⟨s, e⟩ | ⟨s, e⟩ | ⟨s, e⟩ | ⟨x, s, e, hx⟩ <;> rw [e] at hb hc' hl
    · rw [body_nil] at hb; exact (hbad hb).1 _ rfl
    · rw [body_quote] at hb
      rcases hbind hb with hb | ⟨p, _, hb⟩
      · exact hq _ hc' hb
      · exact (hbad hb).1 _ rfl
    · rw [body_char] at hb
      rcases hbind hb with hb | ⟨p, _, hb⟩
      · rcases quotedChar_good ('\'' :: s) with ⟨p, hp⟩ | ⟨p, hp⟩
        · exact (hbad hb).1 _ hp
        · exact (hbad hb).2 _ hp
      · exact (hbad hb).1 _ rfl
    · rw [body_array] at hb
      simp only [List.length_cons] at hl
      have hc2 : C s := hC ['['] s hc'
      rcases hbind hb with hb | ⟨p, _, hb⟩
      · have s3 := Str.trimStart_suffix s
        exact delimitedLoop_outcome (fun {α} => Bad) hbad hbind s
          (fun c hcs => ih c (by have := hcs.length_le; omega) (hCs hcs hc2)) (valueP_suffix n)
          (Nat.lt_succ_self _) s3 hb
      · exact (hbad hb).1 _ rfl
    · rw [body_dict] at hb
      simp only [List.length_cons] at hl
      have hc2 : C s := hC ['{'] s hc'
      rcases hbind hb with hb | ⟨p, _, hb⟩
      · have s3 := Str.trimStart_suffix s
        refine delimitedLoop_outcome (fun {α} => Bad) hbad hbind s ?_ (dictItem_suffix (valueP_suffix n))
          (Nat.lt_succ_self _) s3 hb
        intro c hcs hb
        rw [dictItem] at hb
        rcases hbind hb with hb | ⟨⟨k, c1⟩, h1, hb⟩
        · exact hk c (hCs hcs hc2) hb
        · have k1 := key_suffix h1
          rcases hbind hb with hb | ⟨⟨_, c2⟩, h2, hb⟩
          · rcases eat_total '=' (Str.trimStart c1) with ⟨y, e3, _⟩ | e3
            · exact (hbad hb).1 _ e3
            · exact (hbad hb).2 _ e3
          · have k2 := Str.trimStart_suffix c1
            rw [eat_ok h2] at k2
            have k3 : Str.trimStart c2 <:+ s :=
              (Str.trimStart_suffix c2).trans ((List.suffix_cons _ _).trans (k2.trans (k1.trans hcs)))
            rcases hbind hb with hb | ⟨p, _, hb⟩
            · exact ih _ (by have := k3.length_le; omega) (hCs k3 hc2) hb
            · exact (hbad hb).1 _ rfl
      · exact (hbad hb).1 _ rfl
    · rw [body_bare n hx] at hb; exact (hbad hb).1 _ rfl

theorem valueP_no_loop {n : Nat} {c : Str} (hn : c.length < n) : valueP n c ≠ .loop := by
  refine valueP_outcome (fun {α} o => o = .loop) (fun _ => True) ?_ ?_ (fun _ _ _ => trivial)
    (fun s _ => quotedStr_no_loop s) n c hn trivial
  · rintro α o rfl; exact ⟨fun p h => (by cases h), fun p h => (by cases h)⟩
  · intro α β o f h
    cases o with
    | ok p => exact .inr ⟨p, rfl, h⟩
    | err e => cases h
    | panic => cases h
    | loop => exact .inl rfl

theorem valueP_good {n : Nat} {c : Str} (hn : c.length < n) (hc : CleanText c) : Good (valueP n c) := by
  have h : ¬ (valueP n c = .loop ∨ valueP n c = .panic) := by
    refine valueP_outcome (fun {α} o => o = .loop ∨ o = .panic) CleanText ?_ ?_ (fun _ _ => CleanText.suffix)
      ?_ n c hn hc
    · rintro α o (rfl | rfl) <;> exact ⟨fun p h => (by cases h), fun p h => (by cases h)⟩
    · intro α β o f h
      cases o with
      | ok p => exact .inr ⟨p, rfl, h⟩
      | err e => rcases h with h | h <;> cases h
      | panic => exact .inl (.inr rfl)
      | loop => exact .inl (.inl rfl)
    · intro s hs h
      rcases quotedStr_good hs with ⟨p, hp⟩ | ⟨p, hp⟩ <;> rw [hp] at h <;> rcases h with h | h <;> cases h
  cases e : valueP n c with
  | ok p => exact .inl ⟨p, rfl⟩
  | err p => exact .inr ⟨p, rfl⟩
  | panic => exact absurd (.inr e) h
  | loop => exact absurd (.inl e) h

/-! ## Soundness -/

end

theorem isWs_stop {c : Char} (h : c ∈ separators) : Str.isWs c = false := by
  simp only [separators, List.mem_cons, List.not_mem_nil, or_false] at h
  rcases h with rfl | rfl | rfl | rfl | rfl <;> rfl

theorem isNotSeparator_iff {c : Char} : isNotSeparator c = true ↔ c ∉ separators := by
  simp [isNotSeparator, separators, and_assoc]

section
variable [FloatOps]

theorem _root_.Figment.Reads.ws {Q : Str → Str → Prop} {a s : Str} {v : Value} (ha : Ws a) (h : Reads Q s v) : Reads Q (a ++ s) v := by
  cases h with
  | bare ha' hb hne hs h1 h2 h3 h4 h => rw [← List.append_assoc]; exact .bare (ha.append ha') hb hne hs h1 h2 h3 h4 h
  | string ha' hb h => rw [← List.append_assoc]; exact .string (ha.append ha') hb h
  | char c ha' hb => rw [← List.append_assoc]; exact .char c (ha.append ha') hb
  | array ha' hb h => rw [← List.append_assoc]; exact .array (ha.append ha') hb h
  | dict ha' hb h => rw [← List.append_assoc]; exact .dict (ha.append ha') hb h

theorem _root_.Figment.Items.ws {Q : Str → Str → Prop} {a s : Str} {vs : List Value} (ha : Ws a) (h : Items Q s vs) : Items Q (a ++ s) vs := by
  cases h with
  | nil h => exact .nil (ha.append h)
  | last h => exact .last (h.ws ha)
  | cons h hr => rw [← List.append_assoc]; exact .cons (h.ws ha) hr
  | skip h hr => rw [← List.append_assoc]; exact .skip (ha.append h) hr

theorem _root_.Figment.Entries.ws {Q : Str → Str → Prop} {a s : Str} {es : List (Str × Value)} (ha : Ws a) (h : Entries Q s es) :
    Entries Q (a ++ s) es := by
  cases h with
  | nil h => exact .nil (ha.append h)
  | last ha' hk hb h => rw [← List.append_assoc]; exact .last (ha.append ha') hk hb h
  | lastEmpty ha' hk hb h => rw [← List.append_assoc]; exact .lastEmpty (ha.append ha') hk hb h
  | cons ha' hk hb h hr => rw [← List.append_assoc]; exact .cons (ha.append ha') hk hb h hr
  | consEmpty ha' hk hb h hr => rw [← List.append_assoc]; exact .consEmpty (ha.append ha') hk hb h hr

/-- What a call of `value` can have read: a value, or nothing. -/
def ReadOr (s r : Str) (v : Value) : Prop :=
  Reads CodeQuoted s v ∨ (Ws s ∧ ((r = [] ∧ v = .ofEmpty .unit) ∨
    ((r.head? = some ',' ∨ r.head? = some '}' ∨ r.head? = some ']') ∧ v = .ofStr [])))

/-- What is known of `value` when the nesting is bounded. -/
def Sound (value : Str → P Value) : Prop :=
  ∀ c v r, value c = .ok (v, r) → Str.Trimmed r ∧ ∃ s, c = s ++ r ∧ ReadOr s r v

theorem array_sound {value : Str → P Value} (hv : Sound value) {n : Nat} {c r : Str} {acc a : List Value}
    (ht : Str.Trimmed c)
    (h : delimitedLoop (fun (a : List Value) v => a ++ [v]) ']' value n c acc = .ok (a, r)) :
    ∃ s vs, c = s ++ ']' :: r ∧ a = acc ++ vs ∧ Items CodeQuoted s vs := by
  induction n generalizing c acc with
  | zero => cases h
  | succ n ih =>
    rcases delimitedLoop_ok h with ⟨rfl, rfl⟩ | ⟨hp, v, c1, h1, h2⟩
    · exact ⟨[], [], rfl, by simp, .nil Ws.nil⟩
    · obtain ⟨t1, s, rfl, hr⟩ := hv _ _ _ h1
      rw [t1.eq] at h2
      rcases h2 with ⟨c2, rfl, h4⟩ | ⟨_, rfl, rfl⟩
      · obtain ⟨w, hw, e2⟩ := Str.trimStart_split c2
        obtain ⟨s2, vs, e3, rfl, h5⟩ := ih (Str.trimStart_trimmed c2) h4
        refine ⟨s ++ ',' :: (w ++ s2), v :: vs, ?_, by simp, ?_⟩
        · rw [e2, e3]; simp
        · rcases hr with hr | ⟨hs, ⟨hr, _⟩ | ⟨_, rfl⟩⟩
          · exact .cons hr (h5.ws hw)
          · cases hr
          · exact .skip hs (h5.ws hw)
      · rcases hr with hr | ⟨hs, ⟨hr, _⟩ | ⟨hr, rfl⟩⟩
        · exact ⟨s, [v], rfl, rfl, .last hr⟩
        · cases hr
        · cases s with
          | nil => exact absurd rfl hp
          | cons x s =>
            have := ht x rfl
            rw [hs x (by simp)] at this; cases this

theorem dictItem_sound {value : Str → P Value} (hv : Sound value) {c r : Str} {k : Str} {v : Value}
    (h : dictItem value c = .ok ((k, v), r)) :
    Str.Trimmed r ∧ ∃ ks b s, c = ks ++ (b ++ '=' :: (s ++ r)) ∧ KeyText CodeQuoted ks k ∧ Ws b ∧
      (Reads CodeQuoted s v ∨ (Ws s ∧ ((r = [] ∧ v = .ofEmpty .unit) ∨
        ((r.head? = some ',' ∨ r.head? = some '}' ∨ r.head? = some ']') ∧ v = .ofStr [])))) := by
  rw [dictItem] at h
  obtain ⟨⟨k', c1⟩, h1, h⟩ := bind_ok h
  obtain ⟨⟨x, c2⟩, h2, h⟩ := bind_ok h
  obtain ⟨⟨v', c3⟩, h3, h⟩ := bind_ok h
  simp only [Out.ok.injEq, Prod.mk.injEq] at h
  obtain ⟨⟨rfl, rfl⟩, rfl⟩ := h
  obtain ⟨ks, rfl, hk⟩ := key_sound h1
  obtain ⟨b, hb, e1⟩ := Str.trimStart_split c1
  rw [eat_ok h2] at e1
  obtain ⟨w, hw, e2⟩ := Str.trimStart_split c2
  obtain ⟨t3, s, e3, hr⟩ := hv _ _ _ h3
  refine ⟨t3, ks, b, w ++ s, ?_, hk, hb, ?_⟩
  · rw [e1, e2, e3]; simp
  · rcases hr with hr | ⟨hs, hr⟩
    · exact .inl (hr.ws hw)
    · exact .inr ⟨hw.append hs, hr⟩

theorem dict_sound {value : Str → P Value} (hv : Sound value) {n : Nat} {c r : Str} {acc a : Dict}
    (h : delimitedLoop (fun (d : Dict) (e : Str × Value) => Map.insert e.1 e.2 d) '}' (dictItem value) n c acc = .ok (a, r)) :
    ∃ s es, c = s ++ '}' :: r ∧ a = Map.extend acc es ∧ Entries CodeQuoted s es := by
  induction n generalizing c acc with
  | zero => cases h
  | succ n ih =>
    rcases delimitedLoop_ok h with ⟨rfl, rfl⟩ | ⟨hp, ⟨k, v⟩, c1, h1, h2⟩
    · exact ⟨[], [], rfl, rfl, .nil Ws.nil⟩
    · obtain ⟨t1, ks, b, s, rfl, hk, hb, hr⟩ := dictItem_sound hv h1
      rw [t1.eq] at h2
      rcases h2 with ⟨c2, rfl, h4⟩ | ⟨_, rfl, rfl⟩
      · obtain ⟨w, hw, e2⟩ := Str.trimStart_split c2
        obtain ⟨s2, es, e3, rfl, h5⟩ := ih h4
        rcases hr with hr | ⟨hs, ⟨hr, _⟩ | ⟨_, rfl⟩⟩
        · refine ⟨_, (k, v) :: es, ?_, rfl, .cons Ws.nil hk hb hr (h5.ws hw)⟩
          rw [e2, e3]; simp
        · cases hr
        · refine ⟨_, (k, .ofStr []) :: es, ?_, rfl, .consEmpty Ws.nil hk hb hs (h5.ws hw)⟩
          rw [e2, e3]; simp
      · rcases hr with hr | ⟨hs, ⟨hr, _⟩ | ⟨hr, rfl⟩⟩
        · exact ⟨_, [(k, v)], by simp, rfl, .last Ws.nil hk hb hr⟩
        · cases hr
        · exact ⟨_, [(k, .ofStr [])], by simp, rfl, .lastEmpty Ws.nil hk hb hs⟩

theorem valueP_sound (n : Nat) : Sound (valueP n) := by
  induction n with
  | zero => intro c v r h; cases h
  | succ n ih =>
    intro c v r h
    rw [valueP_succ] at h
    obtain ⟨⟨w, c1⟩, h1, h⟩ := bind_ok h
    simp only [Out.ok.injEq, Prod.mk.injEq] at h
    obtain ⟨rfl, rfl⟩ := h
    refine ⟨Str.trimStart_trimmed _, ?_⟩
    obtain ⟨a, ha, e0⟩ := Str.trimStart_split c
    obtain ⟨b, hb, e1⟩ := Str.trimStart_split c1
    have ht := Str.trimStart_trimmed c
    rcases cursor_cases (Str.trimStart c) with e | ⟨s, e⟩ | ⟨s, e⟩ | ⟨s, e⟩ | ⟨s, e⟩ | ⟨x, s, e, hx⟩ <;>
      rw [e] at h1 e0 ht
    · rw [body_nil] at h1
      simp only [Out.ok.injEq, Prod.mk.injEq] at h1
      obtain ⟨rfl, rfl⟩ := h1
      exact ⟨a, e0, .inr ⟨ha, .inl ⟨rfl, rfl⟩⟩⟩
    · rw [body_quote] at h1
      obtain ⟨⟨t, c2⟩, h2, h1⟩ := bind_ok h1
      simp only [Out.ok.injEq, Prod.mk.injEq] at h1
      obtain ⟨rfl, rfl⟩ := h1
      obtain ⟨x, e2, _, _, hu⟩ := quotedStr_ok h2
      refine ⟨a ++ '"' :: (x ++ '"' :: b), ?_, .inl (.string ha hb hu)⟩
      rw [e0, e2]
      conv => lhs; rw [e1]
      simp
    · rw [body_char] at h1
      obtain ⟨⟨t, c2⟩, h2, h1⟩ := bind_ok h1
      simp only [Out.ok.injEq, Prod.mk.injEq] at h1
      obtain ⟨rfl, rfl⟩ := h1
      refine ⟨a ++ '\'' :: t :: '\'' :: b, ?_, .inl (.char t ha hb)⟩
      rw [e0, quotedChar_ok h2]
      conv => lhs; rw [e1]
      simp
    · rw [body_array] at h1
      obtain ⟨⟨t, c2⟩, h2, h1⟩ := bind_ok h1
      simp only [Out.ok.injEq, Prod.mk.injEq] at h1
      obtain ⟨rfl, rfl⟩ := h1
      obtain ⟨x, hx, e3⟩ := Str.trimStart_split s
      obtain ⟨y, vs, e4, rfl, hi⟩ := array_sound ih (Str.trimStart_trimmed s) h2
      refine ⟨a ++ '[' :: ((x ++ y) ++ ']' :: b), ?_, .inl (.array ha hb (hi.ws hx))⟩
      rw [e0, e3, e4]
      conv => lhs; rw [e1]
      simp
    · rw [body_dict] at h1
      obtain ⟨⟨t, c2⟩, h2, h1⟩ := bind_ok h1
      simp only [Out.ok.injEq, Prod.mk.injEq] at h1
      obtain ⟨rfl, rfl⟩ := h1
      obtain ⟨x, hx, e3⟩ := Str.trimStart_split s
      obtain ⟨y, es, e4, rfl, hi⟩ := dict_sound ih h2
      refine ⟨a ++ '{' :: ((x ++ y) ++ '}' :: b), ?_, .inl (.dict ha hb (hi.ws hx))⟩
      rw [e0, e3, e4]
      conv => lhs; rw [e1]
      simp
    · rw [body_bare n hx] at h1
      simp only [Out.ok.injEq, Prod.mk.injEq] at h1
      obtain ⟨rfl, rfl⟩ := h1
      -- the rest starts with a separator, if it is not empty
      have hrest : Str.Trimmed ((x :: s).dropWhile isNotSeparator) := by
        intro y hy
        have : isNotSeparator y = false := by
          have := List.head?_dropWhile_not isNotSeparator (x :: s)
          rw [hy] at this
          simpa using this
        apply isWs_stop
        by_cases hm : y ∈ separators
        · exact hm
        · rw [isNotSeparator_iff.2 hm] at this; cases this
      rw [hrest.eq]
      by_cases hsep : x ∈ separators
      · have hns : isNotSeparator x = false := by
          cases hh : isNotSeparator x with
          | false => rfl
          | true => exact absurd hsep (isNotSeparator_iff.1 hh)
        rw [List.takeWhile_cons, hns, List.dropWhile_cons, hns]
        simp only [Bool.false_eq_true, if_false]
        refine ⟨a, e0, .inr ⟨ha, .inr ⟨?_, ?_⟩⟩⟩
        · simp only [separators, openers, List.mem_cons, List.not_mem_nil, or_false, not_or] at hsep hx
          simp only [List.head?_cons, Option.some.injEq]
          rcases hsep with h | h | h | h | h
          · exact .inl h
          · exact absurd h hx.2.2.2
          · exact .inr (.inl h)
          · exact absurd h hx.2.2.1
          · exact .inr (.inr h)
        · rfl
      · obtain ⟨l, m, hl, hm, e2, h3, h4⟩ := Str.trim_split ((x :: s).takeWhile isNotSeparator)
        have hxw : Str.isWs x = false := ht x rfl
        have htw : (x :: s).takeWhile isNotSeparator = x :: s.takeWhile isNotSeparator := by
          rw [List.takeWhile_cons, if_pos (isNotSeparator_iff.2 hsep)]
        have hl0 : l = [] := by
          cases l with
          | nil => rfl
          | cons y l =>
            rw [htw] at e2
            have := (List.cons.inj e2).1
            rw [this, hl y (by simp)] at hxw; cases hxw
        subst hl0
        rw [List.nil_append] at e2
        have hne : Str.trim ((x :: s).takeWhile isNotSeparator) ≠ [] := by
          intro h0
          rw [h0, htw] at e2
          have : Str.isWs x = true := hm x (by rw [← List.nil_append m, ← e2]; simp)
          rw [hxw] at this; cases this
        have hhead : (Str.trim ((x :: s).takeWhile isNotSeparator)).head? = some x := by
          rw [← Str.head?_append_of_ne (b := m) hne, ← e2, htw]; rfl
        refine ⟨a ++ (Str.trim ((x :: s).takeWhile isNotSeparator) ++ m), ?_, .inl ?_⟩
        · rw [← e2, e0, List.append_assoc, List.takeWhile_append_dropWhile]
        · simp only [openers, List.mem_cons, List.not_mem_nil, or_false, not_or] at hx
          refine .bare ha hm hne ?_ ?_ ?_ h3 h4 ((bare_iff _ _).1 rfl)
          · intro y hy
            have : y ∈ (x :: s).takeWhile isNotSeparator := by rw [e2]; simp [hy]
            exact isNotSeparator_iff.1 (List.all_eq_true.1 (List.all_takeWhile) y this)
          · rw [hhead]; simpa using hx.1
          · rw [hhead]; simpa using hx.2.1

/-! ## Completeness -/

/-- What may follow a value inside another one. -/
def Stops (r : Str) : Prop := r = [] ∨ r.head? = some ',' ∨ r.head? = some '}' ∨ r.head? = some ']'

omit [FloatOps] in
theorem Stops.trimmed {r : Str} (h : Stops r) : Str.Trimmed r := by
  intro c hc
  apply isWs_stop
  rcases h with rfl | h | h | h
  · cases hc
  all_goals
    rw [h] at hc
    rw [← Option.some.inj hc]
    decide

/-- A value's text starts, after white space, with a character that ends nothing. -/
theorem _root_.Figment.Reads.front {Q : Str → Str → Prop} {s : Str} {v : Value} (h : Reads Q s v) : ∃ a s' c, Ws a ∧ s = a ++ s' ∧ Reads Q s' v ∧
    s'.head? = some c ∧ Str.isWs c = false ∧ c ≠ ',' ∧ c ≠ '}' ∧ c ≠ ']' := by
  cases h with
  | @bare a s b _ ha hb hne hs h1 h2 h3 h4 h =>
    cases s with
    | nil => exact absurd rfl hne
    | cons c s =>
      have hc := hs c (by simp)
      simp only [separators, List.mem_cons, List.not_mem_nil, or_false, not_or] at hc
      refine ⟨a, (c :: s) ++ b, c, ha, rfl, ?_, rfl, h3 c rfl, hc.1, hc.2.2.1, hc.2.2.2.2⟩
      exact .bare (a := []) Ws.nil hb hne hs h1 h2 h3 h4 h
  | @string a s t b ha hb h =>
    exact ⟨a, _, '"', ha, rfl, .string (a := []) Ws.nil hb h, rfl, rfl, by decide, by decide, by decide⟩
  | @char a b c ha hb =>
    exact ⟨a, _, '\'', ha, rfl, .char (a := []) c Ws.nil hb, rfl, rfl, by decide, by decide, by decide⟩
  | @array a s b _ ha hb h =>
    exact ⟨a, _, '[', ha, rfl, .array (a := []) Ws.nil hb h, rfl, rfl, by decide, by decide, by decide⟩
  | @dict a s b _ ha hb h =>
    exact ⟨a, _, '{', ha, rfl, .dict (a := []) Ws.nil hb h, rfl, rfl, by decide, by decide, by decide⟩

/-- What is known of `value` for texts of bounded length. -/
def Complete (n : Nat) (value : Str → P Value) : Prop :=
  (∀ s v r, s.length < n → Reads CodeQuoted s v → Stops r → value (s ++ r) = .ok (v, r)) ∧
  (∀ s r, Ws s → Stops r → r ≠ [] → 0 < n → value (s ++ r) = .ok (.ofStr [], r))

theorem array_complete {k : Nat} {value : Str → P Value} (hv : Complete k value) : ∀ (n : Nat) (s r : Str) (vs acc : List Value),
    (Str.trimStart (s ++ ']' :: r)).length < n → s.length < k → Items CodeQuoted s vs →
    delimitedLoop (fun (a : List Value) v => a ++ [v]) ']' value n (Str.trimStart (s ++ ']' :: r)) acc = .ok (acc ++ vs, r) := by
  intro n
  induction n with
  | zero => intro s r vs acc h; omega
  | succ n ih =>
    intro s r vs acc hn hk hi
    cases hi with
    | nil hw =>
      rw [Str.trimStart_ws hw, Str.trimStart_cons (by decide), delimitedLoop_peek, List.append_nil]
    | last h =>
      rename_i v
      obtain ⟨a, s', c, ha, rfl, hr, hh, hw, h1, h2, h3⟩ := h.front
      rw [List.append_assoc, Str.trimStart_ws ha]
      have ht : Str.Trimmed (s' ++ ']' :: r) := by
        intro y hy
        rw [Str.head?_append_of_ne (by rintro rfl; cases hh), hh] at hy
        rw [← Option.some.inj hy]; exact hw
      rw [ht.eq, delimitedLoop_step (by
        rw [Str.head?_append_of_ne (by rintro rfl; cases hh), hh]; simpa using h3)]
      rw [hv.1 s' v (']' :: r) (by simp at hk; omega) hr (.inr (.inr (.inr rfl)))]
      simp [Out.bind, Str.trimStart_cons (show Str.isWs ']' = false from rfl), eat]
    | @cons s1 r1 v vs h hr1 =>
      obtain ⟨a, s', c, ha, rfl, hr, hh, hw, h1, h2, h3⟩ := h.front
      have he : a ++ s' ++ ',' :: r1 ++ ']' :: r = a ++ (s' ++ ',' :: (r1 ++ ']' :: r)) := by simp
      rw [he, Str.trimStart_ws ha] at hn ⊢
      have ht : Str.Trimmed (s' ++ ',' :: (r1 ++ ']' :: r)) := by
        intro y hy
        rw [Str.head?_append_of_ne (by rintro rfl; cases hh), hh] at hy
        rw [← Option.some.inj hy]; exact hw
      rw [ht.eq] at hn ⊢
      rw [delimitedLoop_step (by
        rw [Str.head?_append_of_ne (by rintro rfl; cases hh), hh]; simpa using h3)]
      have hl := Str.trimStart_length (r1 ++ ']' :: r)
      simp only [List.length_append, List.length_cons] at hk hn hl
      rw [hv.1 s' v (',' :: (r1 ++ ']' :: r)) (by omega) hr (.inr (.inl rfl))]
      simp only [Out.bind, Str.trimStart_cons (show Str.isWs ',' = false from rfl), eat_cons]
      rw [ih r1 r vs (acc ++ [v]) (by omega) (by omega) hr1]
      simp
    | @skip s1 r1 vs hw hr1 =>
      have he : s1 ++ ',' :: r1 ++ ']' :: r = s1 ++ (',' :: (r1 ++ ']' :: r)) := by simp
      rw [he, Str.trimStart_ws hw, Str.trimStart_cons (by decide)] at hn ⊢
      rw [delimitedLoop_step (by simp)]
      have hl := Str.trimStart_length (r1 ++ ']' :: r)
      simp only [List.length_append, List.length_cons] at hk hn hl
      have := hv.2 [] (',' :: (r1 ++ ']' :: r)) Ws.nil (.inr (.inl rfl)) (by simp) (by omega)
      rw [List.nil_append] at this
      rw [this]
      simp only [Out.bind, Str.trimStart_cons (show Str.isWs ',' = false from rfl), eat_cons]
      rw [ih r1 r vs _ (by omega) (by omega) hr1]
      simp

omit [FloatOps] in
theorem keyText_head {k key : Str} (h : KeyText CodeQuoted k key) : ∀ c, k.head? = some c → Str.isWs c = false ∧ c ≠ '}' := by
  intro c hc
  cases h with
  | ident h =>
    have hm : c ∈ k := List.mem_of_head? hc
    have h2 := isIdentChar_iff.2 (h c hm)
    constructor
    · by_cases hw : Str.isWs c = true
      · exfalso
        simp only [isIdentChar, Bool.or_eq_true, Bool.and_eq_true, decide_eq_true_eq, Char.le_def,
          UInt32.le_iff_toNat_le] at h2
        simp only [Str.isWs, Bool.or_eq_true, Bool.and_eq_true, decide_eq_true_eq, beq_iff_eq] at hw
        have e1 : 'a'.val.toNat = 97 := rfl
        have e2 : 'z'.val.toNat = 122 := rfl
        have e3 : 'A'.val.toNat = 65 := rfl
        have e4 : 'Z'.val.toNat = 90 := rfl
        have e5 : '0'.val.toNat = 48 := rfl
        have e6 : '9'.val.toNat = 57 := rfl
        have e7 : c = '_' → c.toNat = 95 := by rintro rfl; rfl
        have e8 : c = '-' → c.toNat = 45 := by rintro rfl; rfl
        have e9 : c.val.toNat = c.toNat := rfl
        rw [e1, e2, e3, e4, e5, e6, e9] at h2
        have h3 : (((97 ≤ c.toNat ∧ c.toNat ≤ 122 ∨ 65 ≤ c.toNat ∧ c.toNat ≤ 90) ∨ 48 ≤ c.toNat ∧ c.toNat ≤ 57) ∨
          c.toNat = 95) ∨ c.toNat = 45 := by
          rcases h2 with (h | h) | h
          · exact .inl (.inl h)
          · exact .inl (.inr (e7 h))
          · exact .inr (e8 h)
        omega
      · simpa using hw
    · rintro rfl; revert h2; decide
  | quoted h => obtain rfl := Option.some.inj hc; exact ⟨rfl, by decide⟩

omit [FloatOps] in
theorem key_at {k b r key : Str} (hk : KeyText CodeQuoted k key) (hb : Ws b) :
    Parser.key (k ++ (b ++ '=' :: r)) = .ok (key, b ++ '=' :: r) := by
  refine key_complete hk ?_
  intro c hcc
  cases b with
  | nil => obtain rfl := Option.some.inj hcc; exact ⟨rfl, by decide⟩
  | cons x b =>
    obtain rfl := Option.some.inj hcc
    have hw := hb x (by simp)
    constructor
    · by_cases hi : isIdentChar x = true
      · have := (keyText_head (.ident (s := [x]) (by simpa using isIdentChar_iff.1 hi)) x rfl).1
        rw [hw] at this; cases this
      · simpa using hi
    · rintro rfl; revert hw; decide

omit [FloatOps] in
/-- `key =` is read: the cursor after the equals sign. -/
theorem dictItem_complete {value : Str → P Value} {k b r key : Str} {v : Value} {rest : Str} 
    (hk : KeyText CodeQuoted k key) (hb : Ws b) (hv : value (Str.trimStart r) = .ok (v, rest)) :
    dictItem value (k ++ (b ++ '=' :: r)) = .ok ((key, v), rest) := by
  rw [dictItem, key_at hk hb]
  simp only [Out.bind]
  rw [Str.trimStart_ws hb, Str.trimStart_cons (by decide), eat_cons]
  simp only
  rw [hv]

omit [FloatOps] in
/-- The front of an entry: after white space, a key and no closing brace. -/
theorem entry_front {a k b r key : Str} (ha : Ws a) (hk : KeyText CodeQuoted k key) (hb : Ws b) :
    ∃ k' b', k' = k ∧ KeyText CodeQuoted k' key ∧ Ws b' ∧ Str.trimStart (a ++ (k ++ (b ++ '=' :: r))) = k' ++ (b' ++ '=' :: r) ∧
      (k' ++ (b' ++ '=' :: r)).head? ≠ some '}' := by
  rw [Str.trimStart_ws ha]
  cases k with
  | nil =>
    refine ⟨[], [], rfl, hk, Ws.nil, ?_, by simp⟩
    rw [List.nil_append, Str.trimStart_ws hb, Str.trimStart_cons (by decide)]; rfl
  | cons c k =>
    obtain ⟨h1, h2⟩ := keyText_head hk c rfl
    exact ⟨c :: k, b, rfl, hk, hb, by rw [List.cons_append, Str.trimStart_cons h1], by simpa using h2⟩

theorem value_at {m : Nat} {value : Str → P Value} (hv : Complete m value) {s r : Str} {v : Value} (hs : s.length < m)
    (hr : Stops r) (hne : r ≠ []) (h : Reads CodeQuoted s v ∨ (Ws s ∧ v = .ofStr [])) :
    value (Str.trimStart (s ++ r)) = .ok (v, r) := by
  rcases h with h | ⟨h, rfl⟩
  · obtain ⟨a, s', c, ha, rfl, hrd, hh, hw, _⟩ := h.front
    rw [List.append_assoc, Str.trimStart_ws ha]
    have ht : Str.Trimmed (s' ++ r) := by
      intro y hy
      rw [Str.head?_append_of_ne (by rintro rfl; cases hh), hh] at hy
      rw [← Option.some.inj hy]; exact hw
    rw [ht.eq]
    exact hv.1 s' v r (by simp at hs; omega) hrd hr
  · rw [Str.trimStart_ws h, hr.trimmed.eq]
    have := hv.2 [] r Ws.nil hr hne (by omega)
    rwa [List.nil_append] at this

theorem dict_complete {m : Nat} {value : Str → P Value} (hv : Complete m value) :
    ∀ (n : Nat) (s r : Str) (es : List (Str × Value)) (acc : Dict),
    (Str.trimStart (s ++ '}' :: r)).length < n → s.length < m → Entries CodeQuoted s es →
    delimitedLoop (fun (d : Dict) (e : Str × Value) => Map.insert e.1 e.2 d) '}' (dictItem value) n
      (Str.trimStart (s ++ '}' :: r)) acc = .ok (Map.extend acc es, r) := by
  intro n
  induction n with
  | zero => intro s r es acc h; omega
  | succ n ih =>
    intro s r es acc hn hm hi
    have last : ∀ {a k b s' key : Str} {v : Value}, s = a ++ (k ++ (b ++ '=' :: s')) → Ws a → KeyText CodeQuoted k key → Ws b →
        (Reads CodeQuoted s' v ∨ (Ws s' ∧ v = .ofStr [])) →
        delimitedLoop (fun (d : Dict) (e : Str × Value) => Map.insert e.1 e.2 d) '}' (dictItem value) (n + 1)
          (Str.trimStart (s ++ '}' :: r)) acc = .ok (Map.extend acc [(key, v)], r) := by
      intro a k b s' key v hs ha hk hb hrd
      subst hs
      have he : a ++ (k ++ (b ++ '=' :: s')) ++ '}' :: r = a ++ (k ++ (b ++ '=' :: (s' ++ '}' :: r))) := by simp
      rw [he]
      obtain ⟨k', b', rfl, hk', hb', ef, hf⟩ := entry_front (r := s' ++ '}' :: r) ha hk hb
      rw [ef]
      have hval := value_at hv (r := '}' :: r) (by simp at hm; omega)
        (.inr (.inr (.inl rfl))) (by simp) hrd
      rw [delimitedLoop_step hf, dictItem_complete hk' hb' hval]
      simp [Out.bind, Str.trimStart_cons (show Str.isWs '}' = false from rfl), eat, Map.extend]
    have cons : ∀ {a k b s' r' key : Str} {v : Value} {es : List (Str × Value)},
        s = a ++ (k ++ (b ++ '=' :: (s' ++ ',' :: r'))) → Ws a → KeyText CodeQuoted k key → Ws b →
        (Reads CodeQuoted s' v ∨ (Ws s' ∧ v = .ofStr [])) → Entries CodeQuoted r' es →
        delimitedLoop (fun (d : Dict) (e : Str × Value) => Map.insert e.1 e.2 d) '}' (dictItem value) (n + 1)
          (Str.trimStart (s ++ '}' :: r)) acc = .ok (Map.extend acc ((key, v) :: es), r) := by
      intro a k b s' r' key v es hs ha hk hb hrd hr'
      subst hs
      have he : a ++ (k ++ (b ++ '=' :: (s' ++ ',' :: r'))) ++ '}' :: r =
        a ++ (k ++ (b ++ '=' :: (s' ++ ',' :: (r' ++ '}' :: r)))) := by simp
      rw [he] at hn ⊢
      obtain ⟨k', b', rfl, hk', hb', ef, hf⟩ := entry_front (r := s' ++ ',' :: (r' ++ '}' :: r)) ha hk hb
      rw [ef] at hn ⊢
      have hval := value_at hv (r := ',' :: (r' ++ '}' :: r)) (by simp at hm; omega)
        (.inr (.inl rfl)) (by simp) hrd
      rw [delimitedLoop_step hf, dictItem_complete hk' hb' hval]
      simp only [Out.bind, Str.trimStart_cons (show Str.isWs ',' = false from rfl), eat_cons]
      rw [ih r' r es _ (by
        have hl := Str.trimStart_length (r' ++ '}' :: r)
        simp only [List.length_append, List.length_cons] at hn hl
        omega) (by simp at hm; omega) hr']
      rfl
    cases hi with
    | nil hw => rw [Str.trimStart_ws hw, Str.trimStart_cons (by decide), delimitedLoop_peek]; rfl
    | last ha hk hb h => exact last rfl ha hk hb (.inl h)
    | lastEmpty ha hk hb h => exact last rfl ha hk hb (.inr ⟨h, rfl⟩)
    | cons ha hk hb h hr => exact cons rfl ha hk hb (.inl h) hr
    | consEmpty ha hk hb h hr => exact cons rfl ha hk hb (.inr ⟨h, rfl⟩) hr

theorem bare_nil : bare [] = .ofStr [] := rfl

theorem valueP_complete (n : Nat) : Complete n (valueP n) := by
  induction n with
  | zero => exact ⟨fun s v r h => by omega, fun s r _ _ _ h => by omega⟩
  | succ n ih =>
    constructor
    · intro s v r hn hr hst
      have fin : ∀ {b : Str}, Ws b → Str.trimStart (b ++ r) = r := fun hb => by rw [Str.trimStart_ws hb, hst.trimmed.eq]
      rw [valueP_succ]
      cases hr with
      | @bare a s b v ha hb hne hs h1 h2 h3 h4 h =>
        rw [List.append_assoc, Str.trimStart_ws ha, List.append_assoc]
        cases s with
        | nil => exact absurd rfl hne
        | cons x s =>
          rw [List.cons_append, Str.trimStart_cons (h3 x rfl)]
          have hx := hs x (by simp)
          have hop : x ∉ openers := by
            simp only [separators, openers, List.mem_cons, List.not_mem_nil, or_false, not_or, List.head?_cons, ne_eq,
              Option.some.injEq] at hx h1 h2 ⊢
            exact ⟨h1, h2, hx.2.2.2.1, hx.2.1⟩
          have hws : ∀ c ∈ b, c ∉ separators := by
            intro c hcb hcs
            have := isWs_stop hcs
            rw [hb c hcb] at this; cases this
          have htd := takeWhile_append_stop (p := isNotSeparator) (s := (x :: s) ++ b) (r := r)
            (by
              intro c hcm
              rcases List.mem_append.1 hcm with hcm | hcm
              · exact isNotSeparator_iff.2 (hs c hcm)
              · exact isNotSeparator_iff.2 (hws c hcm))
            (by
              intro c hcr
              rcases hst with rfl | hst | hst | hst
              · cases hcr
              all_goals rw [hst] at hcr; rw [← Option.some.inj hcr]; rfl)
          rw [List.append_assoc, List.cons_append] at htd
          rw [body_bare n hop, htd.1, htd.2]
          have := Str.trim_of_split Ws.nil hb h3 h4
          rw [List.nil_append] at this
          simp only [Out.bind, this, (bare_iff _ _).2 h, hst.trimmed.eq]
      | @string a s t b ha hb h =>
        rw [List.append_assoc, Str.trimStart_ws ha, List.cons_append, Str.trimStart_cons (by decide), List.append_assoc,
          List.cons_append, body_quote, h]
        simp only [Out.bind, fin hb]
      | @char a b c ha hb =>
        rw [List.append_assoc, Str.trimStart_ws ha, List.cons_append, Str.trimStart_cons (by decide)]
        simp only [List.cons_append, body_char, quotedChar, eat_cons, Out.bind, eatAny, fin hb]
      | @array a s b vs ha hb h =>
        rw [List.append_assoc, Str.trimStart_ws ha, List.cons_append, Str.trimStart_cons (by decide), List.append_assoc,
          List.cons_append, body_array]
        simp only [List.length_append, List.length_cons] at hn
        rw [array_complete ih _ s (b ++ r) vs [] (Nat.lt_succ_self _) (by omega) h]
        simp only [Out.bind, fin hb, List.nil_append]
      | @dict a s b es ha hb h =>
        rw [List.append_assoc, Str.trimStart_ws ha, List.cons_append, Str.trimStart_cons (by decide), List.append_assoc,
          List.cons_append, body_dict]
        simp only [List.length_append, List.length_cons] at hn
        rw [dict_complete ih _ s (b ++ r) es [] (Nat.lt_succ_self _) (by omega) h]
        simp only [Out.bind, fin hb]
        rfl
    · intro s r hs hst hne _
      rw [valueP_succ, Str.trimStart_ws hs, hst.trimmed.eq]
      have hr : ∃ x r', r = x :: r' ∧ x ∉ openers ∧ isNotSeparator x = false := by
        cases r with
        | nil => exact absurd rfl hne
        | cons x r' =>
          refine ⟨x, r', rfl, ?_⟩
          rcases hst with h | h | h | h
          · cases h
          all_goals
            obtain rfl := Option.some.inj h
            exact ⟨by decide, rfl⟩
      obtain ⟨x, r', rfl, h1, h2⟩ := hr
      rw [body_bare n h1, List.takeWhile_cons, List.dropWhile_cons, h2]
      simp only [Bool.false_eq_true, if_false, Out.bind, hst.trimmed.eq]
      rfl

end
end Parser

section
variable [FloatOps] {Q Q' : Str → Str → Prop}

/-- The two readings of quotes agree on all quoted strings in a text. -/
def AgreesIn (Q Q' : Str → Str → Prop) (s : Str) : Prop :=
  ∀ a x t b, s = a ++ '"' :: (x ++ '"' :: b) → Q x t → Q' x t

omit [FloatOps] in
theorem AgreesIn.part {a s b : Str} (h : AgreesIn Q Q' (a ++ (s ++ b))) : AgreesIn Q Q' s := by
  rintro x y t z rfl
  exact h (a ++ x) y t (z ++ b) (by simp)

omit [FloatOps] in
theorem KeyText.mono {k key : Str} (h : KeyText Q k key) (hq : AgreesIn Q Q' k) : KeyText Q' k key := by
  cases h with
  | ident h => exact .ident h
  | quoted h => exact .quoted (hq [] _ _ [] rfl h)

mutual
theorem Reads.mono {s : Str} {v : Value} : Reads Q s v → AgreesIn Q Q' s → Reads Q' s v
  | .bare ha hb hne hs h1 h2 h3 h4 h, _ => .bare ha hb hne hs h1 h2 h3 h4 h
  | .string ha hb h, hq => .string ha hb (hq _ _ _ _ rfl h)
  | .char c ha hb, _ => .char c ha hb
  | @Reads.array _ _ a s b _ ha hb h, hq =>
    .array ha hb (h.mono (AgreesIn.part (a := a ++ ['[']) (b := ']' :: b) (by simpa using hq)))
  | @Reads.dict _ _ a s b _ ha hb h, hq =>
    .dict ha hb (h.mono (AgreesIn.part (a := a ++ ['{']) (b := '}' :: b) (by simpa using hq)))
theorem Items.mono {s : Str} {vs : List Value} : Items Q s vs → AgreesIn Q Q' s → Items Q' s vs
  | .nil h, _ => .nil h
  | .last h, hq => .last (h.mono hq)
  | @Items.cons _ _ s r _ _ h hr, hq =>
    .cons (h.mono (AgreesIn.part (a := []) (b := ',' :: r) (by simpa using hq)))
      (hr.mono (AgreesIn.part (a := s ++ [',']) (b := []) (by simpa using hq)))
  | @Items.skip _ _ s r _ h hr, hq =>
    .skip h (hr.mono (AgreesIn.part (a := s ++ [',']) (b := []) (by simpa using hq)))
theorem Entries.mono {s : Str} {es : List (Str × Value)} : Entries Q s es → AgreesIn Q Q' s → Entries Q' s es
  | .nil h, _ => .nil h
  | @Entries.last _ _ a k b s _ _ ha hk hb h, hq =>
    .last ha (hk.mono (AgreesIn.part (a := a) (b := b ++ '=' :: s) (by simpa using hq))) hb
      (h.mono (AgreesIn.part (a := a ++ (k ++ (b ++ ['=']))) (b := []) (by simpa using hq)))
  | @Entries.lastEmpty _ _ a k b s _ ha hk hb h, hq =>
    .lastEmpty ha (hk.mono (AgreesIn.part (a := a) (b := b ++ '=' :: s) (by simpa using hq))) hb h
  | @Entries.cons _ _ a k b s r _ _ _ ha hk hb h hr, hq =>
    .cons ha (hk.mono (AgreesIn.part (a := a) (b := b ++ '=' :: (s ++ ',' :: r)) (by simpa using hq))) hb
      (h.mono (AgreesIn.part (a := a ++ (k ++ (b ++ ['=']))) (b := ',' :: r) (by simpa using hq)))
      (hr.mono (AgreesIn.part (a := a ++ (k ++ (b ++ '=' :: (s ++ [','])))) (b := []) (by simpa using hq)))
  | @Entries.consEmpty _ _ a k b s r _ _ ha hk hb h hr, hq =>
    .consEmpty ha (hk.mono (AgreesIn.part (a := a) (b := b ++ '=' :: (s ++ ',' :: r)) (by simpa using hq))) hb h
      (hr.mono (AgreesIn.part (a := a ++ (k ++ (b ++ '=' :: (s ++ [','])))) (b := []) (by simpa using hq)))
end

open Parser in
/-- For clean text the code reads quotes as specified. -/
theorem reads_clean {s : Str} {v : Value} (hc : CleanText s) : Reads CodeQuoted s v ↔ Writes s v := by
  constructor
  · intro h
    refine h.mono ?_
    rintro a x t b rfl hq
    exact hq.spec (CleanText.front hc.suffix hq.noQuote.1)
  · intro h
    refine h.mono ?_
    rintro a x t b rfl hu
    have hn : NoQuote false x := by
      have h1 := (quotedInner_split false (x ++ '"' :: b)).2
      rwa [hu.quotedInner] at h1
    exact .of_spec (CleanText.front hc.suffix hn) hu

theorem Reads.ne_ws {s : Str} {v : Value} (h : Reads Q s v) : ¬ Ws s := by
  intro hw
  obtain ⟨a, s', c, _, rfl, _, hh, hc, _⟩ := h.front
  have := hw.of_append.2 c (List.mem_of_head? hh)
  rw [hc] at this; cases this

/-- White space around a value does not matter. -/
theorem Reads.surround {a s b : Str} {v : Value} (ha : Ws a) (hb : Ws b) (h : Reads Q s v) :
    Reads Q (a ++ (s ++ b)) v := by
  refine Reads.ws ha ?_
  cases h with
  | @bare x s y _ hx hy hne hs h1 h2 h3 h4 h =>
    have : x ++ (s ++ y) ++ b = x ++ (s ++ (y ++ b)) := by simp
    rw [this]; exact .bare hx (hy.append hb) hne hs h1 h2 h3 h4 h
  | @string x s t y hx hy h =>
    have : x ++ '"' :: (s ++ '"' :: y) ++ b = x ++ '"' :: (s ++ '"' :: (y ++ b)) := by simp
    rw [this]; exact .string hx (hy.append hb) h
  | @char x y c hx hy =>
    have : x ++ '\'' :: c :: '\'' :: y ++ b = x ++ '\'' :: c :: '\'' :: (y ++ b) := by simp
    rw [this]; exact .char c hx (hy.append hb)
  | @array x s y _ hx hy h =>
    have : x ++ '[' :: (s ++ ']' :: y) ++ b = x ++ '[' :: (s ++ ']' :: (y ++ b)) := by simp
    rw [this]; exact .array hx (hy.append hb) h
  | @dict x s y _ hx hy h =>
    have : x ++ '{' :: (s ++ '}' :: y) ++ b = x ++ '{' :: (s ++ '}' :: (y ++ b)) := by simp
    rw [this]; exact .dict hx (hy.append hb) h

namespace Value
open Parser

theorem parse_trim (s : Str) : parse (Str.trim s) = parse s := by
  rw [parse, parse, Str.trim_trim]

theorem parse_no_loop (s : Str) : parse s ≠ .loop := by
  rw [parse]
  have := valueP_no_loop (n := (Str.trim s).length + 1) (c := Str.trim s) (Nat.lt_succ_self _)
  cases h : valueP ((Str.trim s).length + 1) (Str.trim s) with
  | ok p => simp only; split <;> simp
  | err e => simp
  | panic => simp
  | loop => exact absurd h this

theorem parse_reads {s : Str} {v : Value} (h : Reads CodeQuoted (Str.trim s) v) : parse s = .ok v := by
  have := (valueP_complete ((Str.trim s).length + 1)).1 (Str.trim s) v [] (Nat.lt_succ_self _) h (.inl rfl)
  rw [List.append_nil] at this
  rw [parse, this]
  rfl

theorem parse_ws {s : Str} (h : Ws s) : parse s = .ok (.ofEmpty .unit) := by
  rw [parse, Str.trim_ws h]; rfl

/-- Without a value in the text: the text itself, or a panic. -/
theorem parse_text {s : Str} (hne : ¬ Ws s) (h : ¬ ∃ v, Reads CodeQuoted (Str.trim s) v) :
    parse s = .ok (.ofStr (Str.trim s)) ∨ parse s = .panic := by
  have hl := valueP_no_loop (n := (Str.trim s).length + 1) (c := Str.trim s) (Nat.lt_succ_self _)
  rw [parse]
  cases hv : valueP ((Str.trim s).length + 1) (Str.trim s) with
  | ok p =>
    obtain ⟨v, r⟩ := p
    simp only
    cases hr : r with
    | cons c r' => exact .inl rfl
    | nil =>
      exfalso
      subst hr
      obtain ⟨_, x, e, hx⟩ := valueP_sound _ _ _ _ hv
      rw [List.append_nil] at e
      subst e
      rcases hx with hx | ⟨hw, _⟩
      · exact h ⟨v, hx⟩
      · apply hne
        obtain ⟨a, b, ha, hb, hs, _⟩ := Str.trim_split s
        rw [hs]; exact ha.append (hw.append hb)
  | err e => exact .inl rfl
  | panic => exact .inr rfl
  | loop => exact absurd hv hl

theorem parse_clean_good {s : Str} (hc : CleanText s) : ∃ v, parse s = .ok v := by
  rw [parse]
  rcases valueP_good (Nat.lt_succ_self _) hc.trim with ⟨⟨v, r⟩, h⟩ | ⟨e, h⟩
  · rw [h]; simp only; split <;> exact ⟨_, rfl⟩
  · rw [h]; exact ⟨_, rfl⟩

end Value
end
end Figment
