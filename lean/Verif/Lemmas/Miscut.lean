import Verif.Lemmas.Env

/-! Exactly what becomes of the text between double quotes, for all text. -/

namespace Figment
open Parser

theorem Unescapes.tail {q : Bool} {pre s t : Str} (hp : '\\' ∉ pre) (h : Unescapes q (pre ++ s) (pre ++ t)) :
    (∀ c ∈ pre, ¬ isControl c) ∧ Unescapes q s t := by
  obtain ⟨h1, t', e, h2⟩ := h.prefix_plain hp
  rw [List.append_cancel_left e]; exact ⟨h1, h2⟩

theorem escape_ok_iff (s t : Str) : escape s = .ok t ↔ Miscuts true s t := by
  constructor
  · intro h
    rcases Str.split_backslash s with hb | ⟨pre, rest, rfl, hp⟩
    · rcases Str.split_control s with hc | ⟨a, c, b, rfl, ha, hc⟩
      · rw [escape_of_no_backslash hb hc] at h
        cases h
        exact .kept hb (.self fun c hcm => ⟨fun he => hb (he ▸ hcm), hc c hcm⟩)
      · rw [escape_bad rfl (fun x hx => ⟨fun he => hb (by rw [← he]; simp [hx]), ha x hx⟩) hc] at h; cases h
    · rcases Str.split_control pre with hc | ⟨a, c, b, rfl, ha, hc⟩
      · rw [escape_exact hp hc] at h
        cases hs : Str.sliceTo (pre ++ '\\' :: rest) pre.length with
        | none => rw [hs] at h; cases h
        | some a =>
          rw [hs] at h
          dsimp only at h
          obtain ⟨b, he, hl⟩ := Str.sliceTo_some hs
          obtain ⟨h1, h2⟩ := escapeLoop_spec (pre ++ '\\' :: rest) (rest.length + 1) pre.length ('\\' :: rest) a (by simp)
          rcases h2 with ⟨u, hu⟩ | ⟨e, he⟩
          · rw [h1 u hu] at h
            cases h
            exact .cut hp he hl (hu.append_plain hp hc) rfl
          · rw [he] at h; cases h
      · rw [List.append_assoc, escape_bad (s := a ++ (c :: b ++ '\\' :: rest)) rfl
          (fun x hx => ⟨fun he => hp (by rw [← he]; simp [hx]), ha x hx⟩) hc] at h
        cases h
  · intro h
    cases h with
    | kept hb hu =>
      rw [← List.append_nil s] at hu
      exact escape_of_no_backslash hb (hu.prefix_plain hb).1
    | @cut pre rest a b u _ hp he hl hu ht =>
      obtain ⟨hc, hu⟩ := hu.tail hp
      rw [escape_exact hp hc]
      have hs := Str.sliceTo_append a b
      rw [← he, hl] at hs
      rw [hs, ht]
      exact (escapeLoop_spec (pre ++ '\\' :: rest) (rest.length + 1) pre.length ('\\' :: rest) a (by simp)).1 u hu

theorem escape_panic_iff (s : Str) : escape s = .panic ↔ ∃ pre rest, s = pre ++ '\\' :: rest ∧ '\\' ∉ pre ∧
    (∀ c ∈ pre, ¬ isControl c) ∧ ¬ ∃ a b, s = a ++ b ∧ Str.byteLen a = pre.length := by
  constructor
  · intro h
    rcases Str.split_backslash s with hb | ⟨pre, rest, rfl, hp⟩
    · rcases Str.split_control s with hc | ⟨a, c, b, rfl, ha, hc⟩
      · rw [escape_of_no_backslash hb hc] at h
        cases h
      · rw [escape_bad rfl (fun x hx => ⟨fun he => hb (by rw [← he]; simp [hx]), ha x hx⟩) hc] at h; cases h
    · rcases Str.split_control pre with hc | ⟨a, c, b, rfl, ha, hc⟩
      · refine ⟨pre, rest, rfl, hp, hc, ?_⟩
        rintro ⟨a, b, he, hl⟩
        have hs := Str.sliceTo_append a b
        rw [← he, hl] at hs
        rw [escape_exact hp hc, hs] at h
        dsimp only at h
        obtain ⟨h1, h2⟩ := escapeLoop_spec (pre ++ '\\' :: rest) (rest.length + 1) pre.length ('\\' :: rest) a (by simp)
        rcases h2 with ⟨u, hu⟩ | ⟨e, he⟩
        · rw [h1 u hu] at h; cases h
        · rw [he] at h; cases h
      · rw [List.append_assoc, escape_bad (s := a ++ (c :: b ++ '\\' :: rest)) rfl
          (fun x hx => ⟨fun he => hp (by rw [← he]; simp [hx]), ha x hx⟩) hc] at h
        cases h
  · rintro ⟨pre, rest, rfl, hp, hc, hn⟩
    rw [escape_exact hp hc]
    cases hs : Str.sliceTo (pre ++ '\\' :: rest) pre.length with
    | none => rfl
    | some a =>
      obtain ⟨b, he, hl⟩ := Str.sliceTo_some hs
      exact absurd ⟨a, b, he, hl⟩ hn

theorem escape_err_not_unescapes {s t : Str} {e : EscapeError} (h : escape s = .err e) (ht : Unescapes true s t) : False := by
  rcases Str.split_backslash s with hb | ⟨pre, rest, rfl, hp⟩
  · rw [← List.append_nil s] at ht
    rw [escape_of_no_backslash hb (ht.prefix_plain hb).1] at h
    cases h
  · obtain ⟨hc, t', rfl, h2⟩ := ht.prefix_plain hp
    rw [escape_exact hp hc] at h
    split at h
    · cases h
    · rename_i q _
      rw [(escapeLoop_spec (pre ++ '\\' :: rest) (rest.length + 1) pre.length ('\\' :: rest) q (by simp)).1 t' h2] at h
      cases h

theorem Miscuts.unescapes {q : Bool} {s t : Str} (h : Miscuts q s t) : ∃ u, Unescapes q s u := by
  cases h with
  | kept _ hu => exact ⟨_, hu⟩
  | cut _ _ _ hu _ => exact ⟨_, hu⟩

theorem Miscuts.loosen {s t : Str} (h : Miscuts false s t) : Miscuts true s t := by
  cases h with
  | kept h hu => exact .kept h hu.loosen
  | cut h he hl hu ht => exact .cut h he hl hu.loosen ht

theorem Miscuts.tighten {s t : Str} (h : Miscuts true s t) (hq : NoQuote false s) : Miscuts false s t := by
  cases h with
  | kept h hu => exact .kept h (hu.tighten hq)
  | cut h he hl hu ht => exact .cut h he hl (hu.tighten hq) ht

theorem codeQuoted_iff (x t : Str) : CodeQuoted x t ↔ Miscuts false x t := by
  constructor
  · intro h
    obtain ⟨h1, h2⟩ := h.noQuote
    exact ((escape_ok_iff x t).1 h2).tighten h1
  · intro h r
    obtain ⟨u, hu⟩ := h.unescapes
    rw [quotedStr_eq, hu.quotedInner]
    simp only [eat_cons, Out.bind]
    rw [(escape_ok_iff x t).2 h.loosen]
    rfl

theorem codeQuoted_eq : CodeQuoted = Miscuts false := by
  funext x t
  exact propext (codeQuoted_iff x t)

theorem Enclosed.quotedInner {x : Str} (h : Enclosed x) (r : Str) :
    quotedInner false (x ++ '"' :: r) = (x, '"' :: r) := by
  induction h with
  | nil => simp [Parser.quotedInner]
  | plain hb hq _ ih => simp only [List.cons_append, Parser.quotedInner, if_neg hb, if_pos hq]; rw [ih]
  | pair c _ ih => simp only [List.cons_append, Parser.quotedInner, if_true]; rw [ih]

/-- What is read up to a closing quote is enclosed. -/
theorem enclosed_of_quotedInner {n : Nat} {s : Str} (hn : s.length ≤ n) {r : Str}
    (h : (Parser.quotedInner false s).2 = '"' :: r) : Enclosed (Parser.quotedInner false s).1 := by
  induction n generalizing s with
  | zero =>
    cases s with
    | nil => exact .nil
    | cons => simp at hn
  | succ n ih =>
    cases s with
    | nil => exact .nil
    | cons c s =>
      by_cases hc : c = '\\'
      · subst hc
        cases s with
        | nil => simp [Parser.quotedInner] at h
        | cons d s =>
          simp only [Parser.quotedInner, if_true] at h ⊢
          exact .pair d (ih (by simp at hn; omega) h)
      · by_cases hq : c = '"'
        · subst hq; simp [Parser.quotedInner]; exact .nil
        · simp only [Parser.quotedInner, if_neg hc, if_pos (show c ≠ '"' from hq)] at h ⊢
          exact .plain hc hq (ih (by simpa using hn) h)

/-- When reading a quoted string panics. -/
theorem quotedStr_panic_iff (s : Str) : quotedStr s = .panic ↔
    ∃ x r, s = '"' :: (x ++ '"' :: r) ∧ Enclosed x ∧ escape x = .panic := by
  constructor
  · intro h
    rcases eat_total '"' s with ⟨s, h1, rfl⟩ | h1
    · rw [quotedStr_eq] at h
      rcases eat_total '"' (Parser.quotedInner false s).2 with ⟨r', h2, h3⟩ | h2
      · obtain ⟨hs, hq⟩ := quotedInner_split false s
        rw [h3] at hs
        have he := enclosed_of_quotedInner (Nat.le_refl _) h3
        refine ⟨_, r', by rw [← hs], he, ?_⟩
        rw [h2] at h
        simp only [Out.bind] at h
        cases hx : escape (Parser.quotedInner false s).1 <;> rw [hx] at h <;> simp only [Out.mapErr] at h <;> first | rfl | cases h
      · rw [h2] at h; cases h
    · rw [quotedStr, h1] at h; cases h
  · rintro ⟨x, r, rfl, he, hx⟩
    rw [quotedStr_eq, he.quotedInner]
    simp only [eat_cons, Out.bind]
    rw [hx]
    rfl

/-! ## When parsing panics -/

section
variable [FloatOps] {Q : Str → Str → Prop} {D : Str → Prop}

theorem Meets.ws {a s : Str} (ha : Ws a) (h : Meets Q D s) : Meets Q D (a ++ s) := by
  cases h with
  | string hb hs h => rw [← List.append_assoc]; exact .string (ha.append hb) hs h
  | array hb h => rw [← List.append_assoc]; exact .array (ha.append hb) h
  | dict hb h => rw [← List.append_assoc]; exact .dict (ha.append hb) h

theorem MeetsItems.ws {a s : Str} (ha : Ws a) (h : MeetsItems Q D s) : MeetsItems Q D (a ++ s) := by
  cases h with
  | here h => exact .here (h.ws ha)
  | cons h hr => rw [← List.append_assoc]; exact .cons (h.ws ha) hr
  | skip h hr => rw [← List.append_assoc]; exact .skip (ha.append h) hr

theorem MeetsEntries.ws {a s : Str} (ha : Ws a) (h : MeetsEntries Q D s) : MeetsEntries Q D (a ++ s) := by
  cases h with
  | key hb hs h => rw [← List.append_assoc]; exact .key (ha.append hb) hs h
  | value hb hk hc h => rw [← List.append_assoc]; exact .value (ha.append hb) hk hc h
  | cons hb hk hc h hr => rw [← List.append_assoc]; exact .cons (ha.append hb) hk hc h hr
  | consEmpty hb hk hc h hr => rw [← List.append_assoc]; exact .consEmpty (ha.append hb) hk hc h hr

namespace Parser

omit [FloatOps] in
theorem bind_panic {α β : Type _} {o : P α} {f : α × Str → P β} (h : o.bind f = .panic) :
    o = .panic ∨ ∃ p, o = .ok p ∧ f p = .panic := by
  cases o with
  | ok p => exact .inr ⟨p, rfl, h⟩
  | err e => cases h
  | panic => exact .inl rfl
  | loop => cases h

omit [FloatOps] in
theorem eat_not_panic (c : Char) (s : Str) : eat c s ≠ .panic := by
  rcases eat_total c s with ⟨r, h, _⟩ | h <;> rw [h] <;> simp

omit [FloatOps] in
theorem delimitedLoop_panic {τ ν : Type} {extend : τ → ν → τ} {stop : Char} {value : Str → P ν} {n : Nat} {c : Str}
    {acc : τ} (h : delimitedLoop extend stop value (n + 1) c acc = .panic) :
    value c = .panic ∨ ∃ v c1 c2, value c = .ok (v, c1) ∧ Str.trimStart c1 = ',' :: c2 ∧
      delimitedLoop extend stop value n (Str.trimStart c2) (extend acc v) = .panic := by
  by_cases hp : c.head? = some stop
  · cases c with
    | nil => cases hp
    | cons x c =>
      obtain rfl := Option.some.inj hp
      rw [delimitedLoop_peek] at h; cases h
  · rw [delimitedLoop_step hp] at h
    rcases bind_panic h with h | ⟨⟨v, c1⟩, h1, h⟩
    · exact .inl h
    · rcases eat_comma_cases (Str.trimStart c1) with ⟨c2, e1, e2⟩ | e1
      · simp only [e2] at h
        exact .inr ⟨v, c1, c2, h1, e1, h⟩
      · exfalso
        have h' : ((eat stop (Str.trimStart c1)).bind fun (_, cursor) => (Out.ok (extend acc v, cursor) : P τ)) = .panic := by
          cases hh : eat ',' (Str.trimStart c1) with
          | ok p =>
            obtain ⟨x, y⟩ := p
            exact absurd (by rw [eat_ok hh]; rfl) e1
          | err e => simp only [hh] at h; exact h
          | panic => simp only [hh] at h; exact h
          | loop => simp only [hh] at h; exact h
        rcases bind_panic h' with h | ⟨p, _, h⟩
        · exact eat_not_panic _ _ h
        · cases h

/-- Where the code panics, for its own reading of quotes. -/
abbrev CodeMeets (s : Str) : Prop := Meets CodeQuoted (fun x => escape x = .panic) s

def Panicky (value : Str → P Value) : Prop := ∀ c, value c = .panic → CodeMeets c

theorem array_panic {value : Str → P Value} (hv : Sound value) (hp : Panicky value) {n : Nat} {c : Str} {acc : List Value}
    (h : delimitedLoop (fun (a : List Value) v => a ++ [v]) ']' value n c acc = .panic) :
    MeetsItems CodeQuoted (fun x => escape x = .panic) c := by
  induction n generalizing c acc with
  | zero => cases h
  | succ n ih =>
    rcases delimitedLoop_panic h with h | ⟨v, c1, c2, h1, h2, h3⟩
    · exact .here (hp c h)
    · obtain ⟨t1, s, rfl, hr⟩ := hv _ _ _ h1
      rw [t1.eq] at h2
      subst h2
      obtain ⟨w, hw, e2⟩ := Str.trimStart_split c2
      have h5 := (ih h3).ws hw
      rw [← e2] at h5
      rcases hr with hr | ⟨hs, _⟩
      · exact .cons hr h5
      · exact .skip hs h5

theorem dict_panic {value : Str → P Value} (hv : Sound value) (hp : Panicky value) {n : Nat} {c : Str} {acc : Dict}
    (h : delimitedLoop (fun (d : Dict) (e : Str × Value) => Map.insert e.1 e.2 d) '}' (dictItem value) n c acc = .panic) :
    MeetsEntries CodeQuoted (fun x => escape x = .panic) c := by
  induction n generalizing c acc with
  | zero => cases h
  | succ n ih =>
    rcases delimitedLoop_panic h with h | ⟨⟨k, v⟩, c1, c2, h1, h2, h3⟩
    · rw [dictItem] at h
      rcases bind_panic h with h | ⟨⟨k, c1⟩, h1, h⟩
      · rw [key] at h
        split at h
        · obtain ⟨x, r, rfl, he, hx⟩ := (quotedStr_panic_iff c).1 h
          exact .key (a := []) Ws.nil he hx
        · cases h
      · rcases bind_panic h with h | ⟨⟨x, c2⟩, h2, h⟩
        · exact absurd h (eat_not_panic _ _)
        · rcases bind_panic h with h4 | ⟨⟨v, c3⟩, h3, h⟩
          · obtain ⟨ks, rfl, hk⟩ := key_sound h1
            obtain ⟨b, hb, e1⟩ := Str.trimStart_split c1
            rw [eat_ok h2] at e1
            obtain ⟨w, hw, e2⟩ := Str.trimStart_split c2
            have h5 := (hp _ h4).ws hw
            rw [← e2] at h5
            rw [e1]
            exact .value (a := []) Ws.nil hk hb h5
          · cases h
    · obtain ⟨t1, ks, b, s, rfl, hk, hb, hr⟩ := dictItem_sound hv h1
      rw [t1.eq] at h2
      subst h2
      obtain ⟨w, hw, e2⟩ := Str.trimStart_split c2
      have h5 := (ih h3).ws hw
      rw [← e2] at h5
      rcases hr with hr | ⟨hs, _⟩
      · exact .cons (a := []) Ws.nil hk hb hr h5
      · exact .consEmpty (a := []) Ws.nil hk hb hs h5

theorem valueP_panic (n : Nat) : Panicky (valueP n) := by
  induction n with
  | zero => intro c h; cases h
  | succ n ih =>
    intro c h
    rw [valueP_succ] at h
    rcases bind_panic h with h | ⟨_, _, h⟩
    · obtain ⟨a, ha, e0⟩ := Str.trimStart_split c
      rcases cursor_cases (Str.trimStart c) with e | ⟨s, e⟩ | ⟨s, e⟩ | ⟨s, e⟩ | ⟨s, e⟩ | ⟨x, s, e, hx⟩ <;>
        rw [e] at h e0 <;> rw [e0]
      · rw [body_nil] at h; cases h
      · rw [body_quote] at h
        rcases bind_panic h with h | ⟨_, _, h⟩
        · obtain ⟨x, r, e1, he, hx⟩ := (quotedStr_panic_iff _).1 h
          rw [e1]; exact .string ha he hx
        · cases h
      · rw [body_char] at h
        rcases bind_panic h with h | ⟨_, _, h⟩
        · rcases quotedChar_good ('\'' :: s) with ⟨p, h'⟩ | ⟨p, h'⟩ <;> rw [h'] at h <;> cases h
        · cases h
      · rw [body_array] at h
        rcases bind_panic h with h | ⟨_, _, h⟩
        · obtain ⟨x, hx, e3⟩ := Str.trimStart_split s
          have := (array_panic (valueP_sound n) ih h).ws hx
          rw [← e3] at this
          exact .array ha this
        · cases h
      · rw [body_dict] at h
        rcases bind_panic h with h | ⟨_, _, h⟩
        · obtain ⟨x, hx, e3⟩ := Str.trimStart_split s
          have := (dict_panic (valueP_sound n) ih h).ws hx
          rw [← e3] at this
          exact .dict ha this
        · cases h
      · rw [body_bare n hx] at h; cases h
    · cases h

/-- A text that meets trouble starts, after white space, with a quote or an opening bracket or brace. -/
theorem _root_.Figment.Meets.front {s : Str} (h : Meets Q D s) : ∃ a c s', Ws a ∧ s = a ++ c :: s' ∧ Meets Q D (c :: s') ∧
    Str.isWs c = false ∧ c ≠ ',' ∧ c ≠ '}' ∧ c ≠ ']' := by
  cases h with
  | @string a s r ha hs h =>
    exact ⟨a, '"', _, ha, rfl, .string (a := []) Ws.nil hs h, rfl, by decide, by decide, by decide⟩
  | @array a s ha h => exact ⟨a, '[', _, ha, rfl, .array (a := []) Ws.nil h, rfl, by decide, by decide, by decide⟩
  | @dict a s ha h => exact ⟨a, '{', _, ha, rfl, .dict (a := []) Ws.nil h, rfl, by decide, by decide, by decide⟩

theorem valueP_trim (k : Nat) (s : Str) : valueP k (Str.trimStart s) = valueP k s := by
  cases k with
  | zero => rfl
  | succ k => rw [valueP_succ, valueP_succ, (Str.trimStart_trimmed s).eq]

omit [FloatOps] in
theorem loop_comma {τ ν : Type} {extend : τ → ν → τ} {stop : Char} {value : Str → P ν} {n : Nat} {c r : Str} {v : ν}
    {acc : τ} (hc : c.head? ≠ some stop) (hv : value c = .ok (v, ',' :: r))
    (h : delimitedLoop extend stop value n (Str.trimStart r) (extend acc v) = .panic) :
    delimitedLoop extend stop value (n + 1) c acc = .panic := by
  rw [delimitedLoop_step hc, hv]
  simp only [Out.bind, Str.trimStart_cons (show Str.isWs ',' = false from rfl), eat_cons]
  exact h

/-- The text before a comma in an array or dictionary does not start with a bracket or brace that closes. -/
theorem readsOr_front {s r : Str} {v : Value} (h : Reads CodeQuoted s v ∨ Ws s) :
    ∃ x, Str.trimStart (s ++ ',' :: r) = x ++ ',' :: r ∧ x.length ≤ s.length ∧ (x ++ ',' :: r).head? ≠ some ']' := by
  rcases h with h | h
  · obtain ⟨a, s', c, ha, rfl, hr, hh, hw, h1, h2, h3⟩ := h.front
    refine ⟨s', ?_, by simp, ?_⟩
    · rw [List.append_assoc, Str.trimStart_ws ha]
      cases s' with
      | nil => cases hh
      | cons y s' => obtain rfl := Option.some.inj hh; exact Str.trimStart_cons hw _
    · rw [Str.head?_append_of_ne (by rintro rfl; cases hh), hh]; simpa using h3
  · exact ⟨[], by rw [Str.trimStart_ws h]; exact Str.trimStart_cons (by decide) _, by simp, by simp⟩

omit [FloatOps] in
theorem dictItem_panic {value : Str → P Value} {k b r key : Str} (hk : KeyText CodeQuoted k key) (hb : Ws b)
    (hv : value (Str.trimStart r) = .panic) : dictItem value (k ++ (b ++ '=' :: r)) = .panic := by
  rw [dictItem, key_at hk hb]
  simp only [Out.bind]
  rw [Str.trimStart_ws hb, Str.trimStart_cons (by decide), eat_cons]
  simp only
  rw [hv]

mutual
theorem meets_panic {s : Str} : CodeMeets s → ∀ n, s.length < n → valueP n s = .panic
  | _, 0, hn => absurd hn (by omega)
  | @Meets.string _ _ _ a s r ha hs h, n + 1, hn => by
    rw [valueP_succ, Str.trimStart_ws ha, Str.trimStart_cons (by decide), body_quote,
      (quotedStr_panic_iff _).2 ⟨s, r, rfl, hs, h⟩]
    rfl
  | @Meets.array _ _ _ a s ha h, n + 1, hn => by
    rw [valueP_succ, Str.trimStart_ws ha, Str.trimStart_cons (by decide), body_array,
      meetsItems_panic h n _ [] (by simp at hn; omega) (Nat.lt_succ_self _)]
    rfl
  | @Meets.dict _ _ _ a s ha h, n + 1, hn => by
    rw [valueP_succ, Str.trimStart_ws ha, Str.trimStart_cons (by decide), body_dict,
      meetsEntries_panic h n _ [] (by simp at hn; omega) (Nat.lt_succ_self _)]
    rfl
theorem meetsItems_panic {s : Str} : MeetsItems CodeQuoted (fun x => escape x = .panic) s →
    ∀ (k n : Nat) (acc : List Value), s.length < k → (Str.trimStart s).length < n →
    delimitedLoop (fun (a : List Value) v => a ++ [v]) ']' (valueP k) n (Str.trimStart s) acc = .panic
  | _, _, 0, _, _, hn => absurd hn (by omega)
  | .here h, k, n + 1, acc, hk, hn => by
    have hv := meets_panic h k hk
    obtain ⟨a, c, s', ha, rfl, h', hw, h1, h2, h3⟩ := h.front
    rw [← valueP_trim, Str.trimStart_ws ha, Str.trimStart_cons hw] at hv
    rw [Str.trimStart_ws ha, Str.trimStart_cons hw, delimitedLoop_step (by simpa using h3), hv]
    rfl
  | @MeetsItems.cons _ _ _ s r v h hr, k, n + 1, acc, hk, hn => by
    have hl := Str.trimStart_length r
    obtain ⟨x, e, hx, hh⟩ := readsOr_front (r := r) (.inl h)
    have hv := value_at (valueP_complete k) (r := ',' :: r) (by simp at hk; omega) (.inr (.inl rfl)) (by simp) (.inl h)
    rw [e] at hv hn ⊢
    simp only [List.length_append, List.length_cons] at hk hn
    exact loop_comma hh hv (meetsItems_panic hr k n _ (by omega) (by omega))
  | @MeetsItems.skip _ _ _ s r h hr, k, n + 1, acc, hk, hn => by
    have hl := Str.trimStart_length r
    obtain ⟨x, e, hx, hh⟩ := readsOr_front (r := r) (v := .ofStr []) (.inr h)
    have hv := value_at (valueP_complete k) (r := ',' :: r) (by simp at hk; omega) (.inr (.inl rfl)) (by simp) (.inr ⟨h, rfl⟩)
    rw [e] at hv hn ⊢
    simp only [List.length_append, List.length_cons] at hk hn
    exact loop_comma hh hv (meetsItems_panic hr k n _ (by omega) (by omega))
theorem meetsEntries_panic {s : Str} : MeetsEntries CodeQuoted (fun x => escape x = .panic) s →
    ∀ (k n : Nat) (acc : Dict), s.length < k → (Str.trimStart s).length < n →
    delimitedLoop (fun (d : Dict) (e : Str × Value) => Map.insert e.1 e.2 d) '}' (dictItem (valueP k)) n
      (Str.trimStart s) acc = .panic
  | _, _, 0, _, _, hn => absurd hn (by omega)
  | @MeetsEntries.key _ _ _ a s r ha hs h, k, n + 1, acc, hk, hn => by
    rw [Str.trimStart_ws ha, Str.trimStart_cons (by decide), delimitedLoop_step (by simp), dictItem, key,
      if_pos (by simp [peek]), (quotedStr_panic_iff _).2 ⟨s, r, rfl, hs, h⟩]
    rfl
  | @MeetsEntries.value _ _ _ a kt b s key ha hkt hb h, k, n + 1, acc, hk, hn => by
    have hv := meets_panic h k (by simp at hk; omega)
    obtain ⟨k', b', rfl, hk', hb', ef, hf⟩ := entry_front (r := s) ha hkt hb
    rw [ef, delimitedLoop_step hf, dictItem_panic hk' hb' (by rw [valueP_trim]; exact hv)]
    rfl
  | @MeetsEntries.cons _ _ _ a kt b s r key v ha hkt hb h hr, k, n + 1, acc, hk, hn => by
    have hl := Str.trimStart_length r
    obtain ⟨k', b', rfl, hk', hb', ef, hf⟩ := entry_front (r := s ++ ',' :: r) ha hkt hb
    have hv := value_at (valueP_complete k) (r := ',' :: r) (by simp at hk; omega) (.inr (.inl rfl)) (by simp) (.inl h)
    rw [ef] at hn ⊢
    simp only [List.length_append, List.length_cons] at hk hn
    exact loop_comma hf (dictItem_complete hk' hb' hv) (meetsEntries_panic hr k n _ (by omega) (by omega))
  | @MeetsEntries.consEmpty _ _ _ a kt b s r key ha hkt hb h hr, k, n + 1, acc, hk, hn => by
    have hl := Str.trimStart_length r
    obtain ⟨k', b', rfl, hk', hb', ef, hf⟩ := entry_front (r := s ++ ',' :: r) ha hkt hb
    have hv := value_at (valueP_complete k) (r := ',' :: r) (by simp at hk; omega) (.inr (.inl rfl)) (by simp) (.inr ⟨h, rfl⟩)
    rw [ef] at hn ⊢
    simp only [List.length_append, List.length_cons] at hk hn
    exact loop_comma hf (dictItem_complete hk' hb' hv) (meetsEntries_panic hr k n _ (by omega) (by omega))
end

theorem _root_.Figment.Value.parse_panic_iff (s : Str) : Value.parse s = .panic ↔ Meets (Miscuts false) Derails (Str.trim s) := by
  have hD : (fun x => escape x = .panic) = Derails := by funext x; exact propext (escape_panic_iff x)
  rw [← codeQuoted_eq, ← hD]
  constructor
  · intro h
    rw [Value.parse] at h
    cases hv : valueP ((Str.trim s).length + 1) (Str.trim s) with
    | ok p => rw [hv] at h; dsimp only at h; split at h <;> cases h
    | err e => rw [hv] at h; cases h
    | panic => exact valueP_panic _ _ hv
    | loop => rw [hv] at h; cases h
  · intro h
    rw [Value.parse, meets_panic h _ (Nat.lt_succ_self _)]

end Parser
end

end Figment
