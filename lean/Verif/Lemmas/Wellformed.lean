import Verif.Lemmas.Print
/-! # Quoted strings that are not clean; texts that are no values -/
namespace Figment

theorem Str.sliceTo_byteLen {s q : Str} {n : Nat} (h : Str.sliceTo s n = some q) : Str.byteLen q = n := by
  induction s generalizing n q with
  | nil =>
    cases n with
    | zero => simp [Str.sliceTo] at h; subst h; rfl
    | succ n => simp [Str.sliceTo] at h
  | cons c s ih =>
    cases n with
    | zero => simp [Str.sliceTo] at h; subst h; rfl
    | succ n =>
      rw [Str.sliceTo] at h
      split at h
      · cases hs : Str.sliceTo s (n + 1 - Str.utf8Len c) with
        | none => rw [hs] at h; cases h
        | some r =>
          rw [hs] at h
          cases h
          have := ih hs
          simp only [Str.byteLen, List.map_cons, List.sum_cons] at this ⊢
          omega
      · cases h

theorem Str.utf8Len_pos (c : Char) : 1 ≤ Str.utf8Len c := by
  rw [Str.utf8Len]; repeat' split
  all_goals omega

theorem Str.length_le_byteLen (s : Str) : s.length ≤ Str.byteLen s := by
  induction s with
  | nil => exact Nat.le_refl _
  | cons c s ih =>
    have := Str.utf8Len_pos c
    simp only [Str.byteLen, List.map_cons, List.sum_cons, List.length_cons] at ih ⊢
    omega

theorem Str.length_lt_byteLen {s : Str} {c : Char} (hc : c ∈ s) (h : ¬ c.toNat < 128) : s.length < Str.byteLen s := by
  induction s with
  | nil => cases hc
  | cons x s ih =>
    simp only [Str.byteLen, List.map_cons, List.sum_cons, List.length_cons]
    rcases List.mem_cons.1 hc with rfl | hc
    · have h1 := Str.length_le_byteLen s
      have : 2 ≤ Str.utf8Len c := by
        rw [Str.utf8Len, if_neg h]; repeat' split
        all_goals omega
      simp only [Str.byteLen] at h1
      omega
    · have := ih hc
      have := Str.utf8Len_pos x
      simp only [Str.byteLen] at *
      omega

/-- With a character that is not ASCII before the first backslash, `escape` never gives what it should. -/
theorem escape_unclean {pre rest t : Str} {c : Char} (hp : '\\' ∉ pre) (hc : c ∈ pre) (hn : ¬ c.toNat < 128)
    (hu : Unescapes true (pre ++ '\\' :: rest) t) : escape (pre ++ '\\' :: rest) ≠ .ok t := by
  obtain ⟨h1, t', rfl, h2⟩ := hu.prefix_plain hp
  rw [escape_exact hp h1]
  split
  · simp
  · rename_i q hq
    rw [(escapeLoop_spec _ _ _ _ q (by simp)).1 t' h2]
    intro h
    have h3 := List.append_cancel_right (Out.ok.inj h)
    have h4 := Str.sliceTo_byteLen hq
    have h5 := Str.length_lt_byteLen hc hn
    rw [h3] at h4
    omega

/-- When `escape` gives something, the text is well-formed. -/
theorem escape_wellformed {s t : Str} (h : escape s = .ok t) : ∃ t', Unescapes true s t' := by
  rcases Str.split_backslash s with hb | ⟨pre, rest, rfl, hp⟩
  · rcases Str.split_control s with hc | ⟨a, c, b, rfl, ha, hc⟩
    · exact ⟨s, .self fun c hcm => ⟨fun he => hb (he ▸ hcm), hc c hcm⟩⟩
    · rw [escape_bad rfl (fun x hx => ⟨fun he => hb (by rw [← he]; simp [hx]), ha x hx⟩) hc] at h; cases h
  · rcases Str.split_control pre with hc | ⟨a, c, b, rfl, ha, hc⟩
    · rw [escape_exact hp hc] at h
      split at h
      · cases h
      · rename_i q _
        rcases (escapeLoop_spec (pre ++ '\\' :: rest) (rest.length + 1) pre.length ('\\' :: rest) q (by simp)).2 with
          ⟨t', ht⟩ | ⟨e, he⟩
        · exact ⟨_, .append_plain hp hc ht⟩
        · rw [he] at h; cases h
    · rw [List.append_assoc, escape_bad (s := a ++ (c :: b ++ '\\' :: rest)) rfl
        (fun x hx => ⟨fun he => hp (by rw [← he]; simp [hx]), ha x hx⟩) hc] at h
      cases h

theorem Parser.CodeQuoted.wellformed {x t : Str} (h : CodeQuoted x t) : ∃ t', Unescapes false x t' := by
  obtain ⟨h1, h2⟩ := h.noQuote
  obtain ⟨t', h3⟩ := escape_wellformed h2
  exact ⟨t', h3.tighten h1⟩

section
variable [FloatOps] {Q Q' : Str → Str → Prop} 

omit [FloatOps] in
theorem KeyText.weaken (hq : ∀ x t, Q x t → ∃ t', Q' x t') {k key : Str} (h : KeyText Q k key) : ∃ key', KeyText Q' k key' := by
  cases h with
  | ident h => exact ⟨_, .ident h⟩
  | quoted h => obtain ⟨t', h'⟩ := hq _ _ h; exact ⟨_, .quoted h'⟩

mutual
theorem Reads.weaken (hq : ∀ x t, Q x t → ∃ t', Q' x t') {s : Str} {v : Value} : Reads Q s v → ∃ v', Reads Q' s v'
  | .bare ha hb hne hs h1 h2 h3 h4 h => ⟨_, .bare ha hb hne hs h1 h2 h3 h4 h⟩
  | .string ha hb h => let ⟨_, h'⟩ := hq _ _ h; ⟨_, .string ha hb h'⟩
  | .char c ha hb => ⟨_, .char c ha hb⟩
  | .array ha hb h => let ⟨_, h'⟩ := Items.weaken hq h; ⟨_, .array ha hb h'⟩
  | .dict ha hb h => let ⟨_, h'⟩ := Entries.weaken hq h; ⟨_, .dict ha hb h'⟩
theorem Items.weaken (hq : ∀ x t, Q x t → ∃ t', Q' x t') {s : Str} {vs : List Value} : Items Q s vs → ∃ vs', Items Q' s vs'
  | .nil h => ⟨_, .nil h⟩
  | .last h => let ⟨_, h'⟩ := Reads.weaken hq h; ⟨_, .last h'⟩
  | .cons h hr => let ⟨_, h'⟩ := Reads.weaken hq h; let ⟨_, hr'⟩ := Items.weaken hq hr; ⟨_, .cons h' hr'⟩
  | .skip h hr => let ⟨_, hr'⟩ := Items.weaken hq hr; ⟨_, .skip h hr'⟩
theorem Entries.weaken (hq : ∀ x t, Q x t → ∃ t', Q' x t') {s : Str} {es : List (Str × Value)} : Entries Q s es → ∃ es', Entries Q' s es'
  | .nil h => ⟨_, .nil h⟩
  | .last ha hk hb h => let ⟨_, h'⟩ := Reads.weaken hq h; let ⟨_, hk'⟩ := hk.weaken hq; ⟨_, .last ha hk' hb h'⟩
  | .lastEmpty ha hk hb h => let ⟨_, hk'⟩ := hk.weaken hq; ⟨_, .lastEmpty ha hk' hb h⟩
  | .cons ha hk hb h hr =>
    let ⟨_, h'⟩ := Reads.weaken hq h; let ⟨_, hk'⟩ := hk.weaken hq; let ⟨_, hr'⟩ := Entries.weaken hq hr
    ⟨_, .cons ha hk' hb h' hr'⟩
  | .consEmpty ha hk hb h hr =>
    let ⟨_, hk'⟩ := hk.weaken hq; let ⟨_, hr'⟩ := Entries.weaken hq hr; ⟨_, .consEmpty ha hk' hb h hr'⟩
end

omit [FloatOps] in
/-- A quote at the end leaves no room for white space. -/
theorem quoted_inj {a x b s : Str} (ha : Ws a) (hb : Ws b) (h : a ++ '"' :: (x ++ '"' :: b) = '"' :: (s ++ ['"'])) :
    x = s := by
  have ha' : a = [] := by
    cases a with
    | nil => rfl
    | cons c a =>
      have : c = '"' := (List.cons.inj h).1
      have h1 := ha c (by simp)
      rw [this] at h1; exact absurd h1 (by decide)
  subst ha'
  have h1 := (List.cons.inj h).2
  have hb' : b = [] := by
    rcases List.eq_nil_or_concat b with rfl | ⟨b', c, rfl⟩
    · rfl
    · have h2 := congrArg List.getLast? h1
      have h3 := hb c (by simp)
      have e1 : x ++ '"' :: b'.concat c = (x ++ '"' :: b') ++ [c] := by simp
      rw [e1, List.getLast?_concat, List.getLast?_concat] at h2
      have h2 := Option.some.inj h2
      rw [h2] at h3; exact absurd h3 (by decide)
  subst hb'
  exact List.append_cancel_right h1

/-- What a text between double quotes can stand for. -/
theorem Reads.quoted_inv {s : Str} {v : Value} (h : Reads Q ('"' :: (s ++ ['"'])) v) : ∃ t, Q s t ∧ v = .ofStr t := by
  generalize hx : '"' :: (s ++ ['"']) = x at h
  have hh : ∀ (a : Str) (c : Char) (r : Str), Ws a → '"' :: (s ++ ['"']) = a ++ c :: r → c = '"' ∨ Str.isWs c = true := by
    intro a c r ha e
    cases a with
    | nil => exact .inl (List.cons.inj e).1.symm
    | cons y a =>
      have h1 := ha y (by simp)
      rw [← (List.cons.inj e).1] at h1; exact absurd h1 (by decide)
  cases h with
  | @bare a z b _ ha hb hne hs h1 h2 h3 h4 h =>
    cases z with
    | nil => exact absurd rfl hne
    | cons c z =>
      rcases hh a c (z ++ b) ha hx with rfl | hw
      · exact absurd rfl h1
      · rw [h3 c rfl] at hw; cases hw
  | @string a z t b ha hb h =>
    rw [quoted_inj ha hb hx.symm] at h
    exact ⟨t, h, rfl⟩
  | @char a b c ha hb =>
    rcases hh a '\'' _ ha hx with h | h <;> exact absurd h (by decide)
  | @array a z b _ ha hb h =>
    rcases hh a '[' _ ha hx with h | h <;> exact absurd h (by decide)
  | @dict a z b _ ha hb h =>
    rcases hh a '{' _ ha hx with h | h <;> exact absurd h (by decide)

omit [FloatOps] in
theorem Str.trim_quoted (s : Str) : Str.trim ('"' :: (s ++ ['"'])) = '"' :: (s ++ ['"']) := by
  have := Str.trim_of_split (a := []) (b := []) (s := '"' :: (s ++ ['"'])) Ws.nil Ws.nil
    (by intro c hc; cases hc; decide)
    (by intro c hc; rw [← List.cons_append, List.getLast?_concat] at hc; cases hc; decide)
  simpa using this

omit [FloatOps] in
theorem quoted_not_ws (s : Str) : ¬ Ws ('"' :: s) := fun h => absurd (h '"' (by simp)) (by decide)

omit [FloatOps] in
theorem Unescapes.functional {q : Bool} {s t t' : Str} (h : Unescapes q s t) (h' : Unescapes q s t') : t = t' := by
  induction h generalizing t' with
  | nil => cases h'; rfl
  | @plain c s t hc _ _ _ ih =>
    obtain ⟨_, _, u, rfl, hu⟩ := h'.of_plain hc
    rw [ih hu]
  | named h r ih =>
    obtain ⟨m, r', u, h1, rfl, h2⟩ := h'.of_escape
    rw [readEscape_named h] at h1
    cases h1; rw [ih h2]
  | hex4 hl hd hv r ih =>
    obtain ⟨m, r', u, h1, rfl, h2⟩ := h'.of_escape
    rw [readEscape_hex4, ← hl, hex_append hd hv] at h1
    cases h1; rw [ih h2]
  | hex8 hl hd hv r ih =>
    obtain ⟨m, r', u, h1, rfl, h2⟩ := h'.of_escape
    rw [readEscape_hex8, ← hl, hex_append hd hv] at h1
    cases h1; rw [ih h2]

theorem Reads.core {s : Str} {v : Value} (h : Reads Q s v) : Reads Q (Str.trim s) v := by
  have quoted : ∀ (a m b : Str) (x y : Char), Ws a → Ws b → Str.isWs x = false → Str.isWs y = false →
      Str.trim (a ++ x :: (m ++ y :: b)) = x :: (m ++ [y]) := by
    intro a m b x y ha hb hx hy
    have := Str.trim_of_split (s := x :: (m ++ [y])) ha hb (by intro c hc; cases hc; exact hx)
      (by intro c hc; rw [← List.cons_append, List.getLast?_concat] at hc; cases hc; exact hy)
    simpa using this
  cases h with
  | @bare a z b _ ha hb hne hs h1 h2 h3 h4 h =>
    rw [Str.trim_of_split ha hb h3 h4]
    have := Reads.bare (Q := Q) (a := []) (b := []) Ws.nil Ws.nil hne hs h1 h2 h3 h4 h
    simpa using this
  | @string a z t b ha hb h =>
    rw [quoted a z b _ _ ha hb (by decide) (by decide)]
    exact .string (a := []) (b := []) Ws.nil Ws.nil h
  | @char a b c ha hb =>
    have := quoted a [c] b '\'' '\'' ha hb (by decide) (by decide)
    rw [show a ++ '\'' :: c :: '\'' :: b = a ++ '\'' :: ([c] ++ '\'' :: b) from rfl, this]
    exact .char (a := []) (b := []) c Ws.nil Ws.nil
  | @array a z b _ ha hb h =>
    rw [quoted a z b _ _ ha hb (by decide) (by decide)]
    exact .array (a := []) (b := []) Ws.nil Ws.nil h
  | @dict a z b _ ha hb h =>
    rw [quoted a z b _ _ ha hb (by decide) (by decide)]
    exact .dict (a := []) (b := []) Ws.nil Ws.nil h

/-- A text that reads as a value, with white space or not, parses as it. -/
theorem Value.parse_of_reads {s : Str} {v : Value} (h : Reads Parser.CodeQuoted s v) : Value.parse s = .ok v :=
  Value.parse_reads h.core

end
end Figment
