import Verif.Spec.Env
import Verif.Lemmas.Focus
import Verif.Lemmas.Wellformed
import Verif.Lemmas.View
/-! # Lemmas about the environment provider -/
namespace Figment

namespace Str

theorem upper_shift {c : Char} (h1 : 65 ≤ c.toNat) (h2 : c.toNat ≤ 90) : (Char.ofNat (c.toNat + 32)).toNat = c.toNat + 32 := by
  have h : (c.toNat + 32).isValidChar := .inl (by omega)
  rw [Char.ofNat, dif_pos h]; rfl

theorem lowerChar_utf8Len (c : Char) : utf8Len (lowerChar c) = utf8Len c := by
  unfold lowerChar
  split
  · rename_i h
    have h1 : 65 ≤ c.toNat := h.1
    have h2 : c.toNat ≤ 90 := h.2
    have h3 : (Char.ofNat (c.toNat + 32)).toNat = c.toNat + 32 := Str.upper_shift h1 h2
    unfold utf8Len
    rw [h3, if_pos (by omega), if_pos (by omega)]
  · rfl

theorem lowerChar_idem (c : Char) : lowerChar (lowerChar c) = lowerChar c := by
  unfold lowerChar
  split
  · rename_i h
    have h3 := upper_shift h.1 h.2
    rw [if_neg]
    rintro ⟨_, h4⟩
    have h5 : (Char.ofNat (c.toNat + 32)).toNat ≤ 90 := h4
    have h1 : 65 ≤ c.toNat := h.1
    omega
  · rfl

theorem byteLen_lower (s : Str) : byteLen (lower s) = byteLen s := by
  unfold byteLen lower
  rw [List.map_map]
  congr 1
  exact List.map_congr_left fun c _ => lowerChar_utf8Len c

theorem byteLen_append (a b : Str) : byteLen (a ++ b) = byteLen a + byteLen b := by
  simp [byteLen]

theorem byteLen_of_uncased {a b : Str} (h : lower a = lower b) : byteLen a = byteLen b := by
  rw [← byteLen_lower a, h, byteLen_lower]

theorem sliceTo_append (q r : Str) : sliceTo (q ++ r) (byteLen q) = some q := by
  induction q with
  | nil => cases r <;> rfl
  | cons c cs ih =>
    have hb : byteLen (c :: cs) = utf8Len c + byteLen cs := by simp [byteLen]
    have hp := utf8Len_pos c
    obtain ⟨n, hn⟩ : ∃ n, byteLen (c :: cs) = n + 1 := ⟨byteLen (c :: cs) - 1, by omega⟩
    rw [hn, List.cons_append, sliceTo, ← hn, if_pos (by omega), hb,
      show utf8Len c + byteLen cs - utf8Len c = byteLen cs by omega, ih]
    rfl

theorem sliceFrom_append (q r : Str) : sliceFrom (q ++ r) (byteLen q) = some r := by
  induction q with
  | nil => cases r <;> rfl
  | cons c cs ih =>
    have hb : byteLen (c :: cs) = utf8Len c + byteLen cs := by simp [byteLen]
    have hp := utf8Len_pos c
    obtain ⟨n, hn⟩ : ∃ n, byteLen (c :: cs) = n + 1 := ⟨byteLen (c :: cs) - 1, by omega⟩
    rw [hn, List.cons_append, sliceFrom, ← hn, if_pos (by omega), hb,
      show utf8Len c + byteLen cs - utf8Len c = byteLen cs by omega, ih]

theorem sliceTo_some {s q : Str} {n : Nat} (h : sliceTo s n = some q) : ∃ r, s = q ++ r ∧ byteLen q = n := by
  induction s generalizing q n with
  | nil =>
    cases n with
    | zero => cases h; exact ⟨[], rfl, rfl⟩
    | succ n => cases h
  | cons c cs ih =>
    cases n with
    | zero => cases h; exact ⟨_, rfl, rfl⟩
    | succ n =>
      rw [sliceTo] at h
      split at h
      · cases hs : sliceTo cs (n + 1 - utf8Len c) with
        | none => simp [hs] at h
        | some q' =>
          simp only [hs, Option.map_some, Option.some.injEq] at h
          subst h
          obtain ⟨r, hr, hb⟩ := ih hs
          refine ⟨r, by rw [hr]; rfl, ?_⟩
          simp only [byteLen, List.map_cons, List.sum_cons] at hb ⊢
          omega
      · cases h

theorem uncasedStartsWith_iff (s pre : Str) :
    uncasedStartsWith s pre = true ↔ ∃ q r, s = q ++ r ∧ lower q = lower pre := by
  unfold uncasedStartsWith
  constructor
  · cases hs : sliceTo s (byteLen pre) with
    | none => simp
    | some q =>
      intro h
      obtain ⟨r, hr, _⟩ := sliceTo_some hs
      exact ⟨q, r, hr, by simpa [uncasedEq] using h⟩
  · rintro ⟨q, r, rfl, h⟩
    rw [← byteLen_of_uncased h, sliceTo_append]
    simpa [uncasedEq] using h

/-- The slice that takes the prefix away is always on a character boundary. -/
theorem sliceFrom_startsWith {s pre : Str} (h : uncasedStartsWith s pre = true) :
    ∃ r, sliceFrom s (byteLen pre) = some r := by
  obtain ⟨q, r, rfl, h'⟩ := (uncasedStartsWith_iff s pre).1 h
  exact ⟨r, by rw [← byteLen_of_uncased h', sliceFrom_append]⟩

theorem append_inj_byteLen {a b c d : Str} (h : a ++ b = c ++ d) (hl : a.length = c.length) : a = c ∧ b = d :=
  List.append_inj h hl

theorem lower_length {a b : Str} (h : lower a = lower b) : a.length = b.length := by
  have := congrArg List.length h
  simpa [lower] using this

/-! ## `replace` -/

theorem replaceLoop_skip (p to a r : Str) : replaceLoop p to (a ++ r) a.length = replaceLoop p to r 0 := by
  induction a with
  | nil => rfl
  | cons c cs ih => exact ih

theorem replaceLoop_match {p : Str} (hp : p ≠ []) (to r : Str) :
    replaceLoop p to (p ++ r) 0 = to ++ replaceLoop p to r 0 := by
  cases p with
  | nil => exact absurd rfl hp
  | cons c cs =>
    rw [List.cons_append, replaceLoop, if_pos]
    · congr 1
      exact replaceLoop_skip _ _ cs r
    · rw [List.isPrefixOf_iff_prefix]; exact ⟨r, rfl⟩

end Str

open Str in
theorem replaceLoop_split {p : Str} (hp : p ≠ []) (to s : Str) {n : Nat} (hn : s.length ≤ n) :
    ∃ parts, SplitsAt p s parts ∧ parts ≠ [] ∧ replaceLoop p to s 0 = join to parts := by
  induction n generalizing s with
  | zero =>
    have : s = [] := List.length_eq_zero_iff.1 (by omega)
    subst this
    refine ⟨[[]], .last ?_, by simp, rfl⟩
    intro a b h
    exact hp (by simp at h; exact h.2.1)
  | succ n ih =>
    cases s with
    | nil =>
      refine ⟨[[]], .last ?_, by simp, rfl⟩
      intro a b h
      exact hp (by simp at h; exact h.2.1)
    | cons c r =>
      by_cases hm : p <+: c :: r
      · obtain ⟨r', hr'⟩ := hm
        have hl : r'.length ≤ n := by
          have := congrArg List.length hr'
          have hp' : 0 < p.length := List.length_pos_iff.2 hp
          simp only [List.length_append, List.length_cons] at this hn
          omega
        obtain ⟨parts, h1, h2, h3⟩ := ih r' hl
        refine ⟨[] :: parts, ?_, by simp, ?_⟩
        · have := SplitsAt.cons (p := p) (a := []) (r := r') (by simp) h1
          rw [← hr']; exact this
        · rw [← hr', replaceLoop_match hp, h3]
          cases parts with
          | nil => exact absurd rfl h2
          | cons x xs => simp [join]
      · obtain ⟨parts, h1, h2, h3⟩ := ih r (by simp only [List.length_cons] at hn; omega)
        have hstep : replaceLoop p to (c :: r) 0 = c :: replaceLoop p to r 0 := by
          rw [replaceLoop, if_neg]
          rw [List.isPrefixOf_iff_prefix]; exact hm
        cases h1 with
        | last h =>
          refine ⟨[c :: r], .last ?_, by simp, by rw [hstep, h3]; rfl⟩
          intro a b hab
          cases a with
          | nil => exact hm ⟨b, hab.symm⟩
          | cons d a =>
            simp only [List.cons_append, List.cons.injEq] at hab
            exact h _ _ hab.2
        | @cons a r' parts h hr =>
          refine ⟨(c :: a) :: parts, ?_, by simp, ?_⟩
          · refine SplitsAt.cons (a := c :: a) ?_ hr
            intro x y hxy
            cases x with
            | nil => exact absurd ⟨y, hxy.symm⟩ hm
            | cons d x =>
              simp only [List.cons_append, List.cons.injEq] at hxy
              have := h _ _ hxy.2
              simp; omega
          · rw [hstep, h3]
            cases parts <;> simp [join]

theorem SplitsAt.functional {p : Str} {s : Str} {l l' : List Str} (h : SplitsAt p s l) (h' : SplitsAt p s l') :
    l = l' := by
  induction h generalizing l' with
  | @last s h =>
    generalize hs : s = s' at h'
    cases h' with
    | last h' => rfl
    | cons h' hr' => exact absurd hs (h _ _)
  | @cons a r parts h hr ih =>
    generalize hs : a ++ (p ++ r) = s' at h'
    cases h' with
    | last h' => exact absurd hs.symm (h' _ _)
    | @cons a' r' parts' h' hr' =>
      have h1 := h _ _ hs
      have h2 := h' _ _ hs.symm
      have h3 : a.length = a'.length := by omega
      obtain ⟨ha, hb⟩ := List.append_inj hs h3
      have h4 := List.append_cancel_left hb
      subst ha; subst h4
      rw [ih hr']

theorem SplitsAt.ne_nil {p s : Str} {l : List Str} (h : SplitsAt p s l) : l ≠ [] := by cases h <;> simp

theorem SplitsAt.join {p s : Str} {l : List Str} (h : SplitsAt p s l) : Str.join p l = s := by
  induction h with
  | last h => rfl
  | @cons a r parts h hr ih =>
    have := hr.ne_nil
    cases parts with
    | nil => exact absurd rfl this
    | cons x xs => rw [Str.join, ih, List.append_assoc]

theorem replace_iff {p : Str} (hp : p ≠ []) (to s t : Str) :
    Str.replace p to s = t ↔ ∃ parts, SplitsAt p s parts ∧ t = Str.join to parts := by
  obtain ⟨parts, h1, h2, h3⟩ := replaceLoop_split hp to s (Nat.le_refl _)
  have h4 : Str.replace p to s = Str.join to parts := by
    rw [Str.replace, if_neg (by simpa using hp), h3]
  constructor
  · intro h; exact ⟨parts, h1, by rw [← h, h4]⟩
  · rintro ⟨parts', h', rfl⟩
    rw [h4, h1.functional h']

theorem uncasedEq_iff (a b : Str) : Str.uncasedEq a b = true ↔ SameUncased a b := by
  simp [Str.uncasedEq, SameUncased]

/-! ## What happens to a key -/

theorem EnvStart.key_iff (s : EnvStart) (k k' : Str) : s.env.filterMap k = some k' ↔ s.Key k k' := by
  cases s with
  | raw =>
    simp only [EnvStart.env, Env.raw, Env.new, Option.some.injEq]
    constructor
    · rintro rfl; exact .raw k
    · rintro ⟨⟩; rfl
  | «prefixed» pre =>
    simp only [EnvStart.env, Env.prefixed, Env.filterMapWith, Env.chain, Env.new, Option.bind_some]
    constructor
    · intro h
      split at h
      · rename_i hs
        obtain ⟨q, r, rfl, hq⟩ := (Str.uncasedStartsWith_iff _ _).1 hs
        rw [← Str.byteLen_of_uncased hq, Str.sliceFrom_append] at h
        cases h
        exact .prefixed _ hq
      · cases h
    · rintro ⟨⟩
      rename_i q h
      rw [if_pos ((Str.uncasedStartsWith_iff _ _).2 ⟨q, k', rfl, h⟩), ← Str.byteLen_of_uncased h,
        Str.sliceFrom_append]

theorem EnvStep.key_iff (s : EnvStep) (e : Env) (k k'' : Str) :
    (s.call e).filterMap k = some k'' ↔ ∃ k', e.filterMap k = some k' ∧ s.Key k' k'' := by
  cases s with
  | filter p =>
    simp only [EnvStep.call, Env.filter, Env.chain, Option.filter_eq_some_iff]
    constructor
    · rintro ⟨h1, h2⟩; exact ⟨_, h1, .filter h2⟩
    · rintro ⟨k', h1, ⟨⟩⟩; rename_i h; exact ⟨h1, h⟩
  | map f =>
    simp only [EnvStep.call, Env.map, Env.chain, Option.map_eq_some_iff]
    constructor
    · rintro ⟨k', h1, rfl⟩; exact ⟨_, h1, .map _⟩
    · rintro ⟨k', h1, ⟨⟩⟩; exact ⟨_, h1, rfl⟩
  | filterMap f =>
    simp only [EnvStep.call, Env.filterMapWith, Env.chain, Option.bind_eq_some_iff]
    constructor
    · rintro ⟨k', h1, h2⟩; exact ⟨_, h1, .filterMap h2⟩
    · rintro ⟨k', h1, ⟨⟩⟩; rename_i h; exact ⟨_, h1, h⟩
  | only keys =>
    simp only [EnvStep.call, Env.only, Env.filter, Env.chain, Option.filter_eq_some_iff, List.any_eq_true,
      uncasedEq_iff]
    constructor
    · rintro ⟨h1, a, h2, h3⟩; exact ⟨_, h1, .only h2 h3⟩
    · rintro ⟨k', h1, ⟨⟩⟩; rename_i a h ha; exact ⟨h1, a, h, ha⟩
  | ignore keys =>
    simp only [EnvStep.call, Env.ignore, Env.filter, Env.chain, Option.filter_eq_some_iff,
      Bool.not_eq_true', List.any_eq_false, uncasedEq_iff]
    constructor
    · rintro ⟨h1, h⟩; exact ⟨_, h1, .ignore h⟩
    · rintro ⟨k', h1, ⟨⟩⟩; rename_i h; exact ⟨h1, h⟩
  | split p =>
    simp only [EnvStep.call, Env.split, Env.map, Env.chain, Option.map_eq_some_iff]
    constructor
    · rintro ⟨k', h1, h2⟩
      refine ⟨_, h1, ?_⟩
      by_cases hp : p = []
      · subst hp; subst h2; exact .splitEmpty _
      · obtain ⟨parts, h3, rfl⟩ := (replace_iff hp _ _ _).1 h2
        exact .split hp h3
    · rintro ⟨k', h1, h2⟩
      refine ⟨_, h1, ?_⟩
      cases h2 with
      | split hp h => exact (replace_iff hp _ _ _).2 ⟨_, h, rfl⟩
      | splitEmpty => rfl
  | lowercase b =>
    simp only [EnvStep.call, Env.withLowercase]
    constructor
    · intro h; exact ⟨_, h, .lowercase ..⟩
    · rintro ⟨k', h1, ⟨⟩⟩; exact h1
  | profile b =>
    simp only [EnvStep.call, Env.withProfile]
    constructor
    · intro h; exact ⟨_, h, .profile ..⟩
    · rintro ⟨k', h1, ⟨⟩⟩; exact h1
  | global =>
    simp only [EnvStep.call, Env.global]
    constructor
    · intro h; exact ⟨_, h, .global ..⟩
    · rintro ⟨k', h1, ⟨⟩⟩; exact h1

theorem EnvSteps.key_iff (steps : List EnvStep) (e : Env) (k k'' : Str) :
    (steps.foldl EnvStep.call e).filterMap k = some k'' ↔ ∃ k', e.filterMap k = some k' ∧ EnvSteps.Key steps k' k'' := by
  induction steps generalizing e with
  | nil =>
    constructor
    · intro h; exact ⟨_, h, .nil _⟩
    · rintro ⟨_, h, ⟨⟩⟩; exact h
  | cons s r ih =>
    rw [List.foldl_cons, ih]
    simp only [EnvStep.key_iff]
    constructor
    · rintro ⟨k', ⟨k1, h1, h2⟩, h3⟩; exact ⟨k1, h1, .cons h2 h3⟩
    · rintro ⟨k1, h1, ⟨⟩⟩; rename_i h2 h3; exact ⟨_, ⟨_, h1, h2⟩, h3⟩

theorem Env.profile_steps (steps : List EnvStep) (e : Env) :
    (steps.foldl EnvStep.call e).profile = profileSaid steps e.profile := by
  induction steps generalizing e with
  | nil => rfl
  | cons s r ih => rw [List.foldl_cons, ih]; cases s <;> rfl

theorem Env.lowercase_plain (steps : List EnvStep) (e : Env) (h : ∀ s ∈ steps, EnvStep.onKeys s = false) :
    (steps.foldl EnvStep.call e).lowercase = lowercaseSaid steps e.lowercase := by
  induction steps generalizing e with
  | nil => rfl
  | cons s r ih =>
    rw [List.foldl_cons, ih _ fun s hs => h s (List.mem_cons_of_mem _ hs)]
    have := h s (List.mem_cons_self ..)
    cases s <;> first | rfl | (cases this)

theorem plainPath_iff (k : Str) : (Str.splitOn '.' k).any (·.isEmpty) = false ↔ plainPath k := by
  simp [plainPath]

theorem Env.mem_iter {e : Env} {vars : List (Str × Str)} {k v : Str} (h : (k, v) ∈ e.iter vars) :
    ∃ name k', (name, v) ∈ vars ∧ name ≠ [] ∧ e.filterMap (Str.trim name) = some k' ∧ plainPath (Str.trim k') ∧
      k = if e.lowercase then Str.lower (Str.trim k') else Str.trim k' := by
  simp only [Env.iter, List.mem_filterMap, List.mem_filter, Prod.exists] at h
  obtain ⟨n, v', ⟨h1, h2⟩, h3⟩ := h
  cases hf : e.filterMap (Str.trim n) with
  | none => simp [hf] at h3
  | some k' =>
    simp only [hf] at h3
    split at h3
    · cases h3
    · rename_i hp
      simp only [Option.some.injEq, Prod.mk.injEq] at h3
      obtain ⟨rfl, rfl⟩ := h3
      refine ⟨n, k', h1, by simpa using h2, hf, ?_, rfl⟩
      rw [← plainPath_iff]; exact Bool.eq_false_iff.2 hp

theorem Str.lowerChar_dot {c : Char} : lowerChar c = '.' ↔ c = '.' := by
  unfold lowerChar
  split
  · rename_i h
    constructor
    · intro hc
      have h1 : 65 ≤ c.toNat := h.1
      have h2 : c.toNat ≤ 90 := h.2
      have h3 : (Char.ofNat (c.toNat + 32)).toNat = c.toNat + 32 := Str.upper_shift h1 h2
      rw [hc] at h3
      have : '.'.toNat = 46 := rfl
      omega
    · rintro rfl; exact absurd h (by decide)
  · rfl

theorem Str.splitOn_lower (s : Str) : splitOn '.' (lower s) = (splitOn '.' s).map lower := by
  induction s with
  | nil => rfl
  | cons c cs ih =>
    change splitOn '.' (lowerChar c :: lower cs) = _
    rw [splitOn, splitOn]
    by_cases hc : c = '.'
    · rw [if_pos (lowerChar_dot.2 hc), if_pos hc, ih]; rfl
    · rw [if_neg (fun h => hc (lowerChar_dot.1 h)), if_neg hc, ih]
      cases splitOn '.' cs <;> rfl

theorem plainPath_lower {k : Str} (h : plainPath k) : plainPath (Str.lower k) := by
  intro x hx
  rw [Str.splitOn_lower, List.mem_map] at hx
  obtain ⟨y, hy, rfl⟩ := hx
  have := h y hy
  cases y with
  | nil => exact absurd rfl this
  | cons c cs => simp [Str.lower]

theorem Str.isWs_lowerChar (c : Char) : isWs (lowerChar c) = isWs c := by
  unfold lowerChar
  split
  · rename_i h
    have h1 : 65 ≤ c.toNat := h.1
    have h2 : c.toNat ≤ 90 := h.2
    have h3 : (Char.ofNat (c.toNat + 32)).toNat = c.toNat + 32 := Str.upper_shift h1 h2
    have e1 : isWs (Char.ofNat (c.toNat + 32)) = false := by
      simp only [isWs, h3]
      simp; omega
    have e2 : isWs c = false := by
      simp only [isWs]
      simp; omega
    rw [e1, e2]
  · rfl

theorem Str.trim_lower (s : Str) : trim (lower s) = lower (trim s) := by
  have h1 : ∀ s : Str, trimStart (lower s) = lower (trimStart s) := by
    intro s
    unfold trimStart lower
    rw [List.dropWhile_map]
    congr 2
    funext c; exact isWs_lowerChar c
  have h2 : ∀ s : Str, trimEnd (lower s) = lower (trimEnd s) := by
    intro s
    have : trimEnd (lower s) = (trimStart (lower s.reverse)).reverse := by
      unfold trimEnd trimStart lower; rw [List.map_reverse]
    rw [this, h1]
    unfold lower trimStart trimEnd
    rw [List.map_reverse]
  rw [trim, trim, h1, h2]

/-! ## Data -/

section
variable [FloatOps]

mutual
theorem Reads.wf {Q : Str → Str → Prop} {s : Str} {v : Value} : Reads Q s v → v.WF
  | .bare _ _ _ _ _ _ _ _ h => by
    cases h <;> exact Value.wf_of_scalar rfl rfl
  | .string _ _ _ => Value.wf_of_scalar rfl rfl
  | .char _ _ _ => Value.wf_of_scalar rfl rfl
  | .array _ _ h => Value.wf_array.2 (Items.wf h)
  | .dict _ _ h => by
    have h1 := Entries.wf h
    exact Value.wf_dict'.2 (Dict.wf_extend Dict.wf_nil _ h1)
theorem Items.wf {Q : Str → Str → Prop} {s : Str} {vs : List Value} : Items Q s vs → ∀ v ∈ vs, v.WF
  | .nil _ => by simp
  | .last h => by have := Reads.wf h; simpa using this
  | .cons h hr => by
    have h1 := Reads.wf h
    have h2 := Items.wf hr
    simpa using ⟨h1, h2⟩
  | .skip _ hr => by
    have h2 := Items.wf hr
    simpa using ⟨Value.wf_of_scalar rfl rfl, h2⟩
theorem Entries.wf {Q : Str → Str → Prop} {s : Str} {es : List (Str × Value)} : Entries Q s es → ∀ e ∈ es, e.2.WF
  | .nil _ => by simp
  | .last _ _ _ h => by have := Reads.wf h; simpa using this
  | .lastEmpty _ _ _ _ => by simpa using Value.wf_of_scalar rfl rfl
  | .cons _ _ _ h hr => by
    have h1 := Reads.wf h
    have h2 := Entries.wf hr
    intro e he
    rcases List.mem_cons.1 he with rfl | he
    · exact h1
    · exact h2 e he
  | .consEmpty _ _ _ _ hr => by
    have h2 := Entries.wf hr
    intro e he
    rcases List.mem_cons.1 he with rfl | he
    · exact Value.wf_of_scalar rfl rfl
    · exact h2 e he
end

theorem Value.wf_parse {s : Str} {v : Value} (h : parse s = .ok v) : v.WF := by
  by_cases hs : Ws s
  · rw [parse_ws hs] at h; cases h; exact wf_of_scalar rfl rfl
  · by_cases hr : ∃ v, Reads Parser.CodeQuoted (Str.trim s) v
    · obtain ⟨w, hw⟩ := hr
      rw [parse_reads hw] at h; cases h
      exact hw.wf
    · rcases parse_text hs hr with h' | h'
      · rw [h'] at h; cases h; exact wf_of_scalar rfl rfl
      · rw [h'] at h; cases h

end

/-- The value a text parses to (any value if there is none). -/
def Value.parsed [FloatOps] (t : Str) : Value :=
  match Value.parse t with
  | .ok v => v
  | _ => .ofBool true

theorem Value.parse_parsed [FloatOps] {t : Str} {w : Value} (h : Value.parse t = .ok w) :
    Value.parse t = .ok (Value.parsed t) := by
  rw [Value.parsed, h]

theorem Value.view_nestKeys (ks : List Str) (w : Value) : (nestKeys ks w).view = View.under ks w.view := by
  funext p
  unfold View.under
  by_cases h1 : ks <+: p
  · rw [if_pos (List.isPrefixOf_iff_prefix.2 h1)]
    obtain ⟨r, rfl⟩ := h1
    rw [view_eq_getKeys, getKeys_nestKeys_self, List.drop_left, view_eq_getKeys]
  · rw [if_neg (by rwa [List.isPrefixOf_iff_prefix])]
    by_cases h2 : p <+: ks
    · rw [if_pos (List.isPrefixOf_iff_prefix.2 h2)]
      obtain ⟨r, rfl⟩ := h2
      rw [view_eq_getKeys, getKeys_nestKeys_prefix]
      cases r with
      | nil => exact absurd (by simp) h1
      | cons k r => rfl
    · rw [if_neg (by rwa [List.isPrefixOf_iff_prefix]), view_eq_getKeys, getKeys_nestKeys_none _ _ _ h1 h2]
      rfl

theorem View.view_empty : (Value.ofDict []).view = View.empty := by
  funext p
  cases p with
  | nil => rfl
  | cons k ks => rw [Value.ofDict, Value.view_dict_cons]; rfl

variable [FloatOps]

theorem Env.dataLoop_ok {es : List (Str × Str)} {val : Str → Value}
    (h : ∀ e ∈ es, Value.parse e.2 = .ok (val e.2)) (hp : ∀ e ∈ es, plainPath e.1) (acc : Dict) (ha : acc.WF) :
    ∃ d : Dict, dataLoop es acc = .ok d ∧ d.WF ∧ (Value.ofDict d).view =
      (es.map fun e => View.under (Str.splitOn '.' e.1) (val e.2).view).foldl View.merge (Value.ofDict acc).view := by
  induction es generalizing acc with
  | nil => exact ⟨acc, rfl, ha, rfl⟩
  | cons e es ih =>
    obtain ⟨k', v⟩ := e
    have h2 := h _ (List.mem_cons_self ..)
    simp only at h2
    have hk : plainPath k' := hp _ (List.mem_cons_self ..)
    have hn : nest k' (val v) = Value.nestKeys (Str.splitOn '.' k') (val v) := by rw [nest_eq, pathKeys_of_plain hk]
    obtain ⟨nd, hd⟩ : ∃ nd, nest k' (val v) = Value.ofDict nd := by
      rw [hn]
      cases hs : Str.splitOn '.' k' with
      | nil => exact absurd hs (Str.splitOn_ne_nil _ _)
      | cons x xs => exact ⟨_, rfl⟩
    have hwf : Dict.WF nd := by
      have := Value.wf_nestKeys (Str.splitOn '.' k') (Value.wf_parse h2)
      rw [← hn, hd] at this
      exact Value.wf_dict'.1 this
    obtain ⟨d, h3, h4, h5⟩ := ih (fun e he => h e (List.mem_cons_of_mem _ he))
      (fun e he => hp e (List.mem_cons_of_mem _ he)) (Dict.merge acc nd)
      (Dict.wf_coalesce _ ha hwf)
    refine ⟨d, ?_, h4, ?_⟩
    · rw [dataLoop, h2]
      simp only [Out.bind, hd, Value.ofDict, Value.asDict?]
      exact h3
    · rw [h5, List.map_cons, List.foldl_cons]
      congr 1
      funext p
      have h6 := Value.view_coalesce .Merge (Value.ofDict acc) (Value.ofDict nd) (Value.wf_dict'.2 ha)
        (Value.wf_dict'.2 hwf) p
      have h7 : (Value.ofDict acc).coalesce (Value.ofDict nd) .Merge = Value.ofDict (Dict.merge acc nd) := by
        rw [Value.ofDict, Value.ofDict, Value.coalesce_dict]; rfl
      rw [← h7, h6, ← Value.view_nestKeys, ← hn, hd]
      rfl

omit [FloatOps] in
theorem View.under_none {ks q : List Str} (B : View) (h1 : ¬ ks <+: q) (h2 : ¬ q <+: ks) (r : List Str) :
    View.under ks B (q ++ r) = none ∧ View.blocked (View.under ks B) (q ++ r) = false := by
  have h3 : ¬ ks <+: q ++ r := by
    intro h
    rcases Nat.le_total ks.length q.length with hl | hl
    · exact h1 (List.prefix_of_prefix_length_le h (List.prefix_append ..) hl)
    · exact h2 (List.prefix_of_prefix_length_le (List.prefix_append ..) h hl)
  have h4 : ¬ q ++ r <+: ks := fun h => h2 ((List.prefix_append ..).trans h)
  constructor
  · unfold View.under
    rw [if_neg (by rwa [List.isPrefixOf_iff_prefix]), if_neg (by rwa [List.isPrefixOf_iff_prefix])]
  · cases hb : View.blocked (View.under ks B) (q ++ r) with
    | false => rfl
    | true =>
      rw [View.blocked_iff] at hb
      obtain ⟨n, hn, v, hv⟩ := hb
      unfold View.under at hv
      rw [if_neg] at hv
      · split at hv <;> simp at hv
      · rw [List.isPrefixOf_iff_prefix]
        exact fun h => h3 (h.trans (List.take_prefix ..))

omit [FloatOps] in
/-- Entries at other paths do not matter at a path. -/
theorem View.foldl_under_other {vals : List (Str × Value)} {k : Str} (h : ∀ e ∈ vals, ¬ Overlap e.1 k) (A : View)
    (r : List Str) :
    (vals.map fun e => View.under (Str.splitOn '.' e.1) e.2.view).foldl View.merge A (Str.splitOn '.' k ++ r) =
      A (Str.splitOn '.' k ++ r) := by
  rw [View.foldl_merge]
  · have : ((vals.map fun e => View.under (Str.splitOn '.' e.1) e.2.view).reverse.findSome?
        fun B => B (Str.splitOn '.' k ++ r)) = none := by
      rw [List.findSome?_eq_none_iff]
      intro B hB
      rw [List.mem_reverse, List.mem_map] at hB
      obtain ⟨e, he, rfl⟩ := hB
      have := h e he
      simp only [Overlap, not_or] at this
      exact (View.under_none _ this.1 this.2 r).1
    rw [this]; rfl
  · intro B hB
    rw [List.mem_map] at hB
    obtain ⟨e, he, rfl⟩ := hB
    have := h e he
    simp only [Overlap, not_or] at this
    exact (View.under_none _ this.1 this.2 r).2

omit [FloatOps] in
theorem View.last_wins {a b : List (Str × Value)} {k : Str} {w : Value} (hb : ∀ e ∈ b, ¬ Overlap e.1 k)
    (ha : w.asDict? = none ∨ ∀ e ∈ a, ¬ Overlap e.1 k) (r : List Str) :
    ((a ++ (k, w) :: b).map fun e => View.under (Str.splitOn '.' e.1) e.2.view).foldl View.merge View.empty
      (Str.splitOn '.' k ++ r) = w.view r := by
  rw [List.map_append, List.map_cons, List.foldl_append, List.foldl_cons, View.foldl_under_other hb]
  have hu : View.under (Str.splitOn '.' k) w.view (Str.splitOn '.' k ++ r) = w.view r := by
    unfold View.under
    rw [if_pos (List.isPrefixOf_iff_prefix.2 (List.prefix_append ..)), List.drop_left]
  unfold View.merge
  rw [hu]
  cases hv : w.view r with
  | some s => rfl
  | none =>
    simp only
    split
    · rfl
    · rename_i hbl
      rcases ha with ha | ha
      · exfalso
        apply hbl
        rw [View.blocked_iff]
        cases r with
        | nil => simp at hv
        | cons x xs =>
          refine ⟨(Str.splitOn '.' k).length, by simp, w, ?_⟩
          unfold View.under
          rw [List.take_left, if_pos (List.isPrefixOf_iff_prefix.2 (List.prefix_refl _)), List.drop_length,
            Value.view_nil, Value.shape_leaf ha]
      · have := View.foldl_under_other ha View.empty r
        unfold View.merge at this
        rw [this, View.empty, if_neg]
        simp [Str.splitOn_ne_nil]

end Figment
