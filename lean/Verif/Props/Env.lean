import Verif.Lemmas.Env
import Verif.Spec.Examples
/-!
# C36-C39: the environment provider

A provider is a start (`raw` or `prefixed`) and a list of calls, `start.thenCalls calls`; the relations that say what
each of them does to a key are in Spec/Env.lean.
-/
namespace Figment

/-! ## C36 -/

/-- **C36**: the key a name leads to (before trimming and lowercasing) is the start, then the calls in the order
written, each applied to what the one before gave; a name that one of them rejects leads to no key. -/
theorem C36_calls_in_order (start : EnvStart) (calls : List EnvStep) (name k : Str) :
    (start.thenCalls calls).filterMap name = some k ↔ ∃ k', start.Key name k' ∧ EnvSteps.Key calls k' k := by
  rw [EnvStart.thenCalls, EnvSteps.key_iff]
  simp only [EnvStart.key_iff]

/-- **C36**: exactly the variables with a name that is not empty, which the start and the calls accept, and for which
no component of the resulting key is empty, are emitted: in the order of the environment, under the trimmed key. -/
theorem C36_emitted (start : EnvStart) (calls : List EnvStep) (vars : List (Str × Str)) :
    (∀ k v, (k, v) ∈ (start.thenCalls calls).iter vars ↔ ∃ name k1 k2, (name, v) ∈ vars ∧ name ≠ [] ∧
      start.Key (Str.trim name) k1 ∧ EnvSteps.Key calls k1 k2 ∧ plainPath (Str.trim k2) ∧
      k = if (start.thenCalls calls).lowercase then Str.lower (Str.trim k2) else Str.trim k2) ∧
    (∀ a b, (start.thenCalls calls).iter (a ++ b) =
      (start.thenCalls calls).iter a ++ (start.thenCalls calls).iter b) ∧
    (∀ name v, ((start.thenCalls calls).iter [(name, v)]).length ≤ 1) := by
  refine ⟨fun k v => ⟨fun h => ?_, ?_⟩, ?_, ?_⟩
  · obtain ⟨name, k', h1, h2, h3, h4, h5⟩ := Env.mem_iter h
    obtain ⟨k1, h6, h7⟩ := (C36_calls_in_order ..).1 h3
    exact ⟨name, k1, k', h1, h2, h6, h7, h4, h5⟩
  · rintro ⟨name, k1, k2, h1, h2, h3, h4, h5, rfl⟩
    have h6 := (C36_calls_in_order start calls (Str.trim name) k2).2 ⟨k1, h3, h4⟩
    simp only [Env.iter, List.mem_filterMap, List.mem_filter, Prod.exists]
    refine ⟨name, v, ⟨h1, by simpa using h2⟩, ?_⟩
    have h7 := (plainPath_iff _).2 h5
    simp [h6, h7]
  · intro a b; simp [Env.iter]
  · intro name v
    unfold Env.iter
    refine Nat.le_trans (List.length_filterMap_le ..) (Nat.le_trans (List.length_filter_le ..) (by simp))

/-- **C36** (`prefixed`): a name is accepted exactly if it begins with the prefix up to ASCII case, and exactly the
prefix is taken away, case and length of the rest kept. -/
theorem C36_prefix (pre name k : Str) :
    (Env.prefixed pre).filterMap name = some k ↔ ∃ q, name = q ++ k ∧ SameUncased q pre := by
  refine (EnvStart.key_iff (.prefixed pre) name k).trans ⟨?_, ?_⟩
  · rintro ⟨⟩; rename_i q h; exact ⟨q, rfl, h⟩
  · rintro ⟨q, rfl, h⟩; exact .prefixed k h

/-- **C36** (`prefixed`): taking the prefix away never panics. -/
theorem C36_prefix_no_panic (pre name : Str) (h : Str.uncasedStartsWith name pre = true) :
    Str.sliceFrom name (Str.byteLen pre) ≠ none := by
  obtain ⟨r, hr⟩ := Str.sliceFrom_startsWith h
  rw [hr]; simp

/-- **C36** (`split`): if the key has no dot, the components of the resulting key path are exactly the parts of the key
between the occurrences of the pattern. -/
theorem C36_split (p k k' : Str) (hp : p ≠ []) (hk : '.' ∉ k) (h : (EnvStep.split p).Key k k') :
    ∃ parts, SplitsAt p k parts ∧ Str.splitOn '.' k' = parts := by
  cases h with
  | splitEmpty => exact absurd rfl hp
  | @split _ _ parts _ h =>
    refine ⟨parts, h, ?_⟩
    have : ∀ x ∈ parts, '.' ∉ x := by
      clear hp
      induction h with
      | last h => simpa using hk
      | @cons a r parts h hr ih =>
        simp only [List.mem_append, not_or] at hk
        intro x hx
        rcases List.mem_cons.1 hx with rfl | hx
        · exact hk.1
        · exact ih hk.2.2 x hx
    exact Str.splitOn_join h.ne_nil this

/-- **C36** (`split`): there is one way to split. -/
theorem C36_split_unique (p k : Str) (l l' : List Str) (h : SplitsAt p k l) (h' : SplitsAt p k l') : l = l' :=
  h.functional h'

/-- **C36** (`split`), what may surprise: splitting at the empty pattern as the last call leaves no variable. -/
theorem C36_split_empty (e : Env) (vars : List (Str × Str)) : (e.split []).iter vars = [] := by
  rw [List.eq_nil_iff_forall_not_mem]
  rintro ⟨k, v⟩ h
  obtain ⟨name, k', _, _, h3, h4, _⟩ := Env.mem_iter h
  obtain ⟨k1, _, h5⟩ := (EnvStep.key_iff (.split []) e _ _).1 h3
  have h6 : k' = '.' :: k1.flatMap fun c => [c, '.'] := by
    cases h5 with
    | split hp _ => exact absurd rfl hp
    | splitEmpty => rfl
  have h7 : ∃ r, Str.trim k' = '.' :: r := by
    obtain ⟨a, b, ha, hb, hs, hh, _⟩ := Str.trim_split k'
    cases a with
    | cons c a =>
      rw [h6] at hs
      simp only [List.cons_append, List.cons.injEq] at hs
      have := ha c (List.mem_cons_self ..)
      rw [← hs.1] at this; exact absurd this (by decide)
    | nil =>
      cases ht : Str.trim k' with
      | nil =>
        rw [ht, h6] at hs
        cases b with
        | nil => cases hs
        | cons c b =>
          simp only [List.nil_append, List.cons.injEq] at hs
          have := hb c (List.mem_cons_self ..)
          rw [← hs.1] at this; exact absurd this (by decide)
      | cons c r =>
        rw [ht, h6] at hs
        simp only [List.nil_append, List.cons_append, List.cons.injEq] at hs
        exact ⟨r, by rw [← hs.1]⟩
  obtain ⟨r, hr⟩ := h7
  rw [hr] at h4
  exact h4 [] (by simp [Str.splitOn]) rfl

-- Prefix in another case, split in two, and a rejected name.
example : (EnvStart.thenCalls (.prefixed (str "APP_")) [.ignore [str "DEBUG"], .split (str "__")]).iter
    [(str "app_Db__Name", str "x"), (str "PATH", str "y"), (str "APP_debug", str "z"), (str " APP_é ", str "1")] =
    [(str "db.name", str "x"), (str "é", str "1")] := by decide
example : SplitsAt (str "__") (str "a__b") [str "a", str "b"] := by
  refine .cons (a := str "a") (r := str "b") ?_ (.last ?_)
  · rintro (_ | ⟨c, x⟩) y h
    · have h1 : some 'a' = some '_' := congrArg List.head? h
      cases h1
    · exact Nat.succ_le_succ (Nat.zero_le _)
  · intro a b h
    have h1 := congrArg List.length h
    have h2 : (str "b").length = 1 := rfl
    have h3 : (str "__").length = 2 := rfl
    rw [List.length_append, List.length_append, h2, h3] at h1
    omega

/-! ## C37 -/

/-- **C37**: an emitted key has no empty component and no white space around it. -/
theorem C37_keys (e : Env) (vars : List (Str × Str)) (k v : Str) (h : (k, v) ∈ e.iter vars) :
    plainPath k ∧ k ≠ [] ∧ Str.trim k = k := by
  obtain ⟨name, k', _, _, _, h1, h2⟩ := Env.mem_iter h
  have h3 : plainPath k := by
    rw [h2]; split
    · exact plainPath_lower h1
    · exact h1
  refine ⟨h3, ?_, ?_⟩
  · rintro rfl; exact h3 [] (by decide) rfl
  · rw [h2]; split
    · rw [Str.trim_lower, Str.trim_trim]
    · rw [Str.trim_trim]

section
variable [FloatOps]

/-- **C37**: if every emitted value parses (as clean text does, C32), reading the data does not fail or panic, the data
is for the chosen profile only, and at every path it shows the emitted variables merged one over the other, in order,
each nested below its key path. -/
theorem C37_data (e : Env) (vars : List (Str × Str)) (val : Str → Value)
    (h : ∀ x ∈ e.iter vars, Value.parse x.2 = .ok (val x.2)) :
    ∃ d : Dict, e.data vars = .ok [(e.profile, d)] ∧ d.WF ∧ (Value.ofDict d).view =
      ((e.iter vars).map fun x => View.under (Str.splitOn '.' x.1) (val x.2).view).foldl View.merge View.empty := by
  obtain ⟨d, h1, h2, h3⟩ := Env.dataLoop_ok h (fun x hx => (C37_keys e vars x.1 x.2 hx).1) [] Dict.wf_nil
  refine ⟨d, ?_, h2, by rw [h3, View.view_empty]⟩
  rw [Env.data, h1]; rfl

/-- **C37**: with clean values, reading the data never fails. -/
theorem C37_never_fails (e : Env) (vars : List (Str × Str)) (h : ∀ x ∈ vars, CleanText x.2) :
    ∃ d : Dict, e.data vars = .ok [(e.profile, d)] ∧ d.WF := by
  have : ∀ x ∈ e.iter vars, Value.parse x.2 = .ok (Value.parsed x.2) := by
    rintro ⟨k, v⟩ hx
    obtain ⟨name, _, h1, _⟩ := Env.mem_iter hx
    obtain ⟨w, hw⟩ := Value.parse_clean_good (h _ h1)
    exact Value.parse_parsed hw
  obtain ⟨d, h1, h2, _⟩ := C37_data e vars Value.parsed this
  exact ⟨d, h1, h2⟩

/-- **C37** (later variables win): an emitted variable is found at its key path, with exactly its parsed value, if no
later one has an overlapping path; and, should its value be a dictionary (which merges into what is there), no earlier
one either. -/
theorem C37_last_wins (e : Env) (vars : List (Str × Str)) (data : Data) (hd : e.data vars = .ok data)
    (a b : List (Str × Str)) (k v : Str) (w : Value) (hi : e.iter vars = a ++ (k, v) :: b)
    (hw : Value.parse v = .ok w) (hb : ∀ x ∈ b, ¬ Overlap x.1 k)
    (ha : w.asDict? = none ∨ ∀ x ∈ a, ¬ Overlap x.1 k) :
    ∃ d, Map.get e.profile data = some d ∧ (Value.ofDict d).find k = some w := by
  -- every emitted value parses, since the data could be read
  have hall : ∀ (es : List (Str × Str)) (acc d : Dict), Env.dataLoop es acc = .ok d →
      ∀ x ∈ es, ∃ w, Value.parse x.2 = .ok w := by
    intro es
    induction es with
    | nil => simp
    | cons y ys ih =>
      obtain ⟨k, v⟩ := y
      intro acc d hd x hx
      rw [Env.dataLoop] at hd
      cases hp : Value.parse v with
      | ok w =>
        rcases List.mem_cons.1 hx with rfl | hx
        · exact ⟨w, hp⟩
        · simp only [hp, Out.bind] at hd
          cases hn : (nest k w).asDict? with
          | none => simp [hn] at hd
          | some nd => simp only [hn] at hd; exact ih _ _ hd x hx
      | err e => cases e
      | panic => simp [hp, Out.bind] at hd
      | loop => simp [hp, Out.bind] at hd
  cases hl : Env.dataLoop (e.iter vars) [] with
  | ok d' =>
    have h1 := hall _ _ _ hl
    have h2 : ∀ x ∈ e.iter vars,
        Value.parse x.2 = .ok (Value.parsed x.2) := by
      intro x hx
      obtain ⟨w, hw⟩ := h1 x hx
      exact Value.parse_parsed hw
    obtain ⟨d, h3, h4, h5⟩ := C37_data e vars Value.parsed h2
    rw [h3] at hd
    cases hd
    refine ⟨d, by simp [Map.get], ?_⟩
    have hk : plainPath k := (C37_keys e vars k v (by rw [hi]; simp)).1
    rw [Value.find_eq, pathKeys_of_plain hk, ← Value.getKeys_nil w]
    refine Value.getKeys_eq_of_view (Value.wf_dict'.2 h4) (Value.wf_parse hw) fun r => ?_
    rw [show Value.dict Tag.Default d = Value.ofDict d from rfl, h5, hi, List.nil_append]
    have := View.last_wins (a := a.map fun x => (x.1, Value.parsed x.2))
      (b := b.map fun x => (x.1, Value.parsed x.2)) (k := k)
      (w := w)
      (by intro x hx; obtain ⟨y, hy, rfl⟩ := List.mem_map.1 hx; exact hb y hy)
      (by
        rcases ha with ha | ha
        · exact .inl ha
        · right; intro x hx; obtain ⟨y, hy, rfl⟩ := List.mem_map.1 hx; exact ha y hy) r
    rw [← this]
    have hw' : Value.parsed v = w := by rw [Value.parsed, hw]
    simp only [List.map_append, List.map_cons, List.map_map, hw']
    rfl
  | err e => cases e
  | panic => rw [Env.data, hl] at hd; cases hd
  | loop => rw [Env.data, hl] at hd; cases hd

-- Two variables for one path, a longer path elsewhere; the later one wins.
example : (EnvStart.thenCalls .raw [.split (str "_")]).data
    [(str "A_B", str "x"), (str "C", str "true"), (str "a_b", str "[true]"), (str "_", str "z")] =
    .ok [(Profile.Default, [(str "a", .ofDict [(str "b", .ofArray [.ofBool true])]), (str "c", .ofBool true)])] := rfl
example : ¬ Overlap (str "c") (str "a.b") ∧ Overlap (str "a") (str "a.b") := by decide

/-- C37 without the condition on values fails: a variable that the parser cannot take makes reading panic (see C32). -/
theorem C37_panics : Env.raw.data [(str "A", str "\"é\\n\"")] = .panic := rfl

end

/-- **C37**: the profile of the data is the one the last call of `profile` or `global` names, else the default
profile; no other call has an influence on it. -/
theorem C37_profile (start : EnvStart) (calls : List EnvStep) :
    (start.thenCalls calls).profile = profileSaid calls Profile.Default := by
  rw [EnvStart.thenCalls, Env.profile_steps]
  cases start <;> rfl

example : (EnvStart.thenCalls (.prefixed (str "A")) [.global, .split (str "_"), .profile ⟨str "dev"⟩, .lowercase false]).profile
    = ⟨str "dev"⟩ := rfl

/-! ## C38 -/

/-- **C38**, if no call after the last `lowercase(..)` goes through the keys: keys are lowercased as the last call to
`lowercase` says. Missing: other calls after it; with `lowercase(false)` it is then false (`C38_fails`). -/
theorem C38_lowercase_partial (start : EnvStart) (a b : List EnvStep) (low : Bool)
    (hb : ∀ s ∈ b, EnvStep.onKeys s = false) :
    (start.thenCalls (a ++ .lowercase low :: b)).lowercase = lowercaseSaid (a ++ .lowercase low :: b) true := by
  have h : ∀ (l : List EnvStep) (c c' : Bool), lowercaseSaid (l ++ .lowercase low :: b) c = lowercaseSaid b low := by
    intro l
    induction l with
    | nil => intro c _; rfl
    | cons s l ih => intro c c'; cases s <;> exact ih _ c'
  rw [EnvStart.thenCalls, List.foldl_append, List.foldl_cons, Env.lowercase_plain b _ hb, h a true true]
  rfl

/-- **C38**: without a call to `lowercase(false)` all emitted keys are in lower case. -/
theorem C38_default (start : EnvStart) (calls : List EnvStep) (h : .lowercase false ∉ calls) (vars : List (Str × Str))
    (k v : Str) (hk : (k, v) ∈ (start.thenCalls calls).iter vars) : Str.lower k = k := by
  have hl : ∀ (calls : List EnvStep) (e : Env), .lowercase false ∉ calls → e.lowercase = true →
      (calls.foldl EnvStep.call e).lowercase = true := by
    intro calls
    induction calls with
    | nil => intro e _ he; exact he
    | cons s r ih =>
      intro e hs he
      simp only [List.mem_cons, not_or] at hs
      refine ih _ hs.2 ?_
      cases s with
      | lowercase b => cases b with
        | true => rfl
        | false => exact absurd rfl hs.1
      | profile p => exact he
      | global => exact he
      | _ => rfl
  have h1 : (start.thenCalls calls).lowercase = true := hl calls _ h (by cases start <;> rfl)
  obtain ⟨_, k', _, _, _, _, h2⟩ := Env.mem_iter hk
  rw [h1, if_pos rfl] at h2
  rw [h2]
  have hc : ∀ c : Char, Str.lowerChar (Str.lowerChar c) = Str.lowerChar c := Str.lowerChar_idem
  simp [Str.lower, hc]

/-- C38 fails: after `lowercase(false)`, *every* call that goes through the keys turns lowercasing on again (until
`lowercase(false)` is called once more). -/
theorem C38_fails (start : EnvStart) (a b : List EnvStep) (hb : ∃ s ∈ b, EnvStep.onKeys s = true)
    (hl : ∀ low, .lowercase low ∉ b) :
    (start.thenCalls (a ++ .lowercase false :: b)).lowercase = true ∧
      lowercaseSaid (a ++ .lowercase false :: b) true = false := by
  constructor
  · rw [EnvStart.thenCalls, List.foldl_append, List.foldl_cons]
    have h1 : ∀ (l : List EnvStep) (e : Env), (∀ low, .lowercase low ∉ l) → e.lowercase = true →
        (l.foldl EnvStep.call e).lowercase = true := by
      intro l
      induction l with
      | nil => intro e _ he; exact he
      | cons s r ih =>
        intro e hs he
        refine ih _ (fun low h => hs low (List.mem_cons_of_mem _ h)) ?_
        cases s with
        | lowercase b => exact absurd (List.mem_cons_self ..) (hs b)
        | profile p => exact he
        | global => exact he
        | _ => rfl
    obtain ⟨s, hs, hk⟩ := hb
    obtain ⟨x, y, rfl⟩ := List.append_of_mem hs
    rw [List.foldl_append, List.foldl_cons]
    refine h1 y _ (fun low h => hl low (by simp [h])) ?_
    cases s <;> first | rfl | (cases hk)
  · have h1 : ∀ (l : List EnvStep) (c : Bool), (∀ low, .lowercase low ∉ l) → lowercaseSaid l c = c := by
      intro l
      induction l with
      | nil => intro c _; rfl
      | cons s r ih =>
        intro c hs
        have := ih c fun low h => hs low (List.mem_cons_of_mem _ h)
        cases s with
        | lowercase b => exact absurd (List.mem_cons_self ..) (hs b)
        | _ => exact this
    have h2 : ∀ c, lowercaseSaid (a ++ .lowercase false :: b) c = false := by
      induction a with
      | nil => intro c; exact h1 b false hl
      | cons x a ih => intro c; cases x <;> exact ih _
    exact h2 true

/-- **C38**, what holds of every chain: keys keep their case exactly if `lowercase(false)` was called and after it
neither `lowercase` nor a call that goes through the keys (`C36_emitted` says what that does to a key). -/
theorem C38_exact (start : EnvStart) (calls : List EnvStep) : (start.thenCalls calls).lowercase = false ↔
    ∃ a b, calls = a ++ .lowercase false :: b ∧
      ∀ s ∈ b, EnvStep.onKeys s = false ∧ ∀ low, s ≠ .lowercase low := by
  constructor
  · have h1 : ∀ (calls : List EnvStep) (e : Env), (calls.foldl EnvStep.call e).lowercase = false →
        (e.lowercase = false ∧ ∀ s ∈ calls, EnvStep.onKeys s = false ∧ ∀ low, s ≠ .lowercase low) ∨
        ∃ a b, calls = a ++ .lowercase false :: b ∧
          ∀ s ∈ b, EnvStep.onKeys s = false ∧ ∀ low, s ≠ .lowercase low := by
      intro calls
      induction calls with
      | nil => intro e h; exact .inl ⟨h, nofun⟩
      | cons s r ih =>
        intro e h
        rcases ih _ h with ⟨h2, h3⟩ | ⟨a, b, rfl, h3⟩
        · cases s with
          | lowercase b => cases b with
            | true => cases h2
            | false => exact .inr ⟨[], r, rfl, h3⟩
          | profile p => exact .inl ⟨h2, List.forall_mem_cons.2 ⟨⟨rfl, nofun⟩, h3⟩⟩
          | global => exact .inl ⟨h2, List.forall_mem_cons.2 ⟨⟨rfl, nofun⟩, h3⟩⟩
          | _ => cases h2
        · exact .inr ⟨s :: a, b, rfl, h3⟩
    intro h
    rcases h1 calls _ h with ⟨h2, _⟩ | h2
    · cases start <;> cases h2
    · exact h2
  · rintro ⟨a, b, rfl, hb⟩
    rw [EnvStart.thenCalls, List.foldl_append, List.foldl_cons, Env.lowercase_plain b _ fun s hs => (hb s hs).1]
    have : ∀ (l : List EnvStep) (c : Bool), (∀ s ∈ l, ∀ low, s ≠ .lowercase low) → lowercaseSaid l c = c := by
      intro l
      induction l with
      | nil => intro c _; rfl
      | cons s r ih =>
        intro c hs
        have h2 := ih c fun x hx => hs x (List.mem_cons_of_mem _ hx)
        cases s with
        | lowercase b => exact absurd rfl (hs _ (List.mem_cons_self ..) b)
        | _ => exact h2
    exact this b _ fun s hs => (hb s hs).2

example : (EnvStart.thenCalls .raw [.lowercase false, .split (str "_")]).iter [(str "A_B", str "x")] =
    [(str "a.b", str "x")] := by decide
example : (EnvStart.thenCalls .raw [.split (str "_"), .lowercase false, .global]).iter [(str "A_B", str "x")] =
    [(str "A.B", str "x")] := by decide

/-! ## C39 -/

/-- **C39**: `Env::var` finds the value of the first variable whose trimmed name is the given one up to ASCII case, and
trims it; `Profile::from_env` finds the same variable and keeps its value. -/
theorem C39_first (vars : List (Str × Str)) (name : Str) :
    (∀ t, Env.var vars name = some t ↔ ∃ a k v b, vars = a ++ (k, v) :: b ∧ SameUncased (Str.trim k) name ∧
      (∀ x ∈ a, ¬ SameUncased (Str.trim x.1) name) ∧ t = Str.trim v) ∧
    (∀ p, Profile.fromEnv vars name = some p ↔ ∃ a k v b, vars = a ++ (k, v) :: b ∧ SameUncased (Str.trim k) name ∧
      (∀ x ∈ a, ¬ SameUncased (Str.trim x.1) name) ∧ p = ⟨v⟩) := by
  constructor
  · induction vars with
    | nil => simp [Env.var]
    | cons x r ih =>
      obtain ⟨k, v⟩ := x
      intro t
      rw [Env.var]
      by_cases h : SameUncased (Str.trim k) name
      · rw [if_pos ((uncasedEq_iff _ _).2 h)]
        constructor
        · intro ht; cases ht; exact ⟨[], k, v, r, rfl, h, by simp, rfl⟩
        · rintro ⟨a, k', v', b, h1, h2, h3, rfl⟩
          cases a with
          | nil => cases h1; rfl
          | cons y a => cases h1; exact absurd h (h3 _ (List.mem_cons_self ..))
      · rw [if_neg (by rwa [uncasedEq_iff]), ih]
        constructor
        · rintro ⟨a, k', v', b, rfl, h2, h3, rfl⟩
          refine ⟨(k, v) :: a, k', v', b, rfl, h2, ?_, rfl⟩
          intro x hx
          rcases List.mem_cons.1 hx with rfl | hx
          · exact h
          · exact h3 x hx
        · rintro ⟨a, k', v', b, h1, h2, h3, rfl⟩
          cases a with
          | nil => cases h1; exact absurd h2 h
          | cons y a =>
            cases h1
            exact ⟨a, k', v', b, rfl, h2, fun x hx => h3 x (List.mem_cons_of_mem _ hx), rfl⟩
  · induction vars with
    | nil => simp [Profile.fromEnv]
    | cons x r ih =>
      obtain ⟨k, v⟩ := x
      intro t
      rw [Profile.fromEnv]
      by_cases h : SameUncased (Str.trim k) name
      · rw [if_pos ((uncasedEq_iff _ _).2 h)]
        constructor
        · intro ht; cases ht; exact ⟨[], k, v, r, rfl, h, by simp, rfl⟩
        · rintro ⟨a, k', v', b, h1, h2, h3, rfl⟩
          cases a with
          | nil => cases h1; rfl
          | cons y a => cases h1; exact absurd h (h3 _ (List.mem_cons_self ..))
      · rw [if_neg (by rwa [uncasedEq_iff]), ih]
        constructor
        · rintro ⟨a, k', v', b, rfl, h2, h3, rfl⟩
          refine ⟨(k, v) :: a, k', v', b, rfl, h2, ?_, rfl⟩
          intro x hx
          rcases List.mem_cons.1 hx with rfl | hx
          · exact h
          · exact h3 x hx
        · rintro ⟨a, k', v', b, h1, h2, h3, rfl⟩
          cases a with
          | nil => cases h1; exact absurd h2 h
          | cons y a =>
            cases h1
            exact ⟨a, k', v', b, rfl, h2, fun x hx => h3 x (List.mem_cons_of_mem _ hx), rfl⟩

/-- **C39**: there is nothing exactly if no variable has the name. -/
theorem C39_none (vars : List (Str × Str)) (name : Str) :
    (Env.var vars name = none ↔ ∀ x ∈ vars, ¬ SameUncased (Str.trim x.1) name) ∧
    (Profile.fromEnv vars name = none ↔ ∀ x ∈ vars, ¬ SameUncased (Str.trim x.1) name) := by
  constructor
  · induction vars with
    | nil => simp [Env.var]
    | cons x r ih =>
      obtain ⟨k, v⟩ := x
      rw [Env.var]
      by_cases h : SameUncased (Str.trim k) name
      · rw [if_pos ((uncasedEq_iff _ _).2 h)]; simp [h]
      · rw [if_neg (by rwa [uncasedEq_iff]), ih]; simp [h]
  · induction vars with
    | nil => simp [Profile.fromEnv]
    | cons x r ih =>
      obtain ⟨k, v⟩ := x
      rw [Profile.fromEnv]
      by_cases h : SameUncased (Str.trim k) name
      · rw [if_pos ((uncasedEq_iff _ _).2 h)]; simp [h]
      · rw [if_neg (by rwa [uncasedEq_iff]), ih]; simp [h]

/-- **C39**: the forms with a default give what is found, and the default exactly if no variable has the name. -/
theorem C39_or (vars : List (Str × Str)) (name default : Str) (p : Profile) :
    (∀ t, Env.var vars name = some t → Env.varOr vars name default = t) ∧
    ((∀ x ∈ vars, ¬ SameUncased (Str.trim x.1) name) → Env.varOr vars name default = default) ∧
    (∀ t, Profile.fromEnv vars name = some t → Profile.fromEnvOr vars name p = t) ∧
    ((∀ x ∈ vars, ¬ SameUncased (Str.trim x.1) name) → Profile.fromEnvOr vars name p = p) := by
  refine ⟨fun t h => by rw [Env.varOr, h]; rfl, fun h => ?_, fun t h => by rw [Profile.fromEnvOr, h]; rfl, fun h => ?_⟩
  · rw [Env.varOr, (C39_none vars name).1.2 h]; rfl
  · rw [Profile.fromEnvOr, (C39_none vars name).2.2 h]; rfl

example : Env.var [(str "X", str "0"), (str " app_Profile", str " dev "), (str "APP_PROFILE", str "x")] (str "APP_PROFILE")
    = some (str "dev") := by decide
example : Profile.fromEnv [(str "X", str "0"), (str "app_Profile", str "dev "), (str "APP_PROFILE", str "x")]
    (str "APP_PROFILE") = some ⟨str "dev "⟩ := by decide

/-! ## C57, the environment part -/

/-- **C57**: in errors, the path of a value from the environment is its keys in upper case, joined by dots, whatever the
profile; the source is named after the prefix in upper case. -/
theorem C57_env (start : EnvStart) (calls : List EnvStep) (p : Profile) (keys : List Str) :
    (start.thenCalls calls).metadata.interpolate p keys = Str.join (str ".") (keys.map Str.upper) ∧
    (start.thenCalls calls).metadata.name = (match start with
      | .raw => str "environment variable(s)"
      | .prefixed pre => str "`" ++ Str.upper pre ++ str "` environment variable(s)") := by
  have h : ∀ (calls : List EnvStep) (e : Env), (calls.foldl EnvStep.call e).prefix = e.prefix := by
    intro calls
    induction calls with
    | nil => intro e; rfl
    | cons s r ih => intro e; rw [List.foldl_cons, ih]; cases s <;> rfl
  have h1 : (start.thenCalls calls).prefix = start.env.prefix := h calls _
  unfold Env.metadata
  rw [h1]
  cases start with
  | raw => exact ⟨rfl, rfl⟩
  | «prefixed» pre => exact ⟨rfl, by simp [EnvStart.env, Env.prefixed, Metadata.withInterpolater, Metadata.named, str]⟩

/-- **C57**: by default the path in errors is the profile, a dot, and the keys joined by dots. -/
theorem C57_default (name : Str) (p : Profile) (keys : List Str) :
    (Metadata.named name).interpolate p keys = p.name ++ str "." ++ Str.join (str ".") keys := rfl

/-- C57: the documented rule, that only a custom profile is put before the path, fails: for *every* path the default
profile is put before it as well. -/
theorem C57_fails (name : Str) (keys : List Str) : Profile.Default.isCustom = false ∧
    (Metadata.named name).interpolate Profile.Default keys ≠ Str.join (str ".") keys := by
  refine ⟨by decide, fun h => ?_⟩
  have := congrArg List.length h
  rw [C57_default] at this
  simp only [List.length_append] at this
  have h1 : (Profile.Default.name).length = 7 := by decide
  omega

example : (EnvStart.thenCalls (.prefixed (str "app_")) [.split (str "_")]).metadata.interpolate Profile.Default
    [str "a", str "b"] = str "A.B" := by decide

end Figment
