import Verif.Lemmas.Complains
/-!
# Lemmas: extraction fails with what is wrong with the value, for all types
-/
namespace Figment

theorem asTag_fails {r : R Tag} {p : List Str} {k : Kind} : Fails (asTag r) p k ↔ Fails r p k :=
  fails_map r (by intro _ h; rw [h]; rfl) (by intro x h; exact ⟨.tag x, by rw [h]; rfl⟩)

theorem tag_fails {de : De} {v : Value} {p : List Str} {k : Kind} : Fails (asTag (Tag.de de v)) p k ↔
    p = [] ∧ k.IsMismatch v "a 64-bit metadata id integer" ∧
      ∀ tag m i, v = .num tag m → m.isSigned = false → ¬ m.IsInt i := by
  rw [asTag_fails, Tag.de, fails_any]
  have mis : ∀ {r : R Tag} {v : Value}, r = invalidType v.shown (str "a 64-bit metadata id integer") →
      (∀ tag m i, v = .num tag m → m.isSigned = false → ¬ m.IsInt i) → (Fails r p k ↔
      p = [] ∧ k.IsMismatch v "a 64-bit metadata id integer" ∧
      ∀ tag m i, v = .num tag m → m.isSigned = false → ¬ m.IsInt i) := by
    intro r v h h'
    rw [h, fails_type]
    exact and_congr_right fun _ => ⟨fun h => ⟨h, h'⟩, And.left⟩
  cases v with
  | num t n =>
    rw [visit_num]
    have hs : n.visited.isSigned = n.isSigned := (Num.visited_intVal n).2
    have good : ∀ {r : R Tag} {x : Tag} (i : Int), r = .ok x → n.isSigned = false → n.visited.small? = some i → (Fails r p k ↔
        p = [] ∧ k.IsMismatch (.num t n) "a 64-bit metadata id integer" ∧
        ∀ tag m i, Value.num t n = .num tag m → m.isSigned = false → ¬ m.IsInt i) := by
      intro r x i h h1 h2
      rw [h, fails_ok]
      exact ⟨False.elim, fun h => h.2.2 t n i rfl h1 (Num.small_visited.1 h2)⟩
    have hshown := Num.visited_shown t n
    have hint : ∀ {i}, n.IsInt i → n.visited.small? = some i := fun h => Num.small_visited.2 h
    rw [← hs] at good
    cases hm : n.visited with
    | u8 b => rw [hm] at good; exact good _ rfl rfl rfl
    | u16 b => rw [hm] at good; exact good _ rfl rfl rfl
    | u32 b => rw [hm] at good; exact good _ rfl rfl rfl
    | u64 b => rw [hm] at good; exact good _ rfl rfl rfl
    | i8 b => rw [hm] at hshown hs; exact mis (congrArg (invalidType · _) hshown) fun _ _ _ h h' => by cases h; rw [← hs] at h'; cases h'
    | i16 b => rw [hm] at hshown hs; exact mis (congrArg (invalidType · _) hshown) fun _ _ _ h h' => by cases h; rw [← hs] at h'; cases h'
    | i32 b => rw [hm] at hshown hs; exact mis (congrArg (invalidType · _) hshown) fun _ _ _ h h' => by cases h; rw [← hs] at h'; cases h'
    | i64 b => rw [hm] at hshown hs; exact mis (congrArg (invalidType · _) hshown) fun _ _ _ h h' => by cases h; rw [← hs] at h'; cases h'
    | _ =>
      rw [hm] at hshown hint
      exact mis (congrArg (invalidType · _) hshown) fun _ _ _ h _ h' => by cases h; cases hint h'
  | empty t e => cases e <;> exact mis rfl nofun
  | _ => exact mis rfl nofun

theorem parsed_fails {s : Str} {parse : Str → Except Str Val} {de : De} {v : Value} {p : List Str} {k : Kind} :
    Fails (de.deserializeAny (parsedVisitor s parse) v) p k ↔ p = [] ∧
      ((∃ t m, v.text? = some t ∧ parse t = .error m ∧ k = .message m) ∨ (v.text? = none ∧ k = .invalidType v.shown s)) := by
  rw [fails_any]
  have text : ∀ {v : Value} {t : Str}, (parsedVisitor s parse).visit de v = (parsedVisitor s parse).visitStr t →
      v.text? = some t → (Fails ((parsedVisitor s parse).visit de v) p k ↔ p = [] ∧
      ((∃ t m, v.text? = some t ∧ parse t = .error m ∧ k = .message m) ∨ (v.text? = none ∧ k = .invalidType v.shown s))) := by
    intro v t h h'
    rw [h, h']
    unfold parsedVisitor
    dsimp only
    cases ht : parse t with
    | ok x =>
      rw [fails_ok]
      refine ⟨False.elim, ?_⟩
      rintro ⟨_, ⟨_, _, h1, h2, _⟩ | ⟨h1, _⟩⟩
      · cases h1; rw [ht] at h2; cases h2
      · cases h1
    | error m =>
      refine fails_ofKind.trans (and_congr_right fun _ => ⟨fun h => .inl ⟨t, m, rfl, ht, h⟩, ?_⟩)
      rintro (⟨_, _, h1, h2, h3⟩ | ⟨h1, _⟩)
      · cases h1; rw [ht] at h2; cases h2; exact h3
      · cases h1
  have mis : ∀ {v : Value} {r : R Val}, r = invalidType v.shown s → v.text? = none → (Fails r p k ↔ p = [] ∧
      ((∃ t m, v.text? = some t ∧ parse t = .error m ∧ k = .message m) ∨ (v.text? = none ∧ k = .invalidType v.shown s))) := by
    intro v r h h'
    rw [h, h', fails_type]
    exact and_congr_right fun _ => ⟨fun h => .inr ⟨rfl, h⟩, fun h => h.elim (fun ⟨_, _, h, _⟩ => nomatch h) And.right⟩
  cases v with
  | string t x => exact text rfl rfl
  | char t x => exact text rfl rfl
  | num t n => rw [visit_num]; exact mis (congrArg (invalidType · _) (Num.visited_shown t n)) rfl
  | empty t e => cases e <;> exact mis rfl rfl
  | _ => exact mis rfl rfl

theorem converted_fails {conv : Val → Except Str Val} {r : R Val} {p : List Str} {k : Kind} :
    Fails (converted conv r) p k ↔
      Fails r p k ∨ (p = [] ∧ ∃ y m, r = .ok y ∧ conv y = .error m ∧ k = .message m) := by
  unfold converted
  cases r with
  | error e => exact ⟨.inl, fun h => h.elim id fun ⟨_, _, _, h, _⟩ => nomatch h⟩
  | ok x =>
    dsimp only
    cases h : conv x with
    | ok y =>
      rw [fails_ok, fails_ok, false_or]
      refine ⟨False.elim, ?_⟩
      rintro ⟨_, _, _, h1, h2, _⟩
      cases h1; rw [h] at h2; cases h2
    | error m =>
      rw [fails_ok, false_or]
      refine fails_ofKind.trans (and_congr_right fun _ => ⟨fun h' => ⟨x, m, rfl, h, h'⟩, ?_⟩)
      rintro ⟨_, _, h1, h2, h3⟩
      cases h1; rw [h] at h2; cases h2; exact h3

theorem flag_fails {de : De} {v : Value} {p : List Str} {k : Kind} : Fails (de.deserializeAny flagVisitor v) p k ↔ p = [] ∧
    ((∃ s, v.text? = some s ∧ s.lower ≠ str "true" ∧ s.lower ≠ str "false" ∧ k = .invalidValue (.str s) (str "true or false")) ∨
      (∃ tag m i, v = .num tag m ∧ m.IsInt i ∧ i ≠ 0 ∧ i ≠ 1 ∧ k = .invalidValue v.shown (str "0 or 1")) ∨
      ((∀ tag b, v ≠ .bool tag b) ∧ v.text? = none ∧ (∀ tag m i, v = .num tag m → ¬ m.IsInt i) ∧
        k.IsMismatch v "a boolean")) := by
  rw [fails_any]
  have htrue : (str "true").lower = str "true" := by decide
  have hfalse : (str "false").lower = str "false" := by decide
  have text : ∀ {v : Value} {s : Str}, flagVisitor.visit de v = flagVisitor.visitStr s → v.text? = some s →
      (∀ tag m, v ≠ .num tag m) → (Fails (flagVisitor.visit de v) p k ↔ p = [] ∧
    ((∃ s, v.text? = some s ∧ s.lower ≠ str "true" ∧ s.lower ≠ str "false" ∧ k = .invalidValue (.str s) (str "true or false")) ∨
      (∃ tag m i, v = .num tag m ∧ m.IsInt i ∧ i ≠ 0 ∧ i ≠ 1 ∧ k = .invalidValue v.shown (str "0 or 1")) ∨
      ((∀ tag b, v ≠ .bool tag b) ∧ v.text? = none ∧ (∀ tag m i, v = .num tag m → ¬ m.IsInt i) ∧
        k.IsMismatch v "a boolean"))) := by
    intro v s h0 h1 h2
    have h3 : Fails (flagVisitor.visitStr s) p k ↔ p = [] ∧ s.lower ≠ str "true" ∧ s.lower ≠ str "false" ∧
        k = .invalidValue (.str s) (str "true or false") := by
      show Fails (if Str.uncasedEq s (str "true") then .ok (Val.bool true)
        else if Str.uncasedEq s (str "false") then .ok (Val.bool false)
        else invalidValue (.str s) (str "true or false")) p k ↔ _
      simp only [Str.uncasedEq, htrue, hfalse, beq_iff_eq]
      by_cases ht : s.lower = str "true"
      · rw [if_pos ht, fails_ok]
        exact ⟨False.elim, fun h => h.2.1 ht⟩
      by_cases hf : s.lower = str "false"
      · rw [if_neg ht, if_pos hf, fails_ok]
        exact ⟨False.elim, fun h => h.2.2.1 hf⟩
      rw [if_neg ht, if_neg hf, fails_value]
      exact and_congr_right fun _ => ⟨fun h => ⟨ht, hf, h⟩, fun h => h.2.2⟩
    rw [h0, h3]
    refine and_congr_right fun _ => ⟨fun h => .inl ⟨s, h1, h⟩, ?_⟩
    rintro (⟨_, h, h'⟩ | ⟨_, _, _, h, _⟩ | ⟨_, h, _⟩)
    · rw [h1] at h; cases h; exact h'
    · exact absurd h (h2 _ _)
    · rw [h1] at h; cases h
  have mis : ∀ {r : R Val} {v : Value}, r = invalidType v.shown (str "a boolean") → (∀ tag b, v ≠ .bool tag b) →
      v.text? = none → (∀ tag m i, v = .num tag m → ¬ m.IsInt i) → (Fails r p k ↔ p = [] ∧
    ((∃ s, v.text? = some s ∧ s.lower ≠ str "true" ∧ s.lower ≠ str "false" ∧ k = .invalidValue (.str s) (str "true or false")) ∨
      (∃ tag m i, v = .num tag m ∧ m.IsInt i ∧ i ≠ 0 ∧ i ≠ 1 ∧ k = .invalidValue v.shown (str "0 or 1")) ∨
      ((∀ tag b, v ≠ .bool tag b) ∧ v.text? = none ∧ (∀ tag m i, v = .num tag m → ¬ m.IsInt i) ∧
        k.IsMismatch v "a boolean"))) := by
    intro r v h h1 h2 h3
    rw [h, fails_type]
    refine and_congr_right fun _ => ⟨fun h => .inr (.inr ⟨h1, h2, h3, h⟩), ?_⟩
    rintro (⟨_, h, _⟩ | ⟨_, _, _, h, h', _⟩ | ⟨_, _, _, h⟩)
    · rw [h2] at h; cases h
    · exact absurd h' (h3 _ _ _ h)
    · exact h
  cases v with
  | string t s => exact text rfl rfl nofun
  | char t c => exact text rfl rfl nofun
  | bool t b =>
    refine ⟨fun h => absurd h fun h => fails_ok.1 h, ?_⟩
    rintro ⟨_, ⟨_, h, _⟩ | ⟨_, _, _, h, _⟩ | ⟨h, _⟩⟩
    · cases h
    · cases h
    · exact absurd rfl (h t b)
  | num t n =>
    rw [visit_num]
    show Fails (match n.visited.small? with
      | some i => if i = 0 ∨ i = 1 then .ok (Val.bool (i ≠ 0)) else invalidValue n.visited.toActual (str "0 or 1")
      | none => invalidType n.visited.unexpected (str "a boolean")) p k ↔ _
    cases hs : n.visited.small? with
    | none =>
      exact mis (congrArg (invalidType · _) (Num.visited_shown t n)) nofun rfl fun _ _ i h h' => by
        cases h; rw [Num.small_visited.2 h'] at hs; cases hs
    | some i =>
      dsimp only
      have hi := Num.small_visited.1 hs
      have hu : ∀ j, n.IsInt j → j = i := fun j hj => by
        rw [Num.small_visited.2 hj] at hs; exact Option.some.inj hs
      by_cases h01 : i = 0 ∨ i = 1
      · rw [if_pos h01, fails_ok]
        refine ⟨False.elim, ?_⟩
        rintro ⟨_, ⟨_, h, _⟩ | ⟨_, _, j, h, h', h0, h1, _⟩ | ⟨_, _, h, _⟩⟩
        · cases h
        · cases h
          rw [hu j h'] at h0 h1
          exact h01.elim h0 h1
        · exact h t n i rfl hi
      · rw [if_neg h01, fails_value, Num.small_shown t n hs]
        refine and_congr_right fun _ => ⟨fun h => .inr (.inl ⟨t, n, i, rfl, hi, fun h => h01 (.inl h), fun h => h01 (.inr h), h⟩), ?_⟩
        rintro (⟨_, h, _⟩ | ⟨_, _, j, h, h', h0, h1, h2⟩ | ⟨_, _, h, _⟩)
        · cases h
        · exact h2
        · exact absurd hi (h t n i rfl)
  | empty t e => cases e <;> exact mis rfl nofun rfl nofun
  | _ => exact mis rfl nofun rfl nofun

theorem struct_plain_fails {c : Option Fig} {l : Bool} {name : Str} {V : Visitor Val} {v : Value} {p : List Str} {k : Kind}
    (hname : magicNames.contains name = false) :
    Fails (De.deserializeStruct ⟨c, l⟩ name V v) p k ↔ Fails (De.deserializeAny ⟨c, l⟩ V v) p k := by
  simp only [magicNames, List.contains_cons, List.contains_nil, Bool.or_false, Bool.or_eq_false_iff,
    beq_eq_false_iff_ne] at hname
  unfold De.deserializeStruct
  cases c with
  | none => exact Iff.rfl
  | some f =>
  dsimp only
  rw [fails_err, if_neg hname.1, if_neg hname.2.1, if_neg hname.2.2]

variable [FloatOps]

omit [FloatOps] in
theorem fails_magic {α : Type} {m : R Val} {r : R α} {f : Fig} {l : Bool} {v : Value} {key : Str} {p : List Str} {k : Kind}
    (h1 : ∀ e, r = .error e → m = .error (De.err ⟨some f, l⟩ v.tag (MapDe.err key v e)))
    (h2 : ∀ x, r = .ok x → ∃ y, m = .ok y) : Fails m p k ↔ ∃ p', p = key :: p' ∧ Fails r p' k := by
  cases r with
  | ok x =>
    obtain ⟨y, h⟩ := h2 x rfl
    rw [h, fails_ok]
    exact ⟨False.elim, fun ⟨_, _, h⟩ => fails_ok.1 h⟩
  | error e =>
    rw [h1 e rfl]
    refine (fails_err (r := R.mapErr (MapDe.err key v) (.error e : R Val))).trans (fails_mapDe.trans ?_)
    exact exists_congr fun p' => and_congr_right fun _ => fails_error.trans fails_error.symm

/-- A magic struct is `Tagged` or `RelativePathBuf`. -/
theorem magic_complains {f : Fig} {l : Bool} {n name : Str} {deny : Bool} {fs : List (Str × Option Val × Ty)} {v : Value}
    (hv : v.unreserved = true) {p : List Str} {k : Kind} (hm : Ty.magicShape name fs = true)
    (hl : ∀ e ∈ fs, ∀ p, Fails (e.2.2.de ⟨some f, l⟩ v) p k ↔ e.2.2.Complains l f.fileAt v p k) :
    Fails ((Ty.struct n name deny fs).de ⟨some f, l⟩ v) p k ↔ (Ty.struct n name deny fs).Complains l f.fileAt v p k := by
  unfold Ty.magicShape at hm
  split at hm
  · next k0 k1 t =>
    simp only [Bool.and_eq_true, beq_iff_eq] at hm
    obtain ⟨⟨rfl, rfl⟩, rfl⟩ := hm
    rw [Ty.Complains, if_pos rfl]
    have ht := hl (Tagged.FIELD1, none, t) (by simp)
    refine (fails_magic (r := t.de ⟨some f, l⟩ v) (f := f) (l := l) (v := v) (key := Tagged.FIELD1)
      (by intro e h; rw [Ty.tagged_de' t f l v hv, h]) (by intro x h; exact ⟨_, by rw [Ty.tagged_de' t f l v hv, h]⟩)).trans ?_
    refine exists_congr fun p' => and_congr_right fun _ => (ht p').trans ?_
    rw [Ty.ComplainsLast, Ty.ComplainsLast, Ty.ComplainsLast]
    simp only [or_false, true_and, List.cons_ne_nil, false_and, false_or]
  · next k0 k1 =>
    simp only [Bool.and_eq_true, beq_iff_eq] at hm
    obtain ⟨⟨rfl, rfl⟩, rfl⟩ := hm
    rw [Ty.Complains, if_neg (by decide), if_pos rfl]
    refine (fails_magic (r := Ty.pathBuf.de ⟨some f, l⟩ v) (f := f) (l := l) (v := v) (key := RelPath.FIELD1)
      (by intro e h; rw [Ty.relPath_de' f l v hv, h]) (by intro x h; exact ⟨_, by rw [Ty.relPath_de' f l v hv, h]⟩)).trans ?_
    have hp : ∀ p, Fails (Ty.pathBuf.de ⟨some f, l⟩ v) p k ↔ p = [] ∧ v.text? = none ∧ k.IsMismatch v "path string" := by
      intro p
      rw [Ty.de]
      exact path_fails
    constructor
    · rintro ⟨p', rfl, h⟩
      obtain ⟨rfl, h'⟩ := (hp p').1 h
      exact ⟨rfl, h'⟩
    · rintro ⟨rfl, h⟩
      exact ⟨[], rfl, (hp []).2 ⟨rfl, h⟩⟩
  · cases hm

/-- The field of the name is read, as the specification has it. -/
theorem goodField_iff (c : Option Fig) (l b : Bool) (hc : c = none → l = false ∧ b = false) {deny : Bool} {key : Str} {w : Value}
    (hw : w.Fine b) : ∀ (fs : List (Str × Option Val × Ty)), Ty.properFields b fs = true →
    (fieldGood ⟨c, l⟩ deny (Ty.deFields fs) key w ↔ Ty.GoodField l (cfgFile c) deny key fs w)
  | [], _ => by rw [Ty.deFields, Ty.GoodField]; exact Iff.rfl
  | (n, o, t) :: fs, hp => by
    rw [Ty.properFields, Bool.and_eq_true] at hp
    rw [Ty.deFields, Ty.GoodField, ← goodField_iff c l b hc hw fs hp.2]
    unfold fieldGood
    rw [List.find?_cons]
    by_cases h : n = key
    · rw [decide_eq_true h]
      dsimp only
      have := fun y => Ty.means c l b hc t hp.1 w hw y
      simp only [this]
      exact ⟨fun h' => .inl ⟨h, h'⟩, fun h' => h'.elim And.right fun h' => absurd h h'.1⟩
    · rw [decide_eq_false h]
      dsimp only
      exact ⟨fun h' => .inr ⟨h, h'⟩, fun h' => h'.elim (fun h' => absurd h'.1 h) And.right⟩

omit [FloatOps] in
theorem counted_eq : counted = elements := rfl

/-- A list whose first bad element is known, in the form of the specification of `Vec`. -/
theorem array_complains {c : Option Fig} {l b : Bool} (hc : c = none → l = false ∧ b = false) {t : Ty} (ht : t.proper b = true)
    {v : Value} (hv : v.Fine b) {k : Kind} (ih : ∀ w : Value, w.Fine b → ∀ p, Fails (t.de ⟨c, l⟩ w) p k ↔ t.Complains l (cfgFile c) w p k)
    {p : List Str} {tag : Tag} {a : List Value} (ha : v = .array tag a) :
    Fails (seqLoop t.de ⟨c, l⟩ 0 a) p k ↔ ∃ (i : Nat) (w : Value) (p' : List Str), a[i]? = some w ∧ p = Dec.ofNat i :: p' ∧
      t.Complains l (cfgFile c) w p' k ∧ ∀ j, j < i → ∀ u, a[j]? = some u → ∃ y, t.Means l (cfgFile c) u y := by
  subst ha
  rw [seqLoop_fails (C := fun w p k => t.Complains l (cfgFile c) w p k) (G := fun w => ∃ y, t.Means l (cfgFile c) w y) a 0
    (fun w hw p => ih w (hv.array w hw) p)
    (fun w hw => exists_congr fun y => Ty.means c l b hc t ht w (hv.array w hw) y)]
  simp only [Nat.zero_add]
  constructor
  · rintro ⟨i, w, h, ⟨p', hp, h'⟩, hg⟩
    exact ⟨i, w, p', h, hp, h', hg⟩
  · rintro ⟨i, w, p', h, hp, h', hg⟩
    exact ⟨i, w, h, ⟨p', hp, h'⟩, hg⟩

/-- A list whose first bad entry is known, in the form of the specification of maps. -/
theorem dict_complains {c : Option Fig} {l b : Bool} (hc : c = none → l = false ∧ b = false) {t : Ty} (ht : t.proper b = true)
    {v : Value} (hv : v.Fine b) {k : Kind} (ih : ∀ w : Value, w.Fine b → ∀ p, Fails (t.de ⟨c, l⟩ w) p k ↔ t.Complains l (cfgFile c) w p k)
    {p : List Str} {tag : Tag} {d : Dict} (ha : v = .dict tag d) :
    Fails (mapLoop t.de ⟨c, l⟩ d) p k ↔ ∃ (i : Nat) (key : Str) (w : Value) (p' : List Str), d[i]? = some (key, w) ∧
      p = key :: p' ∧ t.Complains l (cfgFile c) w p' k ∧
      ∀ j, j < i → ∀ e, d[j]? = some e → ∃ y, t.Means l (cfgFile c) e.2 y := by
  subst ha
  rw [mapLoop_fails (C := fun w p k => t.Complains l (cfgFile c) w p k) (G := fun w => ∃ y, t.Means l (cfgFile c) w y) d
    (fun w hw p => ih w.2 (hv.dict w hw) p)
    (fun w hw => exists_congr fun y => Ty.means c l b hc t ht w.2 (hv.dict w hw) y)]
  constructor
  · rintro ⟨i, ⟨key, w⟩, h, ⟨p', hp, h'⟩, hg⟩
    exact ⟨i, key, w, p', h, hp, h', hg⟩
  · rintro ⟨i, key, w, p', h, hp, h', hg⟩
    exact ⟨i, (key, w), h, ⟨p', hp, h'⟩, hg⟩

/-- The struct with the fields, given what is wrong with the fields. -/
theorem structAny_complains {c : Option Fig} {l b : Bool} (hc : c = none → l = false ∧ b = false) {s s' : Str} {deny : Bool}
    {fs : List (Str × Option Val × Ty)} (hfs : Ty.properFields b fs = true) {v : Value}
    (hv : v.Fine b) (hn : (fs.map (·.1)).Nodup) {p : List Str} {k : Kind}
    (hf : ∀ tag d, v = .dict tag d → ∀ e ∈ d, ∀ p, fieldFails ⟨c, l⟩ (Ty.deFields fs) e.1 e.2 p k ↔
      Ty.ComplainsField l (cfgFile c) e.1 fs e.2 p k)
    (he : ∀ tag a, v = .array tag a →
      (Fails (tupleLoop s' ⟨c, l⟩ 0 ((Ty.deFields fs).map fun f => (f.dflt, f.run)) a) p k ↔
        Ty.ComplainsElems l (cfgFile c) s' 0 fs a p k)) :
    Fails (De.deserializeAny ⟨c, l⟩ (structVisitor s s' deny (Ty.deFields fs)) v) p k ↔
      ((∀ tag d, v ≠ .dict tag d) ∧ (∀ tag a, v ≠ .array tag a) ∧ p = [] ∧ k = .invalidType v.shown s) ∨
      (∃ tag d, v = .dict tag d ∧ DictFault deny fs (fun key w p' k => Ty.ComplainsField l (cfgFile c) key fs w p' k)
        (fun key w => Ty.GoodField l (cfgFile c) deny key fs w) d p k) ∨
      ∃ tag a, v = .array tag a ∧ Ty.ComplainsElems l (cfgFile c) s' 0 fs a p k := by
  rw [structAny_fails, and_assoc]
  refine or_congr Iff.rfl (or_congr ?_ ?_)
  · refine exists_congr fun tag => exists_congr fun d => and_congr_right fun h => ?_
    subst h
    exact structMap_fails (Value.wf_dict.1 hv.1).1 hn (fun e he p => hf tag d rfl e he p)
      (fun e he => goodField_iff c l b hc (hv.dict e he) fs hfs)
  · exact exists_congr fun tag => exists_congr fun a => and_congr_right fun h => he tag a h

mutual
/-- What a buffer cannot be filled with. -/
theorem refuses_iff (s : Str) (de : De) (k : Kind) : ∀ (v : Value) (p : List Str),
    Fails ((Ty.any s).de de v) p k ↔ v.Refuses s p k
  | .string t u, p => by rw [Ty.any_eq, fails_any, Value.Refuses]; exact fails_ok; all_goals nofun
  | .char t u, p => by rw [Ty.any_eq, fails_any, Value.Refuses]; exact fails_ok; all_goals nofun
  | .bool t u, p => by rw [Ty.any_eq, fails_any, Value.Refuses]; exact fails_ok; all_goals nofun
  | .empty t .unit, p => by rw [Ty.any_eq, fails_any, Value.Refuses]; exact fails_ok; all_goals nofun
  | .empty t .none, p => by rw [Ty.any_eq, fails_any, Value.Refuses]; exact fails_ok; all_goals nofun
  | .num t n, p => by
    rw [Ty.any_eq, fails_any, Value.Refuses, visit_num]
    rcases any_num s (Ty.any s).de n with ⟨h, h'⟩ | ⟨h, h'⟩ <;> rw [h']
    · exact ⟨fun h1 => (fails_ok.1 h1).elim, fun h1 => absurd h1.1 h⟩
    · rw [Num.visited_shown t n, fails_type]
      exact ⟨fun h1 => ⟨h, h1⟩, fun h1 => h1.2⟩
  | .dict t d, p => by
    rw [Ty.any_eq, fails_any, Value.Refuses, ← refusesD_iff s de k d p]
    exact fails_map (m := match mapLoop (Ty.any s).de de d with | .ok l => Except.ok (Val.map l) | .error e => .error e)
      (mapLoop (Ty.any s).de de d)
  | .array t a, p => by
    rw [Ty.any_eq, fails_any, Value.Refuses, ← refusesA_iff s de k a 0 p]
    exact fails_map (m := match seqLoop (Ty.any s).de de 0 a with | .ok l => Except.ok (Val.seq l) | .error e => .error e)
      (seqLoop (Ty.any s).de de 0 a)
theorem refusesD_iff (s : Str) (de : De) (k : Kind) : ∀ (d : List (Str × Value)) (p : List Str),
    Fails (mapLoop (Ty.any s).de de d) p k ↔ Value.RefusesD s d p k
  | [], p => by rw [mapLoop, Value.RefusesD]; exact fails_ok
  | (key, v) :: d, p => by
    rw [mapLoop, Value.RefusesD]
    refine (fails_bind (MapDe.nextValue (Ty.any s).de de key v) (fun x => match mapLoop (Ty.any s).de de d with
      | .error e => .error e | .ok xs => .ok ((key, x) :: xs))).trans (or_congr ?_ ?_)
    · rw [fails_nextValue]
      exact exists_congr fun p' => and_congr_right fun _ => refuses_iff s de k v p'
    · rw [← refusesD_iff s de k d p]
      constructor
      · rintro ⟨x, hx, h⟩
        exact ⟨⟨x, (buffers_iff s de v x).1 (nextValue_ok.1 hx)⟩, (fails_map _).1 h⟩
      · rintro ⟨⟨x, hx⟩, h⟩
        exact ⟨x, nextValue_ok.2 ((buffers_iff s de v x).2 hx), (fails_map _).2 h⟩
theorem refusesA_iff (s : Str) (de : De) (k : Kind) : ∀ (a : List Value) (i : Nat) (p : List Str),
    Fails (seqLoop (Ty.any s).de de i a) p k ↔ Value.RefusesA s i a p k
  | [], i, p => by rw [seqLoop, Value.RefusesA]; exact fails_ok
  | v :: a, i, p => by
    rw [seqLoop, Value.RefusesA]
    refine (fails_bind (SeqDe.nextElement (Ty.any s).de de i v) (fun x => match seqLoop (Ty.any s).de de (i + 1) a with
      | .error e => .error e | .ok xs => .ok (x :: xs))).trans (or_congr ?_ ?_)
    · rw [fails_nextElement]
      exact exists_congr fun p' => and_congr_right fun _ => refuses_iff s de k v p'
    · rw [← refusesA_iff s de k a (i + 1) p]
      constructor
      · rintro ⟨x, hx, h⟩
        exact ⟨⟨x, (buffers_iff s de v x).1 (nextElement_ok.1 hx)⟩, (fails_map _).1 h⟩
      · rintro ⟨⟨x, hx⟩, h⟩
        exact ⟨x, nextElement_ok.2 ((buffers_iff s de v x).2 hx), (fails_map _).2 h⟩
end

/-! ## Structs with flattened fields -/

omit [FloatOps] in
theorem flatLoop_fails {fs : List FieldSeed} {de : De} {p : List Str} {k : Kind} : ∀ (d : List (Str × Value)),
    (Fails (flatLoop fs de d) p k ↔ First (fun _ e => ∃ p', p = e.1 :: p' ∧ Fails (flatSeed fs e.1 de e.2) p' k)
      (fun e => ∃ y, flatSeed fs e.1 de e.2 = .ok y) d)
  | [] => by rw [flatLoop]; simp [first_nil]
  | (key, v) :: a => by
    rw [flatLoop, first_cons]
    refine (fails_bind (MapDe.nextValue (flatSeed fs key) de key v) (fun x => match flatLoop fs de a with
      | .error e => .error e | .ok xs => .ok ((key, x) :: xs))).trans (or_congr ?_ ?_)
    · simp only [fails_nextValue]
    · rw [← flatLoop_fails a]
      constructor
      · rintro ⟨x, hx, hf⟩
        exact ⟨⟨x, nextValue_ok.1 hx⟩, (fails_map (flatLoop fs de a)).1 hf⟩
      · rintro ⟨⟨x, hx⟩, hf⟩
        exact ⟨x, nextValue_ok.2 hx, (fails_map (flatLoop fs de a)).2 hf⟩

omit [FloatOps] in
theorem flatLoop_good {fs : List FieldSeed} {de : De} : ∀ (d : List (Str × Value)),
    ((∃ l, flatLoop fs de d = .ok l) ↔ ∀ e ∈ d, ∃ y, flatSeed fs e.1 de e.2 = .ok y)
  | [] => by rw [flatLoop]; simp
  | (key, v) :: a => by
    rw [List.forall_mem_cons, ← flatLoop_good a]
    simp only [flatLoop_cons]
    constructor
    · rintro ⟨_, y, l, _, h1, h2⟩
      exact ⟨⟨y, h1⟩, l, h2⟩
    · rintro ⟨⟨y, h1⟩, l, h2⟩
      exact ⟨_, y, l, rfl, h1, h2⟩

theorem flatSeed_fails {fs : List FieldSeed} {de : De} {key : Str} {w : Value} {p : List Str} {k : Kind} :
    Fails (flatSeed fs key de w) p k ↔ fieldFails de fs key w p k ∨
      (key ∉ fs.map (·.name) ∧ w.Refuses (str "any value") p k) := by
  unfold flatSeed fieldFails
  cases hf : fs.find? (fun f => f.name = key) with
  | some f =>
    have hn : ¬ key ∉ fs.map (·.name) := fun h => by rw [find_none_iff.2 h] at hf; cases hf
    simp only [hn, false_and, or_false, Option.some.injEq, exists_eq_left']
  | none =>
    have hn := find_none_iff.1 hf
    refine (refuses_iff (str "any value") de k w p).trans ⟨fun h => .inr ⟨hn, h⟩, ?_⟩
    rintro (⟨_, h, _⟩ | ⟨_, h⟩)
    · cases h
    · exact h

theorem flatSeed_good {fs : List FieldSeed} {de : De} {key : Str} {w : Value} :
    (∃ y, flatSeed fs key de w = .ok y) ↔ fieldGood de false fs key w ∧
      (key ∉ fs.map (·.name) → ∃ y, w.Buffers y) := by
  unfold flatSeed fieldGood
  cases hf : fs.find? (fun f => f.name = key) with
  | some f =>
    have hn : ¬ key ∉ fs.map (·.name) := fun h => by rw [find_none_iff.2 h] at hf; cases hf
    exact ⟨fun h => ⟨h, fun h' => absurd h' hn⟩, And.left⟩
  | none =>
    have hn := find_none_iff.1 hf
    exact ⟨fun ⟨y, h⟩ => ⟨rfl, fun _ => ⟨y, (buffers_iff (str "any value") de w y).1 h⟩⟩,
      fun h => (h.2 hn).elim fun y h => ⟨y, (buffers_iff (str "any value") de w y).2 h⟩⟩

/-- A dictionary read as a struct with flattened fields. -/
theorem flatMap_fails {de : De} {s : Str} {fs : List (Str × Option Val × Ty)}
    {conv : List Val → List (Str × Val) → Except Kind Val} {d : Dict} (hs : Map.Sorted d)
    (hn : (fs.map (·.1)).Nodup) {fault : Str → Value → List Str → Kind → Prop} {good : Str → Value → Prop}
    {p : List Str} {k : Kind}
    (h1 : ∀ e ∈ d, ∀ p, Fails (flatSeed (Ty.deFields fs) e.1 de e.2) p k ↔ fault e.1 e.2 p k)
    (h2 : ∀ e ∈ d, (∃ y, flatSeed (Ty.deFields fs) e.1 de e.2 = .ok y) ↔ good e.1 e.2) :
    Fails ((flatVisitor s (Ty.deFields fs) conv).visitMap de d) p k ↔ DictFault false fs fault good d p k ∨
      ∃ xs l, FieldsRun de (Ty.deFields fs) d xs ∧
        Value.BuffersD (d.filter fun e => !(fieldNames fs).contains e.1) l ∧ conv xs l = .error k ∧ p = [] := by
  have hn' : ((Ty.deFields fs).map (·.name)).Nodup := by rw [deFields_names]; exact hn
  have hgood : (∃ l, flatLoop (Ty.deFields fs) de d = .ok l) ↔ ∀ e ∈ d, good e.1 e.2 :=
    (flatLoop_good d).trans ⟨fun h e he => (h2 e he).1 (h e he), fun h e he => (h2 e he).2 (h e he)⟩
  have hfin : ∀ l, flatLoop (Ty.deFields fs) de d = .ok l → (Fails (fieldFinish l (Ty.deFields fs)) p k ↔
      p = [] ∧ ∃ name, FirstLacking fs d name ∧ k = .missingField name) := by
    intro l hl
    refine fieldFinish_fails fs fun f hf => ?_
    obtain ⟨h3, h4⟩ := flatLoop_lookup hl f.1
    constructor
    · intro h5
      cases hg : Map.get f.1 d with
      | none => rfl
      | some w => obtain ⟨y, _, h6⟩ := h4 w hg; rw [h5] at h6; cases h6
    · exact h3
  let g : List (Str × Val) → R Val := fun l => match fieldFinish l (Ty.deFields fs) with
    | .error e => .error e
    | .ok xs => match conv xs (l.filter fun e => ((Ty.deFields fs).find? (fun f => f.name = e.1)).isNone) with
      | .ok x => .ok x
      | .error k => .error (Error.ofKind k)
  have hg : ∀ l, flatLoop (Ty.deFields fs) de d = .ok l → (Fails (g l) p k ↔
      (p = [] ∧ ∃ name, FirstLacking fs d name ∧ k = .missingField name) ∨
      ∃ xs l, FieldsRun de (Ty.deFields fs) d xs ∧
        Value.BuffersD (d.filter fun e => !(fieldNames fs).contains e.1) l ∧ conv xs l = .error k ∧ p = []) := by
    intro l hl
    refine (fails_bind (fieldFinish l (Ty.deFields fs)) (fun xs =>
      match conv xs (l.filter fun e => ((Ty.deFields fs).find? (fun f => f.name = e.1)).isNone) with
      | .ok x => .ok x
      | .error k => .error (Error.ofKind k)) (by intro _ h; simp only [g]; rw [h])
      (by intro _ h; simp only [g]; rw [h])).trans (or_congr (hfin l hl) ?_)
    have hrest := flatLoop_rest hl
    rw [deFields_names] at hrest
    constructor
    · rintro ⟨xs, hx, hf⟩
      refine ⟨xs, _, (flat_fin hn' hl xs).1 hx, hrest, ?_⟩
      cases hc : conv xs (l.filter fun e => ((Ty.deFields fs).find? (fun f => f.name = e.1)).isNone) with
      | ok x => rw [hc] at hf; exact absurd hf fails_ok.1
      | error k' =>
        rw [hc] at hf
        obtain ⟨h5, h6⟩ := fails_ofKind.1 hf
        exact ⟨by rw [h6], h5⟩
    · rintro ⟨xs, l', hx, hb, hc, hp⟩
      refine ⟨xs, (flat_fin hn' hl xs).2 hx, ?_⟩
      rw [buffersD_det hrest hb, hc]
      exact fails_ofKind.2 ⟨hp, rfl⟩
  refine (fails_bind (flatLoop (Ty.deFields fs) de d) g (by intro _ h; simp only [flatVisitor]; rw [h])
    (by intro _ h; simp only [flatVisitor]; rw [h]; rfl)).trans ?_
  unfold DictFault
  rw [flatLoop_fails, or_assoc]
  refine or_congr ?_ ?_
  · constructor
    · rintro ⟨i, e, he, ⟨p', hp, hb⟩, hg⟩
      have hm := List.mem_of_getElem? he
      exact ⟨i, e.1, e.2, he, .inl ⟨p', hp, (h1 e hm p').1 hb⟩,
        fun j hj e' he' => (h2 e' (List.mem_of_getElem? he')).1 (hg j hj e' he')⟩
    · rintro ⟨i, key, w, he, hb, hg⟩
      have hm := List.mem_of_getElem? he
      refine ⟨i, (key, w), he, ?_, fun j hj e' he' => (h2 e' (List.mem_of_getElem? he')).2 (hg j hj e' he')⟩
      rcases hb with ⟨p', hp, hb⟩ | ⟨h, _⟩
      · exact ⟨p', hp, (h1 (key, w) hm p').2 hb⟩
      · cases h
  · constructor
    · rintro ⟨l, hl, hf⟩
      exact ((hg l hl).1 hf).imp (fun h => ⟨hgood.1 ⟨l, hl⟩, h⟩) id
    · rintro (⟨h, h'⟩ | ⟨xs, l, hx, hb, hc⟩)
      · obtain ⟨l, hl⟩ := hgood.2 h
        exact ⟨l, hl, (hg l hl).2 (.inl h')⟩
      · obtain ⟨acc, hacc⟩ := flatLoop_of (fs := Ty.deFields fs) (de := de) d (by
            intro e he f hf
            have hfm := List.mem_of_find?_eq_some hf
            have hname : f.name = e.1 := by simpa using List.find?_some hf
            exact hx.mem f hfm e.2 (by rw [hname]; exact Map.get_eq_some_of_mem hs he))
          (fun e he hk => buffersD_mem hb e (List.mem_filter.2 ⟨he, by
            rw [deFields_names] at hk; simpa [fieldNames] using hk⟩))
        exact ⟨acc, hacc, (hg acc hacc).2 (.inr ⟨xs, l, hx, hb, hc⟩)⟩

omit [FloatOps] in
theorem flatAny_fails {s : Str} {fs : List FieldSeed} {conv : List Val → List (Str × Val) → Except Kind Val} {de : De}
    {v : Value} {p : List Str} {k : Kind} : Fails (de.deserializeAny (flatVisitor s fs conv) v) p k ↔
      ((∀ tag d, v ≠ .dict tag d) ∧ p = [] ∧ k = .invalidType v.shown s) ∨
      ∃ tag d, v = .dict tag d ∧ Fails ((flatVisitor s fs conv).visitMap de d) p k := by
  rw [fails_any]
  cases v with
  | dict t a => exact one' ⟨fun h => ⟨t, a, rfl, h⟩, fun ⟨_, _, h, h'⟩ => by cases h; exact h'⟩ fun h => h t a rfl
  | num t n => rw [visit_num]; exact mis' (congrArg (invalidType · _) (Num.visited_shown t n)) nofun nofun
  | empty t e => cases e <;> exact mis' rfl nofun nofun
  | _ => exact mis' rfl nofun nofun

/-- The struct with flattened fields, given what is wrong with the fields. -/
theorem flatAny_complains {c : Option Fig} {l b : Bool} (hc : c = none → l = false ∧ b = false) {s : Str}
    {fs : List (Str × Option Val × Ty)} {conv : List Val → List (Str × Val) → Except Kind Val}
    (hfs : Ty.properFields b fs = true) {v : Value}
    (hv : v.Fine b) (hn : (fs.map (·.1)).Nodup) {p : List Str} {k : Kind}
    (hf : ∀ tag d, v = .dict tag d → ∀ e ∈ d, ∀ p, fieldFails ⟨c, l⟩ (Ty.deFields fs) e.1 e.2 p k ↔
      Ty.ComplainsField l (cfgFile c) e.1 fs e.2 p k) :
    Fails (De.deserializeAny ⟨c, l⟩ (flatVisitor s (Ty.deFields fs) conv) v) p k ↔
      ((∀ tag d, v ≠ .dict tag d) ∧ p = [] ∧ k = .invalidType v.shown s) ∨
      (∃ tag d, v = .dict tag d ∧ DictFault false fs
        (fun key w p' k => Ty.ComplainsField l (cfgFile c) key fs w p' k ∨
          (key ∉ fieldNames fs ∧ w.Refuses (str "any value") p' k))
        (fun key w => Ty.GoodField l (cfgFile c) false key fs w ∧ (key ∉ fieldNames fs → ∃ y, w.Buffers y)) d p k) ∨
      ∃ tag d xs l', v = .dict tag d ∧ Ty.MeansFields l (cfgFile c) fs d xs ∧
        Value.BuffersD (d.filter fun e => !(fieldNames fs).contains e.1) l' ∧ conv xs l' = .error k ∧ p = [] := by
  rw [flatAny_fails]
  refine or_congr Iff.rfl ?_
  have key : ∀ tag d, v = .dict tag d → (Fails ((flatVisitor s (Ty.deFields fs) conv).visitMap ⟨c, l⟩ d) p k ↔
      DictFault false fs
        (fun key w p' k => Ty.ComplainsField l (cfgFile c) key fs w p' k ∨
          (key ∉ fieldNames fs ∧ w.Refuses (str "any value") p' k))
        (fun key w => Ty.GoodField l (cfgFile c) false key fs w ∧ (key ∉ fieldNames fs → ∃ y, w.Buffers y)) d p k ∨
      ∃ xs l', Ty.MeansFields l (cfgFile c) fs d xs ∧
        Value.BuffersD (d.filter fun e => !(fieldNames fs).contains e.1) l' ∧ conv xs l' = .error k ∧ p = []) := by
    intro tag d h
    subst h
    refine (flatMap_fails (Value.wf_dict.1 hv.1).1 hn ?_ ?_).trans (or_congr Iff.rfl ?_)
    · intro e he p
      rw [flatSeed_fails, deFields_names, hf tag d rfl e he p]
      exact Iff.rfl
    · intro e he
      rw [flatSeed_good, deFields_names, goodField_iff c l b hc (hv.dict e he) fs hfs]
      exact Iff.rfl
    · simp only [Ty.means_fields c l b hc fs hfs d (fun k w hw => hv.get hw)]
  constructor
  · rintro ⟨tag, d, h, h'⟩
    rcases (key tag d h).1 h' with h' | ⟨xs, l', h'⟩
    · exact .inl ⟨tag, d, h, h'⟩
    · exact .inr ⟨tag, d, xs, l', h, h'⟩
  · rintro (⟨tag, d, h, h'⟩ | ⟨tag, d, xs, l', h, h'⟩)
    · exact ⟨tag, d, h, (key tag d h).2 (.inl h')⟩
    · exact ⟨tag, d, h, (key tag d h).2 (.inr ⟨xs, l', h'⟩)⟩

mutual
/-- Extraction fails with what is wrong with the value. -/
theorem Ty.complains (c : Option Fig) (l b : Bool) (hc : c = none → l = false ∧ b = false) (k : Kind) : (t : Ty) →
    t.proper b = true → ∀ v : Value, v.Fine b → ∀ p, (Fails (t.de ⟨c, l⟩ v) p k ↔ t.Complains l (cfgFile c) v p k)
  | .bool, _, v, _, p => by rw [Ty.de, Ty.Complains]; exact bool_fails fun h => (hc h).1
  | .int t, _, v, _, p => by
    rw [Ty.Complains]
    have key := int_fails (t := t) (c := c) (l := l) (fun h => (hc h).1) (v := v) (p := p) (k := k)
    cases t with
    | u128 => rw [if_pos (.inl rfl)]; exact fails_ofKind
    | i128 => rw [if_pos (.inr rfl)]; exact fails_ofKind
    | _ => rw [if_neg (by decide)]; exact key
  | .f32, _, v, _, p => by
    rw [Ty.de, Ty.Complains]
    exact float_fails (num_fails (fun _ => rfl) (fun _ => rfl) (fun _ => rfl) rfl rfl (fun _ _ => rfl) (fun _ _ => rfl)
      fun h => (hc h).1) fun n => f32_fails
  | .f64, _, v, _, p => by
    rw [Ty.de, Ty.Complains]
    exact float_fails (num_fails (fun _ => rfl) (fun _ => rfl) (fun _ => rfl) rfl rfl (fun _ _ => rfl) (fun _ _ => rfl)
      fun h => (hc h).1) fun n => f64_fails
  | .char, _, v, _, p => by rw [Ty.de, Ty.Complains]; exact char_fails
  | .string, _, v, _, p => by rw [Ty.de, Ty.Complains]; exact string_fails
  | .pathBuf, _, v, _, p => by rw [Ty.de, Ty.Complains]; exact path_fails
  | .unit, _, v, _, p => by rw [Ty.de, Ty.Complains]; exact unit_fails
  | .unitStruct _, _, v, _, p => by rw [Ty.de, Ty.Complains]; exact unit_fails
  | .option t, hp, v, hv, p => by
    rw [Ty.proper] at hp
    rw [Ty.de, Ty.Complains, ← Ty.complains c l b hc k t hp v hv p]
    exact option_fails
  | .newtype n t, hp, v, hv, p => by
    rw [Ty.proper] at hp
    rw [Ty.de, Ty.Complains, ← Ty.complains c l b hc k t hp v hv p]
    exact fails_map (m := match t.de ⟨c, l⟩ v with | .ok x => Except.ok (Val.newtype x) | .error e => .error e) (t.de ⟨c, l⟩ v)
  | .seq t, hp, v, hv, p => by
    rw [Ty.proper] at hp
    rw [Ty.de, Ty.Complains]
    refine seq_fails.trans (or_congr Iff.rfl ?_)
    exact exists_congr fun tag => exists_congr fun a => and_congr_right fun h =>
      array_complains hc hp hv (fun w hw p => Ty.complains c l b hc k t hp w hw p) h
  | .tuple ts, hp, v, hv, p => by
    rw [Ty.proper] at hp
    rw [Ty.de, Ty.Complains]
    refine tuple_fails.trans (or_congr Iff.rfl ?_)
    exact exists_congr fun tag => exists_congr fun a => and_congr_right fun h =>
      Ty.complains_each c l b hc k ts hp a (h ▸ hv).array _ 0 p
  | .tupleStruct n ts, hp, v, hv, p => by
    rw [Ty.proper] at hp
    rw [Ty.de, Ty.Complains]
    refine tuple_fails.trans (or_congr Iff.rfl ?_)
    exact exists_congr fun tag => exists_congr fun a => and_congr_right fun h =>
      Ty.complains_each c l b hc k ts hp a (h ▸ hv).array _ 0 p
  | .map t, hp, v, hv, p => by
    rw [Ty.proper] at hp
    rw [Ty.de, Ty.Complains]
    refine map_fails.trans (or_congr Iff.rfl ?_)
    exact exists_congr fun tag => exists_congr fun a => and_congr_right fun h =>
      dict_complains hc hp hv (fun w hw p => Ty.complains c l b hc k t hp w hw p) h
  | .pairs t, hp, v, hv, p => by
    rw [Ty.proper] at hp
    rw [Ty.de, Ty.Complains]
    refine pairs_fails.trans (or_congr Iff.rfl ?_)
    exact exists_congr fun tag => exists_congr fun a => and_congr_right fun h =>
      dict_complains hc hp hv (fun w hw p => Ty.complains c l b hc k t hp w hw p) h
  | .keyed kt t, hp, v, hv, p => by
    rw [Ty.proper] at hp
    rw [Ty.de, Ty.Complains]
    refine keyed_fails.trans (or_congr Iff.rfl ?_)
    refine exists_congr fun tag => exists_congr fun d => and_congr_right fun h => ?_
    subst h
    rw [keyedLoop_fails (K := fun s => ∃ x, kt.KeyIs s x) (F := kt.KeyFault) (C := fun w p k => t.Complains l (cfgFile c) w p k)
      (G := fun w => ∃ y, t.Means l (cfgFile c) w y) (fun s => exists_congr fun x => Ty.deKey_ok kt s x)
      (fun s p => Ty.deKey_fails kt s p k) d (fun e he p => Ty.complains c l b hc k t hp e.2 (hv.dict e he) p)
      (fun e he => exists_congr fun y => Ty.means c l b hc t hp e.2 (hv.dict e he) y)]
    constructor
    · rintro ⟨i, ⟨s, w⟩, h, h', hg⟩
      exact ⟨i, s, w, h, h', hg⟩
    · rintro ⟨i, s, w, h, h', hg⟩
      exact ⟨i, (s, w), h, h', hg⟩
  | .struct n name deny fs, hp, v, hv, p => by
    rw [Ty.proper, Bool.and_eq_true, Bool.and_eq_true, decide_eq_true_eq] at hp
    obtain ⟨⟨hname, hn⟩, hfs⟩ := hp
    cases hm : magicNames.contains name with
    | true =>
      rw [hm, Bool.not_true, Bool.false_or, Bool.and_eq_true] at hname
      have hs := Ty.complains_same c l b hc k fs hfs v hv
      cases c with
      | none => rw [(hc rfl).2] at hname; exact nomatch hname.1
      | some f => exact magic_complains (hv.2 hname.1) hname.2 hs
    | false =>
      have h1 : name ≠ Tagged.NAME := by rintro rfl; exact absurd hm (by decide)
      have h2 : name ≠ RelPath.NAME := by rintro rfl; exact absurd hm (by decide)
      rw [Ty.de, Ty.Complains, if_neg h1, if_neg h2]
      dsimp only
      rw [struct_plain_fails hm]
      exact structAny_complains hc hfs hv hn
        (fun tag d h e he p => Ty.complains_fields c l b hc k e.1 fs hfs e.2 ((h ▸ hv).dict e he) p)
        (fun tag a h => Ty.complains_elems c l b hc k fs hfs a (h ▸ hv).array _ 0 p)
  | .enum n vs, hp, v, hv, p => by
    rw [Ty.proper] at hp
    rw [Ty.de, Ty.Complains]
    refine enum_fails.trans (or_congr Iff.rfl (or_congr Iff.rfl (or_congr Iff.rfl (or_congr ?_ Iff.rfl))))
    exact exists_congr fun tag => exists_congr fun key => exists_congr fun w => exists_congr fun r =>
      and_congr_right fun h => or_congr Iff.rfl
        (Ty.complains_variants c l b hc k n key vs hp w ((h ▸ hv).dict (key, w) (List.mem_cons_self ..)) p)
  | .value, hp, v, hv, p => by
    rw [Ty.proper] at hp
    cases c with
    | none => rw [(hc rfl).2] at hp; exact nomatch hp
    | some f =>
    rw [Ty.de, Ty.Complains]
    dsimp only
    rw [Value.de_ok f l v hv.1 (Value.noReserved_of_unreserved v (hv.2 hp))]
    exact fails_ok
  | .tag, _, v, _, p => by rw [Ty.de, Ty.Complains]; exact tag_fails
  | .flag, _, v, _, p => by rw [Ty.de, Ty.Complains]; exact flag_fails
  | .parsed s parse _, _, v, _, p => by rw [Ty.de, Ty.Complains]; exact parsed_fails
  | .any s, _, v, _, p => by rw [Ty.Complains]; exact refuses_iff s _ k v p
  | .flat n fs conv _, hp, v, hv, p => by
    rw [Ty.proper, Bool.and_eq_true, decide_eq_true_eq] at hp
    rw [Ty.de, Ty.Complains]
    exact flatAny_complains hc hp.2 hv hp.1
      (fun tag d h e he p => Ty.complains_fields c l b hc k e.1 fs hp.2 e.2 ((h ▸ hv).dict e he) p)
  | .via t conv _, hp, v, hv, p => by
    rw [Ty.proper, Bool.and_eq_true] at hp
    rw [Ty.de, Ty.Complains]
    simp only [converted_fails, Ty.complains c l b hc k t hp.2 v hv p, Ty.means c l b hc t hp.2 v hv]
theorem Ty.complains_each (c : Option Fig) (l b : Bool) (hc : c = none → l = false ∧ b = false) (k : Kind) : (ts : List Ty) →
    Ty.properEach b ts = true → ∀ a : List Value, (∀ w ∈ a, w.Fine b) → ∀ s i p,
    (Fails (tupleLoop s ⟨c, l⟩ i ((Ty.deEach ts).map fun run => (none, run)) a) p k ↔
      Ty.ComplainsEach l (cfgFile c) s i ts a p k)
  | [], _, a, _, s, i, p => by
    rw [Ty.deEach, List.map_nil, tupleLoop, Ty.ComplainsEach]
    exact fails_ok
  | t :: ts, hp, a, ha, s, i, p => by
    rw [Ty.properEach, Bool.and_eq_true] at hp
    rw [Ty.deEach, List.map_cons]
    cases a with
    | nil => rw [Ty.ComplainsEach]; exact fails_length
    | cons w a =>
      have ih1 := Ty.complains c l b hc k t hp.1 w (ha w (List.mem_cons_self ..))
      have ih2 := Ty.complains_each c l b hc k ts hp.2 a (fun w hw => ha w (List.mem_cons_of_mem _ hw)) s (i + 1) p
      have hm := Ty.means c l b hc t hp.1 w (ha w (List.mem_cons_self ..))
      rw [tupleLoop, Ty.ComplainsEach]
      refine (fails_bind (SeqDe.nextElement t.de ⟨c, l⟩ i w) (fun x =>
        match tupleLoop s ⟨c, l⟩ (i + 1) ((Ty.deEach ts).map fun run => (none, run)) a with
        | .error e => .error e | .ok xs => .ok (x :: xs))).trans (or_congr ?_ ?_)
      · rw [fails_nextElement]
        exact exists_congr fun p' => and_congr_right fun _ => ih1 p'
      · rw [← ih2]
        constructor
        · rintro ⟨x, hx, h⟩
          exact ⟨⟨x, (hm x).1 (nextElement_ok.1 hx)⟩, (fails_map _).1 h⟩
        · rintro ⟨⟨x, hx⟩, h⟩
          exact ⟨x, nextElement_ok.2 ((hm x).2 hx), (fails_map _).2 h⟩
theorem Ty.complains_elems (c : Option Fig) (l b : Bool) (hc : c = none → l = false ∧ b = false) (k : Kind) :
    (fs : List (Str × Option Val × Ty)) → Ty.properFields b fs = true →
    ∀ a : List Value, (∀ w ∈ a, w.Fine b) → ∀ s i p,
    (Fails (tupleLoop s ⟨c, l⟩ i ((Ty.deFields fs).map fun f => (f.dflt, f.run)) a) p k ↔
      Ty.ComplainsElems l (cfgFile c) s i fs a p k)
  | [], _, a, _, s, i, p => by
    rw [Ty.deFields, List.map_nil, tupleLoop, Ty.ComplainsElems]
    exact fails_ok
  | (name, dflt, t) :: fs, hp, a, ha, s, i, p => by
    rw [Ty.properFields, Bool.and_eq_true] at hp
    rw [Ty.deFields, List.map_cons]
    cases a with
    | nil =>
      have ih2 := Ty.complains_elems c l b hc k fs hp.2 [] nofun s (i + 1) p
      rw [Ty.ComplainsElems, ← ih2]
      cases dflt with
      | none =>
        refine (show _ ↔ _ from fails_length).trans ⟨fun h => .inl ⟨rfl, h⟩, ?_⟩
        rintro (h | ⟨h, _⟩)
        · exact h.2
        · exact absurd rfl h
      | some z =>
        rw [tupleLoop]
        refine (fails_map (tupleLoop s ⟨c, l⟩ (i + 1) ((Ty.deFields fs).map fun f : FieldSeed => (f.dflt, f.run)) [])).trans
          ⟨fun h => .inr ⟨nofun, h⟩, ?_⟩
        rintro (⟨h, _⟩ | ⟨_, h⟩)
        · cases h
        · exact h
    | cons w a =>
      have ih1 := Ty.complains c l b hc k t hp.1 w (ha w (List.mem_cons_self ..))
      have ih2 := Ty.complains_elems c l b hc k fs hp.2 a (fun w hw => ha w (List.mem_cons_of_mem _ hw)) s (i + 1) p
      have hm := Ty.means c l b hc t hp.1 w (ha w (List.mem_cons_self ..))
      rw [tupleLoop, Ty.ComplainsElems]
      refine (fails_bind (SeqDe.nextElement t.de ⟨c, l⟩ i w) (fun x =>
        match tupleLoop s ⟨c, l⟩ (i + 1) ((Ty.deFields fs).map fun f : FieldSeed => (f.dflt, f.run)) a with
        | .error e => .error e | .ok xs => .ok (x :: xs))).trans (or_congr ?_ ?_)
      · rw [fails_nextElement]
        exact exists_congr fun p' => and_congr_right fun _ => ih1 p'
      · rw [← ih2]
        constructor
        · rintro ⟨x, hx, h⟩
          exact ⟨⟨x, (hm x).1 (nextElement_ok.1 hx)⟩, (fails_map _).1 h⟩
        · rintro ⟨⟨x, hx⟩, h⟩
          exact ⟨x, nextElement_ok.2 ((hm x).2 hx), (fails_map _).2 h⟩
theorem Ty.complains_fields (c : Option Fig) (l b : Bool) (hc : c = none → l = false ∧ b = false) (k : Kind) (key : Str) :
    (fs : List (Str × Option Val × Ty)) → Ty.properFields b fs = true →
    ∀ w : Value, w.Fine b → ∀ p,
    (fieldFails ⟨c, l⟩ (Ty.deFields fs) key w p k ↔ Ty.ComplainsField l (cfgFile c) key fs w p k)
  | [], _, w, _, p => by
    rw [Ty.deFields, Ty.ComplainsField]
    refine ⟨?_, False.elim⟩
    rintro ⟨_, h, _⟩
    cases h
  | (n, o, t) :: fs, hp, w, hw, p => by
    rw [Ty.properFields, Bool.and_eq_true] at hp
    rw [Ty.deFields, Ty.ComplainsField, ← Ty.complains_fields c l b hc k key fs hp.2 w hw p,
      ← Ty.complains c l b hc k t hp.1 w hw p]
    unfold fieldFails
    rw [List.find?_cons]
    by_cases h : n = key
    · rw [decide_eq_true h]
      dsimp only
      constructor
      · rintro ⟨_, h1, h2⟩
        cases h1
        exact .inl ⟨h, h2⟩
      · rintro (⟨_, h2⟩ | ⟨h1, _⟩)
        · exact ⟨_, rfl, h2⟩
        · exact absurd h h1
    · rw [decide_eq_false h]
      dsimp only
      exact ⟨fun h' => .inr ⟨h, h'⟩, fun h' => h'.elim (fun h' => absurd h'.1 h) And.right⟩
theorem Ty.complains_same (c : Option Fig) (l b : Bool) (hc : c = none → l = false ∧ b = false) (k : Kind) :
    (fs : List (Str × Option Val × Ty)) → Ty.properFields b fs = true →
    ∀ w : Value, w.Fine b → ∀ e ∈ fs, ∀ p, (Fails (e.2.2.de ⟨c, l⟩ w) p k ↔ e.2.2.Complains l (cfgFile c) w p k)
  | [], _, _, _, _, he, _ => nomatch he
  | (n, o, t) :: fs, hp, w, hw, e, he, p => by
    rw [Ty.properFields, Bool.and_eq_true] at hp
    have h1 := Ty.complains c l b hc k t hp.1 w hw p
    have h2 := Ty.complains_same c l b hc k fs hp.2 w hw
    rcases List.mem_cons.1 he with rfl | he
    · exact h1
    · exact h2 e he p
theorem Ty.complains_variants (c : Option Fig) (l b : Bool) (hc : c = none → l = false ∧ b = false) (k : Kind) (n key : Str) :
    (vs : List (Str × VTy)) → Ty.properVariants b vs = true → ∀ v : Value, v.Fine b → ∀ p,
    (VariantsFail ⟨c, l⟩ n key vs v p k ↔ ∃ p', p = key :: p' ∧ Ty.ComplainsVariant l (cfgFile c) n key vs v p' k)
  | [], _, v, _, p => by
    simp only [Ty.ComplainsVariant, and_false, exists_false, iff_false]
    rintro ⟨_, h, _⟩
    cases h
  | (m, t) :: vs, hp, v, hv, p => by
    rw [Ty.properVariants, Bool.and_eq_true] at hp
    have ih1 := VTy.complains c l b hc k (n ++ str "::" ++ m) key t hp.1 v hv p
    have ih2 := Ty.complains_variants c l b hc k n key vs hp.2 v hv p
    simp only [Ty.ComplainsVariant]
    by_cases hm : key = m
    · subst hm
      have : VariantsFail ⟨c, l⟩ n key ((key, t) :: vs) v p k ↔
          Fails ((t.de (n ++ str "::" ++ key)).with ⟨c, l⟩ key v) p k := by
        unfold VariantsFail
        rw [List.lookup_cons, beq_self_eq_true]
        exact ⟨fun ⟨_, h, h'⟩ => by cases h; exact h', fun h => ⟨_, rfl, h⟩⟩
      rw [this, ih1]
      refine exists_congr fun p' => and_congr_right fun _ => ⟨fun h => .inl ⟨rfl, h⟩, ?_⟩
      rintro (⟨_, h⟩ | ⟨h, _⟩)
      · exact h
      · exact absurd rfl h
    · have : VariantsFail ⟨c, l⟩ n key ((m, t) :: vs) v p k ↔ VariantsFail ⟨c, l⟩ n key vs v p k := by
        unfold VariantsFail
        rw [List.lookup_cons, beq_eq_false_iff_ne.2 hm]
      rw [this, ih2]
      refine exists_congr fun p' => and_congr_right fun _ => ⟨fun h => .inr ⟨Ne.symm hm, h⟩, ?_⟩
      rintro (⟨h, _⟩ | ⟨_, h⟩)
      · exact absurd h.symm hm
      · exact h
theorem VTy.complains (c : Option Fig) (l b : Bool) (hc : c = none → l = false ∧ b = false) (k : Kind) (n key : Str) : (t : VTy) →
    t.proper b = true → ∀ v : Value, v.Fine b → ∀ p,
    (Fails ((t.de n).with ⟨c, l⟩ key v) p k ↔ ∃ p', p = key :: p' ∧ t.Complains l (cfgFile c) n v p' k)
  | .unit, _, v, _, p => by
    rw [VTy.de, VariantSeed.with, fails_nextValue]
    simp only [VTy.Complains]
    exact exists_congr fun p' => and_congr_right fun _ => unit_fails
  | .newtype t, hp, v, hv, p => by
    rw [VTy.proper] at hp
    rw [VTy.de, VariantSeed.with, fails_nextValue]
    simp only [VTy.Complains]
    exact exists_congr fun p' => and_congr_right fun _ => Ty.complains c l b hc k t hp v hv p'
  | .tuple ts, hp, v, hv, p => by
    rw [VTy.proper] at hp
    rw [VTy.de]
    rw [VariantSeed.with, fails_nextValue]
    simp only [VTy.Complains]
    refine exists_congr fun p' => and_congr_right fun _ => tuple_fails.trans (or_congr Iff.rfl ?_)
    exact exists_congr fun tag => exists_congr fun a => and_congr_right fun h =>
      Ty.complains_each c l b hc k ts hp a (h ▸ hv).array _ 0 p'
  | .struct deny fs, hp, v, hv, p => by
    rw [VTy.proper, Bool.and_eq_true, decide_eq_true_eq] at hp
    rw [VTy.de]
    rw [VariantSeed.with, fails_nextValue]
    simp only [VTy.Complains]
    exact exists_congr fun p' => and_congr_right fun _ => structAny_complains hc hp.2 hv hp.1
        (fun tag d h e he p => Ty.complains_fields c l b hc k e.1 fs hp.2 e.2 ((h ▸ hv).dict e he) p)
        (fun tag a h => Ty.complains_elems c l b hc k fs hp.2 a (h ▸ hv).array _ 0 p')
end

end Figment
