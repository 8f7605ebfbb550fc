import Verif.Spec.Complains
import Verif.Lemmas.Means
/-!
# Lemmas: extraction fails with what is wrong with the value
-/
namespace Figment

/-- The result is an error with the path and the kind. -/
def Fails {α : Type _} (r : R α) (p : List Str) (k : Kind) : Prop := ∃ e, r = .error e ∧ e.head.path = p ∧ e.head.kind = k

section
variable {α β : Type _} {r : R α} {p : List Str} {k : Kind}

@[simp] theorem fails_ok {x : α} : Fails (.ok x : R α) p k ↔ False := ⟨fun ⟨_, h, _⟩ => (nomatch h), False.elim⟩

theorem fails_error {e : Error} : Fails (.error e : R α) p k ↔ e.head.path = p ∧ e.head.kind = k :=
  ⟨fun ⟨_, h, h'⟩ => by cases h; exact h', fun h => ⟨e, rfl, h⟩⟩

theorem fails_ofKind {k' : Kind} : Fails (.error (Error.ofKind k') : R α) p k ↔ p = [] ∧ k = k' := by
  rw [fails_error]
  show [] = p ∧ k' = k ↔ _
  exact and_congr eq_comm eq_comm

@[simp] theorem fails_type {a : Actual} {s : Str} : Fails (invalidType a s : R α) p k ↔ p = [] ∧ k = .invalidType a s := fails_ofKind
@[simp] theorem fails_value {a : Actual} {s : Str} : Fails (invalidValue a s : R α) p k ↔ p = [] ∧ k = .invalidValue a s := fails_ofKind
@[simp] theorem fails_length {n : Nat} {s : Str} : Fails (invalidLength n s : R α) p k ↔ p = [] ∧ k = .invalidLength n s := fails_ofKind

theorem fails_err {de : De} {tag : Tag} : Fails (R.mapErr (de.err tag) r) p k ↔ Fails r p k := by
  cases r with
  | ok x => simp [R.mapErr]
  | error e => simp only [R.mapErr, fails_error, (De.err_head de tag e).1, (De.err_head de tag e).2.1]

theorem fails_mapDe {key : Str} {v : Value} : Fails (R.mapErr (MapDe.err key v) r) p k ↔ ∃ p', p = key :: p' ∧ Fails r p' k := by
  cases r with
  | ok x => simp [R.mapErr]
  | error e =>
    simp only [R.mapErr, fails_error, (MapDe.err_head key v e).1, (MapDe.err_head key v e).2.1]
    exact ⟨fun ⟨h, h'⟩ => ⟨_, h.symm, rfl, h'⟩, fun ⟨_, h, h', h''⟩ => ⟨by rw [h, h'], h''⟩⟩

theorem fails_prefixed {key : Str} : Fails (R.mapErr (Error.prefixed key) r) p k ↔ ∃ p', p = key :: p' ∧ Fails r p' k := by
  cases r with
  | ok x => simp [R.mapErr]
  | error e =>
    simp only [R.mapErr, fails_error, (prefixed_head key e).1, (prefixed_head key e).2.1]
    exact ⟨fun ⟨h, h'⟩ => ⟨_, h.symm, rfl, h'⟩, fun ⟨_, h, h', h''⟩ => ⟨by rw [h, h'], h''⟩⟩

theorem fails_bind {m : R β} (r : R α) (g : α → R β) (h1 : ∀ e, r = .error e → m = .error e := by intro _ h; first | (rw [h]; done) | (rw [h]; rfl))
    (h2 : ∀ x, r = .ok x → m = g x := by intro _ h; first | (rw [h]; done) | (rw [h]; rfl)) :
    Fails m p k ↔ Fails r p k ∨ ∃ x, r = .ok x ∧ Fails (g x) p k := by
  cases r with
  | ok x => rw [h2 x rfl]; simp
  | error e => rw [h1 e rfl]; simp [fails_error]

theorem fails_map {m : R β} (r : R α) (h1 : ∀ e, r = .error e → m = .error e := by intro _ h; first | (rw [h]; done) | (rw [h]; rfl))
    (h2 : ∀ x, r = .ok x → ∃ y, m = .ok y := by intro x h; exact ⟨_, by rw [h]⟩) : Fails m p k ↔ Fails r p k := by
  cases r with
  | ok x => obtain ⟨y, h⟩ := h2 x rfl; rw [h]; simp
  | error e => rw [h1 e rfl]; simp [fails_error]
end

theorem fails_nextValue {α : Type} {run : De → Value → R α} {de : De} {key : Str} {v : Value} {p : List Str} {k : Kind} :
    Fails (MapDe.nextValue run de key v) p k ↔ ∃ p', p = key :: p' ∧ Fails (run de v) p' k := fails_mapDe

theorem fails_nextElement {α : Type} {run : De → Value → R α} {de : De} {i : Nat} {v : Value} {p : List Str} {k : Kind} :
    Fails (SeqDe.nextElement run de i v) p k ↔ ∃ p', p = Dec.ofNat i :: p' ∧ Fails (run de v) p' k := fails_prefixed

theorem nextElement_ok {α : Type} {run : De → Value → R α} {de : De} {i : Nat} {v : Value} {x : α} :
    SeqDe.nextElement run de i v = .ok x ↔ run de v = .ok x := R.mapErr_eq_ok

theorem nextValue_ok {α : Type} {run : De → Value → R α} {de : De} {key : Str} {v : Value} {x : α} :
    MapDe.nextValue run de key v = .ok x ↔ run de v = .ok x := R.mapErr_eq_ok

theorem fails_any {α : Type} {V : Visitor α} {de : De} {v : Value} {p : List Str} {k : Kind} :
    Fails (de.deserializeAny V v) p k ↔ Fails (V.visit de v) p k := by rw [any_visit, fails_err]

/-! ## The first of a list -/

/-- An element of the list is bad, and those before it are good. -/
def First {α : Type} (bad : Nat → α → Prop) (good : α → Prop) (l : List α) : Prop :=
  ∃ (i : Nat) (x : α), l[i]? = some x ∧ bad i x ∧ ∀ j, j < i → ∀ y, l[j]? = some y → good y

theorem first_nil {α : Type} {bad : Nat → α → Prop} {good : α → Prop} : ¬ First bad good [] := by
  rintro ⟨i, x, h, _⟩
  simp at h

theorem first_cons {α : Type} {bad : Nat → α → Prop} {good : α → Prop} {x : α} {l : List α} :
    First bad good (x :: l) ↔ bad 0 x ∨ (good x ∧ First (fun i => bad (i + 1)) good l) := by
  constructor
  · rintro ⟨i, y, h, hb, hg⟩
    cases i with
    | zero =>
      simp only [List.getElem?_cons_zero, Option.some.injEq] at h
      exact .inl (h ▸ hb)
    | succ i =>
      refine .inr ⟨hg 0 (Nat.succ_pos i) x rfl, i, y, by simpa using h, hb, fun j hj z hz => ?_⟩
      exact hg (j + 1) (Nat.succ_lt_succ hj) z (by simpa using hz)
  · rintro (h | ⟨hx, i, y, h, hb, hg⟩)
    · exact ⟨0, x, rfl, h, fun j hj => absurd hj (Nat.not_lt_zero j)⟩
    · refine ⟨i + 1, y, by simpa using h, hb, fun j hj z hz => ?_⟩
      cases j with
      | zero =>
        simp only [List.getElem?_cons_zero, Option.some.injEq] at hz
        exact hz ▸ hx
      | succ j => exact hg j (Nat.lt_of_succ_lt_succ hj) z (by simpa using hz)

/-! ## Loops -/

theorem seqLoop_fails {run : Seed} {de : De} {C : Value → List Str → Kind → Prop} {G : Value → Prop} {p : List Str} {k : Kind} :
    ∀ (a : List Value) (j : Nat), (∀ w ∈ a, ∀ p, Fails (run de w) p k ↔ C w p k) → (∀ w ∈ a, (∃ y, run de w = .ok y) ↔ G w) →
    (Fails (seqLoop run de j a) p k ↔ First (fun i w => ∃ p', p = Dec.ofNat (j + i) :: p' ∧ C w p' k) G a)
  | [], j, _, _ => by rw [seqLoop]; simp [first_nil]
  | v :: a, j, h, hg => by
    rw [seqLoop, first_cons]
    refine (fails_bind (SeqDe.nextElement run de j v) (fun x => match seqLoop run de (j + 1) a with
      | .error e => .error e | .ok xs => .ok (x :: xs))).trans (or_congr ?_ ?_)
    · simp only [fails_nextElement, h v (List.mem_cons_self ..), Nat.add_zero]
    · have ih := seqLoop_fails (p := p) a (j + 1) (fun w hw => h w (List.mem_cons_of_mem _ hw))
        (fun w hw => hg w (List.mem_cons_of_mem _ hw))
      rw [show (fun i w => ∃ p', p = Dec.ofNat (j + (i + 1)) :: p' ∧ C w p' k) =
        fun i w => ∃ p', p = Dec.ofNat (j + 1 + i) :: p' ∧ C w p' k from by
          funext i w; rw [show j + (i + 1) = j + 1 + i by omega], ← ih, ← hg v (List.mem_cons_self ..)]
      constructor
      · rintro ⟨x, hx, hf⟩
        refine ⟨⟨x, nextElement_ok.1 hx⟩, ?_⟩
        exact (fails_map (seqLoop run de (j + 1) a)).1 hf
      · rintro ⟨⟨x, hx⟩, hf⟩
        exact ⟨x, nextElement_ok.2 hx, (fails_map (seqLoop run de (j + 1) a)).2 hf⟩

theorem mapLoop_fails {run : Seed} {de : De} {C : Value → List Str → Kind → Prop} {G : Value → Prop} {p : List Str} {k : Kind} :
    ∀ (d : List (Str × Value)), (∀ e ∈ d, ∀ p, Fails (run de e.2) p k ↔ C e.2 p k) →
    (∀ e ∈ d, (∃ y, run de e.2 = .ok y) ↔ G e.2) →
    (Fails (mapLoop run de d) p k ↔ First (fun _ e => ∃ p', p = e.1 :: p' ∧ C e.2 p' k) (fun e => G e.2) d)
  | [], _, _ => by rw [mapLoop]; simp [first_nil]
  | (key, v) :: a, h, hg => by
    rw [mapLoop, first_cons]
    refine (fails_bind (MapDe.nextValue run de key v) (fun x => match mapLoop run de a with
      | .error e => .error e | .ok xs => .ok ((key, x) :: xs))).trans (or_congr ?_ ?_)
    · simp only [fails_nextValue, h (key, v) (List.mem_cons_self ..)]
    · have ih := mapLoop_fails (p := p) a (fun w hw => h w (List.mem_cons_of_mem _ hw))
        (fun w hw => hg w (List.mem_cons_of_mem _ hw))
      rw [← ih, ← hg (key, v) (List.mem_cons_self ..)]
      constructor
      · rintro ⟨x, hx, hf⟩
        refine ⟨⟨x, nextValue_ok.1 hx⟩, ?_⟩
        exact (fails_map (mapLoop run de a)).1 hf
      · rintro ⟨⟨x, hx⟩, hf⟩
        exact ⟨x, nextValue_ok.2 hx, (fails_map (mapLoop run de a)).2 hf⟩

/-- The field of the name can be read from the value; if there is none, that is allowed. -/
def fieldGood (de : De) (deny : Bool) (fs : List FieldSeed) (key : Str) (w : Value) : Prop :=
  match fs.find? (fun f => f.name = key) with
  | some f => ∃ y, f.run de w = .ok y
  | none => deny = false

/-- The field of the name cannot be read from the value. -/
def fieldFails (de : De) (fs : List FieldSeed) (key : Str) (w : Value) (p : List Str) (k : Kind) : Prop :=
  ∃ f, fs.find? (fun f => f.name = key) = some f ∧ Fails (f.run de w) p k

theorem fieldLoop_fails {de : De} {deny : Bool} {fs : List FieldSeed} {p : List Str} {k : Kind} :
    ∀ (d : List (Str × Value)) (acc : List (Str × Val)),
    (Fails (fieldLoop de deny fs d acc) p k ↔ First (fun _ e =>
      (∃ p', p = e.1 :: p' ∧ fieldFails de fs e.1 e.2 p' k) ∨
      (deny = true ∧ e.1 ∉ fs.map (·.name) ∧ p = [e.1] ∧ k = .unknownField e.1 (fs.map (·.name))))
      (fun e => fieldGood de deny fs e.1 e.2) d)
  | [], acc => by rw [fieldLoop]; simp [first_nil]
  | (key, v) :: r, acc => by
    rw [fieldLoop, first_cons]
    have ih := fun acc => fieldLoop_fails (de := de) (deny := deny) (fs := fs) (p := p) (k := k) r acc
    cases hf : fs.find? (fun f => f.name = key) with
    | some f =>
      have hn : ¬ key ∉ fs.map (·.name) := fun h => by rw [find_none_iff.2 h] at hf; cases hf
      simp only [hn, false_and, and_false, or_false]
      refine (fails_bind (MapDe.nextValue f.run de key v) (fun x => fieldLoop de deny fs r ((key, x) :: acc))).trans
        (or_congr ?_ ?_)
      · rw [fails_nextValue]
        simp only [fieldFails, hf, Option.some.injEq, exists_eq_left']
      · simp only [fieldGood, hf]
        constructor
        · rintro ⟨x, hx, h⟩
          exact ⟨⟨x, nextValue_ok.1 hx⟩, (ih _).1 h⟩
        · rintro ⟨⟨x, hx⟩, h⟩
          exact ⟨x, nextValue_ok.2 hx, (ih _).2 h⟩
    | none =>
      have hn := find_none_iff.1 hf
      dsimp only
      simp only [fieldFails, fieldGood, hf]
      cases deny with
      | false =>
        rw [if_neg (by simp), ih acc]
        simp [fieldFails, fieldGood]
      | true =>
        rw [if_pos rfl, fails_error, (MapDe.err_head _ _ _).1, (MapDe.err_head _ _ _).2.1]
        show [key] = p ∧ Kind.unknownField key (fs.map (·.name)) = k ↔ _
        simp only [hn, not_false_eq_true, true_and, reduceCtorEq, false_and, exists_false, and_false, false_or,
          Bool.true_eq_false, or_false]
        exact and_congr eq_comm eq_comm

theorem fieldLoop_good {de : De} {deny : Bool} {fs : List FieldSeed} :
    ∀ (d : List (Str × Value)) (acc : List (Str × Val)),
    ((∃ acc', fieldLoop de deny fs d acc = .ok acc') ↔ ∀ e ∈ d, fieldGood de deny fs e.1 e.2)
  | [], acc => by rw [fieldLoop]; simp
  | (key, v) :: r, acc => by
    rw [fieldLoop]
    have ih := fun acc => fieldLoop_good (de := de) (deny := deny) (fs := fs) r acc
    rw [List.forall_mem_cons]
    show _ ↔ fieldGood de deny fs key v ∧ _
    cases hf : fs.find? (fun f => f.name = key) with
    | some f =>
      simp only [fieldGood, hf]
      simp only [fieldGood] at ih
      cases hx : MapDe.nextValue f.run de key v with
      | error e =>
        constructor
        · rintro ⟨_, h⟩; cases h
        · rintro ⟨⟨y, hy⟩, _⟩; rw [nextValue_ok.2 hy] at hx; cases hx
      | ok x =>
        dsimp only
        rw [ih]
        exact ⟨fun h => ⟨⟨x, nextValue_ok.1 hx⟩, h⟩, And.right⟩
    | none =>
      simp only [fieldGood, hf]
      simp only [fieldGood] at ih
      cases deny with
      | false => rw [if_neg (by simp), ih]; simp
      | true => rw [if_pos rfl]; simp

theorem firstLacking_nil {d : Dict} {name : Str} : ¬ FirstLacking [] d name := by
  rintro ⟨i, f, h, _⟩
  simp at h

theorem firstLacking_cons {f : Str × Option Val × Ty} {fs : List (Str × Option Val × Ty)} {d : Dict} {name : Str} :
    FirstLacking (f :: fs) d name ↔ (f.1 = name ∧ Map.get name d = none ∧ ¬ mayLack f) ∨
      ((Map.get f.1 d ≠ none ∨ mayLack f) ∧ FirstLacking fs d name) := by
  have h : ∀ fs, FirstLacking fs d name ↔ First (fun _ f => f.1 = name ∧ Map.get name d = none ∧ ¬ mayLack f)
      (fun g => Map.get g.1 d ≠ none ∨ mayLack g) fs := by
    intro fs
    unfold FirstLacking First
    simp only [and_assoc]
  rw [h, h, first_cons]

variable [FloatOps]

theorem fieldFinish_fails {acc : List (Str × Val)} {d : Dict} {p : List Str} {k : Kind} :
    ∀ (fs : List (Str × Option Val × Ty)), (∀ f ∈ fs, acc.lookup f.1 = none ↔ Map.get f.1 d = none) →
    (Fails (fieldFinish acc (Ty.deFields fs)) p k ↔ p = [] ∧ ∃ name, FirstLacking fs d name ∧ k = .missingField name)
  | [], _ => by
    rw [Ty.deFields, fieldFinish]
    simp [firstLacking_nil]
  | (name, dflt, t) :: fs, h => by
    rw [Ty.deFields, fieldFinish]
    simp only [firstLacking_cons]
    have ih := fieldFinish_fails (p := p) (k := k) fs fun f hf => h f (List.mem_cons_of_mem _ hf)
    have h0 : acc.lookup name = none ↔ Map.get name d = none := h (name, dflt, t) (List.mem_cons_self ..)
    have key : Fails ((⟨name, dflt, t.isOption, t.de⟩ : FieldSeed).get acc) p k ↔
        p = [] ∧ Map.get name d = none ∧ ¬ mayLack (name, dflt, t) ∧ k = .missingField name := by
      unfold FieldSeed.get
      dsimp only
      cases hl : acc.lookup name with
      | some x =>
        have : ¬ Map.get name d = none := fun h1 => by rw [h0.2 h1] at hl; cases hl
        simp [this]
      | none =>
        have := h0.1 hl
        unfold FieldSeed.missing mayLack
        dsimp only
        cases dflt with
        | some x => simp
        | none =>
          cases t.isOption with
          | true => simp
          | false => simp [fails_ofKind, this]
    have key2 : (∃ x, (⟨name, dflt, t.isOption, t.de⟩ : FieldSeed).get acc = .ok x) ↔
        Map.get name d ≠ none ∨ mayLack (name, dflt, t) := by
      unfold FieldSeed.get
      dsimp only
      cases hl : acc.lookup name with
      | some x =>
        have : ¬ Map.get name d = none := fun h1 => by rw [h0.2 h1] at hl; cases hl
        simp [this]
      | none =>
        have := h0.1 hl
        unfold FieldSeed.missing mayLack
        dsimp only
        cases dflt with
        | some x => simp
        | none => cases t.isOption <;> simp [this]
    refine (fails_bind ((⟨name, dflt, t.isOption, t.de⟩ : FieldSeed).get acc)
      (fun x => match fieldFinish acc (Ty.deFields fs) with
        | .error e => .error e | .ok xs => .ok (x :: xs))).trans ?_
    rw [key]
    constructor
    · rintro (⟨h1, h2, h3, h4⟩ | ⟨x, hx, hf⟩)
      · exact ⟨h1, name, .inl ⟨rfl, h2, h3⟩, h4⟩
      · obtain ⟨h1, n, h2, h3⟩ := ih.1 ((fails_map (fieldFinish acc (Ty.deFields fs))).1 hf)
        exact ⟨h1, n, .inr ⟨key2.1 ⟨x, hx⟩, h2⟩, h3⟩
    · rintro ⟨h1, n, ⟨rfl, h2, h3⟩ | ⟨h2, h3⟩, h4⟩
      · exact .inl ⟨h1, h2, h3, h4⟩
      · obtain ⟨x, hx⟩ := key2.2 h2
        exact .inr ⟨x, hx, (fails_map (fieldFinish acc (Ty.deFields fs))).2 (ih.2 ⟨h1, n, h3, h4⟩)⟩

omit [FloatOps] in
theorem fieldLoop_has {de : De} {deny : Bool} {fs : List FieldSeed} (hn : (fs.map (·.name)).Nodup)
    {d : Dict} (hs : Map.Sorted d) {acc : List (Str × Val)} (h : fieldLoop de deny fs d [] = .ok acc) {f : FieldSeed} (hf : f ∈ fs) :
    acc.lookup f.name = none ↔ Map.get f.name d = none := by
  obtain ⟨h1, _, h3⟩ := fieldLoop_ok d [] acc hs h
  cases hg : Map.get f.name d with
  | none =>
    have : f.name ∉ d.map (·.1) := by
      intro hm
      obtain ⟨e, he, h4⟩ := List.mem_map.1 hm
      have := Map.get_isSome_of_mem (k := e.1) (v := e.2) (m := d) he
      rw [h4, hg] at this
      cases this
    rw [h3 _ this]
    simp
  | some w =>
    obtain ⟨key, hm, hc⟩ := Map.mem_of_get hg
    have hk : f.name = key := Std.LawfulEqOrd.eq_of_compare hc
    subst hk
    obtain ⟨x, _, hl⟩ := h1 _ hm f (find_name hn hf)
    dsimp only at hl
    rw [hl]
    simp

theorem mem_deFields {fs : List (Str × Option Val × Ty)} {f : Str × Option Val × Ty} (h : f ∈ fs) :
    (⟨f.1, f.2.1, f.2.2.isOption, f.2.2.de⟩ : FieldSeed) ∈ Ty.deFields fs := by
  induction fs with
  | nil => cases h
  | cons g fs ih =>
    obtain ⟨n, o, t⟩ := g
    rw [Ty.deFields]
    rcases List.mem_cons.1 h with rfl | h
    · exact List.mem_cons_self ..
    · exact List.mem_cons_of_mem _ (ih h)

/-- A dictionary read as a struct. -/
theorem structMap_fails {de : De} {a b : Str} {deny : Bool} {fs : List (Str × Option Val × Ty)} {d : Dict} (hs : Map.Sorted d)
    (hn : (fs.map (·.1)).Nodup) {fault : Str → Value → List Str → Kind → Prop} {good : Str → Value → Prop}
    {p : List Str} {k : Kind}
    (h1 : ∀ e ∈ d, ∀ p, fieldFails de (Ty.deFields fs) e.1 e.2 p k ↔ fault e.1 e.2 p k)
    (h2 : ∀ e ∈ d, fieldGood de deny (Ty.deFields fs) e.1 e.2 ↔ good e.1 e.2) :
    Fails ((structVisitor a b deny (Ty.deFields fs)).visitMap de d) p k ↔ DictFault deny fs fault good d p k := by
  unfold DictFault
  refine (fails_bind (fieldLoop de deny (Ty.deFields fs) d []) (fun acc => match fieldFinish acc (Ty.deFields fs) with
    | .ok l => .ok (.struct l) | .error e => .error e) (by intro _ h; simp only [structVisitor]; rw [h])
    (by intro _ h; simp only [structVisitor]; rw [h]; rfl)).trans (or_congr ?_ ?_)
  · rw [fieldLoop_fails, deFields_names]
    constructor
    · rintro ⟨i, e, he, hb, hg⟩
      have hm := List.mem_of_getElem? he
      refine ⟨i, e.1, e.2, he, ?_, fun j hj e' he' => (h2 e' (List.mem_of_getElem? he')).1 (hg j hj e' he')⟩
      rcases hb with ⟨p', hp, hb⟩ | hb
      · exact .inl ⟨p', hp, (h1 e hm p').1 hb⟩
      · exact .inr hb
    · rintro ⟨i, key, w, he, hb, hg⟩
      have hm := List.mem_of_getElem? he
      refine ⟨i, (key, w), he, ?_, fun j hj e' he' => (h2 e' (List.mem_of_getElem? he')).2 (hg j hj e' he')⟩
      rcases hb with ⟨p', hp, hb⟩ | hb
      · exact .inl ⟨p', hp, (h1 (key, w) hm p').2 hb⟩
      · exact .inr hb
  · have hgood : (∃ acc, fieldLoop de deny (Ty.deFields fs) d [] = .ok acc) ↔ ∀ e ∈ d, good e.1 e.2 :=
      (fieldLoop_good d []).trans ⟨fun h e he => (h2 e he).1 (h e he), fun h e he => (h2 e he).2 (h e he)⟩
    have hfin : ∀ acc, fieldLoop de deny (Ty.deFields fs) d [] = .ok acc →
        (Fails (fieldFinish acc (Ty.deFields fs)) p k ↔
          p = [] ∧ ∃ name, FirstLacking fs d name ∧ k = .missingField name) := by
      intro acc hacc
      refine fieldFinish_fails fs fun f hf => ?_
      exact fieldLoop_has (by rw [deFields_names]; exact hn) hs hacc (mem_deFields hf)
    rw [← hgood]
    constructor
    · rintro ⟨acc, hacc, hf⟩
      exact ⟨⟨acc, hacc⟩, (hfin acc hacc).1 ((fails_map (fieldFinish acc (Ty.deFields fs))).1 hf)⟩
    · rintro ⟨⟨acc, hacc⟩, hf⟩
      exact ⟨acc, hacc, (fails_map (fieldFinish acc (Ty.deFields fs))).2 ((hfin acc hacc).2 hf)⟩

/-! ## Visitors -/

omit [FloatOps] in
theorem visit_num {α : Type} {V : Visitor α} {de : De} {t : Tag} {n : Num} :
    V.visit de (.num t n) = V.visitNum n.visited := Num.deserializeAny_visited V n

theorem num_fails {V : Visitor Val} {s : Str} (hbool : ∀ b, V.visitBool b = invalidType (.bool b) s)
    (hstr : ∀ x, V.visitStr x = invalidType (.str x) s) (hchar : ∀ x, V.visitChar x = invalidType (.str [x]) s)
    (hnone : V.visitNone = invalidType .option s) (hunit : V.visitUnit = invalidType .unit s)
    (hseq : ∀ de a, V.visitSeq de a = invalidType .seq s) (hmap : ∀ de a, V.visitMap de a = invalidType .map s)
    {c : Option Fig} {l : Bool} (hc : c = none → l = false) {v : Value} {p : List Str} {k : Kind} :
    Fails (De.deserializeNum ⟨c, l⟩ V v) p k ↔ (∃ n, v.IsNum l n ∧ Fails (V.visitNum n.visited) p k) ∨
      ((∀ n, ¬ v.IsNum l n) ∧ p = [] ∧ k = .invalidType v.shown s) := by
  have strict : ∀ (de : De) (v : Value), Fails (de.deserializeAny V v) p k ↔
      (∃ t n, v = .num t n ∧ Fails (V.visitNum n.visited) p k) ∨
        ((∀ t n, v ≠ .num t n) ∧ p = [] ∧ k = .invalidType v.shown s) := by
    intro de v
    rw [fails_any]
    cases v with
    | num t n =>
      rw [visit_num]
      refine ⟨fun h => .inl ⟨t, n, rfl, h⟩, ?_⟩
      rintro (⟨_, _, h, h'⟩ | ⟨h, _⟩)
      · cases h; exact h'
      · exact absurd rfl (h t n)
    | empty t e => cases e <;> simp [Visitor.visit, Empty.deserializeAny, hnone, hunit, Value.shown]
    | bool t b => simp [Visitor.visit, hbool, Value.shown]
    | string t x => simp [Visitor.visit, hstr, Value.shown]
    | char t x => simp [Visitor.visit, hchar, Value.shown]
    | dict t d => simp [Visitor.visit, hmap, Value.shown]
    | array t d => simp [Visitor.visit, hseq, Value.shown]
  have strict' : ((∃ t n, v = .num t n ∧ Fails (V.visitNum n.visited) p k) ∨
        ((∀ t n, v ≠ .num t n) ∧ p = [] ∧ k = .invalidType v.shown s)) ↔
      ((∃ n, v.IsNum false n ∧ Fails (V.visitNum n.visited) p k) ∨
      ((∀ n, ¬ v.IsNum false n) ∧ p = [] ∧ k = .invalidType v.shown s)) := by
    have h0 : ∀ n, v.IsNum false n ↔ ∃ t, v = .num t n := by intro n; simp [Value.IsNum]
    simp only [h0]
    refine or_congr ⟨fun ⟨t, n, h, h'⟩ => ⟨n, ⟨t, h⟩, h'⟩, fun ⟨n, ⟨t, h⟩, h'⟩ => ⟨t, n, h, h'⟩⟩ (and_congr ?_ Iff.rfl)
    exact ⟨fun h n ⟨t, h'⟩ => h t n h', fun h t n h' => h n ⟨t, h'⟩⟩
  unfold De.deserializeNum
  cases c with
  | none =>
    cases hc rfl
    exact (strict _ v).trans strict'
  | some f =>
  dsimp only
  rw [fails_err, strict]
  unfold De.interpretAsNum
  dsimp only
  cases l with
  | false =>
    rw [if_neg (by simp)]
    exact strict'
  | true =>
    rw [if_pos rfl]
    have hnum : ∀ n, v.toNumLossy = some n ↔ v.IsNum true n := by
      intro n
      rw [C44_num, Value.IsNum]
      simp
    simp only [← hnum]
    cases hv : v.toNumLossy with
    | some n =>
      constructor
      · rintro (⟨_, _, h, h'⟩ | ⟨h, _⟩)
        · cases h; exact .inl ⟨_, rfl, h'⟩
        · exact absurd rfl (h _ _)
      · rintro (⟨_, h, h'⟩ | ⟨h, _⟩)
        · cases h; exact .inl ⟨_, _, rfl, h'⟩
        · exact absurd rfl (h n)
    | none =>
      have : ∀ t n, v ≠ .num t n := by rintro t n rfl; cases hv
      simp [this]

theorem toldNum_iff {l : Bool} {v : Value} {n : Num} (h : v.IsNum l n) {a : Actual} :
    v.ToldNum l a ↔ a = (Value.num v.tag n).shown := by
  constructor
  · rintro (⟨m, hm, ha⟩ | ⟨hm, _⟩)
    · have : m = n := by
        rcases h with ⟨t, rfl⟩ | ⟨_, t, s, rfl, h⟩
        · rcases hm with ⟨_, h⟩ | ⟨_, _, _, h, _⟩
          · cases h; rfl
          · cases h
        · rcases hm with ⟨_, h⟩ | ⟨_, _, _, h1, h2⟩
          · cases h
          · cases h1; rw [h] at h2; cases h2; rfl
      rw [ha, this]
    · exact absurd h (hm n)
  · intro ha
    exact .inl ⟨n, h, ha⟩

theorem isNum_unique {l : Bool} {v : Value} {n m : Num} (h : v.IsNum l n) (hm : v.IsNum l m) : m = n := by
  rcases h with ⟨t, rfl⟩ | ⟨_, t, s, rfl, h⟩
  · rcases hm with ⟨_, h⟩ | ⟨_, _, _, h, _⟩
    · cases h; rfl
    · cases h
  · rcases hm with ⟨_, h⟩ | ⟨_, _, _, h1, h2⟩
    · cases h
    · cases h1; rw [h] at h2; cases h2; rfl

theorem toldNum_not {l : Bool} {v : Value} (h : ∀ n, ¬ v.IsNum l n) {a : Actual} : v.ToldNum l a ↔ a = v.shown := by
  constructor
  · rintro (⟨m, hm, _⟩ | ⟨_, ha⟩)
    · exact absurd hm (h m)
    · exact ha
  · intro ha
    exact .inr ⟨h, ha⟩

theorem int_fails {t : IntTy} {c : Option Fig} {l : Bool} (hc : c = none → l = false) {v : Value} {p : List Str} {k : Kind} :
    Fails (De.deserializeNum ⟨c, l⟩ (intVisitor t) v) p k ↔ p = [] ∧ ∃ a, v.ToldNum l a ∧
      ((∃ n i, v.IsNum l n ∧ n.IsInt i ∧ (i < t.min ∨ t.max < i) ∧ k = .invalidValue a t.name) ∨
        ((∀ n i, v.IsNum l n → ¬ n.IsInt i) ∧ k = .invalidType a t.name)) := by
  rw [num_fails (s := t.name) (fun _ => rfl) (fun _ => rfl) (fun _ => rfl) rfl rfl (fun _ _ => rfl) (fun _ _ => rfl) hc]
  by_cases h : ∃ n, v.IsNum l n
  · obtain ⟨n, hn⟩ := h
    have hu : ∀ m, v.IsNum l m ↔ m = n := fun m => ⟨isNum_unique hn, fun h => h ▸ hn⟩
    simp only [toldNum_iff hn, hu, exists_eq_left]
    have hall : (∀ m i, m = n → ¬ m.IsInt i) ↔ ∀ i, ¬ n.IsInt i := ⟨fun h i => h n i rfl, fun h m i hm => hm ▸ h i⟩
    have key : Fails ((intVisitor t).visitNum n.visited) p k ↔ p = [] ∧
        ((∃ i, n.IsInt i ∧ (i < t.min ∨ t.max < i) ∧ k = .invalidValue (Value.num v.tag n).shown t.name) ∨
        ((∀ i, ¬ n.IsInt i) ∧ k = .invalidType (Value.num v.tag n).shown t.name)) := by
      show Fails (match n.visited.small? with
        | some i => if t.has i then Except.ok (Val.int i) else invalidValue n.visited.toActual t.name
        | none => invalidType n.visited.unexpected t.name) p k ↔ _
      cases hs : n.visited.small? with
      | none =>
        have : ∀ i, ¬ n.IsInt i := fun i hi => by rw [Num.small_visited.2 hi] at hs; cases hs
        simp [this, Num.visited_shown v.tag n]
      | some i =>
        have hi := Num.small_visited.1 hs
        have hu : ∀ j, n.IsInt j ↔ j = i := fun j =>
          ⟨fun hj => by rw [Num.small_visited.2 hj] at hs; exact Option.some.inj hs, fun h => h ▸ hi⟩
        simp only [hu, exists_eq_left]
        by_cases hh : t.has i = true
        · rw [if_pos hh]
          simp only [IntTy.has, Bool.and_eq_true, decide_eq_true_eq] at hh
          have : ¬ (i < t.min ∨ t.max < i) := by omega
          simp [this]
        · rw [if_neg hh]
          simp only [IntTy.has, Bool.and_eq_true, decide_eq_true_eq] at hh
          have : i < t.min ∨ t.max < i := by omega
          simp [this, Num.small_shown v.tag n hs]
    rw [key]
    simp [hall]
  · have hn : ∀ n, ¬ v.IsNum l n := fun n hn => h ⟨n, hn⟩
    simp [toldNum_not hn, hn]

/-- What is common to `f32` and `f64`. -/
theorem float_fails {V : Visitor Val} {s : Str} {c : Option Fig} {l : Bool} {v : Value} {p : List Str} {k : Kind}
    (h : Fails (De.deserializeNum ⟨c, l⟩ V v) p k ↔ (∃ n, v.IsNum l n ∧ Fails (V.visitNum n.visited) p k) ∨
      ((∀ n, ¬ v.IsNum l n) ∧ p = [] ∧ k = .invalidType v.shown s))
    (hV : ∀ n : Num, Fails (V.visitNum n.visited) p k ↔ n.width = some 128 ∧ p = [] ∧ k = .invalidType n.visited.unexpected s) :
    Fails (De.deserializeNum ⟨c, l⟩ V v) p k ↔ p = [] ∧ ∃ a, v.ToldNum l a ∧ (∀ n, v.IsNum l n → n.width = some 128) ∧
      k = .invalidType a s := by
  rw [h]
  by_cases h : ∃ n, v.IsNum l n
  · obtain ⟨n, hn⟩ := h
    have hu : ∀ m, v.IsNum l m ↔ m = n := fun m => ⟨isNum_unique hn, fun h => h ▸ hn⟩
    simp only [toldNum_iff hn, hu, exists_eq_left, forall_eq, hV, Num.visited_shown v.tag n]
    constructor
    · rintro (⟨h1, h2, h3⟩ | ⟨h1, _⟩)
      · exact ⟨h2, h1, h3⟩
      · exact absurd h1 (by simp)
    · rintro ⟨h1, h2, h3⟩
      exact .inl ⟨h2, h1, h3⟩
  · have hn : ∀ n, ¬ v.IsNum l n := fun n hn => h ⟨n, hn⟩
    simp [toldNum_not hn, hn]

theorem f32_fails {n : Num} {p : List Str} {k : Kind} : Fails (f32Visitor.visitNum n.visited) p k ↔
    n.width = some 128 ∧ p = [] ∧ k = .invalidType n.visited.unexpected (str "f32") := by
  cases n with
  | usize b =>
    simp only [Num.visited, Num.width, Num.tryUsize]
    split
    · simp [f32Visitor, Num.small?]
    split
    · simp [f32Visitor, Num.small?]
    split <;> simp [f32Visitor, Num.small?]
  | isize b =>
    simp only [Num.visited, Num.width, Num.tryIsize]
    split
    · simp [f32Visitor, Num.small?]
    split
    · simp [f32Visitor, Num.small?]
    split <;> simp [f32Visitor, Num.small?]
  | _ => simp [Num.visited, f32Visitor, Num.small?, Num.width]

theorem f64_fails {n : Num} {p : List Str} {k : Kind} : Fails (f64Visitor.visitNum n.visited) p k ↔
    n.width = some 128 ∧ p = [] ∧ k = .invalidType n.visited.unexpected (str "f64") := by
  cases n with
  | usize b =>
    simp only [Num.visited, Num.width, Num.tryUsize]
    split
    · simp [f64Visitor, Num.small?]
    split
    · simp [f64Visitor, Num.small?]
    split <;> simp [f64Visitor, Num.small?]
  | isize b =>
    simp only [Num.visited, Num.width, Num.tryIsize]
    split
    · simp [f64Visitor, Num.small?]
    split
    · simp [f64Visitor, Num.small?]
    split <;> simp [f64Visitor, Num.small?]
  | _ => simp [Num.visited, f64Visitor, Num.small?, Num.width]

section
omit [FloatOps]
variable {r : R Val} {p : List Str} {k : Kind} {a : Actual} {s : Str} {G X : Prop}

theorem mis (hr : r = invalidType a s) (hg : G) : Fails r p k ↔ p = [] ∧ G ∧ k = .invalidType a s := by
  rw [hr, fails_type]
  exact ⟨fun h => ⟨h.1, hg, h.2⟩, fun h => ⟨h.1, h.2.2⟩⟩

theorem fine {x : Val} (hr : r = .ok x) (hg : ¬ G) : Fails r p k ↔ p = [] ∧ G ∧ k = .invalidType a s := by
  rw [hr, fails_ok]
  exact ⟨False.elim, fun h => hg h.2.1⟩

theorem mis' (hr : r = invalidType a s) (hg : G) (hx : ¬ X) : Fails r p k ↔ (G ∧ p = [] ∧ k = .invalidType a s) ∨ X := by
  rw [hr, fails_type]
  exact ⟨fun h => .inl ⟨hg, h⟩, fun h => h.elim And.right fun h => absurd h hx⟩

theorem one' (hx : Fails r p k ↔ X) (hg : ¬ G) : Fails r p k ↔ (G ∧ p = [] ∧ k = .invalidType a s) ∨ X := by
  rw [hx]
  exact ⟨.inr, fun h => h.elim (fun h => absurd h.1 hg) id⟩
end

omit [FloatOps] in
theorem bool_fails {c : Option Fig} {l : Bool} (hc : c = none → l = false) {v : Value} {p : List Str} {k : Kind} :
    Fails (De.deserializeBool ⟨c, l⟩ boolVisitor v) p k ↔ p = [] ∧ (∀ b, ¬ v.IsBool l b) ∧ k.IsMismatch v "a boolean" := by
  have strict : ∀ (de : De) (v : Value), Fails (de.deserializeAny boolVisitor v) p k ↔
      p = [] ∧ (∀ t b, v ≠ .bool t b) ∧ k.IsMismatch v "a boolean" := by
    intro de v
    rw [fails_any]
    cases v with
    | num t n => rw [visit_num]; exact mis (congrArg (invalidType · _) (Num.visited_shown t n)) nofun
    | empty t e => cases e <;> exact mis rfl nofun
    | bool t b => exact fine rfl fun h => h t b rfl
    | _ => exact mis rfl nofun
  have strict' : (∀ t b, v ≠ .bool t b) ↔ ∀ b, ¬ v.IsBool false b := by
    simp only [Value.IsBool, Bool.false_eq_true, false_and, or_false, not_exists]
    exact ⟨fun h b t => h t b, fun h t b => h b t⟩
  unfold De.deserializeBool
  cases c with
  | none =>
    cases hc rfl
    rw [← strict']
    exact strict _ v
  | some f =>
  dsimp only
  rw [fails_err, strict]
  unfold De.interpretAsBool
  dsimp only
  cases l with
  | false =>
    rw [if_neg (by simp), strict']
  | true =>
    rw [if_pos rfl]
    have hb : ∀ n, v.toBoolLossy = some n ↔ v.IsBool true n := by
      intro n
      rw [C44_bool, Value.IsBool]
      simp
    simp only [← hb]
    cases hv : v.toBoolLossy with
    | some n =>
      constructor
      · rintro ⟨_, h, _⟩; exact absurd rfl (h _ _)
      · rintro ⟨_, h, _⟩; exact absurd rfl (h n)
    | none =>
      have : ∀ t n, v ≠ .bool t n := by rintro t n rfl; cases hv
      exact and_congr_right fun _ => and_congr_left fun _ => ⟨fun _ _ => nofun, fun _ => this⟩

omit [FloatOps] in
theorem char_fails {de : De} {v : Value} {p : List Str} {k : Kind} : Fails (de.deserializeAny charVisitor v) p k ↔ p = [] ∧
    ((∃ tag s, v = .string tag s ∧ s.length ≠ 1 ∧ k = .invalidValue (.str s) (str "a character")) ∨
      (v.text? = none ∧ k.IsMismatch v "a character")) := by
  have other : ∀ {r : R Val} {v : Value}, r = invalidType v.shown (str "a character") → v.text? = none →
      (∀ tag s, v ≠ .string tag s) → (Fails r p k ↔ p = [] ∧
    ((∃ tag s, v = .string tag s ∧ s.length ≠ 1 ∧ k = .invalidValue (.str s) (str "a character")) ∨
      (v.text? = none ∧ k.IsMismatch v "a character"))) := by
    intro r v h h1 h2
    rw [h, fails_type]
    refine and_congr_right fun _ => ⟨fun h => .inr ⟨h1, h⟩, ?_⟩
    rintro (⟨tag, s, h, _⟩ | ⟨_, h⟩)
    · exact absurd h (h2 tag s)
    · exact h
  rw [fails_any]
  cases v with
  | string t s =>
    have good : ∀ c, s = [c] → (Fails (charVisitor.visit de (.string t s)) p k ↔ p = [] ∧
        ((∃ tag s', Value.string t s = .string tag s' ∧ s'.length ≠ 1 ∧ k = .invalidValue (.str s') (str "a character")) ∨
      ((Value.string t s).text? = none ∧ k.IsMismatch (.string t s) "a character"))) := by
      rintro c rfl
      constructor
      · intro h; exact absurd h (fun h => fails_ok.1 h)
      · rintro ⟨_, ⟨_, _, h, h', _⟩ | ⟨h, _⟩⟩
        · cases h; exact absurd rfl h'
        · cases h
    have bad : s.length ≠ 1 → charVisitor.visit de (.string t s) = invalidValue (.str s) (str "a character") →
        (Fails (charVisitor.visit de (.string t s)) p k ↔ p = [] ∧
        ((∃ tag s', Value.string t s = .string tag s' ∧ s'.length ≠ 1 ∧ k = .invalidValue (.str s') (str "a character")) ∨
      ((Value.string t s).text? = none ∧ k.IsMismatch (.string t s) "a character"))) := by
      intro h1 h2
      rw [h2, fails_value]
      refine and_congr_right fun _ => ⟨fun h => .inl ⟨t, s, rfl, h1, h⟩, ?_⟩
      rintro (⟨_, _, h, _, h'⟩ | ⟨h, _⟩)
      · cases h; exact h'
      · cases h
    match s, good, bad with
    | [], _, bad => exact bad (by decide) rfl
    | [c], good, _ => exact good c rfl
    | _ :: _ :: _, _, bad => exact bad (by simp) rfl
  | char t c =>
    constructor
    · intro h; exact absurd h (fun h => fails_ok.1 h)
    · rintro ⟨_, ⟨_, _, h, _⟩ | ⟨h, _⟩⟩ <;> cases h
  | num t n => rw [visit_num]; exact other (congrArg (invalidType · _) (Num.visited_shown t n)) rfl nofun
  | empty t e => cases e <;> exact other rfl rfl nofun
  | _ => exact other rfl rfl nofun

omit [FloatOps] in
theorem string_fails {de : De} {v : Value} {p : List Str} {k : Kind} : Fails (de.deserializeAny stringVisitor v) p k ↔
    p = [] ∧ v.text? = none ∧ k.IsMismatch v "a string" := by
  rw [fails_any]
  cases v with
  | num t n => rw [visit_num]; exact mis (congrArg (invalidType · _) (Num.visited_shown t n)) rfl
  | empty t e => cases e <;> exact mis rfl rfl
  | string t s => exact fine rfl nofun
  | char t s => exact fine rfl nofun
  | _ => exact mis rfl rfl

omit [FloatOps] in
theorem path_fails {de : De} {v : Value} {p : List Str} {k : Kind} : Fails (de.deserializeAny pathVisitor v) p k ↔
    p = [] ∧ v.text? = none ∧ k.IsMismatch v "path string" := by
  rw [fails_any]
  cases v with
  | num t n => rw [visit_num]; exact mis (congrArg (invalidType · _) (Num.visited_shown t n)) rfl
  | empty t e => cases e <;> exact mis rfl rfl
  | string t s => exact fine rfl nofun
  | char t s => exact fine rfl nofun
  | _ => exact mis rfl rfl

omit [FloatOps] in
theorem unit_fails {s : Str} {de : De} {v : Value} {p : List Str} {k : Kind} : Fails (de.deserializeAny (unitVisitor s) v) p k ↔
    p = [] ∧ (∀ tag, v ≠ .empty tag .unit) ∧ k = .invalidType v.shown s := by
  rw [fails_any]
  cases v with
  | num t n => rw [visit_num]; exact mis (congrArg (invalidType · _) (Num.visited_shown t n)) nofun
  | empty t e =>
    cases e with
    | none => exact mis rfl nofun
    | unit => exact fine rfl fun h => h t rfl
  | _ => exact mis rfl nofun

omit [FloatOps] in
theorem option_fails {run : Seed} {c : Option Fig} {l : Bool} {v : Value} {p : List Str} {k : Kind} :
    Fails (De.deserializeOption ⟨c, l⟩ (optionVisitor run) v) p k ↔
    (∀ tag e, v ≠ .empty tag e) ∧ Fails (run ⟨c, l⟩ v) p k := by
  have some' : Fails ((optionVisitor run).visitSome ⟨c, l⟩ v) p k ↔ Fails (run ⟨c, l⟩ v) p k :=
    fails_map (run ⟨c, l⟩ v) (by intro _ h; simp only [optionVisitor]; rw [h])
      (by intro _ h; exact ⟨_, by simp only [optionVisitor]; rw [h]⟩)
  have none' : ∀ {r : R Val} {x : Val} {t : Tag} {e : Empty}, r = .ok x → v = .empty t e → (Fails r p k ↔
      (∀ tag e, v ≠ .empty tag e) ∧ Fails (run ⟨c, l⟩ v) p k) := by
    intro r x t e h hv
    rw [h, fails_ok]
    exact ⟨False.elim, fun h => h.1 t e hv⟩
  have some'' : (∀ tag e, v ≠ .empty tag e) → (Fails ((optionVisitor run).visitSome ⟨c, l⟩ v) p k ↔
      (∀ tag e, v ≠ .empty tag e) ∧ Fails (run ⟨c, l⟩ v) p k) := fun h => some'.trans ⟨fun h' => ⟨h, h'⟩, And.right⟩
  unfold De.deserializeOption
  cases c with
  | none =>
    cases v with
    | empty t e => cases e <;> exact fails_err.trans (none' rfl rfl)
    | _ => exact some'' nofun
  | some f =>
    dsimp only
    rw [fails_err]
    cases v with
    | empty t e => cases e <;> exact none' rfl rfl
    | _ => exact some'' nofun

omit [FloatOps] in
theorem seq_fails {run : Seed} {de : De} {v : Value} {p : List Str} {k : Kind} : Fails (de.deserializeAny (seqVisitor run) v) p k ↔
    ((∀ tag a, v ≠ .array tag a) ∧ p = [] ∧ k.IsMismatch v "a sequence") ∨
      ∃ tag a, v = .array tag a ∧ Fails (seqLoop run de 0 a) p k := by
  rw [fails_any]
  cases v with
  | array t a =>
    have : Fails ((seqVisitor run).visit de (.array t a)) p k ↔ Fails (seqLoop run de 0 a) p k :=
      fails_map (m := match seqLoop run de 0 a with | .ok l => Except.ok (Val.seq l) | .error e => .error e)
        (seqLoop run de 0 a)
    exact one' (this.trans ⟨fun h => ⟨t, a, rfl, h⟩, fun ⟨_, _, h, h'⟩ => by cases h; exact h'⟩) fun h => h t a rfl
  | num t n => rw [visit_num]; exact mis' (congrArg (invalidType · _) (Num.visited_shown t n)) nofun nofun
  | empty t e => cases e <;> exact mis' rfl nofun nofun
  | _ => exact mis' rfl nofun nofun

omit [FloatOps] in
theorem tuple_fails {s s' : Str} {runs : List Seed} {de : De} {v : Value} {p : List Str} {k : Kind} :
    Fails (de.deserializeAny (tupleVisitor s s' runs) v) p k ↔
    ((∀ tag a, v ≠ .array tag a) ∧ p = [] ∧ k = .invalidType v.shown s) ∨
      ∃ tag a, v = .array tag a ∧ Fails (tupleLoop s' de 0 (runs.map fun run => (none, run)) a) p k := by
  rw [fails_any]
  cases v with
  | array t a =>
    have : Fails ((tupleVisitor s s' runs).visit de (.array t a)) p k ↔
        Fails (tupleLoop s' de 0 (runs.map fun run => (none, run)) a) p k :=
      fails_map (m := match tupleLoop s' de 0 (runs.map fun run => (none, run)) a with | .ok l => Except.ok (Val.seq l) | .error e => .error e)
        (tupleLoop s' de 0 (runs.map fun run => (none, run)) a)
    exact one' (this.trans ⟨fun h => ⟨t, a, rfl, h⟩, fun ⟨_, _, h, h'⟩ => by cases h; exact h'⟩) fun h => h t a rfl
  | num t n => rw [visit_num]; exact mis' (congrArg (invalidType · _) (Num.visited_shown t n)) nofun nofun
  | empty t e => cases e <;> exact mis' rfl nofun nofun
  | _ => exact mis' rfl nofun nofun

omit [FloatOps] in
theorem map_fails {run : Seed} {de : De} {v : Value} {p : List Str} {k : Kind} : Fails (de.deserializeAny (mapVisitor run) v) p k ↔
    ((∀ tag a, v ≠ .dict tag a) ∧ p = [] ∧ k.IsMismatch v "a map") ∨
      ∃ tag d, v = .dict tag d ∧ Fails (mapLoop run de d) p k := by
  rw [fails_any]
  cases v with
  | dict t a =>
    have : Fails ((mapVisitor run).visit de (.dict t a)) p k ↔ Fails (mapLoop run de a) p k :=
      fails_map (m := match mapLoop run de a with | .ok l => Except.ok (Val.map (Map.ofList l)) | .error e => .error e)
        (mapLoop run de a)
    exact one' (this.trans ⟨fun h => ⟨t, a, rfl, h⟩, fun ⟨_, _, h, h'⟩ => by cases h; exact h'⟩) fun h => h t a rfl
  | num t n => rw [visit_num]; exact mis' (congrArg (invalidType · _) (Num.visited_shown t n)) nofun nofun
  | empty t e => cases e <;> exact mis' rfl nofun nofun
  | _ => exact mis' rfl nofun nofun

omit [FloatOps] in
theorem pairs_fails {run : Seed} {de : De} {v : Value} {p : List Str} {k : Kind} : Fails (de.deserializeAny (pairsVisitor run) v) p k ↔
    ((∀ tag a, v ≠ .dict tag a) ∧ p = [] ∧ k.IsMismatch v "a map") ∨
      ∃ tag d, v = .dict tag d ∧ Fails (mapLoop run de d) p k := by
  rw [fails_any]
  cases v with
  | dict t a =>
    have : Fails ((pairsVisitor run).visit de (.dict t a)) p k ↔ Fails (mapLoop run de a) p k :=
      fails_map (m := match mapLoop run de a with | .ok l => Except.ok (Val.map l) | .error e => .error e)
        (mapLoop run de a)
    exact one' (this.trans ⟨fun h => ⟨t, a, rfl, h⟩, fun ⟨_, _, h, h'⟩ => by cases h; exact h'⟩) fun h => h t a rfl
  | num t n => rw [visit_num]; exact mis' (congrArg (invalidType · _) (Num.visited_shown t n)) nofun nofun
  | empty t e => cases e <;> exact mis' rfl nofun nofun
  | _ => exact mis' rfl nofun nofun

theorem Ty.deKey_fails (t : Ty) (s : Str) (p : List Str) (k : Kind) : Fails (t.deKey s) p k ↔ p = [] ∧ t.KeyFault s k := by
  constructor
  · rintro ⟨e, h, h1, h2⟩
    obtain ⟨k', rfl, hk⟩ := (Ty.deKey_error t s e).1 h
    exact ⟨h1.symm, by rw [← h2]; exact hk⟩
  · rintro ⟨rfl, h⟩
    exact ⟨_, (Ty.deKey_error t s _).2 ⟨k, rfl, h⟩, rfl, rfl⟩

omit [FloatOps] in
theorem keyedLoop_fails {key : Str → R Val} {run : Seed} {de : De} {K : Str → Prop} {F : Str → Kind → Prop}
    {C : Value → List Str → Kind → Prop} {G : Value → Prop} {p : List Str} {k : Kind}
    (hk : ∀ s, (∃ x, key s = .ok x) ↔ K s) (hf : ∀ s p, Fails (key s) p k ↔ p = [] ∧ F s k) :
    ∀ (d : List (Str × Value)), (∀ e ∈ d, ∀ p, Fails (run de e.2) p k ↔ C e.2 p k) →
    (∀ e ∈ d, (∃ y, run de e.2 = .ok y) ↔ G e.2) →
    (Fails (keyedLoop key run de d) p k ↔ First (fun _ e => (p = [e.1] ∧ F e.1 k) ∨ (K e.1 ∧ ∃ p', p = e.1 :: p' ∧ C e.2 p' k))
      (fun e => K e.1 ∧ G e.2) d)
  | [], _, _ => by rw [keyedLoop]; simp [first_nil]
  | (s, v) :: a, h, hg => by
    rw [keyedLoop, first_cons]
    have ih := keyedLoop_fails (p := p) hk hf a (fun w hw => h w (List.mem_cons_of_mem _ hw))
        (fun w hw => hg w (List.mem_cons_of_mem _ hw))
    rw [← ih, ← hg (s, v) (List.mem_cons_self ..), ← hk s]
    cases hs : key s with
    | error e =>
      have h1 := (hf s [])
      rw [hs] at h1
      have h2 : Fails (R.mapErr (MapDe.err s v) (Except.error e : R Val)) p k ↔ p = [s] ∧ F s k := by
        rw [fails_mapDe]
        constructor
        · rintro ⟨p', rfl, h3⟩
          rw [← hs] at h3
          obtain ⟨rfl, h4⟩ := (hf s p').1 h3
          exact ⟨rfl, h4⟩
        · rintro ⟨rfl, h3⟩
          exact ⟨[], rfl, h1.2 ⟨rfl, h3⟩⟩
      refine Iff.trans (?_ : _ ↔ Fails (R.mapErr (MapDe.err s v) (Except.error e : R Val)) p k) (h2.trans ?_)
      · rw [R.mapErr]; simp only [fails_error]
      · refine ⟨fun h => .inl (.inl h), ?_⟩
        rintro ((h | ⟨⟨_, h⟩, _⟩) | ⟨⟨⟨_, h⟩, _⟩, _⟩)
        · exact h
        · cases h
        · cases h
    | ok x =>
      have hF : ¬ F s k := fun h1 => by
        obtain ⟨e, h2, _⟩ := (hf s []).2 ⟨rfl, h1⟩
        rw [hs] at h2
        cases h2
      rw [R.mapErr]
      dsimp only
      refine (fails_bind (MapDe.nextValue run de s v) (fun y => match keyedLoop key run de a with
        | .error e => .error e | .ok xs => .ok ((x, y) :: xs))).trans (or_congr ?_ ?_)
      · simp only [fails_nextValue, h (s, v) (List.mem_cons_self ..)]
        exact ⟨fun h => .inr ⟨⟨x, rfl⟩, h⟩, fun h => h.elim (fun h => absurd h.2 hF) And.right⟩
      · constructor
        · rintro ⟨y, hy, hf⟩
          exact ⟨⟨⟨x, rfl⟩, y, nextValue_ok.1 hy⟩, (fails_map (keyedLoop key run de a)).1 hf⟩
        · rintro ⟨⟨_, y, hy⟩, hf⟩
          exact ⟨y, nextValue_ok.2 hy, (fails_map (keyedLoop key run de a)).2 hf⟩

omit [FloatOps] in
theorem keyed_fails {key : Str → R Val} {run : Seed} {de : De} {v : Value} {p : List Str} {k : Kind} :
    Fails (de.deserializeAny (keyedVisitor key run) v) p k ↔
    ((∀ tag a, v ≠ .dict tag a) ∧ p = [] ∧ k.IsMismatch v "a map") ∨
      ∃ tag d, v = .dict tag d ∧ Fails (keyedLoop key run de d) p k := by
  rw [fails_any]
  cases v with
  | dict t a =>
    have : Fails ((keyedVisitor key run).visit de (.dict t a)) p k ↔ Fails (keyedLoop key run de a) p k :=
      fails_map (m := match keyedLoop key run de a with | .ok l => Except.ok (Val.entries l) | .error e => .error e)
        (keyedLoop key run de a)
    exact one' (this.trans ⟨fun h => ⟨t, a, rfl, h⟩, fun ⟨_, _, h, h'⟩ => by cases h; exact h'⟩) fun h => h t a rfl
  | num t n => rw [visit_num]; exact mis' (congrArg (invalidType · _) (Num.visited_shown t n)) nofun nofun
  | empty t e => cases e <;> exact mis' rfl nofun nofun
  | _ => exact mis' rfl nofun nofun

omit [FloatOps] in
theorem structAny_fails {s s' : Str} {deny : Bool} {fs : List FieldSeed} {de : De} {v : Value} {p : List Str} {k : Kind} :
    Fails (de.deserializeAny (structVisitor s s' deny fs) v) p k ↔
    (((∀ tag d, v ≠ .dict tag d) ∧ (∀ tag a, v ≠ .array tag a)) ∧ p = [] ∧ k = .invalidType v.shown s) ∨
      (∃ tag d, v = .dict tag d ∧ Fails ((structVisitor s s' deny fs).visitMap de d) p k) ∨
      ∃ tag a, v = .array tag a ∧ Fails (tupleLoop s' de 0 (fs.map fun f => (f.dflt, f.run)) a) p k := by
  rw [fails_any]
  have no : ∀ {v : Value}, (∀ tag d, v ≠ .dict tag d) → (∀ tag a, v ≠ .array tag a) →
      ¬ ((∃ tag d, v = .dict tag d ∧ Fails ((structVisitor s s' deny fs).visitMap de d) p k) ∨
      ∃ tag a, v = .array tag a ∧ Fails (tupleLoop s' de 0 (fs.map fun f => (f.dflt, f.run)) a) p k) := by
    rintro v h1 h2 (⟨_, _, h, _⟩ | ⟨_, _, h, _⟩)
    · exact h1 _ _ h
    · exact h2 _ _ h
  cases v with
  | array t a =>
    have : Fails ((structVisitor s s' deny fs).visit de (.array t a)) p k ↔
        Fails (tupleLoop s' de 0 (fs.map fun f => (f.dflt, f.run)) a) p k :=
      fails_map (m := match tupleLoop s' de 0 (fs.map fun f : FieldSeed => (f.dflt, f.run)) a with | .ok l => Except.ok (Val.struct l) | .error e => .error e)
        (tupleLoop s' de 0 (fs.map fun f : FieldSeed => (f.dflt, f.run)) a)
    refine one' (this.trans ⟨fun h => .inr ⟨t, a, rfl, h⟩, ?_⟩) fun h => h.2 t a rfl
    rintro (⟨_, _, h, _⟩ | ⟨_, _, h, h'⟩)
    · cases h
    · cases h; exact h'
  | dict t d =>
    refine one' ⟨fun h => .inl ⟨t, d, rfl, h⟩, ?_⟩ fun h => h.1 t d rfl
    rintro (⟨_, _, h, h'⟩ | ⟨_, _, h, _⟩)
    · cases h; exact h'
    · cases h
  | num t n =>
    rw [visit_num]
    exact mis' (congrArg (invalidType · _) (Num.visited_shown t n)) ⟨nofun, nofun⟩ (no nofun nofun)
  | empty t e => cases e <;> exact mis' rfl ⟨nofun, nofun⟩ (no nofun nofun)
  | _ => exact mis' rfl ⟨nofun, nofun⟩ (no nofun nofun)

omit [FloatOps] in
theorem toU32_none {n : Num} : n.toU32 = none ↔ n.isSigned = true ∨ ∀ w, n.width = some w → 32 < w := by
  cases n <;> simp [Num.toU32, Num.isSigned, Num.width]

omit [FloatOps] in
theorem toU32_shown {t : Tag} {n : Num} {i : BitVec 32} (h : n.toU32 = some i) :
    (Value.num t n).shown = .unsigned (i.setWidth 128) := by
  cases n with
  | u8 b =>
    cases h
    show Actual.unsigned _ = _
    refine congrArg _ (BitVec.eq_of_toNat_eq ?_)
    have := b.isLt
    simp only [BitVec.toNat_setWidth]
    omega
  | u16 b =>
    cases h
    show Actual.unsigned _ = _
    refine congrArg _ (BitVec.eq_of_toNat_eq ?_)
    have := b.isLt
    simp only [BitVec.toNat_setWidth]
    omega
  | u32 b => cases h; rfl
  | _ => cases h

theorem alone_fails {t : VTy} {s n : Str} {p : List Str} {k : Kind} : Fails (asVariant s (t.de n).alone) p k ↔
    p = [] ∧ ∃ text, t.needs = some text ∧ k = .invalidType .unitVariant text := by
  have aux : ∀ {r : R Val} {text}, r = invalidType .unitVariant text → t.needs = some text → (Fails r p k ↔
      p = [] ∧ ∃ text, t.needs = some text ∧ k = .invalidType .unitVariant text) := by
    intro r text h h'
    rw [h, fails_type, h']
    exact and_congr_right fun _ => ⟨fun h => ⟨_, rfl, h⟩, fun ⟨_, h, h'⟩ => by cases h; exact h'⟩
  cases t with
  | unit => exact fails_ok.trans ⟨False.elim, fun ⟨_, _, h, _⟩ => nomatch h⟩
  | newtype t => exact aux rfl rfl
  | tuple ts => exact aux rfl rfl
  | struct d fs => exact aux rfl rfl

theorem deVariants_length {n : Str} {vs : List (Str × VTy)} : (Ty.deVariants n vs).length = vs.length := by
  have := congrArg List.length (deVariants_names (n := n) (vs := vs))
  simpa using this

/-- The content of the variant at a key cannot be read. -/
def VariantsFail (de : De) (n key : Str) (vs : List (Str × VTy)) (w : Value) (p : List Str) (k : Kind) : Prop :=
  ∃ t, vs.lookup key = some t ∧ Fails ((t.de (n ++ str "::" ++ key)).with de key w) p k

theorem enum_fails {n : Str} {vs : List (Str × VTy)} {de : De} {v : Value} {p : List Str} {k : Kind} :
    Fails (de.deserializeEnum (enumVisitor n (Ty.deVariants n vs)) v) p k ↔
    (∃ tag s, v = .string tag s ∧ p = [] ∧
      ((s ∉ vs.map (·.1) ∧ k = .unknownVariant s (vs.map (·.1))) ∨
        ∃ t text, vs.lookup s = some t ∧ t.needs = some text ∧ k = .invalidType .unitVariant text)) ∨
    (∃ tag m, ∃ i : Nat, v = .num tag m ∧ m.isSigned = false ∧ (∃ w, m.width = some w ∧ w ≤ 32) ∧ m.intVal = some (i : Int) ∧
      p = [] ∧ ((vs.length ≤ i ∧ k = .invalidValue v.shown (str "variant index 0 <= i < " ++ Dec.ofNat vs.length)) ∨
        ∃ s t text, vs[i]? = some (s, t) ∧ t.needs = some text ∧ k = .invalidType .unitVariant text)) ∨
    (∃ tag, v = .dict tag [] ∧ p = [] ∧ k = .invalidType .map (str "enum")) ∨
    (∃ tag key w r, v = .dict tag ((key, w) :: r) ∧
      ((key ∉ vs.map (·.1) ∧ p = [key] ∧ k = .unknownVariant key (vs.map (·.1))) ∨ VariantsFail de n key vs w p k)) ∨
    ((∀ tag s, v ≠ .string tag s) ∧ (∀ tag d, v ≠ .dict tag d) ∧
      (∀ tag m, v = .num tag m → m.isSigned = true ∨ ∀ w, m.width = some w → 32 < w) ∧
      p = [] ∧ k = .invalidType v.shown (str "enum " ++ n)) := by
  unfold De.deserializeEnum
  rw [fails_err]
  cases v with
  | string t s =>
    show Fails (match (Ty.deVariants n vs).lookup s with
      | some v => asVariant s v.alone
      | none => .error (Error.ofKind (.unknownVariant s ((Ty.deVariants n vs).map fun e : Str × VariantSeed => e.1)))) p k ↔ _
    rw [deVariants_lookup, deVariants_names]
    have key : Fails (match (vs.lookup s).map fun v => v.de (n ++ str "::" ++ s) with
      | some v => asVariant s v.alone
      | none => .error (Error.ofKind (.unknownVariant s (vs.map (·.1))))) p k ↔ p = [] ∧
      ((s ∉ vs.map (·.1) ∧ k = .unknownVariant s (vs.map (·.1))) ∨
        ∃ t text, vs.lookup s = some t ∧ t.needs = some text ∧ k = .invalidType .unitVariant text) := by
      cases hl : vs.lookup s with
      | none =>
        have := lookup_none.1 hl
        dsimp only [Option.map_none]
        rw [fails_ofKind]
        refine and_congr_right fun _ => ⟨fun h => .inl ⟨this, h⟩, ?_⟩
        rintro (h | ⟨_, _, h, _⟩)
        · exact h.2
        · cases h
      | some t =>
        dsimp only [Option.map_some]
        rw [alone_fails]
        refine and_congr_right fun _ => ⟨fun ⟨text, h⟩ => .inr ⟨t, text, rfl, h⟩, ?_⟩
        rintro (⟨h, _⟩ | ⟨_, text, h, h'⟩)
        · rw [lookup_none.2 h] at hl; cases hl
        · cases h; exact ⟨text, h'⟩
    refine key.trans ⟨fun h => .inl ⟨t, s, rfl, h⟩, ?_⟩
    rintro (⟨_, _, h, h'⟩ | ⟨_, _, _, h, _⟩ | ⟨_, h, _⟩ | ⟨_, _, _, _, h, _⟩ | ⟨h, _⟩)
    · cases h; exact h'
    · cases h
    · cases h
    · cases h
    · exact absurd rfl (h t s)
  | num t m =>
    dsimp only
    cases hm : m.toU32 with
    | none =>
      have hm' := toU32_none.1 hm
      dsimp only
      rw [fails_any, visit_num]
      refine (show _ ↔ _ from fails_type).trans ?_
      rw [Num.visited_shown t m]
      constructor
      · rintro ⟨h1, h2⟩
        exact .inr (.inr (.inr (.inr ⟨nofun, nofun, fun _ _ h => by cases h; exact hm', h1, h2⟩)))
      · rintro (⟨_, _, h, _⟩ | ⟨_, _, _, h, h1, ⟨w, h2, h3⟩, _⟩ | ⟨_, h, _⟩ | ⟨_, _, _, _, h, _⟩ | ⟨_, _, _, h⟩)
        · cases h
        · cases h
          rcases hm' with h' | h'
          · rw [h1] at h'; cases h'
          · have := h' w h2; omega
        · cases h
        · cases h
        · exact h
    | some i =>
      obtain ⟨h1, ⟨w, h2, h2'⟩, h3⟩ := toU32_iff.1 hm
      show Fails (match (Ty.deVariants n vs)[i.toNat]? with
        | some (s, v) => asVariant s v.alone
        | none => invalidValue (.unsigned (i.setWidth 128))
            (str "variant index 0 <= i < " ++ Dec.ofNat (Ty.deVariants n vs).length)) p k ↔ _
      rw [deVariants_get, deVariants_length, ← toU32_shown (t := t) hm]
      have key : Fails (match vs[i.toNat]?.map fun e => (e.1, e.2.de (n ++ str "::" ++ e.1)) with
          | some (s, v) => asVariant s v.alone
          | none => invalidValue (Value.num t m).shown (str "variant index 0 <= i < " ++ Dec.ofNat vs.length)) p k ↔
          p = [] ∧ ((vs.length ≤ i.toNat ∧
            k = .invalidValue (Value.num t m).shown (str "variant index 0 <= i < " ++ Dec.ofNat vs.length)) ∨
          ∃ s t text, vs[i.toNat]? = some (s, t) ∧ t.needs = some text ∧ k = .invalidType .unitVariant text) := by
        cases hl : vs[i.toNat]? with
        | none =>
          have := List.getElem?_eq_none_iff.1 hl
          dsimp only [Option.map_none]
          rw [fails_value]
          refine and_congr_right fun _ => ⟨fun h => .inl ⟨this, h⟩, ?_⟩
          rintro (h | ⟨_, _, _, h, _⟩)
          · exact h.2
          · cases h
        | some e =>
          obtain ⟨s, u⟩ := e
          dsimp only [Option.map_some]
          rw [alone_fails]
          refine and_congr_right fun _ => ⟨fun ⟨text, h⟩ => .inr ⟨s, u, text, rfl, h⟩, ?_⟩
          rintro (⟨h, _⟩ | ⟨_, _, text, h, h'⟩)
          · rw [List.getElem?_eq_none_iff.2 h] at hl; cases hl
          · cases h; exact ⟨text, h'⟩
      refine key.trans ⟨fun h => .inr (.inl ⟨t, m, i.toNat, rfl, h1, ⟨w, h2, h2'⟩, h3, h⟩), ?_⟩
      rintro (⟨_, _, h, _⟩ | ⟨_, _, j, h, _, _, h4, h5⟩ | ⟨_, h, _⟩ | ⟨_, _, _, _, h, _⟩ | ⟨_, _, h, _⟩)
      · cases h
      · cases h
        rw [h3] at h4
        have : i.toNat = j := Int.ofNat.inj (Option.some.inj h4)
        rw [this]
        exact h5
      · cases h
      · cases h
      · rcases h t m rfl with h | h
        · rw [h1] at h; cases h
        · have := h w h2; omega
  | dict t d =>
    cases d with
    | nil =>
      refine (show _ ↔ _ from fails_type).trans ⟨fun h => .inr (.inr (.inl ⟨t, rfl, h⟩)), ?_⟩
      rintro (⟨_, _, h, _⟩ | ⟨_, _, _, h, _⟩ | ⟨_, _, h⟩ | ⟨_, _, _, _, h, _⟩ | ⟨_, h, _⟩)
      · cases h
      · cases h
      · exact h
      · cases h
      · exact absurd rfl (h t [])
    | cons e r =>
      obtain ⟨s, w⟩ := e
      show Fails (match (Ty.deVariants n vs).lookup s with
        | some v => asVariant s (v.with de s w)
        | none => .error (MapDe.err s w (Error.ofKind (.unknownVariant s
            ((Ty.deVariants n vs).map fun e : Str × VariantSeed => e.1))))) p k ↔ _
      rw [deVariants_lookup, deVariants_names]
      have key : Fails (match (vs.lookup s).map fun v => v.de (n ++ str "::" ++ s) with
          | some v => asVariant s (v.with de s w)
          | none => .error (MapDe.err s w (Error.ofKind (.unknownVariant s (vs.map (·.1)))))) p k ↔
          (s ∉ vs.map (·.1) ∧ p = [s] ∧ k = .unknownVariant s (vs.map (·.1))) ∨ VariantsFail de n s vs w p k := by
        unfold VariantsFail
        cases hl : vs.lookup s with
        | none =>
          have := lookup_none.1 hl
          dsimp only [Option.map_none]
          rw [fails_error, (MapDe.err_head _ _ _).1, (MapDe.err_head _ _ _).2.1]
          show [s] = p ∧ Kind.unknownVariant s (vs.map (·.1)) = k ↔ _
          constructor
          · rintro ⟨rfl, rfl⟩; exact .inl ⟨this, rfl, rfl⟩
          · rintro (⟨_, rfl, rfl⟩ | ⟨_, h, _⟩)
            · exact ⟨rfl, rfl⟩
            · cases h
        | some u =>
          dsimp only [Option.map_some]
          have : Fails (asVariant s ((u.de (n ++ str "::" ++ s)).with de s w)) p k ↔
              Fails ((u.de (n ++ str "::" ++ s)).with de s w) p k :=
            fails_map ((u.de (n ++ str "::" ++ s)).with de s w) (by intro _ h; rw [h]; rfl)
              (by intro x h; exact ⟨.variant s x, by rw [h]; rfl⟩)
          refine this.trans ⟨fun h => .inr ⟨u, rfl, h⟩, ?_⟩
          rintro (⟨h, _⟩ | ⟨_, h, h'⟩)
          · rw [lookup_none.2 h] at hl; cases hl
          · cases h; exact h'
      refine key.trans ⟨fun h => .inr (.inr (.inr (.inl ⟨t, s, w, r, rfl, h⟩))), ?_⟩
      rintro (⟨_, _, h, _⟩ | ⟨_, _, _, h, _⟩ | ⟨_, h, _⟩ | ⟨_, _, _, _, h, h'⟩ | ⟨_, h, _⟩)
      · cases h
      · cases h
      · cases h
      · cases h; exact h'
      · exact absurd rfl (h t _)
  | empty t e =>
    dsimp only
    rw [fails_any]
    have : (enumVisitor n (Ty.deVariants n vs)).visit de (.empty t e) =
        invalidType (Value.empty t e).shown (str "enum " ++ n) := by cases e <;> rfl
    rw [this, fails_type]
    refine ⟨fun h => .inr (.inr (.inr (.inr ⟨nofun, nofun, nofun, h⟩))), ?_⟩
    rintro (⟨_, _, h, _⟩ | ⟨_, _, _, h, _⟩ | ⟨_, h, _⟩ | ⟨_, _, _, _, h, _⟩ | ⟨_, _, _, h⟩)
    · cases h
    · cases h
    · cases h
    · cases h
    · exact h
  | _ =>
    dsimp only
    rw [fails_any]
    refine (show _ ↔ _ from fails_type).trans ⟨fun h => .inr (.inr (.inr (.inr ⟨nofun, nofun, nofun, h⟩))), ?_⟩
    rintro (⟨_, _, h, _⟩ | ⟨_, _, _, h, _⟩ | ⟨_, h, _⟩ | ⟨_, _, _, _, h, _⟩ | ⟨_, _, _, h⟩)
    · cases h
    · cases h
    · cases h
    · cases h
    · exact h

end Figment
