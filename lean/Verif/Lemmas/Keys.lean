import Verif.Spec.Types
import Verif.Lemmas.De
/-!
# Lemmas: keys of maps
-/
namespace Figment
variable [FloatOps]

/-! ## Reading a key -/

theorem deVariants_lookup {n : Str} {s : Str} : ∀ {vs : List (Str × VTy)},
    (Ty.deVariants n vs).lookup s = (vs.lookup s).map fun v => v.de (n ++ str "::" ++ s)
  | [] => rfl
  | (k, v) :: vs => by
    rw [Ty.deVariants, List.lookup_cons, List.lookup_cons]
    cases h : s == k with
    | true => rw [beq_iff_eq.1 h]; rfl
    | false => exact deVariants_lookup

omit [FloatOps] in
theorem lookup_none {α : Type} {s : Str} {vs : List (Str × α)} : vs.lookup s = none ↔ s ∉ vs.map (·.1) := by
  rw [List.lookup_eq_none_iff]
  simp only [List.mem_map, not_exists, not_and, bne_iff_ne, ne_eq]
  exact ⟨fun h e he h' => h e he h'.symm, fun h e he h' => h e he h'.symm⟩

theorem deVariants_names {n : Str} : ∀ {vs : List (Str × VTy)}, (Ty.deVariants n vs).map (·.1) = vs.map (·.1)
  | [] => rfl
  | (k, v) :: vs => by rw [Ty.deVariants, List.map_cons, List.map_cons, deVariants_names]

omit [FloatOps] in
theorem flag_key {s : Str} : flagVisitor.visitStr s = (if s.lower = str "true" then .ok (Val.bool true)
    else if s.lower = str "false" then .ok (Val.bool false) else invalidValue (.str s) (str "true or false")) := by
  have htrue : (str "true").lower = str "true" := by decide
  have hfalse : (str "false").lower = str "false" := by decide
  show (if Str.uncasedEq s (str "true") then Except.ok (Val.bool true)
    else if Str.uncasedEq s (str "false") then .ok (Val.bool false)
    else invalidValue (.str s) (str "true or false")) = _
  simp only [Str.uncasedEq, htrue, hfalse, beq_iff_eq]

theorem enum_text {n : Str} {vs : List (Str × VTy)} {s : Str} :
    (enumVisitor n (Ty.deVariants n vs)).visitEnum (.str s) = (match vs.lookup s with
      | some v => asVariant s (v.de (n ++ str "::" ++ s)).alone
      | none => .error (Error.ofKind (.unknownVariant s (vs.map (·.1))))) := by
  show (match (Ty.deVariants n vs).lookup s with
      | some v => asVariant s v.alone
      | none => .error (Error.ofKind (.unknownVariant s ((Ty.deVariants n vs).map fun e : Str × VariantSeed => e.1)))) = _
  rw [deVariants_lookup, deVariants_names]
  cases vs.lookup s <;> rfl

theorem Ty.deKey_ok : ∀ (t : Ty) (s : Str) (x : Val), t.deKey s = .ok x ↔ t.KeyIs s x
  | .string, s, x => by rw [Ty.deKey, Ty.KeyIs]; exact ⟨fun h => by cases h; rfl, fun h => by cases h; rfl⟩
  | .pathBuf, s, x => by rw [Ty.deKey, Ty.KeyIs]; exact ⟨fun h => by cases h; rfl, fun h => by cases h; rfl⟩
  | .any _, s, x => by rw [Ty.deKey, Ty.KeyIs]; exact ⟨fun h => by cases h; rfl, fun h => by cases h; rfl⟩
  | .value, s, x => by rw [Ty.deKey, Ty.KeyIs]; exact ⟨fun h => by cases h; rfl, fun h => by cases h; rfl⟩
  | .char, s, x => by
    rw [Ty.deKey, Ty.KeyIs]
    match s with
    | [] => exact ⟨nofun, nofun⟩
    | [c] => exact ⟨fun h => by cases h; exact ⟨c, rfl, rfl⟩, fun ⟨_, h, h'⟩ => by cases h; cases h'; rfl⟩
    | _ :: _ :: _ => exact ⟨nofun, nofun⟩
  | .enum n vs, s, x => by
    rw [Ty.deKey, Ty.KeyIs, enum_text]
    cases vs.lookup s with
    | none => exact ⟨nofun, fun h => nomatch h.1⟩
    | some v =>
      cases v with
      | unit => exact ⟨fun h => by cases h; exact ⟨rfl, rfl⟩, fun ⟨_, h⟩ => by cases h; rfl⟩
      | _ => exact ⟨nofun, fun h => nomatch h.1⟩
  | .flag, s, x => by
    rw [Ty.deKey, Ty.KeyIs, flag_key]
    by_cases ht : s.lower = str "true"
    · rw [if_pos ht, ht]
      exact ⟨fun h => by cases h; exact .inl ⟨rfl, rfl⟩,
        fun h => h.elim (fun h => by rw [h.2]) fun h => absurd h.1 (by decide)⟩
    by_cases hf : s.lower = str "false"
    · rw [if_neg ht, if_pos hf, hf]
      exact ⟨fun h => by cases h; exact .inr ⟨rfl, rfl⟩,
        fun h => h.elim (fun h => absurd h.1 (by decide)) fun h => by rw [h.2]⟩
    · rw [if_neg ht, if_neg hf]
      exact ⟨nofun, fun h => h.elim (fun h => absurd h.1 ht) fun h => absurd h.1 hf⟩
  | .parsed _ parse _, s, x => by
    rw [Ty.deKey, Ty.KeyIs]
    show (match parse s with | .ok x => Except.ok x | .error m => .error (Error.ofKind (.message m))) = .ok x ↔ _
    cases parse s with
    | ok y => exact Iff.rfl.trans ⟨fun h => by cases h; rfl, fun h => by cases h; rfl⟩
    | error m => exact ⟨nofun, nofun⟩
  | .via t conv _, s, x => by
    have ih := Ty.deKey_ok t s
    rw [Ty.deKey, Ty.KeyIs]
    cases h : t.deKey s with
    | error e =>
      refine ⟨nofun, fun ⟨y, h1, _⟩ => ?_⟩
      rw [(ih y).2 h1] at h
      cases h
    | ok y =>
      have hy := (ih y).1 h
      constructor
      · intro h1
        rw [converted] at h1
        cases hc : conv y with
        | ok z => rw [hc] at h1; cases h1; exact ⟨y, hy, hc⟩
        | error m => rw [hc] at h1; cases h1
      · rintro ⟨z, h1, h2⟩
        rw [(ih z).2 h1] at h
        cases h
        rw [converted, h2]
  | .bool, s, x => ⟨nofun, nofun⟩
  | .int _, s, x => ⟨nofun, nofun⟩
  | .f32, s, x => ⟨nofun, nofun⟩
  | .f64, s, x => ⟨nofun, nofun⟩
  | .unit, s, x => ⟨nofun, nofun⟩
  | .unitStruct _, s, x => ⟨nofun, nofun⟩
  | .option _, s, x => ⟨nofun, nofun⟩
  | .newtype _ _, s, x => ⟨nofun, nofun⟩
  | .seq _, s, x => ⟨nofun, nofun⟩
  | .tuple _, s, x => ⟨nofun, nofun⟩
  | .tupleStruct _ _, s, x => ⟨nofun, nofun⟩
  | .map _, s, x => ⟨nofun, nofun⟩
  | .pairs _, s, x => ⟨nofun, nofun⟩
  | .keyed _ _, s, x => ⟨nofun, nofun⟩
  | .struct _ _ _ _, s, x => ⟨nofun, nofun⟩
  | .flat _ _ _ _, s, x => ⟨nofun, nofun⟩
  | .tag, s, x => ⟨nofun, nofun⟩

omit [FloatOps] in
theorem key_type {r : R Val} {s text : Str} {w : Option Str} {e : Error}
    (hr : r = invalidType (.str s) text) (hw : w = some text) :
    r = .error e ↔ ∃ k, e = Error.ofKind k ∧ ∃ text, w = some text ∧ k = .invalidType (.str s) text := by
  subst hr hw
  constructor
  · intro h; cases h; exact ⟨_, rfl, _, rfl, rfl⟩
  · rintro ⟨_, rfl, _, h, rfl⟩; cases h; rfl

theorem Ty.deKey_error : ∀ (t : Ty) (s : Str) (e : Error), t.deKey s = .error e ↔ ∃ k, e = Error.ofKind k ∧ t.KeyFault s k
  | .string, s, x => by rw [Ty.deKey]; simp only [Ty.KeyFault]; exact ⟨nofun, fun h => h.elim fun _ h => h.2.elim⟩
  | .pathBuf, s, x => by rw [Ty.deKey]; simp only [Ty.KeyFault]; exact ⟨nofun, fun h => h.elim fun _ h => h.2.elim⟩
  | .any _, s, x => by rw [Ty.deKey]; simp only [Ty.KeyFault]; exact ⟨nofun, fun h => h.elim fun _ h => h.2.elim⟩
  | .value, s, x => by rw [Ty.deKey]; simp only [Ty.KeyFault]; exact ⟨nofun, fun h => h.elim fun _ h => h.2.elim⟩
  | .char, s, x => by
    rw [Ty.deKey]
    simp only [Ty.KeyFault]
    match s with
    | [] => exact ⟨fun h => by cases h; exact ⟨_, rfl, by decide, rfl⟩, fun ⟨_, h, _, h'⟩ => by rw [h, h']; rfl⟩
    | [c] => exact ⟨nofun, fun ⟨_, _, h, _⟩ => absurd rfl h⟩
    | a :: b :: r =>
      exact ⟨fun h => by cases h; exact ⟨_, rfl, by simp, rfl⟩, fun ⟨_, h, _, h'⟩ => by rw [h, h']; rfl⟩
  | .enum n vs, s, x => by
    rw [Ty.deKey, enum_text]
    simp only [Ty.KeyFault]
    cases hl : vs.lookup s with
    | none =>
      have hn := lookup_none.1 hl
      refine ⟨fun h => by cases h; exact ⟨_, rfl, .inl ⟨hn, rfl⟩⟩, ?_⟩
      rintro ⟨k, rfl, ⟨_, rfl⟩ | ⟨_, _, h, _⟩⟩
      · rfl
      · cases h
    | some v =>
      have hm : s ∈ vs.map (·.1) := by
        refine Classical.byContradiction fun h => ?_
        rw [lookup_none.2 h] at hl
        cases hl
      cases v with
      | unit =>
        refine ⟨nofun, ?_⟩
        rintro ⟨k, rfl, ⟨h, _⟩ | ⟨_, _, h, h', _⟩⟩
        · exact absurd hm h
        · cases h; cases h'
      | _ =>
        refine ⟨fun h => by cases h; exact ⟨_, rfl, .inr ⟨_, _, rfl, rfl, rfl⟩⟩, ?_⟩
        rintro ⟨k, rfl, ⟨h, _⟩ | ⟨_, _, h, h', h''⟩⟩
        · exact absurd hm h
        · cases h; cases h'; cases h''; rfl
  | .flag, s, x => by
    rw [Ty.deKey, flag_key]
    simp only [Ty.KeyFault]
    by_cases ht : s.lower = str "true"
    · rw [if_pos ht]
      exact ⟨nofun, fun ⟨_, _, h, _⟩ => absurd ht h⟩
    by_cases hf : s.lower = str "false"
    · rw [if_neg ht, if_pos hf]
      exact ⟨nofun, fun ⟨_, _, _, h, _⟩ => absurd hf h⟩
    · rw [if_neg ht, if_neg hf]
      exact ⟨fun h => by cases h; exact ⟨_, rfl, ht, hf, rfl⟩, fun ⟨_, h, _, _, h'⟩ => by rw [h, h']; rfl⟩
  | .parsed _ parse _, s, x => by
    rw [Ty.deKey]
    simp only [Ty.KeyFault]
    show (match parse s with | .ok x => Except.ok x | .error m => .error (Error.ofKind (.message m))) = .error x ↔ _
    cases parse s with
    | ok y => exact ⟨nofun, fun ⟨_, _, _, h, _⟩ => nomatch h⟩
    | error m =>
      exact ⟨fun h => by cases h; exact ⟨_, rfl, m, rfl, rfl⟩, fun ⟨_, h, _, h', h''⟩ => by cases h'; rw [h, h'']⟩
  | .via t conv _, s, x => by
    rw [Ty.deKey]
    simp only [Ty.KeyFault]
    cases h : t.deKey s with
    | error e =>
      obtain ⟨k, rfl, hk⟩ := (Ty.deKey_error t s e).1 h
      constructor
      · intro h1; cases h1; exact ⟨k, rfl, .inl hk⟩
      · rintro ⟨k', rfl, h1 | ⟨y, _, h1, _⟩⟩
        · have := (Ty.deKey_error t s _).2 ⟨k', rfl, h1⟩
          rw [h] at this
          cases this
          rfl
        · rw [(Ty.deKey_ok t s y).2 h1] at h; cases h
    | ok y =>
      have hy := (Ty.deKey_ok t s y).1 h
      rw [converted]
      constructor
      · intro h1
        cases hc : conv y with
        | ok z => rw [hc] at h1; cases h1
        | error m => rw [hc] at h1; cases h1; exact ⟨_, rfl, .inr ⟨y, m, hy, hc, rfl⟩⟩
      · rintro ⟨k', rfl, h1 | ⟨z, m, h1, h2, rfl⟩⟩
        · have := (Ty.deKey_error t s _).2 ⟨k', rfl, h1⟩
          rw [h] at this
          cases this
        · rw [(Ty.deKey_ok t s z).2 h1] at h
          cases h
          rw [h2]
  | .bool, s, x => key_type rfl rfl
  | .int _, s, x => key_type rfl rfl
  | .f32, s, x => key_type rfl rfl
  | .f64, s, x => key_type rfl rfl
  | .unit, s, x => key_type rfl rfl
  | .unitStruct _, s, x => key_type rfl rfl
  | .option _, s, x => key_type rfl rfl
  | .newtype _ _, s, x => key_type rfl rfl
  | .seq _, s, x => key_type rfl rfl
  | .tuple _, s, x => key_type rfl rfl
  | .tupleStruct _ _, s, x => key_type rfl rfl
  | .map _, s, x => key_type rfl rfl
  | .pairs _, s, x => key_type rfl rfl
  | .keyed _ _, s, x => key_type rfl rfl
  | .struct _ _ _ _, s, x => key_type rfl rfl
  | .flat _ _ _ _, s, x => key_type rfl rfl
  | .tag, s, x => key_type rfl rfl

/-! ## Reading a map -/

omit [FloatOps] in
theorem keyedLoop_iff {key : Str → R Val} {run : Seed} {de : De} {K : Str → Val → Prop} {P : Value → Val → Prop}
    (hk : ∀ s x, key s = .ok x ↔ K s x) : ∀ (d : List (Str × Value)) (l : List (Val × Val)),
    (∀ e ∈ d, ∀ y, run de e.2 = .ok y ↔ P e.2 y) →
    (keyedLoop key run de d = .ok l ↔ d.length = l.length ∧
      ∀ (i : Nat) s w x y, d[i]? = some (s, w) → l[i]? = some (x, y) → K s x ∧ P w y)
  | [], l, _ => by
    rw [keyedLoop]
    cases l with
    | nil => simp
    | cons y l => simp
  | (s, v) :: a, l, h => by
    rw [keyedLoop]
    have ih := fun l => keyedLoop_iff hk a l fun w hw => h w (List.mem_cons_of_mem _ hw)
    constructor
    · intro h1
      cases hs : (key s).mapErr (MapDe.err s v) with
      | error e => rw [hs] at h1; cases h1
      | ok k =>
        rw [hs] at h1
        dsimp only at h1
        cases hx : MapDe.nextValue run de s v with
        | error e => rw [hx] at h1; cases h1
        | ok x =>
          rw [hx] at h1
          dsimp only at h1
          cases hl : keyedLoop key run de a with
          | error e => rw [hl] at h1; cases h1
          | ok l' =>
            rw [hl] at h1
            cases h1
            have h2 := (ih l').1 hl
            rw [MapDe.nextValue, R.mapErr_eq_ok] at hx
            rw [R.mapErr_eq_ok] at hs
            refine ⟨by simp [h2.1], ?_⟩
            intro i s' w x' y hw hy
            cases i with
            | zero =>
              simp only [List.getElem?_cons_zero, Option.some.injEq, Prod.mk.injEq] at hw hy
              obtain ⟨rfl, rfl⟩ := hw
              obtain ⟨rfl, rfl⟩ := hy
              exact ⟨(hk _ _).1 hs, (h (s, v) (List.mem_cons_self ..) x).1 hx⟩
            | succ i => exact h2.2 i s' w x' y (by simpa using hw) (by simpa using hy)
    · rintro ⟨h1, h2⟩
      cases l with
      | nil => simp at h1
      | cons e l' =>
        obtain ⟨x, y⟩ := e
        obtain ⟨h3, h4⟩ := h2 0 s v x y rfl rfl
        have hs : (key s).mapErr (MapDe.err s v) = .ok x := by rw [R.mapErr_eq_ok]; exact (hk _ _).2 h3
        have hx : MapDe.nextValue run de s v = .ok y := by
          rw [MapDe.nextValue, R.mapErr_eq_ok]
          exact (h (s, v) (List.mem_cons_self ..) y).2 h4
        have hl := (ih l').2 ⟨by simpa using h1, fun i s w x y hw hy => h2 (i + 1) s w x y (by simpa using hw) (by simpa using hy)⟩
        rw [hs]
        dsimp only
        rw [hx]
        dsimp only
        rw [hl]

omit [FloatOps] in
/-- The error of the first key that is not one. -/
theorem keyedLoop_key {key : Str → R Val} {run : Seed} {de : De} {e : Error} : ∀ (d : List (Str × Value)) (i : Nat) (s : Str)
    (w : Value), d[i]? = some (s, w) → key s = .error e →
    (∀ j, j < i → ∀ a, d[j]? = some a → (∃ x, key a.1 = .ok x) ∧ ∃ y, run de a.2 = .ok y) →
    keyedLoop key run de d = .error (MapDe.err s w e)
  | [], i, s, w, h, _, _ => by simp at h
  | (s', w') :: d, 0, s, w, h, hk, _ => by
    simp only [List.getElem?_cons_zero, Option.some.injEq, Prod.mk.injEq] at h
    obtain ⟨rfl, rfl⟩ := h
    rw [keyedLoop, hk]
    rfl
  | (s', w') :: d, i + 1, s, w, h, hk, hb => by
    obtain ⟨⟨x, hx⟩, y, hy⟩ := hb 0 (Nat.succ_pos i) (s', w') rfl
    dsimp only at hx hy
    have ih := keyedLoop_key (run := run) (de := de) d i s w (by simpa using h) hk
      fun j hj a ha => hb (j + 1) (Nat.succ_lt_succ hj) a (by simpa using ha)
    rw [keyedLoop, hx, MapDe.nextValue, hy, ih]
    rfl

/-! ## Writing a key -/

/-- What is written as a string. -/
def Ser.text? : Ser → Option Str
  | .str s => Option.some s
  | .unitVariant n => Option.some n
  | .some x => x.text?
  | .newtypeStruct x => x.text?
  | _ => Option.none

omit [FloatOps] in
theorem Ser.serialize_text : ∀ (x : Ser) (s : Str), (∃ tg, x.serialize = .ok (.string tg s)) ↔ x.text? = Option.some s
  | .str a, s => by
    rw [Ser.serialize, Ser.text?]
    exact ⟨fun ⟨_, h⟩ => by cases h; rfl, fun h => by cases h; exact ⟨_, rfl⟩⟩
  | .unitVariant a, s => by
    rw [Ser.serialize, Ser.text?]
    exact ⟨fun ⟨_, h⟩ => by cases h; rfl, fun h => by cases h; exact ⟨_, rfl⟩⟩
  | .some x, s => by rw [Ser.serialize, Ser.text?]; exact Ser.serialize_text x s
  | .newtypeStruct x, s => by rw [Ser.serialize, Ser.text?]; exact Ser.serialize_text x s
  | .bool _, s | .num _, s | .char _, s | .bytes _, s | .none, s | .unit, s | .unitStruct, s | .fail _, s => by
    rw [Ser.serialize]; exact ⟨fun ⟨_, h⟩ => (nomatch h), nofun⟩
  | .newtypeVariant _ x, s => by
    rw [Ser.serialize]; refine ⟨fun ⟨_, h⟩ => ?_, nofun⟩; split at h <;> cases h
  | .seq _, s | .tuple _, s | .tupleStruct _, s | .tupleVariant _ _, s | .map _, s | .struct _, s | .structVariant _ _, s => by
    rw [Ser.serialize]; refine ⟨fun ⟨_, h⟩ => ?_, nofun⟩; split at h <;> cases h

omit [FloatOps] in
theorem serVariant_text {n : Str} : ∀ (vs : List (Str × VTy)) (x : Val),
    (Ty.serVariant n vs x).text? = (match vs.lookup n with | some .unit => some n | _ => none)
  | [], x => by rw [Ty.serVariant]; rfl
  | (m, v) :: vs, x => by
    rw [Ty.serVariant]
    by_cases h : m = n
    · subst h
      rw [if_pos rfl, List.lookup_cons, beq_self_eq_true]
      cases v with
      | unit => rw [VTy.ser]; rfl
      | newtype t => rw [VTy.ser]; rfl
      | tuple ts => cases x <;> (rw [VTy.ser] <;> first | rfl | (intros; contradiction))
      | struct deny fs => cases x <;> (rw [VTy.ser] <;> first | rfl | (intros; contradiction))
    · rw [if_neg h, serVariant_text vs x, List.lookup_cons]
      rw [show (n == m) = false from by simpa using fun e => h e.symm]

omit [FloatOps] in
theorem Ty.ser_text : ∀ (t : Ty) (x : Val), t.Has x → (t.ser x).text? = t.KeyText x
  | .option t, x, hx => by
    rw [Ty.Has] at hx
    rcases hx with rfl | ⟨y, rfl, hy⟩
    · rfl
    · rw [Ty.ser, Ser.text?, Ty.KeyText]; exact Ty.ser_text t y hy
  | .newtype _ t, x, hx => by
    rw [Ty.Has] at hx
    obtain ⟨y, rfl, hy⟩ := hx
    rw [Ty.ser, Ser.text?, Ty.KeyText]; exact Ty.ser_text t y hy
  | .via t _ back, x, hx => by
    rw [Ty.Has] at hx
    rw [Ty.ser, Ty.KeyText]; exact Ty.ser_text t (back x) hx.1
  | .enum _ vs, x, hx => by
    rw [Ty.Has] at hx
    obtain ⟨n, y, rfl, _⟩ := hx
    rw [Ty.ser, Ty.KeyText, serVariant_text]
    cases vs.lookup n with
    | none => rfl
    | some v => cases v <;> rfl
  | .parsed _ _ text, x, _ => by rw [Ty.ser, Ty.KeyText]; rfl
  | .any _, x, hx => by
    rw [Ty.Has] at hx
    rw [Ty.ser]
    cases hx with
    | num n => cases n <;> rfl
    | _ => rfl
  | .value, x, hx => by
    rw [Ty.Has] at hx
    obtain ⟨v, rfl, _⟩ := hx
    rw [Ty.ser]
    cases v with
    | empty t e => cases e <;> rfl
    | num t n => cases n <;> rfl
    | _ => rfl
  | .bool, x, hx => by rw [Ty.Has] at hx; obtain ⟨y, rfl⟩ := hx; rfl
  | .int t, x, hx => by rw [Ty.Has] at hx; obtain ⟨y, rfl, _⟩ := hx; rfl
  | .f32, x, hx => by rw [Ty.Has] at hx; obtain ⟨y, rfl⟩ := hx; rfl
  | .f64, x, hx => by rw [Ty.Has] at hx; obtain ⟨y, rfl⟩ := hx; rfl
  | .char, x, hx => by rw [Ty.Has] at hx; obtain ⟨y, rfl⟩ := hx; rfl
  | .string, x, hx => by rw [Ty.Has] at hx; obtain ⟨y, rfl⟩ := hx; rfl
  | .pathBuf, x, hx => by rw [Ty.Has] at hx; obtain ⟨y, rfl⟩ := hx; rfl
  | .unit, x, hx => by rw [Ty.Has] at hx; subst hx; rfl
  | .unitStruct _, x, hx => by rw [Ty.Has] at hx; subst hx; rfl
  | .seq t, x, hx => by rw [Ty.Has] at hx; obtain ⟨y, rfl, _⟩ := hx; rfl
  | .tuple ts, x, hx => by rw [Ty.Has] at hx; obtain ⟨y, rfl, _⟩ := hx; rfl
  | .tupleStruct _ ts, x, hx => by rw [Ty.Has] at hx; obtain ⟨y, rfl, _⟩ := hx; rfl
  | .map t, x, hx => by rw [Ty.Has] at hx; obtain ⟨y, rfl, _⟩ := hx; rfl
  | .pairs t, x, hx => by rw [Ty.Has] at hx; obtain ⟨y, rfl, _⟩ := hx; rfl
  | .keyed kt t, x, hx => by rw [Ty.Has] at hx; obtain ⟨y, rfl, _⟩ := hx; rfl
  | .struct _ _ _ _, x, hx => by rw [Ty.Has] at hx; obtain ⟨y, rfl, _⟩ := hx; rfl
  | .flat _ _ _ _, x, hx => by rw [Ty.ser]; rfl
  | .tag, x, hx => by rw [Ty.Has] at hx; obtain ⟨y, rfl⟩ := hx; rfl
  | .flag, x, hx => by rw [Ty.Has] at hx; obtain ⟨y, rfl⟩ := hx; rfl

omit [FloatOps] in
/-- A key is written as the text, if and only if that is the text of the key. -/
theorem Ty.key_written {t : Ty} {x : Val} (hx : t.Has x) {s : Str} :
    (∃ tg, (t.ser x).serialize = .ok (.string tg s)) ↔ t.KeyText x = some s := by
  rw [Ser.serialize_text, Ty.ser_text t x hx]

omit [FloatOps] in
theorem variant_unit {n : Str} : ∀ {vs : List (Str × VTy)} {y : Val}, vs.lookup n = some .unit → Ty.HasVariant n vs y → y = .unit
  | [], _, h, _ => nomatch h
  | (m, v) :: vs, y, h, hy => by
    rw [Ty.HasVariant] at hy
    rw [List.lookup_cons] at h
    rcases hy with ⟨rfl, hy⟩ | ⟨hn, hy⟩
    · rw [beq_self_eq_true] at h
      cases h
      rw [VTy.Has] at hy
      exact hy
    · rw [show (n == m) = false from by simpa using fun e => hn e.symm] at h
      exact variant_unit h hy

omit [FloatOps] in
/-- Keys of these types are what the text is that they are written as. -/
theorem Ty.returns_key : ∀ (t : Ty) (x : Val) (s : Str), t.returns = true → t.Has x → t.KeyText x = some s → t.KeyIs s x
  | .via t _ back, x, s, hr, hx, h => by
    rw [Ty.Has] at hx
    rw [Ty.returns] at hr
    rw [Ty.KeyText] at h
    rw [Ty.KeyIs]
    exact ⟨back x, Ty.returns_key t (back x) s hr hx.1 h, hx.2⟩
  | .enum _ vs, x, s, _, hx, h => by
    rw [Ty.Has] at hx
    obtain ⟨n, y, rfl, hy⟩ := hx
    rw [Ty.KeyText] at h
    rw [Ty.KeyIs]
    cases hl : vs.lookup n with
    | none => rw [hl] at h; cases h
    | some v =>
      rw [hl] at h
      cases v with
      | unit => cases h; exact ⟨hl, by rw [variant_unit hl hy]⟩
      | _ => cases h
  | .parsed _ parse text, x, s, _, hx, h => by
    rw [Ty.Has] at hx
    rw [Ty.KeyText] at h
    rw [Ty.KeyIs]
    cases h
    exact hx
  | .any _, x, s, _, hx, h => by
    rw [Ty.KeyIs]
    cases x <;> cases h
    rfl
  | .string, x, s, _, hx, h => by rw [Ty.Has] at hx; obtain ⟨y, rfl⟩ := hx; cases h; rfl
  | .pathBuf, x, s, _, hx, h => by rw [Ty.Has] at hx; obtain ⟨y, rfl⟩ := hx; cases h; rfl
  | .option _, x, s, hr, _, _ => nomatch hr
  | .newtype _ _, x, s, hr, _, _ => nomatch hr
  | .value, x, s, hr, _, _ => nomatch hr
  | .bool, _, _, _, _, h | .int _, _, _, _, _, h | .f32, _, _, _, _, h | .f64, _, _, _, _, h | .char, _, _, _, _, h
  | .unit, _, _, _, _, h | .unitStruct _, _, _, _, _, h | .seq _, _, _, _, _, h | .tuple _, _, _, _, _, h
  | .tupleStruct _ _, _, _, _, _, h | .map _, _, _, _, _, h | .pairs _, _, _, _, _, h | .keyed _ _, _, _, _, _, h
  | .struct _ _ _ _, _, _, _, _, h | .flat _ _ _ _, _, _, _, _, h | .tag, _, _, _, _, h | .flag, _, _, _, _, h => nomatch h

omit [FloatOps] in
/-- The map is written if all keys are text. -/
theorem serMap_ok {kt t : Ty} (ht : ∀ y, t.Has y → ∃ w, (t.ser y).serialize = .ok w) : ∀ (l : List (Val × Val)),
    (∀ e ∈ l, kt.Has e.1 ∧ t.Has e.2) → (∀ e ∈ l, (kt.KeyText e.1).isSome) →
    ∃ es, Ser.serializeMap (l.map fun e => (kt.ser e.1, t.ser e.2)) = .ok es ∧
      es.length = l.length ∧ ∀ (i : Nat) e s w, l[i]? = some e → es[i]? = some (s, w) →
        kt.KeyText e.1 = some s ∧ (t.ser e.2).serialize = .ok w
  | [], _, _ => ⟨[], rfl, rfl, fun _ _ _ _ h => by simp at h⟩
  | (x, y) :: l, h, hk => by
    obtain ⟨es, h1, h2, h3⟩ := serMap_ok ht l (fun e he => h e (List.mem_cons_of_mem _ he))
      fun e he => hk e (List.mem_cons_of_mem _ he)
    obtain ⟨hx, hy⟩ := h (x, y) (List.mem_cons_self ..)
    obtain ⟨w, hw⟩ := ht y hy
    obtain ⟨s, hs⟩ := Option.isSome_iff_exists.1 (hk (x, y) (List.mem_cons_self ..))
    obtain ⟨tg, hx'⟩ := (Ty.key_written hx).2 hs
    refine ⟨(s, w) :: es, ?_, by simp [h2], ?_⟩
    · rw [List.map_cons, Ser.serializeMap]
      dsimp only
      rw [hx']
      dsimp only
      rw [hw]
      dsimp only
      rw [h1]
    · intro i e s' w' he hes
      cases i with
      | zero =>
        simp only [List.getElem?_cons_zero, Option.some.injEq, Prod.mk.injEq] at he hes
        subst he
        obtain ⟨rfl, rfl⟩ := hes
        exact ⟨hs, hw⟩
      | succ i => exact h3 i e s' w' (by simpa using he) (by simpa using hes)

omit [FloatOps] in
/-- What the entries are written as. -/
theorem serMap_entries {kt t : Ty} : ∀ {l : List (Val × Val)} {es : List (Str × Value)},
    Ser.serializeMap (l.map fun e => (kt.ser e.1, t.ser e.2)) = .ok es → (∀ e ∈ l, kt.Has e.1) → es.length = l.length ∧
      ∀ (i : Nat) e s w, l[i]? = some e → es[i]? = some (s, w) → kt.KeyText e.1 = some s ∧ (t.ser e.2).serialize = .ok w
  | [], es, h, _ => by cases h; exact ⟨rfl, fun _ _ _ _ h => by simp at h⟩
  | (x, y) :: l, es, h, hk => by
    rw [List.map_cons, Ser.serializeMap] at h
    dsimp only at h
    cases h1 : (kt.ser x).serialize with
    | error e => rw [h1] at h; cases h
    | ok u =>
      rw [h1] at h
      cases u with
      | string tg s =>
        dsimp only at h
        cases h2 : (t.ser y).serialize with
        | error e => rw [h2] at h; cases h
        | ok w =>
          rw [h2] at h
          dsimp only at h
          cases h3 : Ser.serializeMap (l.map fun e => (kt.ser e.1, t.ser e.2)) with
          | error e => rw [h3] at h; cases h
          | ok vs =>
            rw [h3] at h
            cases h
            obtain ⟨h4, h5⟩ := serMap_entries h3 fun e he => hk e (List.mem_cons_of_mem _ he)
            refine ⟨by simp [h4], fun i e s' w' he hes => ?_⟩
            cases i with
            | zero =>
              simp only [List.getElem?_cons_zero, Option.some.injEq, Prod.mk.injEq] at he hes
              subst he
              obtain ⟨rfl, rfl⟩ := hes
              exact ⟨(Ty.key_written (hk (x, y) (List.mem_cons_self ..))).1 ⟨tg, h1⟩, h2⟩
            | succ i => exact h5 i e s' w' (by simpa using he) (by simpa using hes)
      | _ => cases h

omit [FloatOps] in
/-- The map is not written if a key is no text: the error tells of the first such. -/
theorem serMap_error {kt t : Ty} (hkt : ∀ x, kt.Has x → ∃ w, (kt.ser x).serialize = .ok w)
    (ht : ∀ y, t.Has y → ∃ w, (t.ser y).serialize = .ok w) : ∀ (l : List (Val × Val)),
    (∀ e ∈ l, kt.Has e.1 ∧ t.Has e.2) → ∀ (i : Nat) e, l[i]? = some e → kt.KeyText e.1 = none →
    (∀ j, j < i → ∀ e, l[j]? = some e → (kt.KeyText e.1).isSome) →
    ∃ w, (kt.ser e.1).serialize = .ok w ∧ Ser.serializeMap (l.map fun e => (kt.ser e.1, t.ser e.2)) =
      .error (Error.ofKind (.unsupportedKey w.toActual (str "string")))
  | [], _, i, e, h, _, _ => by simp at h
  | (x, y) :: l, h, i, e, he, hn, hb => by
    obtain ⟨hx, hy⟩ := h (x, y) (List.mem_cons_self ..)
    cases i with
    | zero =>
      simp only [List.getElem?_cons_zero, Option.some.injEq] at he
      subst he
      obtain ⟨w, hw⟩ := hkt x hx
      refine ⟨w, hw, ?_⟩
      rw [List.map_cons, Ser.serializeMap]
      dsimp only
      rw [hw]
      cases w with
      | string tg s =>
        have := (Ty.key_written hx).1 ⟨tg, hw⟩
        rw [hn] at this
        cases this
      | _ => rfl
    | succ i =>
      obtain ⟨s, hs⟩ := Option.isSome_iff_exists.1 (hb 0 (Nat.succ_pos i) (x, y) rfl)
      obtain ⟨tg, hx'⟩ := (Ty.key_written hx).2 hs
      obtain ⟨w', hw'⟩ := ht y hy
      obtain ⟨w, hw, h1⟩ := serMap_error hkt ht l (fun e he => h e (List.mem_cons_of_mem _ he)) i e (by simpa using he) hn
        fun j hj e' he' => hb (j + 1) (Nat.succ_lt_succ hj) e' (by simpa using he')
      refine ⟨w, hw, ?_⟩
      rw [List.map_cons, Ser.serializeMap]
      dsimp only
      rw [hx']
      dsimp only
      rw [hw']
      dsimp only
      rw [h1]

omit [FloatOps] in
/-- The first element that is not so. -/
theorem first_not {α : Type} {p : α → Bool} : ∀ l : List α, (¬ ∀ e ∈ l, p e = true) → ∃ (i : Nat) (e : α), l[i]? = some e ∧
    p e = false ∧ ∀ j, j < i → ∀ e, l[j]? = some e → p e = true
  | [], h => absurd nofun h
  | a :: l, h => by
    cases ha : p a with
    | false => exact ⟨0, a, rfl, ha, fun j hj => absurd hj (Nat.not_lt_zero j)⟩
    | true =>
      obtain ⟨i, e, h1, h2, h3⟩ := first_not l fun hl => h fun e he => by
        rcases List.mem_cons.1 he with rfl | he
        · exact ha
        · exact hl e he
      refine ⟨i + 1, e, by simpa using h1, h2, fun j hj e' he' => ?_⟩
      cases j with
      | zero => simp only [List.getElem?_cons_zero, Option.some.injEq] at he'; rw [← he']; exact ha
      | succ j => exact h3 j (Nat.lt_of_succ_lt_succ hj) e' (by simpa using he')

/-! ## Dictionaries -/

omit [FloatOps] in
/-- Of the entries with one key, the last stays. -/
theorem Map.get_ofList_last {α : Type _} (k : Str) (v : α) (l : List (Str × α)) : Map.get k (Map.ofList l) = some v ↔
    ∃ i : Nat, l[i]? = some (k, v) ∧ ∀ j, i < j → ∀ e, l[j]? = some e → e.1 ≠ k := by
  rw [Map.ofList, Map.get_extend, Map.get_nil, Option.or_none]
  induction l with
  | nil => exact ⟨nofun, fun ⟨i, h, _⟩ => by simp at h⟩
  | cons e l ih =>
    have hlast : Map.get k [e] = if e.1 = k then some e.2 else none := by
      by_cases h : e.1 = k
      · subst h
        rw [if_pos rfl]
        exact Map.get_eq_some_of_mem (List.pairwise_singleton _ _) (List.mem_singleton.2 rfl)
      · rw [if_neg h]
        refine Map.get_eq_none_of_forall fun a ha hc => h ?_
        rw [List.mem_singleton.1 ha] at hc
        exact (Std.LawfulEqOrd.eq_of_compare hc).symm
    rw [List.reverse_cons, Map.get_append, hlast]
    cases hg : Map.get k l.reverse with
    | some u =>
      rw [hg] at ih
      rw [Option.some_or]
      rw [ih]
      constructor
      · rintro ⟨i, h1, h2⟩
        refine ⟨i + 1, by simpa using h1, fun j hj a ha => ?_⟩
        cases j with
        | zero => exact absurd hj (Nat.not_lt_zero _)
        | succ j => exact h2 j (Nat.lt_of_succ_lt_succ hj) a (by simpa using ha)
      · rintro ⟨i, h1, h2⟩
        cases i with
        | succ i => exact ⟨i, by simpa using h1, fun j hj a ha => h2 (j + 1) (Nat.succ_lt_succ hj) a (by simpa using ha)⟩
        | zero =>
          obtain ⟨k', hm, hc⟩ := Map.mem_of_get hg
          obtain ⟨j, hj⟩ := List.getElem?_of_mem (List.mem_reverse.1 hm)
          exact absurd (Std.LawfulEqOrd.eq_of_compare hc).symm (h2 (j + 1) (Nat.succ_pos j) _ (by simpa using hj))
    | none =>
      have hno : ∀ a ∈ l, a.1 ≠ k := fun a ha h => by
        have := Map.get_isSome_of_mem (k := a.1) (v := a.2) (m := l.reverse) (List.mem_reverse.2 ha)
        rw [h, hg] at this
        cases this
      rw [Option.none_or]
      constructor
      · intro h
        split at h
        · next hk =>
          cases h
          subst hk
          refine ⟨0, rfl, fun j hj a ha => ?_⟩
          cases j with
          | zero => exact absurd hj (Nat.lt_irrefl _)
          | succ j => exact hno a (List.mem_of_getElem? (by simpa using ha))
        · cases h
      · rintro ⟨i, h1, _⟩
        cases i with
        | zero =>
          simp only [List.getElem?_cons_zero, Option.some.injEq] at h1
          subst h1
          rw [if_pos rfl]
        | succ i => exact absurd rfl (hno _ (List.mem_of_getElem? (by simpa using h1)))

omit [FloatOps] in
/-- Something for each entry. -/
theorem choose_each {P : Str × Value → Val → Val → Prop} : ∀ (a : List (Str × Value)),
    (∀ e ∈ a, ∃ x y, P e x y) → ∃ l : List (Val × Val), a.length = l.length ∧
      ∀ (i : Nat) s w x y, a[i]? = some (s, w) → l[i]? = some (x, y) → P (s, w) x y
  | [], _ => ⟨[], rfl, fun _ _ _ _ _ h => by simp at h⟩
  | (s, v) :: a, h => by
    obtain ⟨l, h2, h3⟩ := choose_each a fun e he => h e (List.mem_cons_of_mem _ he)
    obtain ⟨x, y, hp⟩ := h (s, v) (List.mem_cons_self ..)
    refine ⟨(x, y) :: l, by simp [h2], ?_⟩
    intro i s' w x' y' ha hl
    cases i with
    | zero =>
      simp only [List.getElem?_cons_zero, Option.some.injEq, Prod.mk.injEq] at ha hl
      obtain ⟨rfl, rfl⟩ := ha
      obtain ⟨rfl, rfl⟩ := hl
      exact hp
    | succ i => exact h3 i s' w x' y' (by simpa using ha) (by simpa using hl)

end Figment
