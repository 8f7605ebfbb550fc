import Verif.Lemmas.Keys
import Verif.Spec.Means
import Verif.Lemmas.Blame
import Verif.Lemmas.NumParse
import Verif.Props.Util
import Verif.Props.Num
/-!
# Lemmas: extraction gives what the value means
-/
namespace Figment

/-- The file of the provider of a tag, if there is a figment. -/
def cfgFile (c : Option Fig) (t : Tag) : Option Str := c.bind (·.fileAt t)

theorem Value.Fine.array {b : Bool} {t : Tag} {a : List Value} (h : (Value.array t a).Fine b) : ∀ w ∈ a, w.Fine b :=
  fun _ hw => h.element hw

theorem Value.Fine.dict {b : Bool} {t : Tag} {d : List (Str × Value)} (h : (Value.dict t d).Fine b) :
    ∀ e ∈ d, e.2.Fine b := fun _ he => h.entry he

theorem Value.Fine.get {b : Bool} {t : Tag} {d : List (Str × Value)} (h : (Value.dict t d).Fine b) {k : Str} {w : Value}
    (hg : Map.get k d = some w) : w.Fine b := by
  obtain ⟨k', hm, _⟩ := Map.mem_of_get hg
  exact h.dict _ hm

theorem any_iff {α : Type} {de : De} {V : Visitor α} {v : Value} {x : α} : de.deserializeAny V v = .ok x ↔ (match v with
    | .string _ s => V.visitStr s
    | .char _ c => V.visitChar c
    | .bool _ b => V.visitBool b
    | .num _ n => n.deserializeAny V
    | .empty _ e => e.deserializeAny V
    | .dict _ map => V.visitMap de map
    | .array _ seq => V.visitSeq de seq) = .ok x := by
  rw [De.deserializeAny.eq_def, R.mapErr_eq_ok]
  cases v <;> rfl

theorem Num.small_visited {n : Num} {i : Int} : n.visited.small? = some i ↔ n.IsInt i := by
  unfold Num.IsInt
  have key : ∀ n : Num, (Value.num Tag.Default n).is128 = false ↔ n.width ≠ some 128 := by
    intro n; cases n <;> simp [Value.is128, Num.width]
  cases h : (Value.num Tag.Default n).is128 with
  | false => rw [Num.small_eq h]; exact ⟨fun h1 => ⟨h1, (key n).1 h⟩, And.left⟩
  | true =>
    constructor
    · intro h1
      cases n with
      | u128 v => exact nomatch h1
      | i128 v => exact nomatch h1
      | _ => exact absurd h (by simp [Value.is128])
    · intro h1
      rw [(key n).2 h1.2] at h
      cases h

/-! ## Loops -/

theorem seqLoop_iff {run : Seed} {de : De} {P : Value → Val → Prop} : ∀ (a : List Value) (j : Nat) (l : List Val),
    (∀ w ∈ a, ∀ y, run de w = .ok y ↔ P w y) →
    (seqLoop run de j a = .ok l ↔ a.length = l.length ∧
      ∀ (i : Nat) w y, a[i]? = some w → l[i]? = some y → P w y)
  | [], j, l, _ => by
    rw [seqLoop]
    cases l with
    | nil => simp
    | cons y l => simp
  | v :: a, j, l, h => by
    rw [seqLoop]
    have ih := fun l => seqLoop_iff a (j + 1) l fun w hw => h w (List.mem_cons_of_mem _ hw)
    constructor
    · intro h1
      cases hx : SeqDe.nextElement run de j v with
      | error e => rw [hx] at h1; cases h1
      | ok x =>
        rw [hx] at h1
        cases hl : seqLoop run de (j + 1) a with
        | error e => rw [hl] at h1; cases h1
        | ok l' =>
          rw [hl] at h1
          cases h1
          have h2 := (ih l').1 hl
          rw [SeqDe.nextElement, R.mapErr_eq_ok] at hx
          refine ⟨by simp [h2.1], ?_⟩
          intro i w y hw hy
          cases i with
          | zero =>
            simp only [List.getElem?_cons_zero, Option.some.injEq] at hw hy
            subst hw hy
            exact (h v (List.mem_cons_self ..) x).1 hx
          | succ i => exact h2.2 i w y (by simpa using hw) (by simpa using hy)
    · rintro ⟨h1, h2⟩
      cases l with
      | nil => simp at h1
      | cons x l' =>
        have hx : SeqDe.nextElement run de j v = .ok x := by
          rw [SeqDe.nextElement, R.mapErr_eq_ok]
          exact (h v (List.mem_cons_self ..) x).2 (h2 0 v x rfl rfl)
        have hl := (ih l').2 ⟨by simpa using h1, fun i w y hw hy => h2 (i + 1) w y (by simpa using hw) (by simpa using hy)⟩
        rw [hx]
        dsimp only
        rw [hl]

theorem mapLoop_iff {run : Seed} {de : De} {P : Value → Val → Prop} : ∀ (d : List (Str × Value)) (l : List (Str × Val)),
    (∀ e ∈ d, ∀ y, run de e.2 = .ok y ↔ P e.2 y) →
    (mapLoop run de d = .ok l ↔ d.map (·.1) = l.map (·.1) ∧
      ∀ (i : Nat) k w y, d[i]? = some (k, w) → l[i]? = some (k, y) → P w y)
  | [], l, _ => by
    rw [mapLoop]
    cases l with
    | nil => simp
    | cons y l => simp
  | (k, v) :: a, l, h => by
    rw [mapLoop]
    have ih := fun l => mapLoop_iff a l fun w hw => h w (List.mem_cons_of_mem _ hw)
    constructor
    · intro h1
      cases hx : MapDe.nextValue run de k v with
      | error e => rw [hx] at h1; cases h1
      | ok x =>
        rw [hx] at h1
        cases hl : mapLoop run de a with
        | error e => rw [hl] at h1; cases h1
        | ok l' =>
          rw [hl] at h1
          cases h1
          have h2 := (ih l').1 hl
          rw [MapDe.nextValue, R.mapErr_eq_ok] at hx
          refine ⟨by simp [h2.1], ?_⟩
          intro i k' w y hw hy
          cases i with
          | zero =>
            simp only [List.getElem?_cons_zero, Option.some.injEq, Prod.mk.injEq] at hw hy
            obtain ⟨_, rfl⟩ := hw
            obtain ⟨_, rfl⟩ := hy
            exact (h (k, v) (List.mem_cons_self ..) x).1 hx
          | succ i => exact h2.2 i k' w y (by simpa using hw) (by simpa using hy)
    · rintro ⟨h1, h2⟩
      cases l with
      | nil => simp at h1
      | cons e l' =>
        obtain ⟨k', x⟩ := e
        simp only [List.map_cons, List.cons.injEq] at h1
        obtain ⟨rfl, h1⟩ := h1
        have hx : MapDe.nextValue run de k v = .ok x := by
          rw [MapDe.nextValue, R.mapErr_eq_ok]
          exact (h (k, v) (List.mem_cons_self ..) x).2 (h2 0 k v x rfl rfl)
        have hl := (ih l').2 ⟨h1, fun i k w y hw hy => h2 (i + 1) k w y (by simpa using hw) (by simpa using hy)⟩
        rw [hx]
        dsimp only
        rw [hl]

/-- The fields read from a dictionary. -/
def FieldsRun (de : De) : List FieldSeed → Dict → List Val → Prop
  | [], _, l => l = []
  | f :: fs, d, l => ∃ y l', l = y :: l' ∧ FieldsRun de fs d l' ∧
    ((∃ w, Map.get f.name d = some w ∧ f.run de w = .ok y) ∨ (Map.get f.name d = none ∧ f.missing = .ok y))

theorem Map.sorted_head_notin {α : Type} {k : Str} {v : α} {d : List (Str × α)} (h : Map.Sorted ((k, v) :: d)) :
    k ∉ d.map (·.1) := by
  intro hk
  obtain ⟨e, he, rfl⟩ := List.mem_map.1 hk
  have := (List.pairwise_cons.1 h).1 e he
  rw [Std.ReflOrd.compare_self] at this
  cases this

theorem fieldLoop_ok {de : De} {deny : Bool} {fs : List FieldSeed} : ∀ (d : List (Str × Value)) (acc acc' : List (Str × Val)),
    Map.Sorted d → fieldLoop de deny fs d acc = .ok acc' →
    (∀ e ∈ d, ∀ f, fs.find? (fun f => f.name = e.1) = some f →
      ∃ x, f.run de e.2 = .ok x ∧ acc'.lookup e.1 = some x) ∧
    (deny = true → ∀ e ∈ d, (fs.find? (fun f => f.name = e.1)).isSome = true) ∧
    ∀ k, k ∉ d.map (·.1) → acc'.lookup k = acc.lookup k
  | [], acc, acc', _, h => by
    rw [fieldLoop] at h
    cases h
    exact ⟨nofun, fun _ => nofun, fun _ _ => rfl⟩
  | (k, v) :: r, acc, acc', hs, h => by
    rw [fieldLoop] at h
    have hk := Map.sorted_head_notin hs
    cases hf : fs.find? (fun f => f.name = k) with
    | some f =>
      rw [hf] at h
      dsimp only at h
      cases hx : MapDe.nextValue f.run de k v with
      | error e => rw [hx] at h; cases h
      | ok x =>
        rw [hx] at h
        obtain ⟨h1, h2, h3⟩ := fieldLoop_ok r _ _ hs.tail h
        rw [MapDe.nextValue, R.mapErr_eq_ok] at hx
        refine ⟨?_, ?_, ?_⟩
        · intro e he f' hf'
          rcases List.mem_cons.1 he with rfl | he
          · dsimp only at hf'
            rw [hf] at hf'
            cases hf'
            exact ⟨x, hx, by rw [h3 k hk]; simp⟩
          · exact h1 e he f' hf'
        · intro hd e he
          rcases List.mem_cons.1 he with rfl | he
          · dsimp only; rw [hf]; rfl
          · exact h2 hd e he
        · intro k' hk'
          simp only [List.map_cons, List.mem_cons, not_or] at hk'
          rw [h3 k' hk'.2, List.lookup_cons, beq_eq_false_iff_ne.2 hk'.1]
    | none =>
      rw [hf] at h
      dsimp only at h
      cases deny with
      | true => rw [if_pos rfl] at h; cases h
      | false =>
        rw [if_neg (by simp)] at h
        obtain ⟨h1, h2, h3⟩ := fieldLoop_ok r _ _ hs.tail h
        refine ⟨?_, nofun, ?_⟩
        · intro e he f' hf'
          rcases List.mem_cons.1 he with rfl | he
          · dsimp only at hf'
            rw [hf] at hf'
            cases hf'
          · exact h1 e he f' hf'
        · intro k' hk'
          simp only [List.map_cons, List.mem_cons, not_or] at hk'
          exact h3 k' hk'.2

theorem fieldLoop_ok_of {de : De} {deny : Bool} {fs : List FieldSeed} : ∀ (d : List (Str × Value)) (acc : List (Str × Val)),
    (∀ e ∈ d, ∀ f, fs.find? (fun f => f.name = e.1) = some f → ∃ x, f.run de e.2 = .ok x) →
    (deny = true → ∀ e ∈ d, (fs.find? (fun f => f.name = e.1)).isSome = true) →
    ∃ acc', fieldLoop de deny fs d acc = .ok acc'
  | [], acc, _, _ => ⟨acc, rfl⟩
  | (k, v) :: r, acc, h1, h2 => by
    rw [fieldLoop]
    have ih := fun acc => fieldLoop_ok_of r acc (fun e he => h1 e (List.mem_cons_of_mem _ he))
      (fun hd e he => h2 hd e (List.mem_cons_of_mem _ he))
    cases hf : fs.find? (fun f => f.name = k) with
    | some f =>
      obtain ⟨x, hx⟩ := h1 (k, v) (List.mem_cons_self ..) f hf
      have : MapDe.nextValue f.run de k v = .ok x := by rw [MapDe.nextValue, R.mapErr_eq_ok]; exact hx
      dsimp only
      rw [this]
      exact ih _
    | none =>
      dsimp only
      cases deny with
      | true => have := h2 rfl (k, v) (List.mem_cons_self ..); rw [hf] at this; cases this
      | false => rw [if_neg (by simp)]; exact ih _

theorem fieldFinish_iff {acc : List (Str × Val)} {de : De} {d : Dict} : ∀ (fs : List FieldSeed) (l : List Val),
    (∀ f ∈ fs, ∀ y, f.get acc = .ok y ↔ ((∃ w, Map.get f.name d = some w ∧ f.run de w = .ok y) ∨
      (Map.get f.name d = none ∧ f.missing = .ok y))) →
    (fieldFinish acc fs = .ok l ↔ FieldsRun de fs d l)
  | [], l, _ => by
    rw [fieldFinish, FieldsRun]
    exact ⟨fun h => (Except.ok.inj h).symm, fun h => h ▸ rfl⟩
  | f :: fs, l, h => by
    rw [fieldFinish, FieldsRun]
    have ih := fun l => fieldFinish_iff (acc := acc) (de := de) (d := d) fs l fun f hf => h f (List.mem_cons_of_mem _ hf)
    have hf := h f (List.mem_cons_self ..)
    constructor
    · intro h1
      cases hg : f.get acc with
      | error e => rw [hg] at h1; cases h1
      | ok y =>
        rw [hg] at h1
        cases hl : fieldFinish acc fs with
        | error e => rw [hl] at h1; cases h1
        | ok l' =>
          rw [hl] at h1
          cases h1
          exact ⟨y, l', rfl, (ih l').1 hl, (hf y).1 hg⟩
    · rintro ⟨y, l', rfl, h1, h2⟩
      rw [(hf y).2 h2]
      dsimp only
      rw [(ih l').2 h1]

theorem FieldsRun.mem {de : De} {d : Dict} : ∀ {fs : List FieldSeed} {l : List Val}, FieldsRun de fs d l →
    ∀ f ∈ fs, ∀ w, Map.get f.name d = some w → ∃ y, f.run de w = .ok y
  | [], _, _, f, hf, _, _ => nomatch hf
  | g :: fs, l, h, f, hf, w, hw => by
    rw [FieldsRun] at h
    obtain ⟨y, l', _, h1, h2⟩ := h
    rcases List.mem_cons.1 hf with rfl | hf
    · rcases h2 with ⟨w', hw', hy⟩ | ⟨hn, _⟩
      · rw [hw] at hw'; cases hw'; exact ⟨y, hy⟩
      · rw [hw] at hn; cases hn
    · exact FieldsRun.mem h1 f hf w hw

theorem find_name {fs : List FieldSeed} (hn : (fs.map (·.name)).Nodup) {f : FieldSeed} (hf : f ∈ fs) :
    fs.find? (fun g => g.name = f.name) = some f := by
  induction fs with
  | nil => cases hf
  | cons g fs ih =>
    rw [List.map_cons, List.nodup_cons] at hn
    rw [List.find?_cons]
    rcases List.mem_cons.1 hf with rfl | hf
    · simp
    · have : g.name ≠ f.name := fun h => hn.1 (h ▸ List.mem_map_of_mem hf)
      simp only [decide_eq_false this]
      exact ih hn.2 hf

theorem struct_iff {de : De} {a b : Str} {deny : Bool} {fs : List FieldSeed} {d : Dict} {x : Val} (hs : Map.Sorted d)
    (hn : (fs.map (·.name)).Nodup) :
    (structVisitor a b deny fs).visitMap de d = .ok x ↔ ∃ l, x = .struct l ∧ FieldsRun de fs d l ∧
      (deny = true → ∀ e ∈ d, e.1 ∈ fs.map (·.name)) := by
  have hdeny : (∀ e ∈ d, (fs.find? (fun f => f.name = e.1)).isSome = true) ↔ ∀ e ∈ d, e.1 ∈ fs.map (·.name) := by
    refine ⟨fun h e he => ?_, fun h e he => ?_⟩
    · have := h e he
      rw [List.find?_isSome] at this
      obtain ⟨f, hf, h2⟩ := this
      exact List.mem_map.2 ⟨f, hf, of_decide_eq_true h2⟩
    · obtain ⟨f, hf, h2⟩ := List.mem_map.1 (h e he)
      rw [List.find?_isSome]
      exact ⟨f, hf, decide_eq_true h2⟩
  unfold structVisitor
  dsimp only
  have fin : ∀ acc, fieldLoop de deny fs d [] = .ok acc → ∀ l, (fieldFinish acc fs = .ok l ↔ FieldsRun de fs d l) := by
    intro acc hacc l
    obtain ⟨h1, h2, h3⟩ := fieldLoop_ok d [] acc hs hacc
    refine fieldFinish_iff fs l ?_
    intro f hf y
    unfold FieldSeed.get
    cases hg : Map.get f.name d with
    | none =>
      have : f.name ∉ d.map (·.1) := by
        intro hm
        obtain ⟨e, he, h4⟩ := List.mem_map.1 hm
        have := Map.get_isSome_of_mem (k := e.1) (v := e.2) (m := d) he
        rw [h4, hg] at this
        cases this
      rw [h3 _ this]
      constructor
      · intro h; exact .inr ⟨rfl, h⟩
      · rintro (⟨w, h, _⟩ | ⟨_, h⟩)
        · cases h
        · exact h
    | some w =>
      obtain ⟨k, hm, hc⟩ := Map.mem_of_get hg
      have hk : f.name = k := Std.LawfulEqOrd.eq_of_compare hc
      subst hk
      obtain ⟨x, hx, hl⟩ := h1 _ hm f (find_name hn hf)
      dsimp only at hx hl
      rw [hl]
      constructor
      · intro h; cases h; exact .inl ⟨w, rfl, hx⟩
      · rintro (⟨w', h, h'⟩ | ⟨h, _⟩)
        · cases h; rw [hx] at h'; exact h'
        · cases h
  constructor
  · intro h
    cases hl : fieldLoop de deny fs d [] with
    | error e => rw [hl] at h; cases h
    | ok acc =>
      rw [hl] at h
      dsimp only at h
      cases hf : fieldFinish acc fs with
      | error e => rw [hf] at h; cases h
      | ok l =>
        rw [hf] at h
        cases h
        exact ⟨l, rfl, (fin acc hl l).1 hf, fun hd => hdeny.1 ((fieldLoop_ok d [] acc hs hl).2.1 hd)⟩
  · rintro ⟨l, rfl, h1, h2⟩
    obtain ⟨acc, hacc⟩ := fieldLoop_ok_of (de := de) (deny := deny) (fs := fs) d [] (by
      intro e he f hf
      have hfm := List.mem_of_find?_eq_some hf
      have hname : f.name = e.1 := by simpa using List.find?_some hf
      exact h1.mem f hfm e.2 (by rw [hname]; exact Map.get_eq_some_of_mem hs he)) (fun hd => hdeny.2 (h2 hd))
    rw [hacc]
    dsimp only
    rw [(fin acc hacc l).2 h1]

variable [FloatOps]

theorem num_iff {V : Visitor Val} (hV : NumOnly V) {c : Option Fig} {l : Bool} (hc : c = none → l = false) {v : Value}
    {x : Val} : De.deserializeNum ⟨c, l⟩ V v = .ok x ↔ ∃ n, v.IsNum l n ∧ V.visitNum n.visited = .ok x := by
  have strict : ∀ v : Value, De.plain.deserializeAny V v = .ok x ↔ ∃ t n, v = .num t n ∧ V.visitNum n.visited = .ok x := by
    intro v
    rw [any_iff]
    cases v with
    | num t n =>
      dsimp only
      rw [Num.deserializeAny_visited]
      exact ⟨fun h => ⟨t, n, rfl, h⟩, fun ⟨_, _, h, h'⟩ => by cases h; exact h'⟩
    | empty t e =>
      cases e with
      | none => exact ⟨fun h => absurd h (hV.none x), nofun⟩
      | unit => exact ⟨fun h => absurd h (hV.unit x), nofun⟩
    | bool t b => exact ⟨fun h => absurd h (hV.bool b x), nofun⟩
    | string t s => exact ⟨fun h => absurd h (hV.str s x), nofun⟩
    | char t s => exact ⟨fun h => absurd h (hV.char s x), nofun⟩
    | dict t d => exact ⟨fun h => absurd h (hV.map _ _ x), nofun⟩
    | array t d => exact ⟨fun h => absurd h (hV.seq _ _ x), nofun⟩
  have strict' : (∃ t n, v = .num t n ∧ V.visitNum n.visited = .ok x) ↔
      ∃ n, v.IsNum false n ∧ V.visitNum n.visited = .ok x := by
    constructor
    · rintro ⟨t, n, h, h'⟩
      exact ⟨n, .inl ⟨t, h⟩, h'⟩
    · rintro ⟨n, ⟨t, h⟩ | ⟨h, _⟩, h'⟩
      · exact ⟨t, n, h, h'⟩
      · cases h
  unfold De.deserializeNum
  cases c with
  | none =>
    cases hc rfl
    exact (strict v).trans strict'
  | some f =>
  dsimp only
  rw [R.mapErr_eq_ok, strict]
  unfold De.interpretAsNum
  dsimp only
  cases l with
  | false =>
    rw [if_neg (by simp)]
    exact strict'
  | true =>
    rw [if_pos rfl]
    have hnum : ∀ n, v.toNumLossy = some n ↔ v.IsNum true n := by
      intro n
      rw [C44_num, Value.IsNum]
      simp
    cases hv : v.toNumLossy with
    | some n =>
      dsimp only
      constructor
      · rintro ⟨t, m, h, h'⟩
        cases h
        exact ⟨n, (hnum n).1 hv, h'⟩
      · rintro ⟨m, h, h'⟩
        rw [(hnum m).2 h] at hv
        cases hv
        exact ⟨_, _, rfl, h'⟩
    | none =>
      dsimp only
      constructor
      · rintro ⟨t, m, h, h'⟩
        subst h
        cases hv
      · rintro ⟨m, h, h'⟩
        rw [(hnum m).2 h] at hv
        cases hv

omit [FloatOps] in
theorem bool_iff {c : Option Fig} {l : Bool} (hc : c = none → l = false) {v : Value} {x : Val} :
    De.deserializeBool ⟨c, l⟩ boolVisitor v = .ok x ↔ ∃ b, x = .bool b ∧ v.IsBool l b := by
  have strict : ∀ v : Value, De.plain.deserializeAny boolVisitor v = .ok x ↔ ∃ t b, v = .bool t b ∧ x = .bool b := by
    intro v
    rw [any_iff]
    cases v with
    | bool t b => exact ⟨fun h => ⟨t, b, rfl, (Except.ok.inj h).symm⟩, fun ⟨_, _, h, h'⟩ => by cases h; rw [h']; rfl⟩
    | empty t e => cases e <;> exact ⟨nofun, nofun⟩
    | num t n =>
      dsimp only
      rw [Num.deserializeAny_visited]
      exact ⟨nofun, nofun⟩
    | _ => exact ⟨nofun, nofun⟩
  have strict' : (∃ t b, v = .bool t b ∧ x = .bool b) ↔ ∃ b, x = .bool b ∧ v.IsBool false b := by
    constructor
    · rintro ⟨t, n, h, h'⟩
      exact ⟨n, h', .inl ⟨t, h⟩⟩
    · rintro ⟨n, h', ⟨t, h⟩ | ⟨h, _⟩⟩
      · exact ⟨t, n, h, h'⟩
      · cases h
  unfold De.deserializeBool
  cases c with
  | none =>
    cases hc rfl
    exact (strict v).trans strict'
  | some f =>
  dsimp only
  rw [R.mapErr_eq_ok, strict]
  unfold De.interpretAsBool
  dsimp only
  cases l with
  | false =>
    rw [if_neg (by simp)]
    exact strict'
  | true =>
    rw [if_pos rfl]
    have hb : ∀ n, v.toBoolLossy = some n ↔ v.IsBool true n := by
      intro n
      rw [C44_bool, Value.IsBool]
      simp
    cases hv : v.toBoolLossy with
    | some n =>
      dsimp only
      constructor
      · rintro ⟨t, m, h, h'⟩
        cases h
        exact ⟨n, h', (hb n).1 hv⟩
      · rintro ⟨m, h', h⟩
        rw [(hb m).2 h] at hv
        cases hv
        exact ⟨_, _, rfl, h'⟩
    | none =>
      dsimp only
      constructor
      · rintro ⟨t, m, h, h'⟩
        subst h
        cases hv
      · rintro ⟨m, h', h⟩
        rw [(hb m).2 h] at hv
        cases hv

omit [FloatOps] in
theorem int_iff {t : IntTy} {n : Num} {x : Val} : (intVisitor t).visitNum n.visited = .ok x ↔
    ∃ i, n.IsInt i ∧ t.min ≤ i ∧ i ≤ t.max ∧ x = .int i := by
  show (match n.visited.small? with
    | some i => if t.has i then Except.ok (Val.int i) else invalidValue n.visited.toActual t.name
    | none => invalidType n.visited.unexpected t.name) = .ok x ↔ _
  constructor
  · intro h
    cases hs : n.visited.small? with
    | none => rw [hs] at h; cases h
    | some i =>
      rw [hs] at h
      dsimp only at h
      split at h
      · next hh =>
        simp only [IntTy.has, Bool.and_eq_true, decide_eq_true_eq] at hh
        exact ⟨i, Num.small_visited.1 hs, hh.1, hh.2, (Except.ok.inj h).symm⟩
      · cases h
  · rintro ⟨i, h1, h2, h3, rfl⟩
    rw [Num.small_visited.2 h1]
    dsimp only
    rw [if_pos (by simp [IntTy.has, h2, h3])]

theorem f32_iff {n : Num} {x : Val} : f32Visitor.visitNum n.visited = .ok x ↔ ∃ y, x = .f32 y ∧
    (n = .f32 y ∨ (∃ z, n = .f64 z ∧ y = FloatOps.narrow z) ∨ ∃ i, n.IsInt i ∧ y = FloatOps.ofInt32 i) := by
  have hi : ∀ n : Num, (∀ y, n ≠ .f32 y) → (∀ y, n ≠ .f64 y) → f32Visitor.visitNum n.visited =
      match n.visited.small? with
      | some i => .ok (.f32 (FloatOps.ofInt32 i))
      | none => invalidType n.visited.unexpected (str "f32") := by
    intro n h1 h2
    cases n with
    | f32 y => exact absurd rfl (h1 y)
    | f64 y => exact absurd rfl (h2 y)
    | usize k =>
      show f32Visitor.visitNum (Num.tryUsize k) = match (Num.tryUsize k).small? with
        | some i => .ok (.f32 (FloatOps.ofInt32 i))
        | none => invalidType (Num.tryUsize k).unexpected (str "f32")
      unfold Num.tryUsize
      split
      · rfl
      split
      · rfl
      split <;> rfl
    | isize k =>
      show f32Visitor.visitNum (Num.tryIsize k) = match (Num.tryIsize k).small? with
        | some i => .ok (.f32 (FloatOps.ofInt32 i))
        | none => invalidType (Num.tryIsize k).unexpected (str "f32")
      unfold Num.tryIsize
      split
      · rfl
      split
      · rfl
      split <;> rfl
    | _ => rfl
  by_cases h1 : ∃ y, n = .f32 y
  · obtain ⟨y, rfl⟩ := h1
    constructor
    · intro h; exact ⟨y, (Except.ok.inj h).symm, .inl rfl⟩
    · rintro ⟨y, rfl, h | ⟨z, h, _⟩ | ⟨i, h, _⟩⟩
      · cases h; rfl
      · cases h
      · cases h.1
  by_cases h2 : ∃ y, n = .f64 y
  · obtain ⟨y, rfl⟩ := h2
    constructor
    · intro h; exact ⟨_, (Except.ok.inj h).symm, .inr (.inl ⟨y, rfl, rfl⟩)⟩
    · rintro ⟨y, rfl, h | ⟨z, h, rfl⟩ | ⟨i, h, _⟩⟩
      · cases h
      · cases h; rfl
      · cases h.1
  rw [hi n (fun y h => h1 ⟨y, h⟩) (fun y h => h2 ⟨y, h⟩)]
  constructor
  · intro h
    cases hs : n.visited.small? with
    | none => rw [hs] at h; cases h
    | some i => rw [hs] at h; exact ⟨_, (Except.ok.inj h).symm, .inr (.inr ⟨i, Num.small_visited.1 hs, rfl⟩)⟩
  · rintro ⟨y, rfl, h | ⟨z, h, _⟩ | ⟨i, h, rfl⟩⟩
    · exact absurd ⟨_, h⟩ h1
    · exact absurd ⟨_, h⟩ h2
    · rw [Num.small_visited.2 h]

theorem f64_iff {n : Num} {x : Val} : f64Visitor.visitNum n.visited = .ok x ↔ ∃ y, x = .f64 y ∧
    (n = .f64 y ∨ (∃ z, n = .f32 z ∧ y = z.toF64) ∨ ∃ i, n.IsInt i ∧ y = FloatOps.ofInt64 i) := by
  have hi : ∀ n : Num, (∀ y, n ≠ .f32 y) → (∀ y, n ≠ .f64 y) → f64Visitor.visitNum n.visited =
      match n.visited.small? with
      | some i => .ok (.f64 (FloatOps.ofInt64 i))
      | none => invalidType n.visited.unexpected (str "f64") := by
    intro n h1 h2
    cases n with
    | f32 y => exact absurd rfl (h1 y)
    | f64 y => exact absurd rfl (h2 y)
    | usize k =>
      show f64Visitor.visitNum (Num.tryUsize k) = match (Num.tryUsize k).small? with
        | some i => .ok (.f64 (FloatOps.ofInt64 i))
        | none => invalidType (Num.tryUsize k).unexpected (str "f64")
      unfold Num.tryUsize
      split
      · rfl
      split
      · rfl
      split <;> rfl
    | isize k =>
      show f64Visitor.visitNum (Num.tryIsize k) = match (Num.tryIsize k).small? with
        | some i => .ok (.f64 (FloatOps.ofInt64 i))
        | none => invalidType (Num.tryIsize k).unexpected (str "f64")
      unfold Num.tryIsize
      split
      · rfl
      split
      · rfl
      split <;> rfl
    | _ => rfl
  by_cases h1 : ∃ y, n = .f32 y
  · obtain ⟨y, rfl⟩ := h1
    constructor
    · intro h; exact ⟨_, (Except.ok.inj h).symm, .inr (.inl ⟨y, rfl, rfl⟩)⟩
    · rintro ⟨y, rfl, h | ⟨z, h, rfl⟩ | ⟨i, h, _⟩⟩
      · cases h
      · cases h; rfl
      · cases h.1
  by_cases h2 : ∃ y, n = .f64 y
  · obtain ⟨y, rfl⟩ := h2
    constructor
    · intro h; exact ⟨y, (Except.ok.inj h).symm, .inl rfl⟩
    · rintro ⟨y, rfl, h | ⟨z, h, _⟩ | ⟨i, h, _⟩⟩
      · cases h; rfl
      · cases h
      · cases h.1
  rw [hi n (fun y h => h1 ⟨y, h⟩) (fun y h => h2 ⟨y, h⟩)]
  constructor
  · intro h
    cases hs : n.visited.small? with
    | none => rw [hs] at h; cases h
    | some i => rw [hs] at h; exact ⟨_, (Except.ok.inj h).symm, .inr (.inr ⟨i, Num.small_visited.1 hs, rfl⟩)⟩
  · rintro ⟨y, rfl, h | ⟨z, h, _⟩ | ⟨i, h, rfl⟩⟩
    · exact absurd ⟨_, h⟩ h2
    · exact absurd ⟨_, h⟩ h1
    · rw [Num.small_visited.2 h]

omit [FloatOps] in
theorem char_iff {de : De} {v : Value} {x : Val} : de.deserializeAny charVisitor v = .ok x ↔
    ∃ c, x = .char c ∧ v.text? = some [c] := by
  rw [any_iff]
  cases v with
  | string t s =>
    show (match s with | [c] => Except.ok (Val.char c) | _ => invalidValue (.str s) (str "a character")) = .ok x ↔ _
    match s with
    | [] => exact ⟨nofun, nofun⟩
    | [c] => exact ⟨fun h => ⟨c, (Except.ok.inj h).symm, rfl⟩, fun ⟨_, h, h'⟩ => by cases h'; rw [h]⟩
    | _ :: _ :: _ => exact ⟨nofun, fun ⟨_, _, h⟩ => by cases h⟩
  | char t c => exact ⟨fun h => ⟨c, (Except.ok.inj h).symm, rfl⟩, fun ⟨_, h, h'⟩ => by cases h'; rw [h]; rfl⟩
  | empty t e => cases e <;> exact ⟨nofun, nofun⟩
  | num t n => dsimp only; rw [Num.deserializeAny_visited]; exact ⟨nofun, nofun⟩
  | _ => exact ⟨nofun, nofun⟩

omit [FloatOps] in
theorem string_iff {de : De} {v : Value} {x : Val} : de.deserializeAny stringVisitor v = .ok x ↔
    ∃ s, x = .str s ∧ v.text? = some s := by
  rw [any_iff]
  cases v with
  | string t s => exact ⟨fun h => ⟨s, (Except.ok.inj h).symm, rfl⟩, fun ⟨_, h, h'⟩ => by cases h'; rw [h]; rfl⟩
  | char t c => exact ⟨fun h => ⟨[c], (Except.ok.inj h).symm, rfl⟩, fun ⟨_, h, h'⟩ => by cases h'; rw [h]; rfl⟩
  | empty t e => cases e <;> exact ⟨nofun, nofun⟩
  | num t n => dsimp only; rw [Num.deserializeAny_visited]; exact ⟨nofun, nofun⟩
  | _ => exact ⟨nofun, nofun⟩

omit [FloatOps] in
theorem path_iff {de : De} {v : Value} {x : Val} : de.deserializeAny pathVisitor v = .ok x ↔
    ∃ s, x = .str s ∧ v.text? = some s := by
  rw [any_iff]
  cases v with
  | string t s => exact ⟨fun h => ⟨s, (Except.ok.inj h).symm, rfl⟩, fun ⟨_, h, h'⟩ => by cases h'; rw [h]; rfl⟩
  | char t c => exact ⟨fun h => ⟨[c], (Except.ok.inj h).symm, rfl⟩, fun ⟨_, h, h'⟩ => by cases h'; rw [h]; rfl⟩
  | empty t e => cases e <;> exact ⟨nofun, nofun⟩
  | num t n => dsimp only; rw [Num.deserializeAny_visited]; exact ⟨nofun, nofun⟩
  | _ => exact ⟨nofun, nofun⟩

omit [FloatOps] in
theorem unit_iff {s : Str} {de : De} {v : Value} {x : Val} : de.deserializeAny (unitVisitor s) v = .ok x ↔
    x = .unit ∧ ∃ tag, v = .empty tag .unit := by
  rw [any_iff]
  cases v with
  | empty t e =>
    cases e with
    | none => exact ⟨nofun, fun ⟨_, _, h⟩ => by cases h⟩
    | unit => exact ⟨fun h => ⟨(Except.ok.inj h).symm, t, rfl⟩, fun ⟨h, _⟩ => by rw [h]; rfl⟩
  | num t n => dsimp only; rw [Num.deserializeAny_visited]; exact ⟨nofun, nofun⟩
  | _ => exact ⟨nofun, nofun⟩

omit [FloatOps] in
theorem option_iff {run : Seed} {c : Option Fig} {l : Bool} {v : Value} {x : Val} :
    De.deserializeOption ⟨c, l⟩ (optionVisitor run) v = .ok x ↔
    (x = .none ∧ ∃ tag e, v = .empty tag e) ∨ ((∀ tag e, v ≠ .empty tag e) ∧ ∃ y, x = .some y ∧ run ⟨c, l⟩ v = .ok y) := by
  have some' : ∀ v : Value, (∀ tag e, v ≠ .empty tag e) → ((optionVisitor run).visitSome ⟨c, l⟩ v = .ok x ↔
      (x = .none ∧ ∃ tag e, v = .empty tag e) ∨
        ((∀ tag e, v ≠ .empty tag e) ∧ ∃ y, x = .some y ∧ run ⟨c, l⟩ v = .ok y)) := by
    intro v hv
    show (match run ⟨c, l⟩ v with | .ok x => Except.ok (Val.some x) | .error e => .error e) = .ok x ↔ _
    constructor
    · intro h
      cases hr : run ⟨c, l⟩ v with
      | error e => rw [hr] at h; cases h
      | ok y => rw [hr] at h; exact .inr ⟨hv, y, (Except.ok.inj h).symm, rfl⟩
    · rintro (⟨_, tag, e, h⟩ | ⟨_, y, rfl, h⟩)
      · exact absurd h (hv tag e)
      · rw [h]
  have hopt : De.deserializeOption ⟨c, l⟩ (optionVisitor run) v = .ok x ↔ (match v with
      | .empty _ e => e.deserializeAny (optionVisitor run)
      | _ => (optionVisitor run).visitSome ⟨c, l⟩ v) = .ok x := by
    unfold De.deserializeOption
    cases c with
    | none => cases v <;> first | exact Iff.rfl | exact R.mapErr_eq_ok
    | some f => exact R.mapErr_eq_ok
  rw [hopt]
  cases v with
  | empty t e =>
    cases e with
    | none =>
      refine ⟨fun h => .inl ⟨(Except.ok.inj h).symm, _, _, rfl⟩, ?_⟩
      rintro (⟨rfl, _⟩ | ⟨h, _⟩)
      · rfl
      · exact absurd rfl (h _ _)
    | unit =>
      refine ⟨fun h => .inl ⟨(Except.ok.inj h).symm, _, _, rfl⟩, ?_⟩
      rintro (⟨rfl, _⟩ | ⟨h, _⟩)
      · rfl
      · exact absurd rfl (h _ _)
  | _ => exact some' _ nofun

omit [FloatOps] in
theorem seq_iff {run : Seed} {de : De} {v : Value} {x : Val} : de.deserializeAny (seqVisitor run) v = .ok x ↔
    ∃ tag a l, v = .array tag a ∧ x = .seq l ∧ seqLoop run de 0 a = .ok l := by
  rw [any_iff]
  cases v with
  | array t a =>
    show (match seqLoop run de 0 a with | .ok l => Except.ok (Val.seq l) | .error e => .error e) = .ok x ↔ _
    constructor
    · intro h
      cases hl : seqLoop run de 0 a with
      | error e => rw [hl] at h; cases h
      | ok l => rw [hl] at h; exact ⟨t, a, l, rfl, (Except.ok.inj h).symm, hl⟩
    · rintro ⟨t', a', l, h1, rfl, h⟩
      cases h1
      rw [h]
  | empty t e => cases e <;> exact ⟨nofun, nofun⟩
  | num t n => dsimp only; rw [Num.deserializeAny_visited]; exact ⟨nofun, nofun⟩
  | _ => exact ⟨nofun, nofun⟩

omit [FloatOps] in
theorem tuple_iff {s s' : Str} {runs : List Seed} {de : De} {v : Value} {x : Val} :
    de.deserializeAny (tupleVisitor s s' runs) v = .ok x ↔
    ∃ tag a l, v = .array tag a ∧ x = .seq l ∧ tupleLoop s' de 0 (runs.map fun run => (none, run)) a = .ok l := by
  rw [any_iff]
  cases v with
  | array t a =>
    show (match tupleLoop s' de 0 (runs.map fun run => (none, run)) a with
      | .ok l => Except.ok (Val.seq l) | .error e => .error e) = .ok x ↔ _
    constructor
    · intro h
      cases hl : tupleLoop s' de 0 (runs.map fun run => (none, run)) a with
      | error e => rw [hl] at h; cases h
      | ok l => rw [hl] at h; exact ⟨t, a, l, rfl, (Except.ok.inj h).symm, hl⟩
    · rintro ⟨t', a', l, h1, rfl, h⟩
      cases h1
      rw [h]
  | empty t e => cases e <;> exact ⟨nofun, nofun⟩
  | num t n => dsimp only; rw [Num.deserializeAny_visited]; exact ⟨nofun, nofun⟩
  | _ => exact ⟨nofun, nofun⟩

omit [FloatOps] in
theorem mapLoop_keys {run : Seed} {de : De} : ∀ {d : List (Str × Value)} {l : List (Str × Val)}, mapLoop run de d = .ok l →
    d.map (·.1) = l.map (·.1) := by
  intro d l h
  exact ((mapLoop_iff (P := fun w y => run de w = .ok y) d l fun _ _ _ => Iff.rfl).1 h).1

omit [FloatOps] in
theorem map_iff {run : Seed} {de : De} {v : Value} (hv : v.WF) {x : Val} : de.deserializeAny (mapVisitor run) v = .ok x ↔
    ∃ tag d l, v = .dict tag d ∧ x = .map l ∧ mapLoop run de d = .ok l := by
  rw [any_iff]
  cases v with
  | dict t d =>
    have hs : ∀ l, mapLoop run de d = .ok l → Map.ofList l = l := fun l hl =>
      Map.ofList_sorted (sorted_of_keys (mapLoop_keys hl) (Value.wf_dict.1 hv).1)
    show (match mapLoop run de d with | .ok l => Except.ok (Val.map (Map.ofList l)) | .error e => .error e) = .ok x ↔ _
    constructor
    · intro h
      cases hl : mapLoop run de d with
      | error e => rw [hl] at h; cases h
      | ok l =>
        rw [hl] at h
        dsimp only at h
        rw [hs l hl] at h
        exact ⟨t, d, l, rfl, (Except.ok.inj h).symm, hl⟩
    · rintro ⟨t', a', l, h1, rfl, h⟩
      cases h1
      rw [h]
      dsimp only
      rw [hs l h]
  | empty t e => cases e <;> exact ⟨nofun, nofun⟩
  | num t n => dsimp only; rw [Num.deserializeAny_visited]; exact ⟨nofun, nofun⟩
  | _ => exact ⟨nofun, nofun⟩

omit [FloatOps] in
theorem pairs_iff {run : Seed} {de : De} {v : Value} {x : Val} : de.deserializeAny (pairsVisitor run) v = .ok x ↔
    ∃ tag d l, v = .dict tag d ∧ x = .map l ∧ mapLoop run de d = .ok l := by
  rw [any_iff]
  cases v with
  | dict t d =>
    show (match mapLoop run de d with | .ok l => Except.ok (Val.map l) | .error e => .error e) = .ok x ↔ _
    constructor
    · intro h
      cases hl : mapLoop run de d with
      | error e => rw [hl] at h; cases h
      | ok l => rw [hl] at h; exact ⟨t, d, l, rfl, (Except.ok.inj h).symm, hl⟩
    · rintro ⟨t', a', l, h1, rfl, h⟩
      cases h1
      rw [h]
  | empty t e => cases e <;> exact ⟨nofun, nofun⟩
  | num t n => dsimp only; rw [Num.deserializeAny_visited]; exact ⟨nofun, nofun⟩
  | _ => exact ⟨nofun, nofun⟩

omit [FloatOps] in
theorem keyed_iff {key : Str → R Val} {run : Seed} {de : De} {v : Value} {x : Val} :
    de.deserializeAny (keyedVisitor key run) v = .ok x ↔
    ∃ tag d l, v = .dict tag d ∧ x = .entries l ∧ keyedLoop key run de d = .ok l := by
  rw [any_iff]
  cases v with
  | dict t d =>
    show (match keyedLoop key run de d with | .ok l => Except.ok (Val.entries l) | .error e => .error e) = .ok x ↔ _
    constructor
    · intro h
      cases hl : keyedLoop key run de d with
      | error e => rw [hl] at h; cases h
      | ok l => rw [hl] at h; exact ⟨t, d, l, rfl, (Except.ok.inj h).symm, hl⟩
    · rintro ⟨t', a', l, h1, rfl, h⟩
      cases h1
      rw [h]
  | empty t e => cases e <;> exact ⟨nofun, nofun⟩
  | num t n => dsimp only; rw [Num.deserializeAny_visited]; exact ⟨nofun, nofun⟩
  | _ => exact ⟨nofun, nofun⟩

omit [FloatOps] in
theorem structAny_iff {s s' : Str} {deny : Bool} {fs : List FieldSeed} {de : De} {v : Value} (hv : v.WF)
    (hn : (fs.map (·.name)).Nodup) {x : Val} :
    de.deserializeAny (structVisitor s s' deny fs) v = .ok x ↔ ∃ l, x = .struct l ∧
      ((∃ tag d, v = .dict tag d ∧ FieldsRun de fs d l ∧ (deny = true → ∀ e ∈ d, e.1 ∈ fs.map (·.name))) ∨
        ∃ tag a, v = .array tag a ∧ tupleLoop s' de 0 (fs.map fun f => (f.dflt, f.run)) a = .ok l) := by
  rw [any_iff]
  cases v with
  | dict t d =>
    dsimp only
    rw [struct_iff (Value.wf_dict.1 hv).1 hn]
    constructor
    · rintro ⟨l, hx, h⟩
      exact ⟨l, hx, .inl ⟨t, d, rfl, h⟩⟩
    · rintro ⟨l, hx, ⟨_, _, h1, h⟩ | ⟨_, _, h1, _⟩⟩
      · cases h1; exact ⟨l, hx, h⟩
      · cases h1
  | array t a =>
    show (match tupleLoop s' de 0 (fs.map fun f => (f.dflt, f.run)) a with
      | .ok l => Except.ok (Val.struct l) | .error e => .error e) = .ok x ↔ _
    constructor
    · intro h
      cases hl : tupleLoop s' de 0 (fs.map fun f => (f.dflt, f.run)) a with
      | error e => rw [hl] at h; cases h
      | ok l => rw [hl] at h; exact ⟨l, (Except.ok.inj h).symm, .inr ⟨t, a, rfl, hl⟩⟩
    · rintro ⟨l, rfl, ⟨_, _, h1, _⟩ | ⟨_, _, h1, h⟩⟩
      · cases h1
      · cases h1; rw [h]
  | empty t e => cases e <;> exact ⟨nofun, fun ⟨_, _, h⟩ => by rcases h with ⟨_, _, h, _⟩ | ⟨_, _, h, _⟩ <;> cases h⟩
  | num t n =>
    dsimp only
    rw [Num.deserializeAny_visited]
    exact ⟨nofun, fun ⟨_, _, h⟩ => by rcases h with ⟨_, _, h, _⟩ | ⟨_, _, h, _⟩ <;> cases h⟩
  | _ => exact ⟨nofun, fun ⟨_, _, h⟩ => by rcases h with ⟨_, _, h, _⟩ | ⟨_, _, h, _⟩ <;> cases h⟩

omit [FloatOps] in
theorem asVariant_iff {s : Str} {r : R Val} {x : Val} : asVariant s r = .ok x ↔ ∃ y, x = .variant s y ∧ r = .ok y := by
  cases r with
  | ok y => exact ⟨fun h => ⟨y, (Except.ok.inj h).symm, rfl⟩, fun ⟨_, h, h'⟩ => by cases h'; rw [h]; rfl⟩
  | error e => exact ⟨nofun, nofun⟩

omit [FloatOps] in
theorem alone_iff {v : VariantSeed} {y : Val} : v.alone = .ok y ↔ y = .unit ∧ v = .unit := by
  cases v with
  | unit => exact ⟨fun h => ⟨(Except.ok.inj h).symm, rfl⟩, fun ⟨h, _⟩ => by rw [h]; rfl⟩
  | _ => exact ⟨nofun, fun ⟨_, h⟩ => by cases h⟩

omit [FloatOps] in
theorem toU32_iff {n : Num} {k : BitVec 32} : n.toU32 = some k ↔
    n.isSigned = false ∧ (∃ w, n.width = some w ∧ w ≤ 32) ∧ n.intVal = some (k.toNat : Int) := by
  cases n with
  | u8 v =>
    simp only [Num.toU32, Option.some.injEq, Num.isSigned, Num.width, Num.intVal, true_and]
    constructor
    · rintro rfl
      refine ⟨⟨8, rfl, by decide⟩, ?_⟩
      rw [BitVec.toNat_setWidth, Nat.mod_eq_of_lt (by have := v.isLt; omega)]
    · rintro ⟨_, h⟩
      apply BitVec.eq_of_toNat_eq
      rw [BitVec.toNat_setWidth, Nat.mod_eq_of_lt (by have := v.isLt; omega)]
      exact Int.ofNat.inj h
  | u16 v =>
    simp only [Num.toU32, Option.some.injEq, Num.isSigned, Num.width, Num.intVal, true_and]
    constructor
    · rintro rfl
      refine ⟨⟨16, rfl, by decide⟩, ?_⟩
      rw [BitVec.toNat_setWidth, Nat.mod_eq_of_lt (by have := v.isLt; omega)]
    · rintro ⟨_, h⟩
      apply BitVec.eq_of_toNat_eq
      rw [BitVec.toNat_setWidth, Nat.mod_eq_of_lt (by have := v.isLt; omega)]
      exact Int.ofNat.inj h
  | u32 v =>
    simp only [Num.toU32, Option.some.injEq, Num.isSigned, Num.width, Num.intVal, true_and]
    constructor
    · rintro rfl
      exact ⟨⟨32, rfl, by decide⟩, rfl⟩
    · rintro ⟨_, h⟩
      exact BitVec.eq_of_toNat_eq (Int.ofNat.inj h)
  | _ => simp [Num.toU32, Num.isSigned, Num.width]

theorem deVariants_get {n : Str} : ∀ {vs : List (Str × VTy)} {i : Nat},
    (Ty.deVariants n vs)[i]? = vs[i]?.map fun e => (e.1, e.2.de (n ++ str "::" ++ e.1))
  | [], _ => rfl
  | (k, v) :: vs, 0 => by rw [Ty.deVariants]; rfl
  | (k, v) :: vs, i + 1 => by
    rw [Ty.deVariants, List.getElem?_cons_succ, List.getElem?_cons_succ]
    exact deVariants_get

theorem VTy.de_unit {v : VTy} {n : Str} : v.de n = .unit ↔ v = .unit := by
  cases v <;> simp [VTy.de]

/-- The content of the variant at a key. -/
def VariantsRun (de : De) (n k : Str) (vs : List (Str × VTy)) (w : Value) (y : Val) : Prop :=
  ∃ v, vs.lookup k = some v ∧ (v.de (n ++ str "::" ++ k)).with de k w = .ok y

theorem enum_iff {n : Str} {vs : List (Str × VTy)} {de : De} {v : Value} {x : Val} :
    de.deserializeEnum (enumVisitor n (Ty.deVariants n vs)) v = .ok x ↔
    (∃ tag s, v = .string tag s ∧ x = .variant s .unit ∧ vs.lookup s = some .unit) ∨
    (∃ tag n, ∃ i : Nat, ∃ s, v = .num tag n ∧ n.isSigned = false ∧ (∃ w, n.width = some w ∧ w ≤ 32) ∧ n.intVal = some (i : Int) ∧
      vs[i]? = some (s, .unit) ∧ x = .variant s .unit) ∨
    (∃ tag k w r y, v = .dict tag ((k, w) :: r) ∧ x = .variant k y ∧ VariantsRun de n k vs w y) := by
  unfold De.deserializeEnum
  rw [R.mapErr_eq_ok]
  cases v with
  | string t s =>
    show (match (Ty.deVariants n vs).lookup s with
      | some v => asVariant s v.alone
      | none => .error (Error.ofKind (.unknownVariant s ((Ty.deVariants n vs).map fun e : Str × VariantSeed => e.1)))) = .ok x ↔ _
    rw [deVariants_lookup]
    cases hl : vs.lookup s with
    | none =>
      refine ⟨nofun, ?_⟩
      rintro (⟨_, _, h, _, h'⟩ | ⟨_, _, _, _, h, _⟩ | ⟨_, _, _, _, _, h, _⟩)
      · cases h; rw [hl] at h'; cases h'
      · cases h
      · cases h
    | some v =>
      simp only [Option.map_some, asVariant_iff, alone_iff, VTy.de_unit]
      constructor
      · rintro ⟨y, rfl, rfl, rfl⟩
        exact .inl ⟨t, s, rfl, rfl, hl⟩
      · rintro (⟨_, _, h, h1, h'⟩ | ⟨_, _, _, _, h, _⟩ | ⟨_, _, _, _, _, h, _⟩)
        · cases h; rw [hl] at h'; cases h'; exact ⟨_, h1, rfl, rfl⟩
        · cases h
        · cases h
  | num t m =>
    dsimp only
    cases hm : m.toU32 with
    | none =>
      constructor
      · intro h
        rw [any_iff] at h
        dsimp only at h
        rw [Num.deserializeAny_visited] at h
        cases h
      · rintro (⟨_, _, h, _⟩ | ⟨_, _, i, _, h, h1, h2, h3, _⟩ | ⟨_, _, _, _, _, h, _⟩)
        · cases h
        · cases h
          have hlt : i < 2 ^ 32 := by
            obtain ⟨w, hw, hw'⟩ := h2
            cases m with
            | u8 b => simp only [Num.intVal, Option.some.injEq] at h3; have := b.isLt; omega
            | u16 b => simp only [Num.intVal, Option.some.injEq] at h3; have := b.isLt; omega
            | u32 b => simp only [Num.intVal, Option.some.injEq] at h3; have := b.isLt; omega
            | u64 b => simp only [Num.width, Option.some.injEq] at hw; omega
            | u128 b => simp only [Num.width, Option.some.injEq] at hw; omega
            | usize b => cases hw
            | f32 b => cases hw
            | f64 b => cases hw
            | _ => cases h1
          have := toU32_iff (n := m) (k := BitVec.ofNat 32 i)
          rw [BitVec.toNat_ofNat, Nat.mod_eq_of_lt hlt] at this
          rw [this.2 ⟨h1, h2, h3⟩] at hm
          cases hm
        · cases h
    | some k =>
      have hk := toU32_iff.1 hm
      show (match (Ty.deVariants n vs)[k.toNat]? with
        | some (s, v) => asVariant s v.alone
        | none => invalidValue (.unsigned (k.setWidth 128))
            (str "variant index 0 <= i < " ++ Dec.ofNat (Ty.deVariants n vs).length)) = .ok x ↔ _
      rw [deVariants_get]
      cases hl : vs[k.toNat]? with
      | none =>
        refine ⟨nofun, ?_⟩
        rintro (⟨_, _, h, _⟩ | ⟨_, _, i, _, h, h1, h2, h3, h4, _⟩ | ⟨_, _, _, _, _, h, _⟩)
        · cases h
        · cases h
          rw [h3] at hk
          have : i = k.toNat := by have := Option.some.inj hk.2.2; exact Int.ofNat.inj this
          rw [this, hl] at h4
          cases h4
        · cases h
      | some e =>
        obtain ⟨s, v⟩ := e
        simp only [Option.map_some, asVariant_iff, alone_iff, VTy.de_unit]
        constructor
        · rintro ⟨y, rfl, rfl, rfl⟩
          exact .inr (.inl ⟨t, m, k.toNat, s, rfl, hk.1, hk.2.1, hk.2.2, hl, rfl⟩)
        · rintro (⟨_, _, h, _⟩ | ⟨_, _, i, _, h, h1, h2, h3, h4, h5⟩ | ⟨_, _, _, _, _, h, _⟩)
          · cases h
          · cases h
            rw [h3] at hk
            have : i = k.toNat := by have := Option.some.inj hk.2.2; exact Int.ofNat.inj this
            rw [this, hl] at h4
            cases h4
            exact ⟨_, h5, rfl, rfl⟩
          · cases h
  | dict t d =>
    cases d with
    | nil =>
      refine ⟨nofun, ?_⟩
      rintro (⟨_, _, h, _⟩ | ⟨_, _, _, _, h, _⟩ | ⟨_, _, _, _, _, h, _⟩) <;> cases h
    | cons e r =>
      obtain ⟨k, w⟩ := e
      show (match (Ty.deVariants n vs).lookup k with
        | some v => asVariant k (v.with de k w)
        | none => .error (MapDe.err k w (Error.ofKind (.unknownVariant k ((Ty.deVariants n vs).map fun e : Str × VariantSeed => e.1))))) = .ok x ↔ _
      rw [deVariants_lookup]
      cases hl : vs.lookup k with
      | none =>
        refine ⟨nofun, ?_⟩
        rintro (⟨_, _, h, _⟩ | ⟨_, _, _, _, h, _⟩ | ⟨_, _, _, _, _, h, _, _, h', _⟩)
        · cases h
        · cases h
        · cases h; rw [hl] at h'; cases h'
      | some v =>
        simp only [Option.map_some, asVariant_iff]
        constructor
        · rintro ⟨y, rfl, h⟩
          exact .inr (.inr ⟨t, k, w, r, y, rfl, rfl, v, hl, h⟩)
        · rintro (⟨_, _, h, _⟩ | ⟨_, _, _, _, h, _⟩ | ⟨_, _, _, _, _, h, h1, v', h2, h3⟩)
          · cases h
          · cases h
          · cases h
            rw [hl] at h2
            cases h2
            exact ⟨_, h1, h3⟩
  | empty t e =>
    constructor
    · intro h
      rw [any_iff] at h
      cases e <;> cases h
    · rintro (⟨_, _, h, _⟩ | ⟨_, _, _, _, h, _⟩ | ⟨_, _, _, _, _, h, _⟩) <;> cases h
  | _ =>
    constructor
    · intro h
      rw [any_iff] at h
      cases h
    · rintro (⟨_, _, h, _⟩ | ⟨_, _, _, _, h, _⟩ | ⟨_, _, _, _, _, h, _⟩) <;> cases h

omit [FloatOps] in
theorem Num.narrowing_visited : Num.Narrowing Num.visited where
  other n h1 h2 := by
    cases n with
    | usize k => exact absurd rfl (h1 k)
    | isize k => exact absurd rfl (h2 k)
    | _ => rfl
  value := Num.visited_intVal
  narrow := Num.visited_narrowest

omit [FloatOps] in
theorem Num.Narrowing.eq {g : Num → Num} (h : Num.Narrowing g) : g = Num.visited := by
  funext n
  have hv := Num.narrowing_visited
  have aux : ∀ n, (g n).Narrowest → n.visited.Narrowest → g n = n.visited := fun n h1 h2 =>
    Num.Narrowest.unique h1 h2 (by rw [(h.value n).2, (hv.value n).2]) (by rw [(h.value n).1, (hv.value n).1])
  cases n with
  | usize k => exact aux _ (h.narrow k).1 (hv.narrow k).1
  | isize k => exact aux _ (h.narrow k).2 (hv.narrow k).2
  | _ => rw [h.other _ (fun _ h => by cases h) (fun _ h => by cases h)]; rfl

omit [FloatOps] in
theorem tag_iff {de : De} {v : Value} {x : Val} : asTag (Tag.de de v) = .ok x ↔
    ∃ t tag n, x = .tag t ∧ v = .num tag n ∧ n.isSigned = false ∧ n.IsInt t.raw.toNat := by
  have h1 : asTag (Tag.de de v) = .ok x ↔ ∃ t, x = .tag t ∧ Tag.de de v = .ok t := by
    cases Tag.de de v with
    | ok t => exact ⟨fun h => ⟨t, (Except.ok.inj h).symm, rfl⟩, fun ⟨_, h, h'⟩ => by cases h'; rw [h]; rfl⟩
    | error e => exact ⟨nofun, nofun⟩
  rw [h1]
  have h2 : ∀ t, Tag.de de v = .ok t ↔ ∃ tag n, v = .num tag n ∧ n.isSigned = false ∧ n.IsInt t.raw.toNat := by
    intro t
    unfold Tag.de
    rw [any_iff]
    cases v with
    | num tag n =>
      dsimp only
      rw [Num.deserializeAny_visited]
      have h3 : tagVisitor.visitNum n.visited = .ok t ↔ n.visited.isSigned = false ∧
          n.visited.small? = some (t.raw.toNat : Int) := by
        have aux : ∀ {w : Nat} (b : BitVec w), w ≤ 64 → ((Except.ok ⟨b.setWidth 64⟩ : R Tag) = .ok t ↔
            (b.toNat : Int) = (t.raw.toNat : Int)) := by
          intro w b hw
          have hlt : b.toNat < 2 ^ 64 := Nat.lt_of_lt_of_le b.isLt (Nat.pow_le_pow_right (by decide) hw)
          constructor
          · intro h
            cases h
            rw [BitVec.toNat_setWidth, Nat.mod_eq_of_lt hlt]
          · intro h
            have h := Int.ofNat.inj h
            obtain ⟨r⟩ := t
            refine congrArg (Except.ok ∘ Tag.mk) ?_
            apply BitVec.eq_of_toNat_eq
            rw [BitVec.toNat_setWidth, Nat.mod_eq_of_lt hlt, h]
        generalize n.visited = m
        cases m with
        | u8 b => refine (aux b (by decide)).trans ?_; simp [Num.small?, Num.isSigned]
        | u16 b => refine (aux b (by decide)).trans ?_; simp [Num.small?, Num.isSigned]
        | u32 b => refine (aux b (by decide)).trans ?_; simp [Num.small?, Num.isSigned]
        | u64 b =>
          have := aux b (by decide)
          rw [BitVec.setWidth_eq] at this
          refine this.trans ?_
          simp [Num.small?, Num.isSigned]
        | _ => exact ⟨nofun, fun h => by simp [Num.small?, Num.isSigned] at h⟩
      rw [h3, Num.small_visited, (Num.visited_intVal n).2]
      exact ⟨fun h => ⟨tag, n, rfl, h⟩, fun ⟨_, _, h, h'⟩ => by cases h; exact h'⟩
    | empty t e => cases e <;> exact ⟨nofun, nofun⟩
    | _ => exact ⟨nofun, nofun⟩
  constructor
  · rintro ⟨t, rfl, h⟩
    obtain ⟨tag, n, h⟩ := (h2 t).1 h
    exact ⟨t, tag, n, rfl, h⟩
  · rintro ⟨t, tag, n, rfl, h⟩
    exact ⟨t, rfl, (h2 t).2 ⟨tag, n, h⟩⟩

omit [FloatOps] in
theorem parsed_iff {s : Str} {parse : Str → Except Str Val} {de : De} {v : Value} {x : Val} :
    de.deserializeAny (parsedVisitor s parse) v = .ok x ↔ ∃ t, v.text? = some t ∧ parse t = .ok x := by
  rw [any_iff]
  have text : ∀ t, (parsedVisitor s parse).visitStr t = .ok x ↔ parse t = .ok x := by
    intro t
    unfold parsedVisitor
    dsimp only
    cases parse t with
    | ok y => exact ⟨fun h => congrArg _ (Except.ok.inj h), fun h => congrArg _ (Except.ok.inj h)⟩
    | error m => exact ⟨nofun, nofun⟩
  cases v with
  | string t s => exact (text s).trans ⟨fun h => ⟨s, rfl, h⟩, fun ⟨_, h, h'⟩ => by cases h; exact h'⟩
  | char t c => exact (text [c]).trans ⟨fun h => ⟨[c], rfl, h⟩, fun ⟨_, h, h'⟩ => by cases h; exact h'⟩
  | empty t e => cases e <;> exact ⟨nofun, nofun⟩
  | num t n => dsimp only; rw [Num.deserializeAny_visited]; exact ⟨nofun, nofun⟩
  | _ => exact ⟨nofun, nofun⟩

mutual
/-- What a buffer is filled with. -/
theorem buffers_iff (s : Str) (de : De) : ∀ (v : Value) (x : Val), (Ty.any s).de de v = .ok x ↔ v.Buffers x
  | .string t u, x => by
    rw [Ty.any_eq, any_iff, Value.Buffers]; exact ⟨fun h => (Except.ok.inj h).symm, fun h => by rw [h]; rfl⟩
  | .char t u, x => by
    rw [Ty.any_eq, any_iff, Value.Buffers]; exact ⟨fun h => (Except.ok.inj h).symm, fun h => by rw [h]; rfl⟩
  | .bool t u, x => by
    rw [Ty.any_eq, any_iff, Value.Buffers]; exact ⟨fun h => (Except.ok.inj h).symm, fun h => by rw [h]; rfl⟩
  | .empty t .unit, x => by
    rw [Ty.any_eq, any_iff, Value.Buffers]; exact ⟨fun h => (Except.ok.inj h).symm, fun h => by rw [h]; rfl⟩
  | .empty t .none, x => by
    rw [Ty.any_eq, any_iff, Value.Buffers]; exact ⟨fun h => (Except.ok.inj h).symm, fun h => by rw [h]; rfl⟩
  | .num t n, x => by
    rw [Ty.any_eq, any_iff, Value.Buffers]
    dsimp only
    rw [Num.deserializeAny_visited]
    rcases any_num s (Ty.any s).de n with ⟨h, h'⟩ | ⟨h, h'⟩ <;> rw [h']
    · refine ⟨fun h1 => ⟨h, _, Num.narrowing_visited, (Except.ok.inj h1).symm⟩, fun ⟨_, g, hg, hx⟩ => ?_⟩
      rw [hx, hg.eq]
    · exact ⟨nofun, fun h1 => absurd h h1.1⟩
  | .dict t d, x => by
    rw [Ty.any_eq, any_iff, Value.Buffers]
    show (match mapLoop (Ty.any s).de de d with | .ok l => Except.ok (Val.map l) | .error e => .error e) = .ok x ↔ _
    simp only [← buffersD_iff s de]
    cases mapLoop (Ty.any s).de de d with
    | error e => exact ⟨nofun, fun ⟨_, _, h⟩ => nomatch h⟩
    | ok l => exact ⟨fun h => ⟨l, (Except.ok.inj h).symm, rfl⟩, fun ⟨_, h, h'⟩ => by cases h'; rw [h]⟩
  | .array t a, x => by
    rw [Ty.any_eq, any_iff, Value.Buffers]
    show (match seqLoop (Ty.any s).de de 0 a with | .ok l => Except.ok (Val.seq l) | .error e => .error e) = .ok x ↔ _
    simp only [← buffersA_iff s de a 0]
    cases seqLoop (Ty.any s).de de 0 a with
    | error e => exact ⟨nofun, fun ⟨_, _, h⟩ => nomatch h⟩
    | ok l => exact ⟨fun h => ⟨l, (Except.ok.inj h).symm, rfl⟩, fun ⟨_, h, h'⟩ => by cases h'; rw [h]⟩
theorem buffersD_iff (s : Str) (de : De) : ∀ (d : List (Str × Value)) (l : List (Str × Val)),
    mapLoop (Ty.any s).de de d = .ok l ↔ Value.BuffersD d l
  | [], l => by
    rw [mapLoop, Value.BuffersD]; exact ⟨fun h => (Except.ok.inj h).symm, fun h => by rw [h]⟩
  | (k, v) :: d, l => by
    rw [mapLoop, Value.BuffersD]
    simp only [← buffersD_iff s de, ← buffers_iff s de v]
    have hn : ∀ y, MapDe.nextValue (Ty.any s).de de k v = .ok y ↔ (Ty.any s).de de v = .ok y := fun y => R.mapErr_eq_ok
    simp only [← hn]
    cases MapDe.nextValue (Ty.any s).de de k v with
    | error e => exact ⟨nofun, fun ⟨_, _, _, h, _⟩ => nomatch h⟩
    | ok y =>
      cases mapLoop (Ty.any s).de de d with
      | error e => exact ⟨nofun, fun ⟨_, _, _, _, h⟩ => nomatch h⟩
      | ok l' => exact ⟨fun h => ⟨y, l', (Except.ok.inj h).symm, rfl, rfl⟩, fun ⟨_, _, h, h1, h2⟩ => by cases h1; cases h2; rw [h]⟩
theorem buffersA_iff (s : Str) (de : De) : ∀ (a : List Value) (i : Nat) (l : List Val),
    seqLoop (Ty.any s).de de i a = .ok l ↔ Value.BuffersA a l
  | [], i, l => by
    rw [seqLoop, Value.BuffersA]; exact ⟨fun h => (Except.ok.inj h).symm, fun h => by rw [h]⟩
  | v :: a, i, l => by
    rw [seqLoop, Value.BuffersA]
    simp only [← buffersA_iff s de a (i + 1), ← buffers_iff s de v]
    have hn : ∀ y, SeqDe.nextElement (Ty.any s).de de i v = .ok y ↔ (Ty.any s).de de v = .ok y := fun y => R.mapErr_eq_ok
    simp only [← hn]
    cases SeqDe.nextElement (Ty.any s).de de i v with
    | error e => exact ⟨nofun, fun ⟨_, _, _, h, _⟩ => nomatch h⟩
    | ok y =>
      cases seqLoop (Ty.any s).de de (i + 1) a with
      | error e => exact ⟨nofun, fun ⟨_, _, _, _, h⟩ => nomatch h⟩
      | ok l' => exact ⟨fun h => ⟨y, l', (Except.ok.inj h).symm, rfl, rfl⟩, fun ⟨_, _, h, h1, h2⟩ => by cases h1; cases h2; rw [h]⟩
end

omit [FloatOps] in
theorem flatLoop_cons {fs : List FieldSeed} {de : De} {k : Str} {v : Value} {r : List (Str × Value)} {l : List (Str × Val)} :
    flatLoop fs de ((k, v) :: r) = .ok l ↔ ∃ y l', l = (k, y) :: l' ∧ flatSeed fs k de v = .ok y ∧ flatLoop fs de r = .ok l' := by
  have hn : ∀ y, MapDe.nextValue (flatSeed fs k) de k v = .ok y ↔ flatSeed fs k de v = .ok y := fun y => R.mapErr_eq_ok
  rw [flatLoop]
  simp only [← hn]
  cases MapDe.nextValue (flatSeed fs k) de k v with
  | error e => exact ⟨nofun, fun ⟨_, _, _, h, _⟩ => nomatch h⟩
  | ok y =>
    cases flatLoop fs de r with
    | error e => exact ⟨nofun, fun ⟨_, _, _, _, h⟩ => nomatch h⟩
    | ok l' => exact ⟨fun h => ⟨y, l', (Except.ok.inj h).symm, rfl, rfl⟩, fun ⟨_, _, h, h1, h2⟩ => by cases h1; cases h2; rw [h]⟩

omit [FloatOps] in
theorem flatLoop_lookup {fs : List FieldSeed} {de : De} : ∀ {d : List (Str × Value)} {l : List (Str × Val)},
    flatLoop fs de d = .ok l → ∀ k, (Map.get k d = none → l.lookup k = none) ∧
      ∀ w, Map.get k d = some w → ∃ y, flatSeed fs k de w = .ok y ∧ l.lookup k = some y
  | [], l, h, k => by cases h; exact ⟨fun _ => rfl, nofun⟩
  | (k', v) :: r, l, h, k => by
    obtain ⟨y, l', rfl, h1, h2⟩ := flatLoop_cons.1 h
    have ih := flatLoop_lookup h2 k
    rw [Map.get, List.lookup_cons]
    by_cases hk : compare k k' = .eq
    · rw [if_pos hk]
      have := Std.LawfulEqOrd.eq_of_compare hk
      subst this
      rw [beq_self_eq_true]
      exact ⟨nofun, fun w hw => by cases hw; exact ⟨y, h1, rfl⟩⟩
    · have hne : k ≠ k' := fun h => hk (h ▸ Std.ReflOrd.compare_self)
      rw [if_neg hk, beq_eq_false_iff_ne.2 hne]
      exact ih

theorem flatLoop_rest {fs : List FieldSeed} {de : De} : ∀ {d : List (Str × Value)} {l : List (Str × Val)},
    flatLoop fs de d = .ok l → Value.BuffersD (d.filter fun e => !(fs.map (·.name)).contains e.1)
      (l.filter fun e => (fs.find? (fun f => f.name = e.1)).isNone)
  | [], l, h => by cases h; rw [List.filter_nil, Value.BuffersD]; rfl
  | (k, v) :: r, l, h => by
    obtain ⟨y, l', rfl, h1, h2⟩ := flatLoop_cons.1 h
    have ih := flatLoop_rest h2
    by_cases hk : k ∈ fs.map (·.name)
    · have h3 : ¬ (fs.find? (fun f => f.name = k)).isNone = true := by
        rw [Option.isNone_iff_eq_none, find_none_iff]; exact fun h => h hk
      rw [List.filter_cons_of_neg (by simpa using hk), List.filter_cons_of_neg (a := (k, y)) (by exact h3)]
      exact ih
    · have h3 := find_none_iff.2 hk
      rw [List.filter_cons_of_pos (by simpa using hk), List.filter_cons_of_pos (by rw [h3]; rfl), Value.BuffersD]
      unfold flatSeed at h1
      rw [h3] at h1
      exact ⟨y, _, rfl, (buffers_iff (str "any value") de v y).1 h1, ih⟩

theorem flatLoop_of {fs : List FieldSeed} {de : De} : ∀ (d : List (Str × Value)),
    (∀ e ∈ d, ∀ f, fs.find? (fun f => f.name = e.1) = some f → ∃ x, f.run de e.2 = .ok x) →
    (∀ e ∈ d, e.1 ∉ fs.map (·.name) → ∃ y, e.2.Buffers y) → ∃ l, flatLoop fs de d = .ok l
  | [], _, _ => ⟨[], rfl⟩
  | (k, v) :: r, h1, h2 => by
    obtain ⟨l, ih⟩ := flatLoop_of r (fun e he => h1 e (.tail _ he)) (fun e he => h2 e (.tail _ he))
    obtain ⟨y, hy⟩ : ∃ y, flatSeed fs k de v = .ok y := by
      unfold flatSeed
      cases hf : fs.find? (fun f => f.name = k) with
      | some f => exact h1 (k, v) (.head _) f hf
      | none =>
        obtain ⟨y, hy⟩ := h2 (k, v) (.head _) (find_none_iff.1 hf)
        exact ⟨y, (buffers_iff (str "any value") de v y).2 hy⟩
    exact ⟨_, flatLoop_cons.2 ⟨y, l, rfl, hy, ih⟩⟩

omit [FloatOps] in
theorem buffersD_mem : ∀ {d : List (Str × Value)} {l : List (Str × Val)}, Value.BuffersD d l → ∀ e ∈ d, ∃ y, e.2.Buffers y
  | [], _, _, _, he => nomatch he
  | (k, v) :: d, l, h, e, he => by
    rw [Value.BuffersD] at h
    obtain ⟨y, l', _, h1, h2⟩ := h
    rcases List.mem_cons.1 he with rfl | he
    · exact ⟨y, h1⟩
    · exact buffersD_mem h2 e he

theorem buffersD_det {d : List (Str × Value)} {l l' : List (Str × Val)} (h : Value.BuffersD d l)
    (h' : Value.BuffersD d l') : l = l' := by
  have h1 := (buffersD_iff [] De.plain d l).2 h
  rw [(buffersD_iff [] De.plain d l').2 h'] at h1
  exact (Except.ok.inj h1).symm

omit [FloatOps] in
theorem flat_fin {fs : List FieldSeed} {de : De} {d : Dict} {acc : List (Str × Val)} (hn : (fs.map (·.name)).Nodup)
    (h : flatLoop fs de d = .ok acc) (l : List Val) : fieldFinish acc fs = .ok l ↔ FieldsRun de fs d l := by
  refine fieldFinish_iff fs l ?_
  intro f hf y
  obtain ⟨h1, h2⟩ := flatLoop_lookup h f.name
  unfold FieldSeed.get
  cases hg : Map.get f.name d with
  | none =>
    rw [h1 hg]
    exact ⟨fun h => .inr ⟨rfl, h⟩, fun h => by rcases h with ⟨_, h, _⟩ | ⟨_, h⟩; cases h; exact h⟩
  | some w =>
    obtain ⟨x, hx, hl⟩ := h2 w hg
    rw [hl]
    unfold flatSeed at hx
    rw [find_name hn hf] at hx
    constructor
    · intro h; cases h; exact .inl ⟨w, rfl, hx⟩
    · rintro (⟨w', h, h'⟩ | ⟨h, _⟩)
      · cases h; dsimp only at hx; rw [hx] at h'; exact h'
      · cases h

/-- What a struct with flattened fields is read as. -/
theorem flat_iff {s : Str} {fs : List FieldSeed} {conv : List Val → List (Str × Val) → Except Kind Val} {de : De} {d : Dict}
    {x : Val} (hs : Map.Sorted d) (hn : (fs.map (·.name)).Nodup) : (flatVisitor s fs conv).visitMap de d = .ok x ↔
      ∃ xs l, FieldsRun de fs d xs ∧ Value.BuffersD (d.filter fun e => !(fs.map (·.name)).contains e.1) l ∧
        conv xs l = .ok x := by
  rw [flat_ok]
  constructor
  · rintro ⟨acc, xs, h1, h2, h3⟩
    exact ⟨xs, _, (flat_fin hn h1 xs).1 h2, flatLoop_rest h1, h3⟩
  · rintro ⟨xs, l, h1, h2, h3⟩
    obtain ⟨acc, hacc⟩ := flatLoop_of (fs := fs) (de := de) d (by
        intro e he f hf
        have hfm := List.mem_of_find?_eq_some hf
        have hname : f.name = e.1 := by simpa using List.find?_some hf
        exact h1.mem f hfm e.2 (by rw [hname]; exact Map.get_eq_some_of_mem hs he))
      (fun e he hk => buffersD_mem h2 e (List.mem_filter.2 ⟨he, by simpa using hk⟩))
    refine ⟨acc, xs, hacc, (flat_fin hn hacc xs).2 h1, ?_⟩
    rw [buffersD_det (flatLoop_rest hacc) h2]
    exact h3

theorem flag_iff {de : De} {v : Value} {x : Val} : Ty.flag.de de v = .ok x ↔
    ∃ b, x = .bool b ∧ v.IsFlag b ∧ v.is128 = false := by
  cases h : v.is128 with
  | false =>
    rw [C55_partial de v h x]
    simp
  | true =>
    simp only [Bool.true_eq_false, and_false, exists_false, iff_false]
    intro h1
    rw [Ty.de, any_iff] at h1
    match v, h with
    | .num t (.u128 n), _ => exact nomatch h1
    | .num t (.i128 n), _ => exact nomatch h1

theorem deFields_names : ∀ (fs : List (Str × Option Val × Ty)), (Ty.deFields fs).map (·.name) = fs.map (·.1)
  | [] => rfl
  | (n, o, t) :: fs => by rw [Ty.deFields, List.map_cons, List.map_cons, deFields_names fs]

omit [FloatOps] in
theorem missing_iff {f : FieldSeed} {t : Ty} (ht : f.opt = t.isOption) {y : Val} :
    f.missing = .ok y ↔ t.Absent f.dflt y := by
  unfold FieldSeed.missing Ty.Absent
  cases f.dflt with
  | some x => simp
  | none =>
    rw [ht]
    cases t.isOption with
    | true =>
      simp only [if_true, Except.ok.injEq, reduceCtorEq, true_and, false_or]
      exact eq_comm
    | false => simp

omit [FloatOps] in
theorem struct_plain {c : Option Fig} {l : Bool} {name : Str} {V : Visitor Val} {v : Value} {x : Val}
    (hname : magicNames.contains name = false) :
    De.deserializeStruct ⟨c, l⟩ name V v = .ok x ↔ De.deserializeAny ⟨c, l⟩ V v = .ok x := by
  simp only [magicNames, List.contains_cons, List.contains_nil, Bool.or_false, Bool.or_eq_false_iff,
    beq_eq_false_iff_ne] at hname
  unfold De.deserializeStruct
  cases c with
  | none => exact Iff.rfl
  | some f =>
  dsimp only
  rw [R.mapErr_eq_ok, if_neg hname.1, if_neg hname.2.1, if_neg hname.2.2]

/-- The struct with the fields, given what the fields mean. -/
theorem structAny_means {c : Option Fig} {l : Bool} {s s' : Str} {deny : Bool} {fs : List (Str × Option Val × Ty)} {v : Value}
    (hv : v.WF) (hn : (fs.map (·.1)).Nodup) {x : Val}
    (hf : ∀ tag d, v = .dict tag d → ∀ xs, FieldsRun ⟨c, l⟩ (Ty.deFields fs) d xs ↔ Ty.MeansFields l (cfgFile c) fs d xs)
    (he : ∀ tag a, v = .array tag a → ∀ xs,
      tupleLoop s' ⟨c, l⟩ 0 ((Ty.deFields fs).map fun f => (f.dflt, f.run)) a = .ok xs ↔
        Ty.MeansElems l (cfgFile c) fs a xs) :
    De.deserializeAny ⟨c, l⟩ (structVisitor s s' deny (Ty.deFields fs)) v = .ok x ↔ ∃ xs, x = .struct xs ∧
      ((∃ tag d, v = .dict tag d ∧ Ty.MeansFields l (cfgFile c) fs d xs ∧ (deny = true → ∀ e ∈ d, e.1 ∈ fs.map (·.1))) ∨
        ∃ tag a, v = .array tag a ∧ Ty.MeansElems l (cfgFile c) fs a xs) := by
  rw [structAny_iff hv (by rw [deFields_names]; exact hn), deFields_names]
  constructor
  · rintro ⟨xs, hx, ⟨tag, d, hd, h1, h2⟩ | ⟨tag, a, ha, h1⟩⟩
    · exact ⟨xs, hx, .inl ⟨tag, d, hd, (hf tag d hd xs).1 h1, h2⟩⟩
    · exact ⟨xs, hx, .inr ⟨tag, a, ha, (he tag a ha xs).1 h1⟩⟩
  · rintro ⟨xs, hx, ⟨tag, d, hd, h1, h2⟩ | ⟨tag, a, ha, h1⟩⟩
    · exact ⟨xs, hx, .inl ⟨tag, d, hd, (hf tag d hd xs).2 h1, h2⟩⟩
    · exact ⟨xs, hx, .inr ⟨tag, a, ha, (he tag a ha xs).2 h1⟩⟩

/-- A magic struct is `Tagged` or `RelativePathBuf`. -/
theorem magic_means {f : Fig} {l : Bool} {n name : Str} {deny : Bool} {fs : List (Str × Option Val × Ty)} {v : Value}
    (hv : v.unreserved = true) {x : Val} (hm : Ty.magicShape name fs = true)
    (hl : ∀ e ∈ fs, ∀ y, e.2.2.de ⟨some f, l⟩ v = .ok y ↔ e.2.2.Means l f.fileAt v y) :
    (Ty.struct n name deny fs).de ⟨some f, l⟩ v = .ok x ↔ (Ty.struct n name deny fs).Means l f.fileAt v x := by
  unfold Ty.magicShape at hm
  split at hm
  · next k0 k1 t =>
    simp only [Bool.and_eq_true, beq_iff_eq] at hm
    obtain ⟨⟨rfl, rfl⟩, rfl⟩ := hm
    rw [Ty.tagged_de' t f l v hv, Ty.Means, if_pos rfl]
    have ht := hl (Tagged.FIELD1, none, t) (by simp)
    simp only [Ty.MeansLast, or_false, true_and, List.cons_ne_nil, false_and, false_or]
    constructor
    · intro h
      cases hd : t.de ⟨some f, l⟩ v with
      | error e => rw [hd] at h; cases h
      | ok y => rw [hd] at h; exact ⟨y, (Except.ok.inj h).symm, (ht y).1 hd⟩
    · rintro ⟨y, rfl, h⟩
      rw [(ht y).2 h]
  · next k0 k1 =>
    simp only [Bool.and_eq_true, beq_iff_eq] at hm
    obtain ⟨⟨rfl, rfl⟩, rfl⟩ := hm
    rw [Ty.relPath_de' f l v hv, Ty.Means, if_neg (by decide), if_pos rfl]
    have hp : ∀ y, Ty.pathBuf.de ⟨some f, l⟩ v = .ok y ↔ ∃ s, y = .str s ∧ v.text? = some s := by
      intro y
      rw [Ty.de]
      exact path_iff
    have hf : (match f.fileOf v with | some p => Val.some (.str p) | none => .none) = Val.ofPath? (f.fileAt v.tag) := by
      rw [Fig.fileOf, Fig.fileAt]
      cases (Map.get v.tag f.metadata).bind fun m => m.source.bind Source.filePath <;> rfl
    constructor
    · intro h
      cases hd : Ty.pathBuf.de ⟨some f, l⟩ v with
      | error e => rw [hd] at h; cases h
      | ok y =>
        rw [hd] at h
        obtain ⟨s, rfl, hs⟩ := (hp y).1 hd
        refine ⟨s, ?_, hs⟩
        rw [← hf]
        exact (Except.ok.inj h).symm
    · rintro ⟨s, rfl, h⟩
      rw [(hp _).2 ⟨s, rfl, h⟩, ← hf]
      rfl
  · cases hm

mutual
/-- Extraction gives what the value means. -/
theorem Ty.means (c : Option Fig) (l b : Bool) (hc : c = none → l = false ∧ b = false) : (t : Ty) → t.proper b = true → ∀ v : Value, v.Fine b → ∀ x,
    (t.de ⟨c, l⟩ v = .ok x ↔ t.Means l (cfgFile c) v x)
  | .bool, _, v, _, x => by rw [Ty.de, Ty.Means]; exact bool_iff fun h => (hc h).1
  | .int t, _, v, _, x => by
    rw [Ty.Means]
    have key : De.deserializeNum ⟨c, l⟩ (intVisitor t) v = .ok x ↔
        ∃ n i, v.IsNum l n ∧ n.IsInt i ∧ t.min ≤ i ∧ i ≤ t.max ∧ x = .int i := by
      rw [num_iff (intVisitor_numOnly t) fun h => (hc h).1]
      simp only [int_iff]
      exact ⟨fun ⟨n, h, i, h'⟩ => ⟨n, i, h, h'⟩, fun ⟨n, i, h, h'⟩ => ⟨n, h, i, h'⟩⟩
    cases t with
    | u128 => exact ⟨nofun, fun h => absurd rfl h.1⟩
    | i128 => exact ⟨nofun, fun h => absurd rfl h.2.1⟩
    | _ => exact key.trans ⟨fun h => ⟨nofun, nofun, h⟩, fun h => h.2.2⟩
  | .f32, _, v, _, x => by
    rw [Ty.de, Ty.Means, num_iff f32Visitor_numOnly fun h => (hc h).1]
    simp only [f32_iff]
    exact ⟨fun ⟨n, h, i, h'⟩ => ⟨n, i, h, h'⟩, fun ⟨n, i, h, h'⟩ => ⟨n, h, i, h'⟩⟩
  | .f64, _, v, _, x => by
    rw [Ty.de, Ty.Means, num_iff f64Visitor_numOnly fun h => (hc h).1]
    simp only [f64_iff]
    exact ⟨fun ⟨n, h, i, h'⟩ => ⟨n, i, h, h'⟩, fun ⟨n, i, h, h'⟩ => ⟨n, h, i, h'⟩⟩
  | .char, _, v, _, x => by rw [Ty.de, Ty.Means]; exact char_iff
  | .string, _, v, _, x => by rw [Ty.de, Ty.Means]; exact string_iff
  | .pathBuf, _, v, _, x => by rw [Ty.de, Ty.Means]; exact path_iff
  | .unit, _, v, _, x => by rw [Ty.de, Ty.Means]; exact unit_iff
  | .unitStruct _, _, v, _, x => by rw [Ty.de, Ty.Means]; exact unit_iff
  | .option t, hp, v, hv, x => by
    rw [Ty.proper] at hp
    rw [Ty.de, Ty.Means]
    simp only [option_iff, Ty.means c l b hc t hp v hv]
  | .newtype n t, hp, v, hv, x => by
    rw [Ty.proper] at hp
    rw [Ty.de, Ty.Means]
    have ih := Ty.means c l b hc t hp v hv
    show (match t.de ⟨c, l⟩ v with | .ok x => Except.ok (Val.newtype x) | .error e => .error e) = .ok x ↔ _
    constructor
    · intro h
      cases hd : t.de ⟨c, l⟩ v with
      | error e => rw [hd] at h; cases h
      | ok y => rw [hd] at h; exact ⟨y, (Except.ok.inj h).symm, (ih y).1 hd⟩
    · rintro ⟨y, rfl, h⟩
      rw [(ih y).2 h]
  | .seq t, hp, v, hv, x => by
    rw [Ty.proper] at hp
    rw [Ty.de, Ty.Means]
    dsimp only
    rw [seq_iff]
    have ih : ∀ tag a, v = .array tag a → ∀ l', seqLoop t.de ⟨c, l⟩ 0 a = .ok l' ↔ a.length = l'.length ∧
        ∀ (i : Nat) w y, a[i]? = some w → l'[i]? = some y → t.Means l (cfgFile c) w y := by
      intro tag a ha l'
      subst ha
      exact seqLoop_iff a 0 l' fun w hw y => Ty.means c l b hc t hp w (hv.array w hw) y
    constructor
    · rintro ⟨tag, a, l', ha, hx, h⟩
      exact ⟨tag, a, l', ha, hx, (ih tag a ha l').1 h⟩
    · rintro ⟨tag, a, l', ha, hx, h⟩
      exact ⟨tag, a, l', ha, hx, (ih tag a ha l').2 h⟩
  | .tuple ts, hp, v, hv, x => by
    rw [Ty.proper] at hp
    rw [Ty.de, Ty.Means]
    dsimp only
    rw [tuple_iff]
    have ih := fun tag a (h : v = .array tag a) l' => Ty.means_each c l b hc ts hp a (h ▸ hv).array
      (str "a tuple of size " ++ Dec.ofNat ts.length) 0 l'
    constructor
    · rintro ⟨tag, a, l', ha, hx, h⟩
      exact ⟨tag, a, l', ha, hx, (ih tag a ha l').1 h⟩
    · rintro ⟨tag, a, l', ha, hx, h⟩
      exact ⟨tag, a, l', ha, hx, (ih tag a ha l').2 h⟩
  | .tupleStruct n ts, hp, v, hv, x => by
    rw [Ty.proper] at hp
    rw [Ty.de, Ty.Means]
    dsimp only
    rw [tuple_iff]
    have ih := fun tag a (h : v = .array tag a) l' => Ty.means_each c l b hc ts hp a (h ▸ hv).array
      (str "tuple struct " ++ n ++ str " with " ++ elements ts.length) 0 l'
    constructor
    · rintro ⟨tag, a, l', ha, hx, h⟩
      exact ⟨tag, a, l', ha, hx, (ih tag a ha l').1 h⟩
    · rintro ⟨tag, a, l', ha, hx, h⟩
      exact ⟨tag, a, l', ha, hx, (ih tag a ha l').2 h⟩
  | .map t, hp, v, hv, x => by
    rw [Ty.proper] at hp
    rw [Ty.de, Ty.Means]
    dsimp only
    rw [map_iff hv.1]
    have ih : ∀ tag d, v = .dict tag d → ∀ l', mapLoop t.de ⟨c, l⟩ d = .ok l' ↔ d.map (·.1) = l'.map (·.1) ∧
        ∀ (i : Nat) k w y, d[i]? = some (k, w) → l'[i]? = some (k, y) → t.Means l (cfgFile c) w y := by
      intro tag a ha l'
      subst ha
      exact mapLoop_iff a l' fun w hw y => Ty.means c l b hc t hp w.2 (hv.dict w hw) y
    constructor
    · rintro ⟨tag, a, l', ha, hx, h⟩
      exact ⟨tag, a, l', ha, hx, (ih tag a ha l').1 h⟩
    · rintro ⟨tag, a, l', ha, hx, h⟩
      exact ⟨tag, a, l', ha, hx, (ih tag a ha l').2 h⟩
  | .struct n name deny fs, hp, v, hv, x => by
    rw [Ty.proper, Bool.and_eq_true, Bool.and_eq_true, decide_eq_true_eq] at hp
    obtain ⟨⟨hname, hn⟩, hfs⟩ := hp
    cases hm : magicNames.contains name with
    | true =>
      rw [hm, Bool.not_true, Bool.false_or, Bool.and_eq_true] at hname
      have hs := Ty.means_same c l b hc fs hfs v hv
      cases c with
      | none => rw [(hc rfl).2] at hname; exact nomatch hname.1
      | some f => exact magic_means (hv.2 hname.1) hname.2 hs
    | false =>
      have h1 : name ≠ Tagged.NAME := by rintro rfl; exact absurd hm (by decide)
      have h2 : name ≠ RelPath.NAME := by rintro rfl; exact absurd hm (by decide)
      rw [Ty.de, Ty.Means, if_neg h1, if_neg h2]
      dsimp only
      rw [struct_plain hm]
      exact structAny_means hv.1 hn
        (fun tag d h xs => Ty.means_fields c l b hc fs hfs d (fun k w hw => (h ▸ hv).get hw) xs)
        (fun tag a h xs => Ty.means_elems c l b hc fs hfs a (h ▸ hv).array _ 0 xs)
  | .enum n vs, hp, v, hv, x => by
    rw [Ty.proper] at hp
    rw [Ty.de, Ty.Means]
    dsimp only
    rw [enum_iff]
    have ih : ∀ tag k w r, v = .dict tag ((k, w) :: r) → ∀ y, VariantsRun ⟨c, l⟩ n k vs w y ↔
        Ty.MeansVariant l (cfgFile c) k vs w y := fun tag k w r h y =>
      Ty.means_variants c l b hc n k vs hp w ((h ▸ hv).dict (k, w) (List.mem_cons_self ..)) y
    constructor
    · rintro (h | h | ⟨tag, k, w, r, y, h1, h2, h3⟩)
      · exact .inl h
      · exact .inr (.inl h)
      · exact .inr (.inr ⟨tag, k, w, r, y, h1, h2, (ih tag k w r h1 y).1 h3⟩)
    · rintro (h | h | ⟨tag, k, w, r, y, h1, h2, h3⟩)
      · exact .inl h
      · exact .inr (.inl h)
      · exact .inr (.inr ⟨tag, k, w, r, y, h1, h2, (ih tag k w r h1 y).2 h3⟩)
  | .value, hp, v, hv, x => by
    rw [Ty.proper] at hp
    cases c with
    | none => rw [(hc rfl).2] at hp; exact nomatch hp
    | some f =>
    rw [Ty.de, Ty.Means]
    dsimp only
    rw [Value.de_ok f l v hv.1 (Value.noReserved_of_unreserved v (hv.2 hp))]
    constructor
    · intro h
      exact ⟨_, Num.narrowing_visited, (Except.ok.inj h).symm⟩
    · rintro ⟨g, hg, rfl⟩
      rw [hg.eq]
      rfl
  | .tag, _, v, _, x => by rw [Ty.de, Ty.Means]; exact tag_iff
  | .flag, _, v, _, x => by rw [Ty.Means]; exact flag_iff
  | .parsed s parse _, _, v, _, x => by rw [Ty.de, Ty.Means]; exact parsed_iff
  | .via t conv _, hp, v, hv, x => by
    rw [Ty.proper, Bool.and_eq_true] at hp
    rw [Ty.de, Ty.Means]
    simp only [converted_eq_ok, Ty.means c l b hc t hp.2 v hv]
  | .any s, _, v, _, x => by rw [Ty.Means]; exact buffers_iff s _ v x
  | .flat n fs conv _, hp, v, hv, x => by
    rw [Ty.proper, Bool.and_eq_true, decide_eq_true_eq] at hp
    rw [Ty.de, Ty.Means]
    dsimp only
    rw [any_iff]
    have ih := fun tag d (h : v = .dict tag d) xs =>
      Ty.means_fields c l b hc fs hp.2 d (fun k w hw => (h ▸ hv).get hw) xs
    cases v with
    | dict tag d =>
      dsimp only
      rw [flat_iff (Value.wf_dict.1 hv.1).1 (by rw [deFields_names]; exact hp.1), deFields_names]
      constructor
      · rintro ⟨xs, l', h1, h2, h3⟩
        exact ⟨tag, d, xs, l', rfl, (ih tag d rfl xs).1 h1, h2, h3⟩
      · rintro ⟨_, _, xs, l', h, h1, h2, h3⟩
        cases h
        exact ⟨xs, l', (ih tag d rfl xs).2 h1, h2, h3⟩
    | empty t e => cases e <;> exact ⟨nofun, fun ⟨_, _, _, _, h, _⟩ => nomatch h⟩
    | num t m => dsimp only; rw [Num.deserializeAny_visited]; exact ⟨nofun, fun ⟨_, _, _, _, h, _⟩ => nomatch h⟩
    | _ => exact ⟨nofun, fun ⟨_, _, _, _, h, _⟩ => nomatch h⟩
  | .pairs t, hp, v, hv, x => by
    rw [Ty.proper] at hp
    rw [Ty.de, Ty.Means]
    dsimp only
    rw [pairs_iff]
    have ih : ∀ tag d, v = .dict tag d → ∀ l', mapLoop t.de ⟨c, l⟩ d = .ok l' ↔ d.map (·.1) = l'.map (·.1) ∧
        ∀ (i : Nat) k w y, d[i]? = some (k, w) → l'[i]? = some (k, y) → t.Means l (cfgFile c) w y := by
      intro tag a ha l'
      subst ha
      exact mapLoop_iff a l' fun w hw y => Ty.means c l b hc t hp w.2 (hv.dict w hw) y
    constructor
    · rintro ⟨tag, a, l', ha, hx, h⟩
      exact ⟨tag, a, l', ha, hx, (ih tag a ha l').1 h⟩
    · rintro ⟨tag, a, l', ha, hx, h⟩
      exact ⟨tag, a, l', ha, hx, (ih tag a ha l').2 h⟩
  | .keyed kt t, hp, v, hv, x => by
    rw [Ty.proper] at hp
    rw [Ty.de, Ty.Means]
    dsimp only
    rw [keyed_iff]
    refine exists_congr fun tag => exists_congr fun d => exists_congr fun l' => and_congr_right fun h => and_congr_right fun _ => ?_
    subst h
    exact keyedLoop_iff (fun s x => Ty.deKey_ok kt s x) d l' fun e he y => Ty.means c l b hc t hp e.2 (hv.dict e he) y
theorem Ty.means_each (c : Option Fig) (l b : Bool) (hc : c = none → l = false ∧ b = false) : (ts : List Ty) → Ty.properEach b ts = true → ∀ a : List Value,
    (∀ w ∈ a, w.Fine b) → ∀ s i xs,
    (tupleLoop s ⟨c, l⟩ i ((Ty.deEach ts).map fun run => (none, run)) a = .ok xs ↔ Ty.MeansEach l (cfgFile c) ts a xs)
  | [], _, a, _, s, i, xs => by
    rw [Ty.deEach, List.map_nil, tupleLoop, Ty.MeansEach]
    exact ⟨fun h => (Except.ok.inj h).symm, fun h => by rw [h]⟩
  | t :: ts, hp, a, ha, s, i, xs => by
    rw [Ty.properEach, Bool.and_eq_true] at hp
    rw [Ty.deEach, List.map_cons, Ty.MeansEach]
    cases a with
    | nil => exact ⟨nofun, nofun⟩
    | cons w a =>
      have ih1 := Ty.means c l b hc t hp.1 w (ha w (List.mem_cons_self ..))
      have ih2 := Ty.means_each c l b hc ts hp.2 a (fun w hw => ha w (List.mem_cons_of_mem _ hw)) s (i + 1)
      rw [tupleLoop]
      constructor
      · intro h
        cases hx : SeqDe.nextElement t.de ⟨c, l⟩ i w with
        | error e => rw [hx] at h; cases h
        | ok y =>
          rw [hx] at h
          dsimp only at h
          cases hl : tupleLoop s ⟨c, l⟩ (i + 1) ((Ty.deEach ts).map fun run => (none, run)) a with
          | error e => rw [hl] at h; cases h
          | ok ys =>
            rw [hl] at h
            rw [SeqDe.nextElement, R.mapErr_eq_ok] at hx
            exact ⟨w, a, y, ys, rfl, (Except.ok.inj h).symm, (ih1 y).1 hx, (ih2 ys).1 hl⟩
      · rintro ⟨w', a', y, ys, h1, rfl, h2, h3⟩
        cases h1
        have hx : SeqDe.nextElement t.de ⟨c, l⟩ i w = .ok y := by
          rw [SeqDe.nextElement, R.mapErr_eq_ok]; exact (ih1 y).2 h2
        rw [hx]
        dsimp only
        rw [(ih2 ys).2 h3]
theorem Ty.means_fields (c : Option Fig) (l b : Bool) (hc : c = none → l = false ∧ b = false) : (fs : List (Str × Option Val × Ty)) → Ty.properFields b fs = true →
    ∀ d : Dict, (∀ k w, Map.get k d = some w → w.Fine b) → ∀ xs,
    (FieldsRun ⟨c, l⟩ (Ty.deFields fs) d xs ↔ Ty.MeansFields l (cfgFile c) fs d xs)
  | [], _, d, _, xs => by rw [Ty.deFields, FieldsRun, Ty.MeansFields]
  | (name, dflt, t) :: fs, hp, d, hd, xs => by
    rw [Ty.properFields, Bool.and_eq_true] at hp
    rw [Ty.deFields, FieldsRun, Ty.MeansFields]
    have ih1 := fun w (h : Map.get name d = some w) => Ty.means c l b hc t hp.1 w (hd name w h)
    have ih2 := Ty.means_fields c l b hc fs hp.2 d hd
    have hmiss := fun y => missing_iff (f := ⟨name, dflt, t.isOption, t.de⟩) (t := t) rfl (y := y)
    constructor
    · rintro ⟨y, ys, hx, h1, ⟨w, hw, h2⟩ | ⟨hw, h2⟩⟩
      · exact ⟨y, ys, hx, (ih2 ys).1 h1, .inl ⟨w, hw, (ih1 w hw y).1 h2⟩⟩
      · exact ⟨y, ys, hx, (ih2 ys).1 h1, .inr ⟨hw, (hmiss y).1 h2⟩⟩
    · rintro ⟨y, ys, hx, h1, ⟨w, hw, h2⟩ | ⟨hw, h2⟩⟩
      · exact ⟨y, ys, hx, (ih2 ys).2 h1, .inl ⟨w, hw, (ih1 w hw y).2 h2⟩⟩
      · exact ⟨y, ys, hx, (ih2 ys).2 h1, .inr ⟨hw, (hmiss y).2 h2⟩⟩
theorem Ty.means_elems (c : Option Fig) (l b : Bool) (hc : c = none → l = false ∧ b = false) : (fs : List (Str × Option Val × Ty)) → Ty.properFields b fs = true →
    ∀ a : List Value, (∀ w ∈ a, w.Fine b) → ∀ s i xs,
    (tupleLoop s ⟨c, l⟩ i ((Ty.deFields fs).map fun f => (f.dflt, f.run)) a = .ok xs ↔
      Ty.MeansElems l (cfgFile c) fs a xs)
  | [], _, a, _, s, i, xs => by
    rw [Ty.deFields, List.map_nil, tupleLoop, Ty.MeansElems]
    exact ⟨fun h => (Except.ok.inj h).symm, fun h => by rw [h]⟩
  | (name, dflt, t) :: fs, hp, a, ha, s, i, xs => by
    rw [Ty.properFields, Bool.and_eq_true] at hp
    rw [Ty.deFields, List.map_cons, Ty.MeansElems]
    cases a with
    | nil =>
      have ih2 := Ty.means_elems c l b hc fs hp.2 [] nofun s (i + 1)
      cases dflt with
      | none =>
        refine ⟨nofun, ?_⟩
        rintro ⟨y, ys, _, ⟨_, _, h, _⟩ | ⟨_, h, _⟩⟩ <;> cases h
      | some z =>
        rw [tupleLoop]
        constructor
        · intro h
          cases hl : tupleLoop s ⟨c, l⟩ (i + 1) ((Ty.deFields fs).map fun f => (f.dflt, f.run)) [] with
          | error e => rw [hl] at h; cases h
          | ok ys => rw [hl] at h; exact ⟨z, ys, (Except.ok.inj h).symm, .inr ⟨rfl, rfl, (ih2 ys).1 hl⟩⟩
        · rintro ⟨y, ys, rfl, ⟨_, _, h, _⟩ | ⟨_, h, h2⟩⟩
          · cases h
          · cases h
            rw [(ih2 ys).2 h2]
    | cons w a =>
      have ih1 := Ty.means c l b hc t hp.1 w (ha w (List.mem_cons_self ..))
      have ih2 := Ty.means_elems c l b hc fs hp.2 a (fun w hw => ha w (List.mem_cons_of_mem _ hw)) s (i + 1)
      rw [tupleLoop]
      constructor
      · intro h
        cases hx : SeqDe.nextElement t.de ⟨c, l⟩ i w with
        | error e => rw [hx] at h; cases h
        | ok y =>
          rw [hx] at h
          dsimp only at h
          cases hl : tupleLoop s ⟨c, l⟩ (i + 1) ((Ty.deFields fs).map fun f => (f.dflt, f.run)) a with
          | error e => rw [hl] at h; cases h
          | ok ys =>
            rw [hl] at h
            rw [SeqDe.nextElement, R.mapErr_eq_ok] at hx
            exact ⟨y, ys, (Except.ok.inj h).symm, .inl ⟨w, a, rfl, (ih1 y).1 hx, (ih2 ys).1 hl⟩⟩
      · rintro ⟨y, ys, rfl, ⟨w', a', h1, h2, h3⟩ | ⟨h, _⟩⟩
        · cases h1
          have hx : SeqDe.nextElement t.de ⟨c, l⟩ i w = .ok y := by
            rw [SeqDe.nextElement, R.mapErr_eq_ok]; exact (ih1 y).2 h2
          rw [hx]
          dsimp only
          rw [(ih2 ys).2 h3]
        · cases h
theorem Ty.means_same (c : Option Fig) (l b : Bool) (hc : c = none → l = false ∧ b = false) : (fs : List (Str × Option Val × Ty)) → Ty.properFields b fs = true →
    ∀ v : Value, v.Fine b → ∀ e ∈ fs, ∀ y, (e.2.2.de ⟨c, l⟩ v = .ok y ↔ e.2.2.Means l (cfgFile c) v y)
  | [], _, _, _, _, he, _ => nomatch he
  | (name, dflt, t) :: fs, hp, v, hv, e, he, y => by
    rw [Ty.properFields, Bool.and_eq_true] at hp
    have ih1 := Ty.means c l b hc t hp.1 v hv y
    have ih2 := Ty.means_same c l b hc fs hp.2 v hv e
    rcases List.mem_cons.1 he with rfl | he
    · exact ih1
    · exact ih2 he y
theorem Ty.means_variants (c : Option Fig) (l b : Bool) (hc : c = none → l = false ∧ b = false) (n k : Str) : (vs : List (Str × VTy)) → Ty.properVariants b vs = true →
    ∀ v : Value, v.Fine b → ∀ y, (VariantsRun ⟨c, l⟩ n k vs v y ↔ Ty.MeansVariant l (cfgFile c) k vs v y)
  | [], _, v, _, y => by
    rw [Ty.MeansVariant]
    refine ⟨?_, fun h => h.elim⟩
    rintro ⟨_, h, _⟩
    cases h
  | (m, t) :: vs, hp, v, hv, y => by
    rw [Ty.properVariants, Bool.and_eq_true] at hp
    have ih1 := VTy.means c l b hc (n ++ str "::" ++ k) k t hp.1 v hv y
    have ih2 := Ty.means_variants c l b hc n k vs hp.2 v hv y
    rw [Ty.MeansVariant, ← ih1, ← ih2]
    unfold VariantsRun
    rw [List.lookup_cons]
    by_cases hm : k = m
    · subst hm
      rw [beq_self_eq_true]
      dsimp only
      constructor
      · rintro ⟨_, h, h'⟩
        cases h
        exact .inl ⟨rfl, h'⟩
      · rintro (⟨_, h⟩ | ⟨h, _⟩)
        · exact ⟨_, rfl, h⟩
        · exact absurd rfl h
    · rw [beq_eq_false_iff_ne.2 hm]
      dsimp only
      constructor
      · intro h
        exact .inr ⟨Ne.symm hm, h⟩
      · rintro (⟨h, _⟩ | ⟨_, h⟩)
        · exact absurd h.symm hm
        · exact h
theorem VTy.means (c : Option Fig) (l b : Bool) (hc : c = none → l = false ∧ b = false) (n k : Str) : (t : VTy) → t.proper b = true → ∀ v : Value, v.Fine b → ∀ y,
    ((t.de n).with ⟨c, l⟩ k v = .ok y ↔ t.Means l (cfgFile c) v y)
  | .unit, _, v, _, y => by
    rw [VTy.de, VariantSeed.with, MapDe.nextValue, R.mapErr_eq_ok, VTy.Means]
    exact unit_iff
  | .newtype t, hp, v, hv, y => by
    rw [VTy.proper] at hp
    rw [VTy.de, VariantSeed.with, MapDe.nextValue, R.mapErr_eq_ok, VTy.Means]
    exact Ty.means c l b hc t hp v hv y
  | .tuple ts, hp, v, hv, x => by
    rw [VTy.proper] at hp
    rw [VTy.de]
    rw [VariantSeed.with, MapDe.nextValue, R.mapErr_eq_ok, VTy.Means, tuple_iff]
    have ih := fun tag a (h : v = .array tag a) l' => Ty.means_each c l b hc ts hp a (h ▸ hv).array
      (str "tuple variant " ++ n ++ str " with " ++ elements ts.length) 0 l'
    constructor
    · rintro ⟨tag, a, l', ha, hx, h⟩
      exact ⟨tag, a, l', ha, hx, (ih tag a ha l').1 h⟩
    · rintro ⟨tag, a, l', ha, hx, h⟩
      exact ⟨tag, a, l', ha, hx, (ih tag a ha l').2 h⟩
  | .struct deny fs, hp, v, hv, x => by
    rw [VTy.proper, Bool.and_eq_true, decide_eq_true_eq] at hp
    rw [VTy.de]
    rw [VariantSeed.with, MapDe.nextValue, R.mapErr_eq_ok, VTy.Means]
    exact structAny_means hv.1 hp.1
      (fun tag d h xs => Ty.means_fields c l b hc fs hp.2 d (fun k w hw => (h ▸ hv).get hw) xs)
      (fun tag a h xs => Ty.means_elems c l b hc fs hp.2 a (h ▸ hv).array _ 0 xs)
end

end Figment
