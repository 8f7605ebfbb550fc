import Verif.Lemmas.De
import Verif.Lemmas.Keys
import Verif.Lemmas.DeValue
import Verif.Lemmas.Ser
import Verif.Spec.Types
/-!
# Lemmas: typed round trips
-/
namespace Figment

/-- Whatever has the content of `w`, whoever supplied it, is read as `x`. -/
def Seed.Back (run : Seed) (x : Val) (w : Value) : Prop :=
  ∀ c w', w'.strip = w.strip → run ⟨c, false⟩ w' = .ok x

namespace Value
theorem strip_eq_array {w' : Value} {t : Tag} {a : List Value} (h : w'.strip = .array t a) :
    ∃ t' a', w' = .array t' a' ∧ stripA a' = a := by
  cases w' <;> simp only [strip, reduceCtorEq, Value.array.injEq] at h
  exact ⟨_, _, rfl, h.2⟩
theorem strip_eq_dict {w' : Value} {t : Tag} {a : List (Str × Value)} (h : w'.strip = .dict t a) :
    ∃ t' a', w' = .dict t' a' ∧ stripD a' = a := by
  cases w' <;> simp only [strip, reduceCtorEq, Value.dict.injEq] at h
  exact ⟨_, _, rfl, h.2⟩
theorem strip_eq_string {w' : Value} {t : Tag} {s : Str} (h : w'.strip = .string t s) : ∃ t', w' = .string t' s := by
  cases w' <;> simp only [strip, reduceCtorEq, Value.string.injEq] at h
  exact ⟨_, by rw [h.2]⟩
theorem strip_eq_char {w' : Value} {t : Tag} {s : Char} (h : w'.strip = .char t s) : ∃ t', w' = .char t' s := by
  cases w' <;> simp only [strip, reduceCtorEq, Value.char.injEq] at h
  exact ⟨_, by rw [h.2]⟩
theorem strip_eq_bool {w' : Value} {t : Tag} {s : Bool} (h : w'.strip = .bool t s) : ∃ t', w' = .bool t' s := by
  cases w' <;> simp only [strip, reduceCtorEq, Value.bool.injEq] at h
  exact ⟨_, by rw [h.2]⟩
theorem strip_eq_num {w' : Value} {t : Tag} {s : Num} (h : w'.strip = .num t s) : ∃ t', w' = .num t' s := by
  cases w' <;> simp only [strip, reduceCtorEq, Value.num.injEq] at h
  exact ⟨_, by rw [h.2]⟩
theorem strip_eq_empty {w' : Value} {t : Tag} {s : Empty} (h : w'.strip = .empty t s) : ∃ t', w' = .empty t' s := by
  cases w' <;> simp only [strip, reduceCtorEq, Value.empty.injEq] at h
  exact ⟨_, by rw [h.2]⟩

/-- Is the value the empty one? -/
def isEmptyVal : Value → Bool
  | .empty _ _ => true
  | _ => false

theorem isEmptyVal_strip (v : Value) : v.strip.isEmptyVal = v.isEmptyVal := by cases v <;> rfl
end Value

theorem Map.mem_ofList {α : Type _} {e : Str × α} {l : List (Str × α)} (h : e ∈ Map.ofList l) : e ∈ l := by
  have key : ∀ (l : List (Str × α)) (m : Map Str α), e ∈ Map.extend m l → e ∈ m ∨ e ∈ l := by
    intro l
    induction l with
    | nil => exact fun m h => .inl h
    | cons x r ih =>
      intro m h
      rcases ih _ h with h | h
      · rcases Map.mem_insert h with h | h
        · refine .inr (List.mem_cons.2 (.inl ?_))
          obtain ⟨h1, h2⟩ := h
          obtain ⟨a, b⟩ := e
          obtain ⟨a', b'⟩ := x
          cases h1
          rw [show a' = a from Std.LawfulEqOrd.eq_of_compare h2]
        · exact .inl h
      · exact .inr (List.mem_cons_of_mem _ h)
  rcases key l [] h with h | h
  · exact nomatch h
  · exact h

theorem Map.mem_keys_ofList {α : Type _} {k : Str} {l : List (Str × α)} (h : k ∈ l.map (·.1)) :
    ∃ v, (k, v) ∈ Map.ofList l := by
  have h1 : (Map.get k (Map.ofList l)).isSome := by
    rw [Map.ofList, Map.get_extend, Map.get_nil, Option.or_none]
    obtain ⟨e, he, rfl⟩ := List.mem_map.1 h
    exact Map.get_isSome_of_mem (v := e.2) (List.mem_reverse.2 he)
  obtain ⟨v, hv⟩ := Option.isSome_iff_exists.1 h1
  obtain ⟨k', h2, h3⟩ := Map.mem_of_get hv
  rw [Std.LawfulEqOrd.eq_of_compare h3]
  exact ⟨v, h2⟩

/-! ## Loops -/

theorem seqLoop_back {run : Seed} {c : Option Fig} : ∀ (l : List Val) (ws a : List Value) (i : Nat),
    l.length = ws.length → (∀ p ∈ l.zip ws, run.Back p.1 p.2) → Value.stripA a = Value.stripA ws →
    seqLoop run ⟨c, false⟩ i a = .ok l
  | [], [], a, i, _, _, h => by
    cases a with
    | nil => rfl
    | cons v r => exact nomatch h
  | x :: l, w :: ws, a, i, hl, hb, h => by
    cases a with
    | nil => exact nomatch h
    | cons v r =>
      simp only [Value.stripA, List.cons.injEq] at h
      rw [seqLoop, SeqDe.nextElement, hb (x, w) (List.mem_cons_self ..) c v h.1]
      dsimp only [R.mapErr_ok]
      rw [seqLoop_back l ws r (i + 1) (Nat.succ.inj hl) (fun p hp => hb p (List.mem_cons_of_mem _ hp)) h.2]

/-- The elements of a tuple and what they are written as. -/
def EachBack : List Seed → List Val → List Value → Prop
  | [], [], [] => True
  | run :: runs, x :: l, w :: ws => run.Back x w ∧ EachBack runs l ws
  | _, _, _ => False

theorem tupleLoop_back {c : Option Fig} {exp : Str} : ∀ {runs : List Seed} {l : List Val} {ws : List Value},
    EachBack runs l ws → ∀ (a : List Value) (i : Nat), Value.stripA a = Value.stripA ws →
    tupleLoop exp ⟨c, false⟩ i (runs.map fun run => (none, run)) a = .ok l
  | [], [], [], _, a, i, h => by
    cases a with
    | nil => rfl
    | cons v r => exact nomatch h
  | run :: runs, x :: l, w :: ws, hb, a, i, h => by
    cases a with
    | nil => exact nomatch h
    | cons v r =>
      simp only [Value.stripA, List.cons.injEq] at h
      rw [List.map_cons, tupleLoop, SeqDe.nextElement, hb.1 c v h.1]
      dsimp only [R.mapErr_ok]
      rw [tupleLoop_back hb.2 r (i + 1) h.2]

theorem mapLoop_back {run : Seed} {c : Option Fig} : ∀ (l : List (Str × Val)) (es a : List (Str × Value)),
    l.map (·.1) = es.map (·.1) → (∀ p ∈ l.zip es, run.Back p.1.2 p.2.2) → Value.stripD a = Value.stripD es →
    mapLoop run ⟨c, false⟩ a = .ok l
  | [], [], a, _, _, h => by
    cases a with
    | nil => rfl
    | cons v r => exact nomatch h
  | (k, x) :: l, (k', w) :: es, a, hl, hb, h => by
    cases a with
    | nil => exact nomatch h
    | cons v r =>
      obtain ⟨k'', v⟩ := v
      simp only [Value.stripD, List.cons.injEq, Prod.mk.injEq] at h
      simp only [List.map_cons, List.cons.injEq] at hl
      rw [mapLoop, MapDe.nextValue, hb ((k, x), (k', w)) (List.mem_cons_self ..) c v h.1.2]
      dsimp only [R.mapErr_ok]
      rw [mapLoop_back l es r hl.2 (fun p hp => hb p (List.mem_cons_of_mem _ hp)) h.2, h.1.1, hl.1]

theorem keyedLoop_back [FloatOps] {kt : Ty} {run : Seed} {c : Option Fig} : ∀ (l : List (Val × Val)) (es a : List (Str × Value)),
    es.length = l.length →
    (∀ (i : Nat) e s w, l[i]? = some e → es[i]? = some (s, w) → kt.KeyIs s e.1 ∧ run.Back e.2 w) →
    Value.stripD a = Value.stripD es → keyedLoop kt.deKey run ⟨c, false⟩ a = .ok l
  | [], [], a, _, _, h => by
    cases a with
    | nil => rfl
    | cons v r => exact nomatch h
  | (x, y) :: l, (k', w) :: es, a, hl, hb, h => by
    cases a with
    | nil => exact nomatch h
    | cons v r =>
      obtain ⟨k, v⟩ := v
      simp only [Value.stripD, List.cons.injEq, Prod.mk.injEq] at h
      obtain ⟨h1, h2⟩ := hb 0 (x, y) k' w rfl rfl
      rw [keyedLoop, h.1.1, (Ty.deKey_ok kt k' x).2 h1]
      dsimp only [R.mapErr_ok]
      rw [MapDe.nextValue, h2 c v h.1.2]
      dsimp only [R.mapErr_ok]
      rw [keyedLoop_back l es r (by simpa using hl)
        (fun i e s w he hs => hb (i + 1) e s w (by simpa using he) (by simpa using hs)) h.2]
  | [], _ :: _, _, h, _, _ => by simp at h
  | _ :: _, [], _, h, _, _ => by simp at h

theorem sorted_of_texts {kt : Ty} {l : List (Val × Val)} {es : List (Str × Value)} (hl : es.length = l.length)
    (h : ∀ (i : Nat) e s w, l[i]? = some e → es[i]? = some (s, w) → kt.KeyText e.1 = some s) (hs : KeySorted kt l) :
    Map.Sorted es := by
  rw [Map.Sorted, List.pairwise_iff_getElem]
  intro i j hi hj hij
  have := List.pairwise_iff_getElem.1 hs i j (hl ▸ hi) (hl ▸ hj) hij
  rw [h i _ es[i].1 es[i].2 (List.getElem?_eq_getElem (hl ▸ hi)) (List.getElem?_eq_getElem hi),
    h j _ es[j].1 es[j].2 (List.getElem?_eq_getElem (hl ▸ hj)) (List.getElem?_eq_getElem hj)] at this
  exact this

/-- The fields, their values and what these are written as. -/
def FieldsBack : List FieldSeed → List Val → List (Str × Value) → Prop
  | [], [], [] => True
  | f :: fs, x :: l, (k, w) :: es => f.name = k ∧ f.run.Back x w ∧ FieldsBack fs l es
  | _, _, _ => False

theorem FieldsBack.keys : ∀ {fs : List FieldSeed} {l : List Val} {es : List (Str × Value)}, FieldsBack fs l es →
    es.map (·.1) = fs.map (·.name)
  | [], [], [], _ => rfl
  | f :: fs, x :: l, (k, w) :: es, h => by
    rw [List.map_cons, List.map_cons, FieldsBack.keys h.2.2, h.1]

/-- The value of a field. -/
def fieldVal : List FieldSeed → List Val → Str → Val
  | f :: fs, x :: l, k => if f.name = k then x else fieldVal fs l k
  | _, _, _ => .unit

theorem FieldsBack.mem : ∀ {fs : List FieldSeed} {l : List Val} {es : List (Str × Value)}, FieldsBack fs l es →
    (fs.map (·.name)).Nodup → ∀ {k : Str} {w : Value}, (k, w) ∈ es →
    ∃ f, fs.find? (fun f => f.name = k) = some f ∧ f.run.Back (fieldVal fs l k) w
  | [], [], [], _, _, _, _, hk => nomatch hk
  | f :: fs, x :: l, (k', w') :: es, h, hn, k, w, hk => by
    rw [List.map_cons, List.nodup_cons] at hn
    rcases List.mem_cons.1 hk with hk | hk
    · cases hk
      refine ⟨f, ?_, ?_⟩
      · rw [List.find?_cons, decide_eq_true h.1]
      · rw [fieldVal, if_pos h.1]
        exact h.2.1
    · have hne : f.name ≠ k := by
        intro he
        refine hn.1 ?_
        rw [← h.2.2.keys, he]
        exact List.mem_map.2 ⟨_, hk, rfl⟩
      obtain ⟨g, hg, hb⟩ := FieldsBack.mem h.2.2 hn.2 hk
      refine ⟨g, ?_, ?_⟩
      · rw [List.find?_cons, decide_eq_false hne]; exact hg
      · rw [fieldVal, if_neg hne]; exact hb

theorem fieldLoop_back {c : Option Fig} {deny : Bool} {fs : List FieldSeed} {g : Str → Val} :
    ∀ (d : List (Str × Value)) (acc : List (Str × Val)),
    (∀ e ∈ d, ∃ f, fs.find? (fun f => f.name = e.1) = some f ∧ f.run ⟨c, false⟩ e.2 = .ok (g e.1)) →
    fieldLoop ⟨c, false⟩ deny fs d acc = .ok ((d.map fun e => (e.1, g e.1)).reverse ++ acc)
  | [], acc, _ => rfl
  | (k, v) :: r, acc, h => by
    obtain ⟨f, h1, h2⟩ := h (k, v) (List.mem_cons_self ..)
    rw [fieldLoop, h1]
    dsimp only
    rw [MapDe.nextValue, h2]
    dsimp only [R.mapErr_ok]
    rw [fieldLoop_back r _ fun e he => h e (List.mem_cons_of_mem _ he)]
    simp

theorem lookup_of_graph {g : Str → Val} {k : Str} : ∀ {l : List (Str × Val)}, (∀ e ∈ l, e.2 = g e.1) →
    k ∈ l.map (·.1) → l.lookup k = some (g k)
  | (k', x) :: r, h, hk => by
    rw [List.lookup_cons]
    by_cases hkk : k = k'
    · rw [hkk, BEq.rfl]
      exact congrArg some (h (k', x) (List.mem_cons_self ..))
    · rw [beq_eq_false_iff_ne.2 hkk]
      refine lookup_of_graph (fun e he => h e (List.mem_cons_of_mem _ he)) ?_
      rcases List.mem_cons.1 hk with hk | hk
      · exact absurd hk hkk
      · exact hk

theorem fieldFinish_eq {acc : List (Str × Val)} {g : Str → Val} : ∀ (fs : List FieldSeed),
    (∀ f ∈ fs, acc.lookup f.name = some (g f.name)) → fieldFinish acc fs = .ok (fs.map fun f => g f.name)
  | [], _ => rfl
  | f :: fs, h => by
    rw [fieldFinish, FieldSeed.get, h f (List.mem_cons_self ..)]
    dsimp only
    rw [fieldFinish_eq fs fun f hf => h f (List.mem_cons_of_mem _ hf)]
    rfl

theorem fieldVal_map : ∀ {fs : List FieldSeed} {l : List Val} {es : List (Str × Value)}, FieldsBack fs l es →
    (fs.map (·.name)).Nodup → fs.map (fun f => fieldVal fs l f.name) = l
  | [], [], [], _, _ => rfl
  | f :: fs, x :: l, (k, w) :: es, h, hn => by
    rw [List.map_cons, List.nodup_cons] at hn
    rw [List.map_cons, fieldVal, if_pos rfl]
    refine congrArg (x :: ·) (Eq.trans ?_ (fieldVal_map h.2.2 hn.2))
    refine List.map_congr_left fun g hg => ?_
    rw [fieldVal, if_neg]
    intro he
    exact hn.1 (List.mem_map.2 ⟨g, hg, he.symm⟩)

theorem mem_of_strip_eq {d es : List (Str × Value)} (h : Value.stripD d = Value.stripD es) {k : Str} {v : Value}
    (hk : (k, v) ∈ d) : ∃ w, (k, w) ∈ es ∧ v.strip = w.strip := by
  rw [Value.stripD_eq, Value.stripD_eq] at h
  have : (k, v.strip) ∈ d.map fun e => (e.1, e.2.strip) := List.mem_map.2 ⟨_, hk, rfl⟩
  rw [h] at this
  obtain ⟨⟨k', w⟩, h1, h2⟩ := List.mem_map.1 this
  simp only [Prod.mk.injEq] at h2
  exact ⟨w, h2.1 ▸ h1, h2.2.symm⟩

theorem struct_back {c : Option Fig} {a b : Str} {deny : Bool} {fs : List FieldSeed} {l : List Val}
    {es d : List (Str × Value)} (h : FieldsBack fs l es) (hn : (fs.map (·.name)).Nodup)
    (hd : Value.stripD d = Value.stripD (Map.ofList es)) :
    (structVisitor a b deny fs).visitMap ⟨c, false⟩ d = .ok (.struct l) := by
  have h1 : fieldLoop ⟨c, false⟩ deny fs d [] = .ok ((d.map fun e => (e.1, fieldVal fs l e.1)).reverse ++ []) := by
    refine fieldLoop_back d [] ?_
    rintro ⟨k, v⟩ he
    obtain ⟨w, h1, h2⟩ := mem_of_strip_eq hd he
    obtain ⟨f, h3, h4⟩ := h.mem hn (Map.mem_ofList h1)
    exact ⟨f, h3, h4 c v h2⟩
  unfold structVisitor
  dsimp only
  rw [h1]
  dsimp only
  rw [fieldFinish_eq (g := fieldVal fs l) fs, fieldVal_map h hn]
  intro f hf
  refine lookup_of_graph ?_ ?_
  · intro e he
    rw [List.append_nil, List.mem_reverse, List.mem_map] at he
    obtain ⟨e', _, rfl⟩ := he
    rfl
  · have : f.name ∈ es.map (·.1) := by rw [h.keys]; exact List.mem_map.2 ⟨f, hf, rfl⟩
    obtain ⟨w, hw⟩ := Map.mem_keys_ofList this
    obtain ⟨v, hv, _⟩ := mem_of_strip_eq hd.symm hw
    rw [List.append_nil, List.mem_map]
    exact ⟨_, List.mem_reverse.2 (List.mem_map.2 ⟨_, hv, rfl⟩), rfl⟩

/-! ## Integers -/

theorem BitVec.toNat_ofInt_of {w : Nat} {n : Int} (h0 : 0 ≤ n) (h1 : n < 2 ^ w) : ((BitVec.ofInt w n).toNat : Int) = n := by
  rw [BitVec.toNat_ofInt]
  have : n % (2 ^ w : Nat) = n := Int.emod_eq_of_lt h0 (by exact_mod_cast h1)
  rw [this]
  exact Int.toNat_of_nonneg h0

theorem BitVec.toInt_ofInt_of {w : Nat} {n : Int} (h0 : -2 ^ w ≤ n) (h1 : n ≤ 2 ^ w - 1) :
    (BitVec.ofInt (w + 1) n).toInt = n := by
  rw [BitVec.toInt_ofInt]
  have : (2 : Int) ^ w = ((2 ^ w : Nat) : Int) := by norm_cast
  refine Int.bmod_eq_of_le ?_ ?_ <;> rw [Nat.pow_succ] <;> omega

theorem IntTy.small_num {t : IntTy} {n : Int} (h0 : t.min ≤ n) (h1 : n ≤ t.max) (hu : t ≠ .u128) (hi : t ≠ .i128) :
    (t.num n).small? = some n ∧ (t.num n).visited = t.num n := by
  cases t <;> simp only [IntTy.min, IntTy.max] at h0 h1
  all_goals first
    | exact absurd rfl hu
    | exact absurd rfl hi
    | refine ⟨congrArg some ?_, rfl⟩
  all_goals first
    | exact BitVec.toNat_ofInt_of h0 (by omega)
    | exact BitVec.toInt_ofInt_of h0 h1

/-! ## Deserialisers -/

theorem any_ok {α : Type} {de : De} {V : Visitor α} {v : Value} {x : α} (h : (match v with
    | .string _ s => V.visitStr s
    | .char _ c => V.visitChar c
    | .bool _ b => V.visitBool b
    | .num _ n => n.deserializeAny V
    | .empty _ e => e.deserializeAny V
    | .dict _ map => V.visitMap de map
    | .array _ seq => V.visitSeq de seq) = .ok x) : de.deserializeAny V v = .ok x := by
  rw [De.deserializeAny.eq_def, R.mapErr_eq_ok]
  exact h

theorem Num.deserializeAny_visited {α : Type} (V : Visitor α) (n : Num) :
    n.deserializeAny V = V.visitNum n.visited := by cases n <;> rfl

section
variable [FloatOps]

theorem num_ok {c : Option Fig} {V : Visitor Val} {t : Tag} {n : Num} {x : Val} (hn : n.visited = n)
    (h : V.visitNum n = .ok x) : De.deserializeNum ⟨c, false⟩ V (.num t n) = .ok x := by
  have h1 : ∀ de : De, de.deserializeAny V (.num t n) = .ok x := fun de => any_ok (by
    dsimp only
    rw [Num.deserializeAny_visited, hn, h])
  cases c with
  | none => exact h1 _
  | some f =>
    unfold De.deserializeNum
    dsimp only
    rw [R.mapErr_eq_ok]
    exact h1 _

omit [FloatOps] in
theorem struct_ok {c : Option Fig} {l : Bool} {name : Str} {V : Visitor Val} {v : Value} {x : Val}
    (hname : magicNames.contains name = false) (h : De.deserializeAny ⟨c, l⟩ V v = .ok x) :
    De.deserializeStruct ⟨c, l⟩ name V v = .ok x := by
  cases c with
  | none => exact h
  | some f =>
    simp only [magicNames, List.contains_cons, List.contains_nil, Bool.or_false, Bool.or_eq_false_iff,
      beq_eq_false_iff_ne] at hname
    unfold De.deserializeStruct
    dsimp only
    rw [R.mapErr_eq_ok, if_neg hname.1, if_neg hname.2.1, if_neg hname.2.2]
    exact h

theorem seq_written {t : Ty} {K : Val → Prop} {l : List Val}
    (h : ∀ y ∈ l, ∃ w, (t.ser y).serialize = .ok w ∧ (K y → t.de.Back y w)) :
    ∃ ws, Ser.serializeSeq (l.map fun x => t.ser x) = .ok ws ∧ l.length = ws.length ∧
      ((∀ y ∈ l, K y) → ∀ p ∈ l.zip ws, t.de.Back p.1 p.2) := by
  induction l with
  | nil => exact ⟨[], rfl, rfl, fun _ p hp => nomatch hp⟩
  | cons x l ih =>
    obtain ⟨w, h1, h2⟩ := h x (List.mem_cons_self ..)
    obtain ⟨ws, h3, h4, h5⟩ := ih fun y hy => h y (List.mem_cons_of_mem _ hy)
    refine ⟨w :: ws, ?_, congrArg Nat.succ h4, ?_⟩
    · rw [List.map_cons, Ser.serializeSeq, h1]
      dsimp only
      rw [h3]
    · intro hk p hp
      rcases List.mem_cons.1 hp with rfl | hp
      · exact h2 (hk x (List.mem_cons_self ..))
      · exact h5 (fun y hy => hk y (List.mem_cons_of_mem _ hy)) p hp

theorem map_written {t : Ty} {K : Val → Prop} {l : List (Str × Val)}
    (h : ∀ e ∈ l, ∃ w, (t.ser e.2).serialize = .ok w ∧ (K e.2 → t.de.Back e.2 w)) :
    ∃ es, Ser.serializeMap (l.map fun e => (.str e.1, t.ser e.2)) = .ok es ∧ l.map (·.1) = es.map (·.1) ∧
      ((∀ e ∈ l, K e.2) → ∀ p ∈ l.zip es, t.de.Back p.1.2 p.2.2) := by
  induction l with
  | nil => exact ⟨[], rfl, rfl, fun _ p hp => nomatch hp⟩
  | cons x l ih =>
    obtain ⟨w, h1, h2⟩ := h x (List.mem_cons_self ..)
    obtain ⟨ws, h3, h4, h5⟩ := ih fun y hy => h y (List.mem_cons_of_mem _ hy)
    refine ⟨(x.1, w) :: ws, ?_, ?_, ?_⟩
    · rw [List.map_cons, Ser.serializeMap, Ser.serialize, h1]
      dsimp only [Value.ofStr]
      rw [h3]
    · rw [List.map_cons, List.map_cons, h4]
    · intro hk p hp
      rcases List.mem_cons.1 hp with rfl | hp
      · exact h2 (hk x (List.mem_cons_self ..))
      · exact h5 (fun y hy => hk y (List.mem_cons_of_mem _ hy)) p hp

omit [FloatOps] in
theorem sorted_of_keys {α β : Type} {l : List (Str × α)} {es : List (Str × β)} (h : l.map (·.1) = es.map (·.1))
    (hs : Map.Sorted l) : Map.Sorted es := by
  have h1 : ∀ {γ : Type} (m : List (Str × γ)), Map.Sorted m ↔ (m.map (·.1)).Pairwise fun a b => compare a b = .lt := by
    intro γ m
    rw [List.pairwise_map]
    exact Iff.rfl
  rw [h1] at hs ⊢
  rwa [← h]

omit [FloatOps] in
theorem unit_ok {s : Str} {c : Option Fig} {l : Bool} {t : Tag} :
    De.deserializeAny ⟨c, l⟩ (unitVisitor s) (.empty t .unit) = .ok .unit := any_ok rfl

omit [FloatOps] in
theorem Value.strip_ofArray (a : List Value) : (Value.ofArray a).strip = .array Tag.Default (Value.stripA a) := rfl
omit [FloatOps] in
theorem Value.strip_ofDict (a : List (Str × Value)) : (Value.ofDict a).strip = .dict Tag.Default (Value.stripD a) := rfl

omit [FloatOps] in
/-- A `Tagged` or `RelativePathBuf` that has been written is read as a struct with its two fields. -/
theorem magic_ok {c : Option Fig} {l : Bool} {n : Str} {fs : List (Str × Option Val × Ty)} {xs : List Val}
    {es d : List (Str × Value)} {V : Visitor Val} {t : Tag} {x : Val} (hs : Ty.magicShape n fs = true)
    (hl : Ty.HasFields fs xs) (hp : portable n xs) (h1 : Ser.serializeFields (Ty.serFields fs xs) = .ok es)
    (hd : Value.stripD d = Value.stripD (Map.ofList es)) (hany : De.deserializeAny ⟨c, l⟩ V (.dict t d) = .ok x)
    (hv : V.visitMap ⟨c, l⟩ d = .ok x) : De.deserializeStruct ⟨c, l⟩ n V (.dict t d) = .ok x := by
  cases c with
  | none => exact hany
  | some f =>
    unfold De.deserializeStruct
    dsimp only
    rw [R.mapErr_eq_ok]
    unfold Ty.magicShape at hs
    split at hs
    · rename_i k0 k1 ty
      simp only [Bool.and_eq_true, beq_iff_eq] at hs
      obtain ⟨⟨rfl, rfl⟩, rfl⟩ := hs
      rw [if_neg (by decide), if_neg (by decide), if_pos rfl]
      simp only [Ty.HasFields, Ty.Has] at hl
      obtain ⟨_, _, rfl, ⟨tg, rfl⟩, y, _, rfl, hy, rfl⟩ := hl
      have htg := hp.1 rfl tg rfl
      simp only [Ty.serFields, Ser.serializeFields, Ty.ser, Ser.serialize] at h1
      cases hy : (ty.ser y).serialize with
      | error e => rw [hy] at h1; cases h1
      | ok w =>
        rw [hy] at h1
        cases h1
        unfold De.taggedFrom
        obtain ⟨v0, v1, rfl, hv0⟩ : ∃ v0 v1, d = [(Tagged.FIELD0, v0), (Tagged.FIELD1, v1)] ∧
            v0.strip = (Value.ofNum (.u64 tg.raw)).strip := by
          rw [show Map.ofList [(Tagged.FIELD0, Value.ofNum (.u64 tg.raw)), (Tagged.FIELD1, w)] =
            [(Tagged.FIELD0, Value.ofNum (.u64 tg.raw)), (Tagged.FIELD1, w)] from rfl] at hd
          match d, hd with
          | [], h => exact nomatch h
          | [_], h => simp [Value.stripD] at h
          | (a, v0) :: (b, v1) :: [], h =>
            simp only [Value.stripD, List.cons.injEq, Prod.mk.injEq] at h
            obtain ⟨⟨rfl, h0⟩, ⟨rfl, h1⟩, _⟩ := h
            exact ⟨v0, v1, rfl, h0⟩
          | _ :: _ :: _ :: _, h => simp [Value.stripD] at h
        obtain ⟨t0, rfl⟩ := Value.strip_eq_num hv0
        simp only [Value.asDict?]
        rw [show Map.get Tagged.FIELD0 [(Tagged.FIELD0, Value.num t0 (.u64 tg.raw)), (Tagged.FIELD1, v1)] =
          some (Value.num t0 (.u64 tg.raw)) from rfl]
        dsimp only
        rw [show Tag.de De.plain (Value.num t0 (.u64 tg.raw)) = .ok tg from rfl]
        dsimp only
        rw [htg]
        exact hv
    · rename_i k0 k1
      simp only [Bool.and_eq_true, beq_iff_eq] at hs
      obtain ⟨⟨rfl, rfl⟩, rfl⟩ := hs
      rw [if_neg (by decide), if_pos rfl]
      simp only [Ty.HasFields, Ty.Has] at hl
      obtain ⟨_, _, rfl, h0, _, _, rfl, ⟨s1, rfl⟩, rfl⟩ := hl
      rcases h0 with rfl | ⟨_, rfl, s0, rfl⟩
      · exact absurd rfl (hp.2 rfl)
      · cases h1
        unfold De.relPathFrom
        obtain ⟨v0, v1, rfl, hv0⟩ : ∃ v0 v1, d = [(RelPath.FIELD0, v0), (RelPath.FIELD1, v1)] ∧
            v0.strip = (Value.ofStr s0).strip := by
          rw [show Map.ofList [(RelPath.FIELD0, Value.ofStr s0), (RelPath.FIELD1, Value.ofStr s1)] =
            [(RelPath.FIELD0, Value.ofStr s0), (RelPath.FIELD1, Value.ofStr s1)] from rfl] at hd
          match d, hd with
          | [], h => exact nomatch h
          | [_], h => simp [Value.stripD] at h
          | (a, v0) :: (b, v1) :: [], h =>
            simp only [Value.stripD, List.cons.injEq, Prod.mk.injEq] at h
            obtain ⟨⟨rfl, h0⟩, ⟨rfl, h1⟩, _⟩ := h
            exact ⟨v0, v1, rfl, h0⟩
          | _ :: _ :: _ :: _, h => simp [Value.stripD] at h
        obtain ⟨t0, rfl⟩ := Value.strip_eq_string hv0
        exact hv
    · cases hs

omit [FloatOps] in
/-- A buffer takes all numbers but the 128-bit integers. -/
theorem any_num (s : Str) (run : Seed) (n : Num) :
    (n.width ≠ some 128 ∧ (anyVisitor s run).visitNum n.visited = .ok (.value (.ofNum n.visited))) ∨
    (n.width = some 128 ∧ (anyVisitor s run).visitNum n.visited = invalidType n.visited.unexpected s) := by
  cases n with
  | u128 k => exact .inr ⟨rfl, rfl⟩
  | i128 k => exact .inr ⟨rfl, rfl⟩
  | usize k =>
    refine .inl ⟨nofun, ?_⟩
    show (anyVisitor s run).visitNum (Num.tryUsize k) = _
    show _ = Except.ok (Val.value (.ofNum (Num.tryUsize k)))
    unfold Num.tryUsize
    split
    · rfl
    split
    · rfl
    split <;> rfl
  | isize k =>
    refine .inl ⟨nofun, ?_⟩
    show (anyVisitor s run).visitNum (Num.tryIsize k) = _
    show _ = Except.ok (Val.value (.ofNum (Num.tryIsize k)))
    unfold Num.tryIsize
    split
    · rfl
    split
    · rfl
    split <;> rfl
  | _ => exact .inl ⟨by simp [Num.width], rfl⟩

omit [FloatOps] in
theorem Val.anySerSeq_eq : ∀ l : List Val, Val.anySerSeq l = l.map Val.anySer
  | [] => rfl
  | x :: l => by rw [Val.anySerSeq, Val.anySerSeq_eq l]; rfl

omit [FloatOps] in
theorem Val.anySerMap_eq : ∀ l : List (Str × Val), Val.anySerMap l = l.map fun e => (.str e.1, e.2.anySer)
  | [] => rfl
  | (k, x) :: l => by rw [Val.anySerMap, Val.anySerMap_eq l]; rfl

theorem Ty.any_back (s : Str) {x : Val} (hx : x.Content) :
    ∃ w, x.anySer.serialize = .ok w ∧ (Ty.any s).de.Back x w := by
  induction hx with
  | bool b =>
    refine ⟨.ofBool b, rfl, fun c w' h => ?_⟩
    obtain ⟨t', rfl⟩ := Value.strip_eq_bool h
    rw [Ty.any_eq]; exact any_ok rfl
  | num n h h1 h2 =>
    have hn : n.visited = n := by
      cases n with
      | usize k => exact absurd rfl (h1 k)
      | isize k => exact absurd rfl (h2 k)
      | _ => rfl
    have hser : (Val.value (.ofNum n)).anySer.serialize = .ok (.ofNum n) := by
      cases n with
      | usize k => exact absurd rfl (h1 k)
      | isize k => exact absurd rfl (h2 k)
      | _ => rfl
    refine ⟨.ofNum n, hser, fun c w' h => ?_⟩
    obtain ⟨t', rfl⟩ := Value.strip_eq_num h
    rw [Ty.any_eq]
    refine any_ok ?_
    dsimp only
    rw [Num.deserializeAny_visited]
    rcases any_num s (Ty.any s).de n with ⟨_, h3⟩ | ⟨h3, _⟩
    · rw [h3, hn]
    · contradiction
  | char b =>
    refine ⟨.ofChar b, rfl, fun c w' h => ?_⟩
    obtain ⟨t', rfl⟩ := Value.strip_eq_char h
    rw [Ty.any_eq]; exact any_ok rfl
  | str b =>
    refine ⟨.ofStr b, rfl, fun c w' h => ?_⟩
    obtain ⟨t', rfl⟩ := Value.strip_eq_string h
    rw [Ty.any_eq]; exact any_ok rfl
  | unit =>
    refine ⟨.ofEmpty .unit, rfl, fun c w' h => ?_⟩
    obtain ⟨t', rfl⟩ := Value.strip_eq_empty h
    rw [Ty.any_eq]; exact any_ok rfl
  | none =>
    refine ⟨.ofEmpty .none, rfl, fun c w' h => ?_⟩
    obtain ⟨t', rfl⟩ := Value.strip_eq_empty h
    rw [Ty.any_eq]; exact any_ok rfl
  | seq l _ ih =>
    obtain ⟨ws, h1, h2, h3⟩ := seq_written (t := .any s) (l := l) (K := fun _ => True) fun y hy => by
      obtain ⟨w, h1, h2⟩ := ih y hy
      exact ⟨w, h1, fun _ => h2⟩
    refine ⟨.ofArray ws, ?_, fun c w' h => ?_⟩
    · rw [Val.anySer, Val.anySerSeq_eq, Ser.serialize]
      rw [show l.map Val.anySer = l.map fun x => (Ty.any s).ser x from rfl, h1]
    · rw [Value.strip_ofArray] at h
      obtain ⟨t', a', rfl, ha⟩ := Value.strip_eq_array h
      rw [Ty.any_eq]
      refine any_ok ?_
      show (match seqLoop (Ty.any s).de ⟨c, false⟩ 0 a' with
        | .ok l => Except.ok (Val.seq l)
        | .error e => .error e) = _
      rw [seqLoop_back l ws a' 0 h2 (h3 fun _ _ => trivial) ha]
  | map l hs _ ih =>
    obtain ⟨es, h1, h2, h3⟩ := map_written (t := .any s) (l := l) (K := fun _ => True) fun y hy => by
      obtain ⟨w, h1, h2⟩ := ih y hy
      exact ⟨w, h1, fun _ => h2⟩
    refine ⟨.ofDict (Map.ofList es), ?_, fun c w' h => ?_⟩
    · rw [Val.anySer, Val.anySerMap_eq, Ser.serialize]
      rw [show (l.map fun e => (Ser.str e.1, e.2.anySer)) = l.map fun e => (Ser.str e.1, (Ty.any s).ser e.2) from rfl, h1]
    · rw [Map.ofList_sorted (sorted_of_keys h2 hs), Value.strip_ofDict] at h
      obtain ⟨t', a', rfl, ha⟩ := Value.strip_eq_dict h
      rw [Ty.any_eq]
      refine any_ok ?_
      show (match mapLoop (Ty.any s).de ⟨c, false⟩ a' with
        | .ok l => Except.ok (Val.map l)
        | .error e => .error e) = _
      rw [mapLoop_back l es a' h2 (h3 fun _ _ => trivial) ha]

omit [FloatOps] in
theorem serializeMap_append : ∀ {a b : List (Ser × Ser)} {es fs : List (Str × Value)}, Ser.serializeMap a = .ok es →
    Ser.serializeMap b = .ok fs → Ser.serializeMap (a ++ b) = .ok (es ++ fs)
  | [], b, es, fs, h, h' => by cases h; exact h'
  | (k, x) :: a, b, es, fs, h, h' => by
    rw [List.cons_append]
    rw [Ser.serializeMap] at h ⊢
    split at h
    · cases h
    · cases h1 : Ser.serialize x with
      | error e => rw [h1] at h; cases h
      | ok v =>
        rw [h1] at h
        dsimp only at h ⊢
        cases h2 : Ser.serializeMap a with
        | error e => rw [h2] at h; cases h
        | ok vs =>
          rw [h2] at h
          cases h
          rw [serializeMap_append h2 h']
          rfl
    · cases h

omit [FloatOps] in
theorem serializeMap_fields : ∀ l : List (Str × Ser),
    Ser.serializeMap (l.map fun e => (.str e.1, e.2)) = Ser.serializeFields l
  | [] => rfl
  | (k, x) :: l => by
    rw [List.map_cons, Ser.serializeMap, Ser.serializeFields, serializeMap_fields l]
    rfl

omit [FloatOps] in
theorem find_none_iff {fs : List FieldSeed} {k : Str} :
    fs.find? (fun f => f.name = k) = none ↔ k ∉ fs.map (·.name) := by
  rw [List.find?_eq_none, List.mem_map]
  simp

omit [FloatOps] in
theorem mem_of_keys {run : Seed} : ∀ {l : List (Str × Val)} {es : List (Str × Value)}, l.map (·.1) = es.map (·.1) →
    (∀ p ∈ l.zip es, run.Back p.1.2 p.2.2) → ∀ (k : Str) (w : Value), (k, w) ∈ es → ∃ y, (k, y) ∈ l ∧ run.Back y w
  | [], [], _, _, _, _, h => nomatch h
  | (k', y) :: l, (k'', w') :: es, hk, hb, k, w, h => by
    simp only [List.map_cons, List.cons.injEq] at hk
    rcases List.mem_cons.1 h with h | h
    · cases h
      exact ⟨y, by rw [hk.1]; exact .head _, hb ((k', y), (k'', w')) (.head _)⟩
    · obtain ⟨z, h1, h2⟩ := mem_of_keys hk.2 (fun p hp => hb p (.tail _ hp)) k w h
      exact ⟨z, .tail _ h1, h2⟩

omit [FloatOps] in
theorem flatLoop_back {de : De} {fs : List FieldSeed} {g : Str → Val} : ∀ (d : List (Str × Value)),
    (∀ e ∈ d, flatSeed fs e.1 de e.2 = .ok (g e.1)) → flatLoop fs de d = .ok (d.map fun e => (e.1, g e.1))
  | [], _ => rfl
  | (k, v) :: r, h => by
    have h2 := h (k, v) (List.mem_cons_self ..)
    dsimp only at h2
    rw [flatLoop, MapDe.nextValue, h2]
    dsimp only [R.mapErr_ok]
    rw [flatLoop_back r fun e he => h e (List.mem_cons_of_mem _ he)]
    rfl

theorem flat_back {c : Option Fig} {a : Str} {conv : List Val → List (Str × Val) → Except Kind Val} {fs : List FieldSeed}
    {l : List Val} {r : List (Str × Val)} {x : Val} {es es' d : List (Str × Value)} (h : FieldsBack fs l es)
    (hn : (fs.map (·.name)).Nodup) (hs : Map.Sorted r) (hr : ∀ e ∈ r, e.1 ∉ fs.map (·.name))
    (hk : r.map (·.1) = es'.map (·.1)) (hb : ∀ p ∈ r.zip es', (Ty.any (str "any value")).de.Back p.1.2 p.2.2)
    (hd : Value.stripD d = Value.stripD (Map.ofList (es ++ es'))) (hc : conv l r = .ok x) :
    (flatVisitor a fs conv).visitMap ⟨c, false⟩ d = .ok x := by
  let g : Str → Val := fun k => if k ∈ fs.map (·.name) then fieldVal fs l k else (Map.get k r).getD .unit
  have h1 : flatLoop fs ⟨c, false⟩ d = .ok (d.map fun e => (e.1, g e.1)) := by
    refine flatLoop_back d ?_
    rintro ⟨k, v⟩ he
    obtain ⟨w, h1, h2⟩ := mem_of_strip_eq hd he
    show flatSeed fs k ⟨c, false⟩ v = .ok (if k ∈ fs.map (·.name) then fieldVal fs l k else (Map.get k r).getD .unit)
    unfold flatSeed
    rcases List.mem_append.1 (Map.mem_ofList h1) with h3 | h3
    · obtain ⟨f, h4, h5⟩ := h.mem hn h3
      rw [h4, if_pos (by rw [← h.keys]; exact List.mem_map.2 ⟨_, h3, rfl⟩)]
      exact h5 c v h2
    · obtain ⟨y, h4, h5⟩ := mem_of_keys hk hb _ _ h3
      have h6 := hr _ h4
      rw [find_none_iff.2 h6, if_neg h6, Map.get_eq_some_of_mem hs h4]
      exact h5 c v h2
  have hkeys : ∀ k, k ∈ d.map (·.1) ↔ k ∈ fs.map (·.name) ∨ k ∈ r.map (·.1) := by
    intro k
    rw [hk, ← h.keys, ← List.mem_append, ← List.map_append]
    constructor
    · intro hm
      obtain ⟨⟨k', v⟩, he, rfl⟩ := List.mem_map.1 hm
      obtain ⟨w, h1, _⟩ := mem_of_strip_eq hd he
      exact List.mem_map.2 ⟨_, Map.mem_ofList h1, rfl⟩
    · intro hm
      obtain ⟨w, hw⟩ := Map.mem_keys_ofList hm
      obtain ⟨v, hv, _⟩ := mem_of_strip_eq hd.symm hw
      exact List.mem_map.2 ⟨_, hv, rfl⟩
  have h2 : fieldFinish (d.map fun e => (e.1, g e.1)) fs = .ok l := by
    rw [fieldFinish_eq (g := g) fs]
    · refine congrArg Except.ok (Eq.trans (List.map_congr_left fun f hf => ?_) (fieldVal_map h hn))
      show (if f.name ∈ fs.map (·.name) then fieldVal fs l f.name else _) = _
      rw [if_pos (List.mem_map.2 ⟨f, hf, rfl⟩)]
    · intro f hf
      refine lookup_of_graph ?_ ?_
      · intro e he
        obtain ⟨e', _, rfl⟩ := List.mem_map.1 he
        rfl
      · rw [List.map_map]
        exact (hkeys f.name).2 (.inl (List.mem_map.2 ⟨f, hf, rfl⟩))
  have hsd : Map.Sorted d := by
    refine sorted_of_keys ?_ (Map.Sorted.ofList (es ++ es'))
    have := congrArg (List.map (·.1)) hd
    rw [Value.stripD_eq, Value.stripD_eq, List.map_map, List.map_map] at this
    exact this.symm
  have h3 : (d.map fun e => (e.1, g e.1)).filter (fun e => (fs.find? (fun f => f.name = e.1)).isNone) = r := by
    have hsf : Map.Sorted ((d.map fun e => (e.1, g e.1)).filter (fun e => (fs.find? (fun f => f.name = e.1)).isNone)) :=
      List.Pairwise.filter _ (hsd.map_snd fun e => g e.1)
    refine Map.ext_of_sorted hsf hs fun k => ?_
    refine Option.ext fun y => ?_
    have mem : ∀ {m : Map Str Val}, Map.Sorted m → (Map.get k m = some y ↔ (k, y) ∈ m) := by
      intro m hm
      refine ⟨fun hg => ?_, Map.get_eq_some_of_mem hm⟩
      obtain ⟨k', h2, h3⟩ := Map.mem_of_get hg
      rw [Std.LawfulEqOrd.eq_of_compare h3]
      exact h2
    rw [mem hsf, mem hs, List.mem_filter, List.mem_map, Option.isNone_iff_eq_none, find_none_iff]
    constructor
    · rintro ⟨⟨e, he, h4⟩, h5⟩
      cases h4
      have h6 := (hkeys e.1).1 (List.mem_map.2 ⟨e, he, rfl⟩)
      rcases h6 with h6 | h6
      · exact absurd h6 h5
      · obtain ⟨⟨k', y'⟩, h7, h8⟩ := List.mem_map.1 h6
        dsimp only at h8
        subst h8
        have : g e.1 = y' := by
          show (if e.1 ∈ fs.map (·.name) then fieldVal fs l e.1 else (Map.get e.1 r).getD .unit) = y'
          rw [if_neg h5, Map.get_eq_some_of_mem hs h7]
          rfl
        rw [this]
        exact h7
    · intro hm
      have h5 := hr _ hm
      obtain ⟨e, he, h6⟩ := List.mem_map.1 ((hkeys k).2 (.inr (List.mem_map.2 ⟨_, hm, rfl⟩)))
      refine ⟨⟨e, he, ?_⟩, h5⟩
      rw [h6]
      show (k, if k ∈ fs.map (·.name) then fieldVal fs l k else (Map.get k r).getD .unit) = _
      rw [if_neg h5, Map.get_eq_some_of_mem hs hm]
      rfl
  exact flat_ok.2 ⟨_, _, h1, h2, by rw [h3]; exact hc⟩

omit [FloatOps] in
theorem Ty.any_blank (s : Str) {x : Val} {w : Value} (hx : x.Content) (hw : x.anySer.serialize = .ok w)
    (h : (Ty.any s).blank x = false) : w.isEmptyVal = false := by
  cases hx with
  | bool b => cases hw; rfl
  | num n h0 h1 h2 =>
    cases n with
    | usize k => exact absurd rfl (h1 k)
    | isize k => exact absurd rfl (h2 k)
    | _ => cases hw; rfl
  | char c => cases hw; rfl
  | str s => cases hw; rfl
  | unit => exact nomatch h
  | none => exact nomatch h
  | seq l hl =>
    rw [Val.anySer, Ser.serialize] at hw
    cases h1 : Ser.serializeSeq (Val.anySerSeq l) with
    | error e => rw [h1] at hw; cases hw
    | ok v => rw [h1] at hw; cases hw; rfl
  | map l hl =>
    rw [Val.anySer, Ser.serialize] at hw
    cases h1 : Ser.serializeMap (Val.anySerMap l) with
    | error e => rw [h1] at hw; cases hw
    | ok v => rw [h1] at hw; cases hw; rfl

mutual
theorem Ty.kept_back : ∀ (t : Ty), t.sound = true → ∀ x, t.Has x →
    ∃ w, (t.ser x).serialize = .ok w ∧ (t.blank x = false → w.isEmptyVal = false) ∧ (t.Kept x → t.de.Back x w)
  | .bool, _, x, hx => by
    rw [Ty.Has] at hx
    obtain ⟨b, rfl⟩ := hx
    refine ⟨.ofBool b, rfl, fun _ => rfl, fun _ c w' h => ?_⟩
    obtain ⟨t', rfl⟩ := Value.strip_eq_bool h
    cases c <;> rfl
  | .int t, _, x, hx => by
    rw [Ty.Has] at hx
    obtain ⟨n, rfl, h0, h1⟩ := hx
    refine ⟨.ofNum (t.num n), rfl, fun _ => rfl, fun hf c w' h => ?_⟩
    rw [Ty.Kept] at hf
    obtain ⟨t', rfl⟩ := Value.strip_eq_num h
    have hn := IntTy.small_num h0 h1 hf.1 hf.2
    have hv : (intVisitor t).visitNum (t.num n) = .ok (.int n) := by
      have h2 : t.has n = true := by rw [IntTy.has, Bool.and_eq_true]; exact ⟨decide_eq_true h0, decide_eq_true h1⟩
      show (match (t.num n).small? with
        | some i => if t.has i then Except.ok (Val.int i) else invalidValue (t.num n).toActual t.name
        | none => invalidType (t.num n).unexpected t.name) = _
      rw [hn.1]
      dsimp only
      rw [if_pos h2]
    have := num_ok (c := c) (t := t') hn.2 hv
    cases t with
    | u128 => exact absurd rfl hf.1
    | i128 => exact absurd rfl hf.2
    | _ => exact this
  | .f32, _, x, hx => by
    rw [Ty.Has] at hx
    obtain ⟨b, rfl⟩ := hx
    refine ⟨.ofNum (.f32 b), rfl, fun _ => rfl, fun _ c w' h => ?_⟩
    obtain ⟨t', rfl⟩ := Value.strip_eq_num h
    exact num_ok rfl rfl
  | .f64, _, x, hx => by
    rw [Ty.Has] at hx
    obtain ⟨b, rfl⟩ := hx
    refine ⟨.ofNum (.f64 b), rfl, fun _ => rfl, fun _ c w' h => ?_⟩
    obtain ⟨t', rfl⟩ := Value.strip_eq_num h
    exact num_ok rfl rfl
  | .char, _, x, hx => by
    rw [Ty.Has] at hx
    obtain ⟨b, rfl⟩ := hx
    refine ⟨.ofChar b, rfl, fun _ => rfl, fun _ c w' h => ?_⟩
    obtain ⟨t', rfl⟩ := Value.strip_eq_char h
    exact any_ok rfl
  | .string, _, x, hx => by
    rw [Ty.Has] at hx
    obtain ⟨b, rfl⟩ := hx
    refine ⟨.ofStr b, rfl, fun _ => rfl, fun _ c w' h => ?_⟩
    obtain ⟨t', rfl⟩ := Value.strip_eq_string h
    exact any_ok rfl
  | .pathBuf, _, x, hx => by
    rw [Ty.Has] at hx
    obtain ⟨b, rfl⟩ := hx
    refine ⟨.ofStr b, rfl, fun _ => rfl, fun _ c w' h => ?_⟩
    obtain ⟨t', rfl⟩ := Value.strip_eq_string h
    exact any_ok rfl
  | .unit, _, x, hx => by
    rw [Ty.Has] at hx
    subst hx
    refine ⟨.ofEmpty .unit, rfl, (nomatch ·), fun _ c w' h => ?_⟩
    obtain ⟨t', rfl⟩ := Value.strip_eq_empty h
    exact unit_ok
  | .unitStruct n, _, x, hx => by
    rw [Ty.Has] at hx
    subst hx
    refine ⟨.ofEmpty .unit, rfl, (nomatch ·), fun _ c w' h => ?_⟩
    obtain ⟨t', rfl⟩ := Value.strip_eq_empty h
    exact unit_ok
  | .option t, hf, x, hx => by
    rw [Ty.Has] at hx
    rw [Ty.sound] at hf
    rcases hx with rfl | ⟨y, rfl, hy⟩
    · refine ⟨.ofEmpty .none, rfl, (nomatch ·), fun _ c w' h => ?_⟩
      obtain ⟨t', rfl⟩ := Value.strip_eq_empty h
      cases c <;> rfl
    · obtain ⟨w, h1, h2, h3⟩ := Ty.kept_back t hf y hy
      refine ⟨w, h1, fun h => h2 (by rw [Ty.blank] at h; exact h), fun hk c w' h => ?_⟩
      rw [Ty.Kept] at hk
      have hk := hk y rfl
      have h4 : w'.isEmptyVal = false := by
        rw [← Value.isEmptyVal_strip, h, Value.isEmptyVal_strip]; exact h2 hk.1
      have h5 : (optionVisitor t.de).visitSome ⟨c, false⟩ w' = .ok (.some y) := by
        unfold optionVisitor
        dsimp only
        rw [h3 hk.2 c w' h]
      show De.deserializeOption ⟨c, false⟩ (optionVisitor t.de) w' = _
      cases c with
      | none =>
        cases w' with
        | empty t e => exact nomatch h4
        | _ => exact h5
      | some f =>
        unfold De.deserializeOption
        dsimp only
        rw [R.mapErr_eq_ok]
        cases w' with
        | empty t e => exact nomatch h4
        | _ => exact h5
  | .newtype n t, hf, x, hx => by
    rw [Ty.Has] at hx
    rw [Ty.sound] at hf
    obtain ⟨y, rfl, hy⟩ := hx
    obtain ⟨w, h1, h2, h3⟩ := Ty.kept_back t hf y hy
    refine ⟨w, h1, fun h => h2 (by rw [Ty.blank] at h; exact h), fun hk c w' h => ?_⟩
    rw [Ty.Kept] at hk
    show (match t.de ⟨c, false⟩ w' with
      | .ok x => Except.ok (Val.newtype x)
      | .error e => .error e) = _
    rw [h3 (hk y rfl) c w' h]
  | .seq t, hf, x, hx => by
    rw [Ty.Has] at hx
    rw [Ty.sound] at hf
    obtain ⟨l, rfl, hl⟩ := hx
    obtain ⟨ws, h1, h2, h3⟩ := seq_written (t := t) (K := t.Kept) (l := l) fun y hy => by
      obtain ⟨w, h1, _, h3⟩ := Ty.kept_back t hf y (hl y hy)
      exact ⟨w, h1, h3⟩
    refine ⟨.ofArray ws, ?_, fun _ => rfl, fun hk c w' h => ?_⟩
    · rw [Ty.ser, Ser.serialize, h1]
    · rw [Value.strip_ofArray] at h
      obtain ⟨t', a', rfl, ha⟩ := Value.strip_eq_array h
      refine any_ok ?_
      show (match seqLoop t.de ⟨c, false⟩ 0 a' with
        | .ok l => Except.ok (Val.seq l)
        | .error e => .error e) = _
      rw [Ty.Kept] at hk
      rw [seqLoop_back l ws a' 0 h2 (h3 (hk l rfl)) ha]
  | .tuple ts, hf, x, hx => by
    rw [Ty.Has] at hx
    rw [Ty.sound] at hf
    obtain ⟨l, rfl, hl⟩ := hx
    obtain ⟨ws, h1, h2⟩ := Ty.kept_backEach ts hf l hl
    refine ⟨.ofArray ws, ?_, fun _ => rfl, fun hk c w' h => ?_⟩
    · rw [Ty.ser, Ser.serialize, h1]
    · rw [Value.strip_ofArray] at h
      obtain ⟨t', a', rfl, ha⟩ := Value.strip_eq_array h
      refine any_ok ?_
      unfold tupleVisitor
      dsimp only
      rw [Ty.Kept] at hk
      rw [tupleLoop_back (h2 (hk l rfl)) a' 0 ha]
  | .tupleStruct n ts, hf, x, hx => by
    rw [Ty.Has] at hx
    rw [Ty.sound] at hf
    obtain ⟨l, rfl, hl⟩ := hx
    obtain ⟨ws, h1, h2⟩ := Ty.kept_backEach ts hf l hl
    refine ⟨.ofArray ws, ?_, fun _ => rfl, fun hk c w' h => ?_⟩
    · rw [Ty.ser, Ser.serialize, h1]
    · rw [Value.strip_ofArray] at h
      obtain ⟨t', a', rfl, ha⟩ := Value.strip_eq_array h
      refine any_ok ?_
      unfold tupleVisitor
      dsimp only
      rw [Ty.Kept] at hk
      rw [tupleLoop_back (h2 (hk l rfl)) a' 0 ha]
  | .map t, hf, x, hx => by
    rw [Ty.Has] at hx
    rw [Ty.sound] at hf
    obtain ⟨l, rfl, hs, hl⟩ := hx
    obtain ⟨es, h1, h2, h3⟩ := map_written (t := t) (K := t.Kept) (l := l) fun e he => by
      obtain ⟨w, h1, _, h3⟩ := Ty.kept_back t hf e.2 (hl e he)
      exact ⟨w, h1, h3⟩
    refine ⟨.ofDict (Map.ofList es), ?_, fun _ => rfl, fun hk c w' h => ?_⟩
    · rw [Ty.ser, Ser.serialize, h1]
    · rw [Map.ofList_sorted (sorted_of_keys h2 hs), Value.strip_ofDict] at h
      obtain ⟨t', a', rfl, ha⟩ := Value.strip_eq_dict h
      refine any_ok ?_
      show (match mapLoop t.de ⟨c, false⟩ a' with
        | .ok l => Except.ok (Val.map (Map.ofList l))
        | .error e => .error e) = _
      rw [Ty.Kept] at hk
      rw [mapLoop_back l es a' h2 (h3 (hk l rfl)) ha]
      dsimp only
      rw [Map.ofList_sorted hs]
  | .flag, _, x, hx => by
    rw [Ty.Has] at hx
    obtain ⟨b, rfl⟩ := hx
    refine ⟨.ofBool b, rfl, fun _ => rfl, fun _ c w' h => ?_⟩
    obtain ⟨t', rfl⟩ := Value.strip_eq_bool h
    cases c <;> rfl
  | .parsed s parse text, _, x, hx => by
    rw [Ty.Has] at hx
    refine ⟨.ofStr (text x), rfl, fun _ => rfl, fun _ c w' h => ?_⟩
    obtain ⟨t', rfl⟩ := Value.strip_eq_string h
    refine any_ok ?_
    show (match parse (text x) with | .ok x => Except.ok x | .error m => .error (Error.ofKind (.message m))) = _
    rw [hx]
  | .via t conv back, hf, x, hx => by
    rw [Ty.Has] at hx
    rw [Ty.sound] at hf
    obtain ⟨w, h1, h2, h3⟩ := Ty.kept_back t hf (back x) hx.1
    refine ⟨w, h1, fun h => h2 (by rw [Ty.blank] at h; exact h), fun hk c w' h => ?_⟩
    rw [Ty.Kept] at hk
    rw [Ty.de]
    exact converted_eq_ok.2 ⟨_, h3 hk c w' h, hx.2⟩
  | .any s, _, x, hx => by
    rw [Ty.Has] at hx
    obtain ⟨w, h1, h2⟩ := Ty.any_back s hx
    exact ⟨w, h1, fun h => Ty.any_blank s hx h1 h, fun _ => h2⟩
  | .flat n fs conv back, hf, x, hx => by
    rw [Ty.Has] at hx
    rw [Ty.sound, Bool.and_eq_true, decide_eq_true_iff] at hf
    obtain ⟨hl, hs, hr, hc⟩ := hx
    obtain ⟨es, h1, h2, h3⟩ := Ty.kept_backFields fs hf.2 (back x).1 hl
    obtain ⟨es', h4, h5, h6⟩ := map_written (t := .any (str "any value")) (l := (back x).2)
      (K := fun _ => True) fun e he => by
        obtain ⟨w, h1, h2⟩ := Ty.any_back (str "any value") (hr e he).1
        exact ⟨w, h1, fun _ => h2⟩
    refine ⟨.ofDict (Map.ofList (es ++ es')), ?_, fun _ => rfl, fun hk c w' h => ?_⟩
    · rw [Ty.ser, Ser.serialize, Val.anySerMap_eq]
      have h7 := serializeMap_append (by rw [serializeMap_fields]; exact h1) h4
      rw [show ((back x).2.map fun e => (Ser.str e.1, e.2.anySer)) =
        (back x).2.map fun e => (Ser.str e.1, (Ty.any (str "any value")).ser e.2) from rfl, h7]
    · rw [Value.strip_ofDict] at h
      obtain ⟨t', a', rfl, ha⟩ := Value.strip_eq_dict h
      rw [Ty.Kept] at hk
      exact any_ok (flat_back (h2 hk) (h3 ▸ hf.1) hs (fun e he => h3 ▸ (hr e he).2) h5 (h6 fun _ _ => trivial) ha hc)
  | .pairs t, hf, x, hx => by
    rw [Ty.Has] at hx
    rw [Ty.sound] at hf
    obtain ⟨l, rfl, hs, hl⟩ := hx
    obtain ⟨es, h1, h2, h3⟩ := map_written (t := t) (K := t.Kept) (l := l) fun e he => by
      obtain ⟨w, h1, _, h3⟩ := Ty.kept_back t hf e.2 (hl e he)
      exact ⟨w, h1, h3⟩
    refine ⟨.ofDict (Map.ofList es), ?_, fun _ => rfl, fun hk c w' h => ?_⟩
    · rw [Ty.ser, Ser.serialize, h1]
    · rw [Map.ofList_sorted (sorted_of_keys h2 hs), Value.strip_ofDict] at h
      obtain ⟨t', a', rfl, ha⟩ := Value.strip_eq_dict h
      refine any_ok ?_
      show (match mapLoop t.de ⟨c, false⟩ a' with
        | .ok l => Except.ok (Val.map l)
        | .error e => .error e) = _
      rw [Ty.Kept] at hk
      rw [mapLoop_back l es a' h2 (h3 (hk l rfl)) ha]
  | .keyed kt t, hf, x, hx => by
    rw [Ty.Has] at hx
    rw [Ty.sound] at hf
    obtain ⟨l, rfl, hs, hl⟩ := hx
    have hb := Ty.kept_back t hf
    obtain ⟨es, h1, h2, h3⟩ := serMap_ok (kt := kt) (t := t) (fun y hy => (hb y hy).imp fun w h => h.1) l
      (fun e he => ⟨(hl e he).1, (hl e he).2.1⟩) fun e he => (hl e he).2.2
    refine ⟨.ofDict (Map.ofList es), ?_, fun _ => rfl, fun hk c w' h => ?_⟩
    · rw [Ty.ser, Ser.serialize, h1]
    · rw [Map.ofList_sorted (sorted_of_texts h2 (fun i e s w he hs => (h3 i e s w he hs).1) hs), Value.strip_ofDict] at h
      obtain ⟨t', a', rfl, ha⟩ := Value.strip_eq_dict h
      refine any_ok ?_
      show (match keyedLoop kt.deKey t.de ⟨c, false⟩ a' with
        | .ok l => Except.ok (Val.entries l)
        | .error e => .error e) = _
      rw [Ty.Kept] at hk
      rw [keyedLoop_back l es a' h2 (fun i e s w he hs => ?_) ha]
      have hm := List.mem_of_getElem? he
      obtain ⟨h4, h5⟩ := h3 i e s w he hs
      obtain ⟨w', h6, _, h7⟩ := hb e.2 (hl e hm).2.1
      rw [h5] at h6
      cases h6
      exact ⟨(hk l rfl e hm).1 s h4, h7 (hk l rfl e hm).2⟩
  | .struct txt n deny fs, hf, x, hx => by
    rw [Ty.Has] at hx
    rw [Ty.sound, Bool.and_eq_true, Bool.and_eq_true, decide_eq_true_iff] at hf
    obtain ⟨l, rfl, hl, hp⟩ := hx
    obtain ⟨es, h1, h2, h3⟩ := Ty.kept_backFields fs hf.2 l hl
    refine ⟨.ofDict (Map.ofList es), ?_, fun _ => rfl, fun hk c w' h => ?_⟩
    · rw [Ty.ser, Ser.serialize, h1]
    · rw [Value.strip_ofDict] at h
      obtain ⟨t', a', rfl, ha⟩ := Value.strip_eq_dict h
      rw [Ty.Kept] at hk
      have hv := struct_back (c := c) (a := str "struct " ++ txt)
        (b := str "struct " ++ txt ++ str " with " ++ elements fs.length) (deny := deny) (h2 (hk l rfl)) (h3 ▸ hf.1.2) ha
      cases hm : magicNames.contains n with
      | false => exact struct_ok hm (any_ok hv)
      | true =>
        rw [hm] at hf
        exact magic_ok hf.1.1 hl hp h1 ha (any_ok hv) hv
  | .enum n vs, hf, x, hx => by
    rw [Ty.Has] at hx
    rw [Ty.sound] at hf
    obtain ⟨name, y, rfl, hy⟩ := hx
    obtain ⟨v, hv, s, hs, w, h1, h2⟩ := Ty.kept_backVariants name vs hf n y hy
    refine ⟨w, ?_, fun _ => ?_, fun hk c w' h => ?_⟩
    · rw [Ty.ser, hs, h1]
    · rcases h2 with ⟨rfl, _⟩ | ⟨u, rfl, _⟩ <;> rfl
    · rw [Ty.Kept] at hk
      have hk := hk name y rfl
      show De.deserializeEnum ⟨c, false⟩ (enumVisitor n (Ty.deVariants n vs)) w' = _
      unfold De.deserializeEnum
      rw [R.mapErr_eq_ok]
      rcases h2 with ⟨rfl, h2⟩ | ⟨u, rfl, h2⟩
      · obtain ⟨t', rfl⟩ := Value.strip_eq_string h
        unfold enumVisitor
        dsimp only
        rw [hv]
        dsimp only
        rw [h2]
        rfl
      · obtain ⟨t', a', rfl, ha⟩ := Value.strip_eq_dict h
        cases a' with
        | nil => exact nomatch ha
        | cons e r =>
          obtain ⟨k, u'⟩ := e
          simp only [Value.stripD, List.cons.injEq, Prod.mk.injEq] at ha
          obtain ⟨⟨rfl, hu⟩, hr⟩ := ha
          unfold enumVisitor
          dsimp only
          rw [hv]
          dsimp only
          rw [h2 hk c u' hu]
          rfl
  | .value, hf, _, _ => by rw [Ty.sound] at hf; exact nomatch hf
  | .tag, _, x, hx => by
    rw [Ty.Has] at hx
    obtain ⟨t, rfl⟩ := hx
    refine ⟨.ofNum (.u64 t.raw), rfl, fun _ => rfl, fun _ c w' h => ?_⟩
    obtain ⟨t', rfl⟩ := Value.strip_eq_num h
    rfl
theorem Ty.kept_backEach : ∀ (ts : List Ty), Ty.soundEach ts = true → ∀ l, Ty.HasEach ts l →
    ∃ ws, Ser.serializeSeq (Ty.serEach ts l) = .ok ws ∧ (Ty.KeptEach ts l → EachBack (Ty.deEach ts) l ws)
  | [], _, l, hl => by
    rw [Ty.HasEach] at hl
    subst hl
    exact ⟨[], rfl, fun _ => trivial⟩
  | t :: ts, hf, l, hl => by
    rw [Ty.HasEach] at hl
    rw [Ty.soundEach, Bool.and_eq_true] at hf
    obtain ⟨x, r, rfl, hx, hr⟩ := hl
    obtain ⟨w, h1, _, h2⟩ := Ty.kept_back t hf.1 x hx
    obtain ⟨ws, h3, h4⟩ := Ty.kept_backEach ts hf.2 r hr
    refine ⟨w :: ws, ?_, fun hk => by rw [Ty.KeptEach] at hk; exact ⟨h2 hk.1, h4 hk.2⟩⟩
    rw [Ty.serEach, Ser.serializeSeq, h1]
    dsimp only
    rw [h3]
theorem Ty.kept_backFields : ∀ (fs : List (Str × Option Val × Ty)), Ty.soundFields fs = true → ∀ l, Ty.HasFields fs l →
    ∃ es, Ser.serializeFields (Ty.serFields fs l) = .ok es ∧ (Ty.KeptFields fs l → FieldsBack (Ty.deFields fs) l es) ∧
      fs.map (·.1) = (Ty.deFields fs).map (·.name)
  | [], _, l, hl => by
    rw [Ty.HasFields] at hl
    subst hl
    exact ⟨[], rfl, fun _ => trivial, rfl⟩
  | (n, d, t) :: fs, hf, l, hl => by
    rw [Ty.HasFields] at hl
    rw [Ty.soundFields, Bool.and_eq_true] at hf
    obtain ⟨x, r, rfl, hx, hr⟩ := hl
    obtain ⟨w, h1, _, h2⟩ := Ty.kept_back t hf.1 x hx
    obtain ⟨ws, h3, h4, h5⟩ := Ty.kept_backFields fs hf.2 r hr
    refine ⟨(n, w) :: ws, ?_, fun hk => by rw [Ty.KeptFields] at hk; exact ⟨rfl, h2 hk.1, h4 hk.2⟩, ?_⟩
    · rw [Ty.serFields, Ser.serializeFields, h1]
      dsimp only
      rw [h3]
    · rw [List.map_cons, Ty.deFields, List.map_cons, h5]
theorem Ty.kept_backVariants (name : Str) : ∀ (vs : List (Str × VTy)), Ty.soundVariants vs = true → ∀ enum x,
    Ty.HasVariant name vs x →
    ∃ v, (Ty.deVariants enum vs).lookup name = some v ∧ ∃ s, Ty.serVariant name vs x = s ∧ ∃ w, s.serialize = .ok w ∧
      (w = .ofStr name ∧ v.alone = .ok x ∨ ∃ u, w = Ser.wrap name u ∧
        (Ty.KeptVariant name vs x → ∀ c u', u'.strip = u.strip → v.with ⟨c, false⟩ name u' = .ok x))
  | [], _, _, _, hx => by rw [Ty.HasVariant] at hx; exact hx.elim
  | (n, v) :: vs, hf, enum, x, hx => by
    rw [Ty.HasVariant] at hx
    rw [Ty.soundVariants, Bool.and_eq_true] at hf
    rcases hx with ⟨rfl, hx⟩ | ⟨hn, hx⟩
    · obtain ⟨w, h1, h2⟩ := VTy.kept_back v hf.1 n (enum ++ str "::" ++ n) x hx
      refine ⟨v.de (enum ++ str "::" ++ n), ?_, v.ser n x, ?_, w, h1, h2.imp_right fun ⟨u, hu, h⟩ => ⟨u, hu, fun hk => h ((by rw [Ty.KeptVariant] at hk; exact hk.1 rfl))⟩⟩
      · rw [Ty.deVariants, List.lookup_cons, BEq.rfl]
      · rw [Ty.serVariant, if_pos rfl]
    · obtain ⟨v', h1, s, h2, w, h3, h4⟩ := Ty.kept_backVariants name vs hf.2 enum x hx
      refine ⟨v', ?_, s, ?_, w, h3, h4.imp_right fun ⟨u, hu, h⟩ =>
        ⟨u, hu, fun hk => h (by rw [Ty.KeptVariant] at hk; exact hk.2 hn)⟩⟩
      · rw [Ty.deVariants, List.lookup_cons, beq_eq_false_iff_ne.2 (Ne.symm hn)]
        exact h1
      · rw [Ty.serVariant, if_neg hn]
        exact h2
theorem VTy.kept_back : ∀ (v : VTy), v.sound = true → ∀ name text x, v.Has x →
    ∃ w, (v.ser name x).serialize = .ok w ∧
      (w = .ofStr name ∧ (v.de text).alone = .ok x ∨ ∃ u, w = Ser.wrap name u ∧
        (v.Kept x → ∀ c u', u'.strip = u.strip → (v.de text).with ⟨c, false⟩ name u' = .ok x))
  | .unit, _, name, text, x, hx => by
    rw [VTy.Has] at hx
    subst hx
    exact ⟨_, rfl, .inl ⟨rfl, rfl⟩⟩
  | .newtype t, hf, name, text, x, hx => by
    rw [VTy.Has] at hx
    rw [VTy.sound] at hf
    obtain ⟨w, h1, _, h2⟩ := Ty.kept_back t hf x hx
    refine ⟨Ser.wrap name w, ?_, .inr ⟨w, rfl, fun hk c u' hu => ?_⟩⟩
    · rw [VTy.ser, Ser.serialize, h1]
    · rw [VTy.de, VariantSeed.with, MapDe.nextValue, R.mapErr_eq_ok]
      rw [VTy.Kept] at hk
      exact h2 hk c u' hu
  | .tuple ts, hf, name, text, x, hx => by
    rw [VTy.Has] at hx
    rw [VTy.sound] at hf
    obtain ⟨l, rfl, hl⟩ := hx
    obtain ⟨ws, h1, h2⟩ := Ty.kept_backEach ts hf l hl
    refine ⟨Ser.wrap name (.ofArray ws), ?_, .inr ⟨.ofArray ws, rfl, fun hk c u' hu => ?_⟩⟩
    · rw [VTy.ser, Ser.serialize, h1]
    · rw [VTy.de, VariantSeed.with, MapDe.nextValue, R.mapErr_eq_ok]
      obtain ⟨t', a', rfl, ha⟩ := Value.strip_eq_array hu
      refine any_ok ?_
      unfold tupleVisitor
      dsimp only
      rw [VTy.Kept] at hk
      rw [tupleLoop_back (h2 (hk l rfl)) a' 0 ha]
  | .struct deny fs, hf, name, text, x, hx => by
    rw [VTy.Has] at hx
    rw [VTy.sound, Bool.and_eq_true, decide_eq_true_iff] at hf
    obtain ⟨l, rfl, hl⟩ := hx
    obtain ⟨es, h1, h2, h3⟩ := Ty.kept_backFields fs hf.2 l hl
    refine ⟨Ser.wrap name (.ofDict (Map.ofList es)), ?_, .inr ⟨.ofDict (Map.ofList es), rfl, fun hk c u' hu => ?_⟩⟩
    · rw [VTy.ser, Ser.serialize, h1]
    · rw [VTy.de, VariantSeed.with, MapDe.nextValue, R.mapErr_eq_ok]
      obtain ⟨t', a', rfl, ha⟩ := Value.strip_eq_dict hu
      rw [VTy.Kept] at hk
      exact any_ok (struct_back (h2 (hk l rfl)) (h3 ▸ hf.1) ha)
end


omit [FloatOps] in
theorem Ty.blank_of_nullable : ∀ (t : Ty), t.nullable = false → ∀ x, t.Has x → t.blank x = false
  | .newtype n t, hn, x, hx => by
    rw [Ty.Has] at hx
    rw [Ty.nullable] at hn
    obtain ⟨y, rfl, hy⟩ := hx
    rw [Ty.blank]
    exact Ty.blank_of_nullable t hn y hy
  | .via t conv back, hn, x, hx => by
    rw [Ty.Has] at hx
    rw [Ty.nullable] at hn
    rw [Ty.blank]
    exact Ty.blank_of_nullable t hn _ hx.1
  | .unit, hn, _, _ => nomatch hn
  | .unitStruct _, hn, _, _ => nomatch hn
  | .option _, hn, _, _ => nomatch hn
  | .value, hn, _, _ => nomatch hn
  | .any _, hn, _, _ => nomatch hn
  | .bool, _, _, _ | .int _, _, _, _ | .f32, _, _, _ | .f64, _, _, _ | .char, _, _, _ | .string, _, _, _
  | .pathBuf, _, _, _ | .seq _, _, _, _ | .tuple _, _, _, _ | .tupleStruct _ _, _, _, _ | .map _, _, _, _
  | .struct _ _ _ _, _, _, _ | .enum _ _, _, _, _ | .tag, _, _, _ | .flag, _, _, _ | .pairs _, _, _, _
  | .keyed _ _, _, _, _ | .parsed _ _ _, _, _, _ | .flat _ _ _ _, _, _, _ => by rfl

end

mutual
theorem Ty.sound_of_faithful : ∀ (t : Ty), t.faithful = true → t.sound = true
  | .option t, h => by
    rw [Ty.faithful, Bool.and_eq_true] at h; rw [Ty.sound]; exact Ty.sound_of_faithful t h.2
  | .newtype _ t, h => by rw [Ty.faithful] at h; rw [Ty.sound]; exact Ty.sound_of_faithful t h
  | .seq t, h => by rw [Ty.faithful] at h; rw [Ty.sound]; exact Ty.sound_of_faithful t h
  | .map t, h => by rw [Ty.faithful] at h; rw [Ty.sound]; exact Ty.sound_of_faithful t h
  | .pairs t, h => by rw [Ty.faithful] at h; rw [Ty.sound]; exact Ty.sound_of_faithful t h
  | .keyed _ t, h => by
    rw [Ty.faithful, Bool.and_eq_true] at h; rw [Ty.sound]; exact Ty.sound_of_faithful t h.2
  | .via t _ _, h => by
    rw [Ty.faithful, Bool.and_eq_true] at h; rw [Ty.sound]; exact Ty.sound_of_faithful t h.2
  | .tuple ts, h => by rw [Ty.faithful] at h; rw [Ty.sound]; exact Ty.soundEach_of_faithful ts h
  | .tupleStruct _ ts, h => by rw [Ty.faithful] at h; rw [Ty.sound]; exact Ty.soundEach_of_faithful ts h
  | .struct _ _ _ fs, h => by
    rw [Ty.faithful, Bool.and_eq_true] at h; rw [Ty.sound, Bool.and_eq_true]
    exact ⟨h.1, Ty.soundFields_of_faithful fs h.2⟩
  | .flat _ fs _ _, h => by
    rw [Ty.faithful, Bool.and_eq_true] at h; rw [Ty.sound, Bool.and_eq_true]
    exact ⟨h.1, Ty.soundFields_of_faithful fs h.2⟩
  | .enum _ vs, h => by rw [Ty.faithful] at h; rw [Ty.sound]; exact Ty.soundVariants_of_faithful vs h
  | .value, h => by rw [Ty.faithful] at h; exact nomatch h
  | .unit, _ | .unitStruct _, _ | .any _, _ | .bool, _ | .int _, _ | .f32, _ | .f64, _ | .char, _ | .string, _
  | .pathBuf, _ | .tag, _ | .flag, _ | .parsed _ _ _, _ => by rw [Ty.sound]; all_goals (intros; contradiction)
theorem Ty.soundEach_of_faithful : ∀ (ts : List Ty), Ty.faithfulEach ts = true → Ty.soundEach ts = true
  | [], _ => by rw [Ty.soundEach]
  | t :: ts, h => by
    rw [Ty.faithfulEach, Bool.and_eq_true] at h; rw [Ty.soundEach, Bool.and_eq_true]
    exact ⟨Ty.sound_of_faithful t h.1, Ty.soundEach_of_faithful ts h.2⟩
theorem Ty.soundFields_of_faithful : ∀ (fs : List (Str × Option Val × Ty)), Ty.faithfulFields fs = true →
    Ty.soundFields fs = true
  | [], _ => by rw [Ty.soundFields]
  | (_, _, t) :: fs, h => by
    rw [Ty.faithfulFields, Bool.and_eq_true] at h; rw [Ty.soundFields, Bool.and_eq_true]
    exact ⟨Ty.sound_of_faithful t h.1, Ty.soundFields_of_faithful fs h.2⟩
theorem Ty.soundVariants_of_faithful : ∀ (vs : List (Str × VTy)), Ty.faithfulVariants vs = true →
    Ty.soundVariants vs = true
  | [], _ => by rw [Ty.soundVariants]
  | (_, v) :: vs, h => by
    rw [Ty.faithfulVariants, Bool.and_eq_true] at h; rw [Ty.soundVariants, Bool.and_eq_true]
    exact ⟨VTy.sound_of_faithful v h.1, Ty.soundVariants_of_faithful vs h.2⟩
theorem VTy.sound_of_faithful : ∀ (v : VTy), v.faithful = true → v.sound = true
  | .unit, _ => by rw [VTy.sound]
  | .newtype t, h => by rw [VTy.faithful] at h; rw [VTy.sound]; exact Ty.sound_of_faithful t h
  | .tuple ts, h => by rw [VTy.faithful] at h; rw [VTy.sound]; exact Ty.soundEach_of_faithful ts h
  | .struct _ fs, h => by
    rw [VTy.faithful, Bool.and_eq_true] at h; rw [VTy.sound, Bool.and_eq_true]
    exact ⟨h.1, Ty.soundFields_of_faithful fs h.2⟩
end

mutual
theorem Ty.kept_of_faithful : ∀ (t : Ty), t.faithful = true → ∀ x, t.Has x → t.Kept x
  | .int t, h, x, _ => by
    rw [Ty.faithful, Bool.and_eq_true, bne_iff_ne, bne_iff_ne] at h; rw [Ty.Kept]; exact h
  | .option t, h, x, hx => by
    rw [Ty.faithful, Bool.and_eq_true, Bool.not_eq_true'] at h
    rw [Ty.Has] at hx
    rw [Ty.Kept]
    rintro y rfl
    rcases hx with hx | ⟨z, hz, hx⟩
    · cases hx
    · cases hz
      exact ⟨Ty.blank_of_nullable t h.1 _ hx, Ty.kept_of_faithful t h.2 _ hx⟩
  | .newtype _ t, h, x, hx => by
    rw [Ty.faithful] at h; rw [Ty.Has] at hx; rw [Ty.Kept]
    rintro y rfl
    obtain ⟨z, hz, hx⟩ := hx
    cases hz
    exact Ty.kept_of_faithful t h _ hx
  | .seq t, h, x, hx => by
    rw [Ty.faithful] at h; rw [Ty.Has] at hx; rw [Ty.Kept]
    rintro l rfl y hy
    obtain ⟨z, hz, hx⟩ := hx
    cases hz
    exact Ty.kept_of_faithful t h _ (hx y hy)
  | .map t, h, x, hx => by
    rw [Ty.faithful] at h; rw [Ty.Has] at hx; rw [Ty.Kept]
    rintro l rfl y hy
    obtain ⟨z, hz, _, hx⟩ := hx
    cases hz
    exact Ty.kept_of_faithful t h _ (hx y hy)
  | .pairs t, h, x, hx => by
    rw [Ty.faithful] at h; rw [Ty.Has] at hx; rw [Ty.Kept]
    rintro l rfl y hy
    obtain ⟨z, hz, _, hx⟩ := hx
    cases hz
    exact Ty.kept_of_faithful t h _ (hx y hy)
  | .keyed kt t, h, x, hx => by
    rw [Ty.faithful, Bool.and_eq_true] at h; rw [Ty.Has] at hx; rw [Ty.Kept]
    rintro l rfl e he
    obtain ⟨z, hz, _, hx⟩ := hx
    cases hz
    exact ⟨fun s hs => Ty.returns_key kt e.1 s h.1 (hx e he).1 hs, Ty.kept_of_faithful t h.2 _ (hx e he).2.1⟩
  | .via t _ _, h, x, hx => by
    rw [Ty.faithful, Bool.and_eq_true] at h; rw [Ty.Has] at hx; rw [Ty.Kept]
    exact Ty.kept_of_faithful t h.2 _ hx.1
  | .tuple ts, h, x, hx => by
    rw [Ty.faithful] at h; rw [Ty.Has] at hx; rw [Ty.Kept]
    rintro l rfl
    obtain ⟨z, hz, hx⟩ := hx
    cases hz
    exact Ty.keptEach_of_faithful ts h _ hx
  | .tupleStruct _ ts, h, x, hx => by
    rw [Ty.faithful] at h; rw [Ty.Has] at hx; rw [Ty.Kept]
    rintro l rfl
    obtain ⟨z, hz, hx⟩ := hx
    cases hz
    exact Ty.keptEach_of_faithful ts h _ hx
  | .struct _ _ _ fs, h, x, hx => by
    rw [Ty.faithful, Bool.and_eq_true] at h; rw [Ty.Has] at hx; rw [Ty.Kept]
    rintro l rfl
    obtain ⟨z, hz, hx, _⟩ := hx
    cases hz
    exact Ty.keptFields_of_faithful fs h.2 _ hx
  | .flat _ fs _ _, h, x, hx => by
    rw [Ty.faithful, Bool.and_eq_true] at h; rw [Ty.Has] at hx; rw [Ty.Kept]
    exact Ty.keptFields_of_faithful fs h.2 _ hx.1
  | .enum _ vs, h, x, hx => by
    rw [Ty.faithful] at h; rw [Ty.Has] at hx; rw [Ty.Kept]
    rintro name y rfl
    obtain ⟨n, z, hz, hx⟩ := hx
    cases hz
    exact Ty.keptVariant_of_faithful name vs h _ hx
  | .value, _, _, _ | .unit, _, _, _ | .unitStruct _, _, _, _ | .any _, _, _, _ | .bool, _, _, _ | .f32, _, _, _
  | .f64, _, _, _ | .char, _, _, _ | .string, _, _, _ | .pathBuf, _, _, _ | .tag, _, _, _ | .flag, _, _, _
  | .parsed _ _ _, _, _, _ => by rw [Ty.Kept]; all_goals (intros; first | trivial | contradiction)
theorem Ty.keptEach_of_faithful : ∀ (ts : List Ty), Ty.faithfulEach ts = true → ∀ l, Ty.HasEach ts l → Ty.KeptEach ts l
  | [], _, _, _ => by rw [Ty.KeptEach]; all_goals (intros; first | trivial | contradiction)
  | t :: ts, h, l, hx => by
    rw [Ty.faithfulEach, Bool.and_eq_true] at h; rw [Ty.HasEach] at hx
    obtain ⟨x, r, rfl, hx, hr⟩ := hx
    rw [Ty.KeptEach]
    exact ⟨Ty.kept_of_faithful t h.1 x hx, Ty.keptEach_of_faithful ts h.2 r hr⟩
theorem Ty.keptFields_of_faithful : ∀ (fs : List (Str × Option Val × Ty)), Ty.faithfulFields fs = true → ∀ l,
    Ty.HasFields fs l → Ty.KeptFields fs l
  | [], _, _, _ => by rw [Ty.KeptFields]; all_goals (intros; first | trivial | contradiction)
  | (_, _, t) :: fs, h, l, hx => by
    rw [Ty.faithfulFields, Bool.and_eq_true] at h; rw [Ty.HasFields] at hx
    obtain ⟨x, r, rfl, hx, hr⟩ := hx
    rw [Ty.KeptFields]
    exact ⟨Ty.kept_of_faithful t h.1 x hx, Ty.keptFields_of_faithful fs h.2 r hr⟩
theorem Ty.keptVariant_of_faithful (name : Str) : ∀ (vs : List (Str × VTy)), Ty.faithfulVariants vs = true → ∀ x,
    Ty.HasVariant name vs x → Ty.KeptVariant name vs x
  | [], _, _, _ => by rw [Ty.KeptVariant]; trivial
  | (n, v) :: vs, h, x, hx => by
    rw [Ty.faithfulVariants, Bool.and_eq_true] at h; rw [Ty.HasVariant] at hx
    rw [Ty.KeptVariant]
    rcases hx with ⟨hn, hx⟩ | ⟨hn, hx⟩
    · exact ⟨fun _ => VTy.kept_of_faithful v h.1 x hx, fun h => absurd hn h⟩
    · exact ⟨fun h => absurd h hn, fun _ => Ty.keptVariant_of_faithful name vs h.2 x hx⟩
theorem VTy.kept_of_faithful : ∀ (v : VTy), v.faithful = true → ∀ x, v.Has x → v.Kept x
  | .unit, _, _, _ => by rw [VTy.Kept]; trivial
  | .newtype t, h, x, hx => by
    rw [VTy.faithful] at h; rw [VTy.Has] at hx; rw [VTy.Kept]; exact Ty.kept_of_faithful t h x hx
  | .tuple ts, h, x, hx => by
    rw [VTy.faithful] at h; rw [VTy.Has] at hx; rw [VTy.Kept]
    rintro l rfl
    obtain ⟨z, hz, hx⟩ := hx
    cases hz
    exact Ty.keptEach_of_faithful ts h _ hx
  | .struct _ fs, h, x, hx => by
    rw [VTy.faithful, Bool.and_eq_true] at h; rw [VTy.Has] at hx; rw [VTy.Kept]
    rintro l rfl
    obtain ⟨z, hz, hx⟩ := hx
    cases hz
    exact Ty.keptFields_of_faithful fs h.2 _ hx
end

theorem Ty.back [FloatOps] (t : Ty) (hf : t.faithful = true) (x : Val) (hx : t.Has x) :
    ∃ w, (t.ser x).serialize = .ok w ∧ (t.nullable = false → w.isEmptyVal = false) ∧ t.de.Back x w := by
  obtain ⟨w, h1, h2, h3⟩ := Ty.kept_back t (Ty.sound_of_faithful t hf) x hx
  exact ⟨w, h1, fun h => h2 (Ty.blank_of_nullable t h x hx), h3 (Ty.kept_of_faithful t hf x hx)⟩

end Figment
