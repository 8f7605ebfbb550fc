import Verif.Spec.Part
import Verif.Lemmas.De
import Verif.Lemmas.Figment
/-!
# Lemmas: deserialisation reads `Ty.part` only
-/
namespace Figment
variable [FloatOps]

omit [FloatOps] in
mutual
theorem Ty.part_tag : (t : Ty) → (v : Value) → (t.part v).tag = v.tag
  | .option t, v => by cases v <;> first | rfl | exact Ty.part_tag t _
  | .newtype _ t, v => Ty.part_tag t v
  | .via t _ _, v => Ty.part_tag t v
  | .parsed _ _ _, v => rfl
  | .any _, v => rfl
  | .flat _ _ _ _, v => by cases v <;> rfl
  | .seq t, v => by cases v <;> rfl
  | .tuple ts, v => by cases v <;> rfl
  | .tupleStruct _ ts, v => by cases v <;> rfl
  | .map t, v => by cases v <;> rfl
  | .pairs t, v => by cases v <;> rfl
  | .keyed _ t, v => by cases v <;> rfl
  | .struct _ name deny fs, v => by
    cases v with
    | dict tag d => rw [Ty.part]; split <;> rfl
    | _ => rfl
  | .enum _ vs, v => by cases v <;> rfl
  | .bool, v => rfl
  | .int _, v => rfl
  | .f32, v => rfl
  | .f64, v => rfl
  | .char, v => rfl
  | .string, v => rfl
  | .pathBuf, v => rfl
  | .unit, v => rfl
  | .unitStruct _, v => rfl
  | .value, v => rfl
  | .tag, v => rfl
  | .flag, v => rfl
theorem VTy.part_tag : (t : VTy) → (v : Value) → (t.part v).tag = v.tag
  | .unit, v => rfl
  | .newtype t, v => Ty.part_tag t v
  | .tuple ts, v => by cases v <;> rfl
  | .struct deny fs, v => by
    cases v with
    | dict tag d => rw [VTy.part]; split <;> rfl
    | _ => rfl
end

/-- The seed gives for `v` what it gives for `w`. -/
def Seed.Like (s s' : Seed) (v w : Value) : Prop := ∀ de, s de v = s' de w

omit [FloatOps] in
theorem nextValue_like {s s' : Seed} {v w : Value} (h : Seed.Like s s' v w) (ht : v.tag = w.tag) (de : De) (k : Str) :
    MapDe.nextValue s de k v = MapDe.nextValue s' de k w := by
  unfold MapDe.nextValue
  rw [h de]
  congr 1
  unfold MapDe.err
  rw [ht]

omit [FloatOps] in
theorem nextElement_like {s s' : Seed} {v w : Value} (h : Seed.Like s s' v w) (de : De) (i : Nat) :
    SeqDe.nextElement s de i v = SeqDe.nextElement s' de i w := by
  unfold SeqDe.nextElement
  rw [h de]

omit [FloatOps] in
theorem seqLoop_map {s : Seed} {p : Value → Value} (h : ∀ v, Seed.Like s s v (p v)) (de : De) :
    ∀ (r : List Value) (i : Nat), seqLoop s de i r = seqLoop s de i (r.map p)
  | [], _ => rfl
  | v :: r, i => by
    rw [seqLoop, List.map_cons, seqLoop, nextElement_like (h v), seqLoop_map h de r]

omit [FloatOps] in
theorem mapLoop_map {s : Seed} {p : Value → Value} (h : ∀ v, Seed.Like s s v (p v)) (ht : ∀ v, (p v).tag = v.tag)
    (de : De) : ∀ (r : List (Str × Value)), mapLoop s de r = mapLoop s de (Dict.part (fun _ v => some (p v)) r)
  | [] => rfl
  | (k, v) :: r => by
    have := mapLoop_map h ht de r
    rw [Dict.part] at this
    rw [mapLoop, Dict.part, List.filterMap_cons_some (f := fun e : Str × Value => (some (p e.2)).map fun v => (e.1, v)) (b := (k, p v)) rfl, mapLoop,
      nextValue_like (h v) (ht v).symm, this]

omit [FloatOps] in
theorem keyedLoop_map {key : Str → R Val} {s : Seed} {p : Value → Value} (h : ∀ v, Seed.Like s s v (p v))
    (ht : ∀ v, (p v).tag = v.tag) (de : De) :
    ∀ (r : List (Str × Value)), keyedLoop key s de r = keyedLoop key s de (Dict.part (fun _ v => some (p v)) r)
  | [] => rfl
  | (k, v) :: r => by
    have := keyedLoop_map (key := key) h ht de r
    rw [Dict.part] at this
    have he : MapDe.err k (p v) = MapDe.err k v := by funext e; unfold MapDe.err; rw [ht]
    rw [keyedLoop, Dict.part, List.filterMap_cons_some (f := fun e : Str × Value => (some (p e.2)).map fun v => (e.1, v)) (b := (k, p v)) rfl, keyedLoop,
      nextValue_like (h v) (ht v).symm, this, he]

omit [FloatOps] in
theorem any_dict {V : Visitor Val} {de : De} {t : Tag} {d d' : Dict} (h : V.visitMap de d = V.visitMap de d') :
    de.deserializeAny V (.dict t d) = de.deserializeAny V (.dict t d') := by
  rw [De.deserializeAny.eq_def, De.deserializeAny.eq_def de V (.dict t d')]
  exact congrArg (R.mapErr (de.err t)) h

omit [FloatOps] in
theorem any_array {V : Visitor Val} {de : De} {t : Tag} {d d' : List Value} (h : V.visitSeq de d = V.visitSeq de d') :
    de.deserializeAny V (.array t d) = de.deserializeAny V (.array t d') := by
  rw [De.deserializeAny.eq_def, De.deserializeAny.eq_def de V (.array t d')]
  exact congrArg (R.mapErr (de.err t)) h

omit [FloatOps] in
theorem struct_dict {V : Visitor Val} {de : De} {t : Tag} {d d' : Dict} {name : Str}
    (hn : magicNames.contains name = false) (h : V.visitMap de d = V.visitMap de d') :
    de.deserializeStruct name V (.dict t d) = de.deserializeStruct name V (.dict t d') := by
  have h' := any_dict (t := t) h
  simp only [magicNames, List.contains_cons, List.contains_nil, Bool.or_false, Bool.or_eq_false_iff,
    beq_eq_false_iff_ne, ne_eq] at hn
  unfold De.deserializeStruct
  cases de.config with
  | none => exact h'
  | some f =>
    dsimp only
    rw [if_neg hn.1, if_neg hn.2.1, if_neg hn.2.2, if_neg hn.1, if_neg hn.2.1, if_neg hn.2.2, h']
    rfl

omit [FloatOps] in
theorem fieldLoop_part {fs : List FieldSeed} {keep : Str → Value → Option Value}
    (h : ∀ k v, match fs.find? (fun f => f.name = k) with
      | some s => ∃ w, keep k v = some w ∧ w.tag = v.tag ∧ Seed.Like s.run s.run v w
      | none => keep k v = none) (de : De) : ∀ (d : List (Str × Value)) (acc : List (Str × Val)),
    fieldLoop de false fs d acc = fieldLoop de false fs (Dict.part keep d) acc
  | [], _ => rfl
  | (k, v) :: r, acc => by
    have ih := fieldLoop_part h de r
    have hk := h k v
    rw [Dict.part] at ih ⊢
    rw [fieldLoop]
    cases hf : fs.find? (fun f => f.name = k) with
    | none =>
      rw [hf] at hk
      dsimp only at hk ⊢
      rw [List.filterMap_cons_none (by rw [hk]; rfl)]
      exact ih acc
    | some s =>
      rw [hf] at hk
      obtain ⟨w, hw, ht, hl⟩ := hk
      rw [List.filterMap_cons_some (b := (k, w)) (by rw [hw]; rfl), fieldLoop, hf]
      dsimp only
      rw [nextValue_like hl ht.symm]
      cases MapDe.nextValue s.run de k w with
      | error e => rfl
      | ok x => exact ih _

omit [FloatOps] in
theorem tupleLoop_part (ex : Str) (de : De) : ∀ (ts : List Ty) (fs : List (Option Val × Seed)) (r : List Value) (i : Nat),
    fs.length = ts.length → (∀ x ∈ ts.zip fs, ∀ v, Seed.Like x.2.2 x.2.2 v (x.1.part v)) →
    tupleLoop ex de i fs r = tupleLoop ex de i fs (Ty.partEach ts r)
  | [], [], r, i, _, _ => by cases r <;> rfl
  | [], _ :: _, _, _, h, _ => by cases h
  | _ :: _, [], _, _, h, _ => by cases h
  | t :: ts, (d, s) :: fs, [], i, hl, h => rfl
  | t :: ts, (d, s) :: fs, v :: r, i, hl, h => by
    have hx : Seed.Like s s v (t.part v) := h (t, (d, s)) (by simp) v
    have ih := tupleLoop_part ex de ts fs r (i + 1) (by simpa using hl)
      (fun x hx => h x (by rw [List.zip_cons_cons]; exact .tail _ hx))
    rw [Ty.partEach, tupleLoop, tupleLoop, nextElement_like hx, ih]

omit [FloatOps] in
theorem lookup_part {vs : List (Str × VariantSeed)} {keep : Str → Value → Option Value} {n : Str}
    (h : ∀ k v, ∃ w, keep k v = some w ∧ w.tag = v.tag ∧
      ∀ s, vs.lookup k = some s → ∀ de, s.with de k v = s.with de k w) (de : De) (d : Dict) :
    (enumVisitor n vs).visitEnum (.map de d) = (enumVisitor n vs).visitEnum (.map de (Dict.part keep (d.take 1))) := by
  cases d with
  | nil => rfl
  | cons e r =>
    obtain ⟨k, v⟩ := e
    obtain ⟨w, hw, ht, hl⟩ := h k v
    rw [List.take_succ_cons, List.take_zero, Dict.part, List.filterMap_cons_some (b := (k, w)) (by rw [hw]; rfl)]
    unfold enumVisitor
    dsimp only
    cases hv : vs.lookup k with
    | none => dsimp only; unfold MapDe.err; rw [ht]
    | some s => dsimp only; rw [hl s hv de]

theorem Ty.deEach_length : ∀ ts, (Ty.deEach ts).length = ts.length
  | [] => by rw [Ty.deEach]; rfl
  | t :: ts => by rw [Ty.deEach, List.length_cons, List.length_cons, Ty.deEach_length ts]

theorem Ty.tuple_part {ts : List Ty}
    (h : ∀ x ∈ ts.zip (Ty.deEach ts), ∀ v, Seed.Like x.2 x.2 v (x.1.part v)) (x y : Str) (de : De) (a : List Value) :
    (tupleVisitor x y (Ty.deEach ts)).visitSeq de a = (tupleVisitor x y (Ty.deEach ts)).visitSeq de (Ty.partEach ts a) := by
  unfold tupleVisitor
  dsimp only
  rw [tupleLoop_part y de ts _ a 0 (by rw [List.length_map, Ty.deEach_length])]
  intro p hp v
  rw [List.zip_map_right] at hp
  obtain ⟨q, hq, rfl⟩ := List.mem_map.1 hp
  exact h q hq v

theorem Ty.struct_part {fs : List (Str × Option Val × Ty)}
    (h : ∀ k v, match (Ty.deFields fs).find? (fun f => f.name = k) with
      | some s => ∃ w, Ty.partFields fs k v = some w ∧ w.tag = v.tag ∧ Seed.Like s.run s.run v w
      | none => Ty.partFields fs k v = none) (x y : Str) (de : De) (d : Dict) :
    (structVisitor x y false (Ty.deFields fs)).visitMap de d =
    (structVisitor x y false (Ty.deFields fs)).visitMap de (Dict.part (Ty.partFields fs) d) := by
  unfold structVisitor
  dsimp only
  rw [fieldLoop_part h]

omit [FloatOps] in
theorem flatLoop_part {fs : List FieldSeed} {keep : Str → Value → Option Value}
    (h : ∀ k v, match fs.find? (fun f => f.name = k) with
      | some s => ∃ w, keep k v = some w ∧ w.tag = v.tag ∧ Seed.Like s.run s.run v w
      | none => keep k v = none) (de : De) : ∀ d : List (Str × Value),
    flatLoop fs de d = flatLoop fs de (Dict.part (fun k v => some ((keep k v).getD v)) d)
  | [] => rfl
  | (k, v) :: r => by
    have ih := flatLoop_part h de r
    have hk := h k v
    rw [Dict.part] at ih ⊢
    show flatLoop fs de ((k, v) :: r) = flatLoop fs de ((k, (keep k v).getD v) :: List.filterMap _ r)
    rw [flatLoop, flatLoop, ← ih]
    have : MapDe.nextValue (flatSeed fs k) de k v = MapDe.nextValue (flatSeed fs k) de k ((keep k v).getD v) := by
      unfold flatSeed
      cases hf : fs.find? (fun f => f.name = k) with
      | none => rw [hf] at hk; dsimp only at hk ⊢; rw [hk]; rfl
      | some s =>
        rw [hf] at hk
        obtain ⟨w, hw, ht, hl⟩ := hk
        dsimp only
        rw [hw]
        exact nextValue_like hl ht.symm de k
    rw [this]

theorem Ty.flat_part {fs : List (Str × Option Val × Ty)}
    (h : ∀ k v, match (Ty.deFields fs).find? (fun f => f.name = k) with
      | some s => ∃ w, Ty.partFields fs k v = some w ∧ w.tag = v.tag ∧ Seed.Like s.run s.run v w
      | none => Ty.partFields fs k v = none) (x : Str) (conv : List Val → List (Str × Val) → Except Kind Val) (de : De)
    (d : Dict) : (flatVisitor x (Ty.deFields fs) conv).visitMap de d =
    (flatVisitor x (Ty.deFields fs) conv).visitMap de
      (Dict.part (fun k v => some ((Ty.partFields fs k v).getD v)) d) := by
  unfold flatVisitor
  dsimp only
  rw [flatLoop_part h]

omit [FloatOps] in
theorem Ty.part_empty : (t : Ty) → (v : Value) → (∀ tag e, v ≠ .empty tag e) → ∀ tag e, t.part v ≠ .empty tag e
  | .option t, v, h => by cases v <;> first | exact h | exact Ty.part_empty t _ h
  | .newtype _ t, v, h => Ty.part_empty t v h
  | .via t _ _, v, h => Ty.part_empty t v h
  | .parsed _ _ _, v, h => h
  | .any _, v, h => h
  | .flat _ _ _ _, v, h => by cases v <;> first | exact h | exact nofun
  | .seq t, v, h => by cases v <;> first | exact h | exact nofun
  | .tuple ts, v, h => by cases v <;> first | exact h | exact nofun
  | .tupleStruct _ ts, v, h => by cases v <;> first | exact h | exact nofun
  | .map t, v, h => by cases v <;> first | exact h | exact nofun
  | .pairs t, v, h => by cases v <;> first | exact h | exact nofun
  | .keyed _ t, v, h => by cases v <;> first | exact h | exact nofun
  | .struct _ name deny fs, v, h => by
    cases v with
    | dict tag d => rw [Ty.part]; split <;> exact nofun
    | _ => exact h
  | .enum _ vs, v, h => by cases v <;> first | exact h | exact nofun
  | .bool, v, h => h
  | .int _, v, h => h
  | .f32, v, h => h
  | .f64, v, h => h
  | .char, v, h => h
  | .string, v, h => h
  | .pathBuf, v, h => h
  | .unit, v, h => h
  | .unitStruct _, v, h => h
  | .value, v, h => h
  | .tag, v, h => h
  | .flag, v, h => h

omit [FloatOps] in
theorem option_some {s : Seed} {v : Value} (h : ∀ tag e, v ≠ .empty tag e) (de : De) :
    de.deserializeOption (optionVisitor s) v =
      (match de.config with
        | some _ => R.mapErr (de.err v.tag) ((optionVisitor s).visitSome de v)
        | none => (optionVisitor s).visitSome de v) := by
  unfold De.deserializeOption
  cases v with
  | empty tag e => exact absurd rfl (h tag e)
  | _ => rfl

theorem option_part {t : Ty} {v : Value} (h : ∀ tag e, v ≠ .empty tag e) (hl : Seed.Like t.de t.de v (t.part v))
    (de : De) : de.deserializeOption (optionVisitor t.de) v = de.deserializeOption (optionVisitor t.de) (t.part v) := by
  rw [option_some h, option_some (Ty.part_empty t v h), Ty.part_tag]
  have hs : (optionVisitor t.de).visitSome de v = (optionVisitor t.de).visitSome de (t.part v) := by
    unfold optionVisitor
    dsimp only
    rw [hl de]
  rw [hs]

mutual
/-- Deserialising a value is deserialising the part that the type reads. -/
theorem Ty.de_part : (t : Ty) → ∀ v, Seed.Like t.de t.de v (t.part v)
  | .option t, v, de => by
    cases v with
    | empty tag e => rfl
    | _ =>
      exact option_part (fun _ _ h => by cases h) (Ty.de_part t _) de
  | .newtype n t, v, de => by
    show (newtypeVisitor n t.de).visitNewtype de v = (newtypeVisitor n t.de).visitNewtype de (t.part v)
    unfold newtypeVisitor
    dsimp only
    rw [Ty.de_part t v de]
  | .via t conv _, v, de => congrArg (converted conv) (Ty.de_part t v de)
  | .parsed _ _ _, v, _ => rfl
  | .any _, v, _ => rfl
  | .flat _ fs conv _, v, de => by
    cases v with
    | dict tag d => exact any_dict (Ty.flat_part (Ty.fields_part fs) _ conv de d)
    | _ => rfl
  | .seq t, v, de => by
    cases v with
    | array tag a =>
      refine any_array ?_
      unfold seqVisitor
      dsimp only
      rw [seqLoop_map (Ty.de_part t)]
    | _ => rfl
  | .tuple ts, v, de => by
    cases v with
    | array tag a => exact any_array (Ty.tuple_part (Ty.each_part ts) _ _ de a)
    | _ => rfl
  | .tupleStruct _ ts, v, de => by
    cases v with
    | array tag a => exact any_array (Ty.tuple_part (Ty.each_part ts) _ _ de a)
    | _ => rfl
  | .map t, v, de => by
    cases v with
    | dict tag a =>
      refine any_dict ?_
      unfold mapVisitor
      dsimp only
      rw [mapLoop_map (Ty.de_part t) (Ty.part_tag t)]
    | _ => rfl
  | .pairs t, v, de => by
    cases v with
    | dict tag a =>
      refine any_dict ?_
      unfold pairsVisitor
      dsimp only
      rw [mapLoop_map (Ty.de_part t) (Ty.part_tag t)]
    | _ => rfl
  | .keyed _ t, v, de => by
    cases v with
    | dict tag a =>
      refine any_dict ?_
      unfold keyedVisitor
      dsimp only
      rw [keyedLoop_map (Ty.de_part t) (Ty.part_tag t)]
    | _ => rfl
  | .struct _ name deny fs, v, de => by
    cases v with
    | dict tag d =>
      rw [Ty.part]
      cases deny with
      | true => rfl
      | false =>
        cases hm : magicNames.contains name with
        | true => rfl
        | false => exact struct_dict hm (Ty.struct_part (Ty.fields_part fs) _ _ de d)
    | _ => rfl
  | .enum n vs, v, de => by
    cases v with
    | dict tag d =>
      show R.mapErr _ _ = R.mapErr _ _
      exact congrArg (R.mapErr (de.err tag)) (lookup_part (Ty.variants_part n vs) de d)
    | _ => rfl
  | .bool, v, _ => rfl
  | .int _, v, _ => rfl
  | .f32, v, _ => rfl
  | .f64, v, _ => rfl
  | .char, v, _ => rfl
  | .string, v, _ => rfl
  | .pathBuf, v, _ => rfl
  | .unit, v, _ => rfl
  | .unitStruct _, v, _ => rfl
  | .value, v, _ => rfl
  | .tag, v, _ => rfl
  | .flag, v, _ => rfl
theorem Ty.each_part : (ts : List Ty) → ∀ x ∈ ts.zip (Ty.deEach ts), ∀ v, Seed.Like x.2 x.2 v (x.1.part v)
  | [], x, h => by cases h
  | t :: ts, x, h => by
    rw [Ty.deEach, List.zip_cons_cons] at h
    rcases List.mem_cons.1 h with h | h
    · rw [h]; exact Ty.de_part t
    · exact Ty.each_part ts x h
theorem Ty.fields_part : (fs : List (Str × Option Val × Ty)) → ∀ k v,
    match (Ty.deFields fs).find? (fun f => f.name = k) with
      | some s => ∃ w, Ty.partFields fs k v = some w ∧ w.tag = v.tag ∧ Seed.Like s.run s.run v w
      | none => Ty.partFields fs k v = none
  | [], k, v => by rw [Ty.deFields]; rfl
  | (n, d, t) :: fs, k, v => by
    have ih := Ty.fields_part fs k v
    have ht := Ty.de_part t v
    rw [Ty.deFields, List.find?_cons, Ty.partFields]
    by_cases hk : n = k
    · simp only [hk, decide_true, if_true]
      exact ⟨_, rfl, Ty.part_tag t v, ht⟩
    · simp only [hk, decide_false, if_false]
      exact ih
theorem Ty.variants_part (n : Str) : (vs : List (Str × VTy)) → ∀ k v, ∃ w, Ty.partVariants vs k v = some w ∧
    w.tag = v.tag ∧ ∀ s, (Ty.deVariants n vs).lookup k = some s → ∀ de, s.with de k v = s.with de k w
  | [], k, v => ⟨v, by rw [Ty.partVariants], rfl, fun s hs => by rw [Ty.deVariants] at hs; cases hs⟩
  | (m, t) :: vs, k, v => by
    rw [Ty.partVariants]
    by_cases hk : m = k
    · subst hk
      refine ⟨_, if_pos rfl, VTy.part_tag t v, fun s hs de => ?_⟩
      rw [Ty.deVariants, List.lookup_cons, beq_self_eq_true] at hs
      cases hs
      exact VTy.de_part _ t v de m
    · obtain ⟨w, h1, h2, h3⟩ := Ty.variants_part n vs k v
      refine ⟨w, by rw [if_neg hk, h1], h2, fun s hs => ?_⟩
      rw [Ty.deVariants, List.lookup_cons, beq_eq_false_iff_ne.2 (Ne.symm hk)] at hs
      exact h3 s hs
theorem VTy.de_part (n : Str) : (t : VTy) → ∀ v de k, (t.de n).with de k v = (t.de n).with de k (t.part v)
  | .unit, v, de, k => rfl
  | .newtype t, v, de, k => nextValue_like (Ty.de_part t v) (Ty.part_tag t v).symm de k
  | .tuple ts, v, de, k => by
    cases v with
    | array tag a => exact nextValue_like (fun de => any_array (Ty.tuple_part (Ty.each_part ts) _ _ de a)) rfl de k
    | _ => rfl
  | .struct deny fs, v, de, k => by
    cases v with
    | dict tag d =>
      rw [VTy.part]
      cases deny with
      | true => rfl
      | false => exact nextValue_like (fun de => any_dict (Ty.struct_part (Ty.fields_part fs) _ _ de d)) rfl de k
    | _ => rfl
end

omit [FloatOps] in
theorem Dict.get_part (keep : Str → Value → Option Value) {d : Dict} (hd : Map.Sorted d) (k : Str) :
    Map.get k (Dict.part keep d) = (Map.get k d).bind (keep k) := by
  unfold Dict.part
  induction d with
  | nil => rfl
  | cons e r ih =>
    obtain ⟨k', v⟩ := e
    have hs := List.pairwise_cons.1 hd
    have ih := ih hs.2
    rw [Map.get]
    by_cases hk : compare k k' = .eq
    · have := Std.LawfulEqOrd.eq_of_compare hk
      subst this
      rw [if_pos hk]
      cases hw : keep k v with
      | some w => rw [List.filterMap_cons_some (b := (k, w)) (by rw [hw]; rfl), Map.get, if_pos hk, Option.bind_some, hw]
      | none =>
        rw [List.filterMap_cons_none (by rw [hw]; rfl), ih, Option.bind_some, hw]
        cases hg : Map.get k r with
        | none => rfl
        | some x =>
          obtain ⟨k', hm, hk'⟩ := Map.mem_of_get hg
          have h1 := hs.1 _ hm
          have := Std.LawfulEqOrd.eq_of_compare hk'
          subst this
          rw [Std.ReflOrd.compare_self] at h1
          cases h1
    · rw [if_neg hk]
      cases hw : keep k' v with
      | some w => rw [List.filterMap_cons_some (b := (k', w)) (by rw [hw]; rfl), Map.get, if_neg hk, ih]
      | none => rw [List.filterMap_cons_none (by rw [hw]; rfl), ih]

omit [FloatOps] in
theorem Dict.sorted_part (keep : Str → Value → Option Value) {d : Dict} (hd : Map.Sorted d) :
    Map.Sorted (Dict.part keep d) := by
  unfold Dict.part Map.Sorted
  rw [List.pairwise_filterMap]
  refine List.Pairwise.imp ?_ hd
  rintro ⟨k, v⟩ ⟨k', v'⟩ h b hb b' hb'
  obtain ⟨w, _, rfl⟩ := Option.map_eq_some_iff.1 hb
  obtain ⟨w', _, rfl⟩ := Option.map_eq_some_iff.1 hb'
  exact h

omit [FloatOps] in
/-- Dictionaries that have the same values at the kept keys have the same part. -/
theorem Dict.part_congr {keep : Str → Value → Option Value} {d d' : Dict} (hd : Map.Sorted d) (hd' : Map.Sorted d')
    (h : ∀ k, (∀ v, keep k v = none) ∨ Map.get k d = Map.get k d') : Dict.part keep d = Dict.part keep d' := by
  refine Map.ext_of_sorted (Dict.sorted_part keep hd) (Dict.sorted_part keep hd') fun k => ?_
  rw [Dict.get_part keep hd, Dict.get_part keep hd']
  rcases h k with h | h
  · cases Map.get k d <;> cases Map.get k d' <;> simp [h]
  · rw [h]

omit [FloatOps] in
theorem Ty.partFields_none : ∀ {fs : List (Str × Option Val × Ty)} {k : Str}, k ∉ fs.map (·.1) → ∀ v, Ty.partFields fs k v = none
  | [], _, _, _ => by rw [Ty.partFields]
  | (n, _, t) :: fs, k, h, v => by
    simp only [List.map_cons, List.mem_cons, not_or] at h
    rw [Ty.partFields, if_neg (Ne.symm h.1), Ty.partFields_none h.2]

omit [FloatOps] in
theorem Dict.tagsAll_part {P : Tag → Bool} {keep : Str → Value → Option Value} {d : Dict}
    (h : ∀ e ∈ d, ∀ w, keep e.1 e.2 = some w → w.tagsAll P = true) : Value.tagsAllD P (Dict.part keep d) = true := by
  rw [Value.tagsAllD_iff]
  intro e he
  obtain ⟨x, hx, hm⟩ := List.mem_filterMap.1 he
  obtain ⟨w, hw, rfl⟩ := Option.map_eq_some_iff.1 hm
  exact h x hx w hw

omit [FloatOps] in
mutual
theorem Ty.part_tagsAll {P : Tag → Bool} : (t : Ty) → (v : Value) → v.tagsAll P = true → (t.part v).tagsAll P = true
  | .option t, v, h => by cases v <;> first | exact h | exact Ty.part_tagsAll t _ h
  | .newtype _ t, v, h => Ty.part_tagsAll t v h
  | .via t _ _, v, h => Ty.part_tagsAll t v h
  | .parsed _ _ _, v, h => h
  | .any _, v, h => h
  | .flat _ fs _ _, v, h => by
    cases v with
    | dict tag d =>
      rw [Ty.part]
      rw [Value.tagsAll_dict] at h
      rw [Value.tagsAll, Bool.and_eq_true]
      refine ⟨h.1, Dict.tagsAll_part fun e he w hw => ?_⟩
      cases hf : Ty.partFields fs e.1 e.2 with
      | none => rw [hf] at hw; cases hw; exact h.2 e he
      | some u => rw [hf] at hw; cases hw; exact Ty.partFields_tagsAll fs e.1 e.2 u (h.2 e he) hf
    | _ => exact h
  | .seq t, v, h => by
    cases v with
    | array tag a =>
      rw [Value.tagsAll_array] at h
      rw [Ty.part, Value.tagsAll_array]
      refine ⟨h.1, fun e he => ?_⟩
      obtain ⟨x, hx, rfl⟩ := List.mem_map.1 he
      exact Ty.part_tagsAll t x (h.2 x hx)
    | _ => exact h
  | .tuple ts, v, h => by
    cases v with
    | array tag a =>
      rw [Value.tagsAll_array] at h
      rw [Ty.part, Value.tagsAll_array]
      exact ⟨h.1, Ty.partEach_tagsAll ts a h.2⟩
    | _ => exact h
  | .tupleStruct _ ts, v, h => by
    cases v with
    | array tag a =>
      rw [Value.tagsAll_array] at h
      rw [Ty.part, Value.tagsAll_array]
      exact ⟨h.1, Ty.partEach_tagsAll ts a h.2⟩
    | _ => exact h
  | .map t, v, h => by
    cases v with
    | dict tag d =>
      rw [Value.tagsAll_dict] at h
      rw [Ty.part, Value.tagsAll, Bool.and_eq_true]
      exact ⟨h.1, Dict.tagsAll_part fun e he w hw => by cases hw; exact Ty.part_tagsAll t e.2 (h.2 e he)⟩
    | _ => exact h
  | .pairs t, v, h => by
    cases v with
    | dict tag d =>
      rw [Value.tagsAll_dict] at h
      rw [Ty.part, Value.tagsAll, Bool.and_eq_true]
      exact ⟨h.1, Dict.tagsAll_part fun e he w hw => by cases hw; exact Ty.part_tagsAll t e.2 (h.2 e he)⟩
    | _ => exact h
  | .keyed _ t, v, h => by
    cases v with
    | dict tag d =>
      rw [Value.tagsAll_dict] at h
      rw [Ty.part, Value.tagsAll, Bool.and_eq_true]
      exact ⟨h.1, Dict.tagsAll_part fun e he w hw => by cases hw; exact Ty.part_tagsAll t e.2 (h.2 e he)⟩
    | _ => exact h
  | .struct _ name deny fs, v, h => by
    cases v with
    | dict tag d =>
      rw [Ty.part]
      split
      · exact h
      rw [Value.tagsAll_dict] at h
      rw [Value.tagsAll, Bool.and_eq_true]
      exact ⟨h.1, Dict.tagsAll_part fun e he w hw => Ty.partFields_tagsAll fs e.1 e.2 w (h.2 e he) hw⟩
    | _ => exact h
  | .enum _ vs, v, h => by
    cases v with
    | dict tag d =>
      rw [Ty.part]
      rw [Value.tagsAll_dict] at h
      rw [Value.tagsAll, Bool.and_eq_true]
      exact ⟨h.1, Dict.tagsAll_part fun e he w hw =>
        Ty.partVariants_tagsAll vs e.1 e.2 w (h.2 e (List.mem_of_mem_take he)) hw⟩
    | _ => exact h
  | .bool, v, h => h
  | .int _, v, h => h
  | .f32, v, h => h
  | .f64, v, h => h
  | .char, v, h => h
  | .string, v, h => h
  | .pathBuf, v, h => h
  | .unit, v, h => h
  | .unitStruct _, v, h => h
  | .value, v, h => h
  | .tag, v, h => h
  | .flag, v, h => h
theorem Ty.partEach_tagsAll {P : Tag → Bool} : (ts : List Ty) → (a : List Value) → (∀ v ∈ a, v.tagsAll P = true) →
    ∀ v ∈ Ty.partEach ts a, v.tagsAll P = true
  | [], _, _, _, hv => by unfold Ty.partEach at hv; cases hv
  | _ :: _, [], _, _, hv => by unfold Ty.partEach at hv; cases hv
  | t :: ts, x :: a, h, v, hv => by
    rw [Ty.partEach] at hv
    rcases List.mem_cons.1 hv with hv | hv
    · rw [hv]; exact Ty.part_tagsAll t x (h x (.head _))
    · exact Ty.partEach_tagsAll ts a (fun y hy => h y (.tail _ hy)) v hv
theorem Ty.partFields_tagsAll {P : Tag → Bool} : (fs : List (Str × Option Val × Ty)) → (k : Str) → (v w : Value) →
    v.tagsAll P = true → Ty.partFields fs k v = some w → w.tagsAll P = true
  | [], _, _, _, _, hw => by rw [Ty.partFields] at hw; cases hw
  | (n, _, t) :: fs, k, v, w, h, hw => by
    rw [Ty.partFields] at hw
    split at hw
    · cases hw; exact Ty.part_tagsAll t v h
    · exact Ty.partFields_tagsAll fs k v w h hw
theorem Ty.partVariants_tagsAll {P : Tag → Bool} : (vs : List (Str × VTy)) → (k : Str) → (v w : Value) →
    v.tagsAll P = true → Ty.partVariants vs k v = some w → w.tagsAll P = true
  | [], _, _, _, h, hw => by rw [Ty.partVariants] at hw; cases hw; exact h
  | (n, t) :: fs, k, v, w, h, hw => by
    rw [Ty.partVariants] at hw
    split at hw
    · cases hw; exact VTy.part_tagsAll t v h
    · exact Ty.partVariants_tagsAll fs k v w h hw
theorem VTy.part_tagsAll {P : Tag → Bool} : (t : VTy) → (v : Value) → v.tagsAll P = true → (t.part v).tagsAll P = true
  | .unit, v, h => h
  | .newtype t, v, h => Ty.part_tagsAll t v h
  | .tuple ts, v, h => by
    cases v with
    | array tag a =>
      rw [Value.tagsAll_array] at h
      rw [VTy.part, Value.tagsAll_array]
      exact ⟨h.1, Ty.partEach_tagsAll ts a h.2⟩
    | _ => exact h
  | .struct deny fs, v, h => by
    cases v with
    | dict tag d =>
      rw [VTy.part]
      split
      · exact h
      rw [Value.tagsAll_dict] at h
      rw [Value.tagsAll, Bool.and_eq_true]
      exact ⟨h.1, Dict.tagsAll_part fun e he w hw => Ty.partFields_tagsAll fs e.1 e.2 w (h.2 e he) hw⟩
    | _ => exact h
end
end Figment
