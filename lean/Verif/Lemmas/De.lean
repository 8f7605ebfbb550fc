import Verif.Model.Types
/-!
# Lemmas: deserialisers
-/
namespace Figment

@[simp] theorem R.mapErr_ok {α : Type _} (g : Error → Error) (x : α) : R.mapErr g (.ok x) = .ok x := rfl
@[simp] theorem R.mapErr_error {α : Type _} (g : Error → Error) (e : Error) :
    R.mapErr g (.error e : R α) = .error (g e) := rfl

theorem R.mapErr_eq_ok {α : Type _} {g : Error → Error} {r : R α} {x : α} : R.mapErr g r = .ok x ↔ r = .ok x := by
  cases r <;> simp

theorem R.mapErr_eq_error {α : Type _} {g : Error → Error} {r : R α} {e : Error} :
    R.mapErr g r = .error e ↔ ∃ e', r = .error e' ∧ g e' = e := by
  cases r <;> simp

theorem invalidType_ne {α : Type _} {a : Actual} {s : Str} {x : α} : invalidType a s ≠ .ok x := nofun

/-! ## `RawValue` and `Value` are what the visitor gives -/

theorem Value.rawDe_eq (de : De) (v : Value) : Value.rawDe de v = de.deserializeAny Value.visitor v := by
  cases v with
  | string t s => rfl
  | char t c => rfl
  | bool t b => rfl
  | num t n => cases n <;> rfl
  | empty t e => cases e <;> rfl
  | dict t d =>
    rw [Value.rawDe, De.deserializeAny.eq_def]
    unfold Value.visitor
    dsimp only
    cases Value.rawDeMap de d ⟨[], none, none⟩ <;> rfl
  | array t a =>
    rw [Value.rawDe, De.deserializeAny.eq_def]
    unfold Value.visitor
    dsimp only
    cases Value.rawDeSeq de 0 a <;> rfl

theorem Value.de_eq (f : Fig) (lossy : Bool) (v : Value) :
    Value.de ⟨some f, lossy⟩ v = De.deserializeStruct ⟨some f, lossy⟩ Value.NAME Value.visitor v := by
  have hm : Map.insert Value.FIELD1 v (Map.insert Value.FIELD0 (Value.ofTag v.tag) []) =
      [(Value.FIELD0, Value.ofTag v.tag), (Value.FIELD1, v)] := rfl
  have hv : ∀ (de : De) (d : Dict), Value.visitor.visitMap de d =
    match Value.rawDeMap de d ⟨[], none, none⟩ with
    | .ok st => .ok st.finish
    | .error e => .error e := fun _ _ => rfl
  have h10 : ¬ Value.FIELD1 = Value.FIELD0 := by decide
  simp only [Value.de, De.deserializeStruct, Value.deOfRaw, De.valueFrom, if_true, hm, hv, Value.rawDeMap,
    Value.visitEntry, if_neg h10]
  congr 1
  cases MapDe.nextValue Tag.de ⟨some f, lossy⟩ Value.FIELD0 (Value.ofTag v.tag) with
  | error e => rfl
  | ok id =>
    dsimp only
    cases R.mapErr (MapDe.err Value.FIELD1 v) (Value.rawDe ⟨some f, lossy⟩ v) <;> rfl

theorem Value.de_plain (v : Value) : Value.de De.plain v = De.plain.deserializeAny Value.visitor v := by
  rw [← Value.rawDe_eq]; rfl

/-! ## Strict and lossy -/

theorem Tag.de_lossy (c : Option Fig) (l l' : Bool) (v : Value) : Tag.de ⟨c, l⟩ v = Tag.de ⟨c, l'⟩ v := by
  cases v <;> rfl

theorem visitEntry_lossy (c : Option Fig) (l l' : Bool) (k : Str) (v : Value) (a b : R Value) (st : Value.MapState) :
    Value.visitEntry ⟨c, l⟩ k v a b st = Value.visitEntry ⟨c, l'⟩ k v a b st := by
  simp only [Value.visitEntry, MapDe.nextValue, Tag.de_lossy c l l']

theorem deOfRaw_lossy (c : Option Fig) (l l' : Bool) (v : Value) (a : R Value) :
    Value.deOfRaw ⟨c, l⟩ v a = Value.deOfRaw ⟨c, l'⟩ v a := by
  simp only [Value.deOfRaw, MapDe.nextValue, Tag.de_lossy c l l']
  rfl

mutual
theorem rawDe_lossy (c : Option Fig) (l l' : Bool) : (v : Value) → Value.rawDe ⟨c, l⟩ v = Value.rawDe ⟨c, l'⟩ v
  | .string _ _ => rfl
  | .char _ _ => rfl
  | .bool _ _ => rfl
  | .num _ n => by cases n <;> rfl
  | .empty _ _ => rfl
  | .dict t d => by
    rw [Value.rawDe, Value.rawDe, rawDeMap_lossy c l l' d]
    rfl
  | .array t a => by
    rw [Value.rawDe, Value.rawDe, rawDeSeq_lossy c l l' 0 a]
    rfl
theorem rawDeMap_lossy (c : Option Fig) (l l' : Bool) : (d : List (Str × Value)) → (st : Value.MapState) →
    Value.rawDeMap ⟨c, l⟩ d st = Value.rawDeMap ⟨c, l'⟩ d st
  | [], _ => rfl
  | (k, v) :: r, st => by
    rw [Value.rawDeMap, Value.rawDeMap, rawDe_lossy c l l' v, deOfRaw_lossy c l l', visitEntry_lossy c l l']
    cases Value.visitEntry ⟨c, l'⟩ k v _ _ st with
    | error e => rfl
    | ok st' => exact rawDeMap_lossy c l l' r st'
theorem rawDeSeq_lossy (c : Option Fig) (l l' : Bool) : (i : Nat) → (a : List Value) →
    Value.rawDeSeq ⟨c, l⟩ i a = Value.rawDeSeq ⟨c, l'⟩ i a
  | _, [] => rfl
  | i, v :: r => by
    rw [Value.rawDeSeq, Value.rawDeSeq, rawDe_lossy c l l' v, deOfRaw_lossy c l l', rawDeSeq_lossy c l l' (i + 1) r]
end

theorem Value.de_lossy (c : Option Fig) (l l' : Bool) (v : Value) : Value.de ⟨c, l⟩ v = Value.de ⟨c, l'⟩ v := by
  rw [Value.de, Value.de, rawDe_lossy c l l', deOfRaw_lossy c l l']

/-- What succeeds under strict interpretation succeeds with the same result under lossy interpretation. -/
def Seed.Mono (s : Seed) : Prop := ∀ f v x, s (.strict f) v = .ok x → s (.lossyOf f) v = .ok x

/-- The same for a visitor's methods that get a deserialiser. -/
structure Visitor.Mono {α : Type} (V : Visitor α) : Prop where
  some : ∀ f v x, V.visitSome (.strict f) v = .ok x → V.visitSome (.lossyOf f) v = .ok x
  newtype : ∀ f v x, V.visitNewtype (.strict f) v = .ok x → V.visitNewtype (.lossyOf f) v = .ok x
  seq : ∀ f v x, V.visitSeq (.strict f) v = .ok x → V.visitSeq (.lossyOf f) v = .ok x
  map : ∀ f v x, V.visitMap (.strict f) v = .ok x → V.visitMap (.lossyOf f) v = .ok x
  enum : ∀ f v x, V.visitEnum (.map (.strict f) v) = .ok x → V.visitEnum (.map (.lossyOf f) v) = .ok x

section
variable {α : Type} {V : Visitor α} {f : Fig} {v : Value} {x : α}

theorem any_mono (hV : V.Mono) (h : (De.strict f).deserializeAny V v = .ok x) :
    (De.lossyOf f).deserializeAny V v = .ok x := by
  rw [De.deserializeAny.eq_def, R.mapErr_eq_ok] at h ⊢
  cases v with
  | dict t d => exact hV.map f d x h
  | array t a => exact hV.seq f a x h
  | _ => exact h

theorem option_mono (hV : V.Mono) (h : (De.strict f).deserializeOption V v = .ok x) :
    (De.lossyOf f).deserializeOption V v = .ok x := by
  simp only [De.deserializeOption, De.strict, De.lossyOf, R.mapErr_eq_ok] at h ⊢
  cases v with
  | empty t e => exact h
  | _ => exact hV.some f _ x h

theorem enum_mono (hV : V.Mono) (h : (De.strict f).deserializeEnum V v = .ok x) :
    (De.lossyOf f).deserializeEnum V v = .ok x := by
  unfold De.deserializeEnum at h ⊢
  rw [R.mapErr_eq_ok] at h ⊢
  cases v with
  | dict t d => exact hV.enum f d x h
  | num t n =>
    dsimp only at h ⊢
    cases hn : n.toU32 with
    | some m => rw [hn] at h; exact h
    | none => rw [hn] at h; exact any_mono hV h
  | string t s => exact h
  | _ => exact any_mono hV h

theorem struct_mono (hV : V.Mono) {name : Str} (h : (De.strict f).deserializeStruct name V v = .ok x) :
    (De.lossyOf f).deserializeStruct name V v = .ok x := by
  simp only [De.deserializeStruct, De.strict, De.lossyOf, R.mapErr_eq_ok] at h ⊢
  split at h
  · next h1 => rw [if_pos h1]; exact hV.map f _ x h
  next h1 =>
  split at h
  · next h2 =>
    rw [if_neg h1, if_pos h2]
    have key : ∀ d, V.visitMap ⟨some f, false⟩ d = .ok x → V.visitMap ⟨some f, true⟩ d = .ok x := fun d => hV.map f d x
    simp only [De.relPathFrom] at h ⊢
    split at h
    · split at h
      · split at h
        · next h3 => rw [if_pos h3]; exact key _ h
        · next h3 => rw [if_neg h3]; exact key _ h
      · exact key _ h
    · exact key _ h
  next h2 =>
  split at h
  · next h3 =>
    rw [if_neg h1, if_neg h2, if_pos h3]
    have key : ∀ d, V.visitMap ⟨some f, false⟩ d = .ok x → V.visitMap ⟨some f, true⟩ d = .ok x := fun d => hV.map f d x
    simp only [De.taggedFrom] at h ⊢
    split at h
    · split at h
      · split at h
        · split at h
          · next h4 => rw [if_pos h4]; exact key _ h
          · next h4 => rw [if_neg h4]; exact key _ h
        · exact key _ h
      · exact key _ h
    · exact key _ h
  next h3 =>
  rw [if_neg h1, if_neg h2, if_neg h3]
  exact any_mono hV h

end

variable [FloatOps]

omit [FloatOps] in
theorem bool_mono {f : Fig} {v : Value} {x : Val} (h : (De.strict f).deserializeBool boolVisitor v = .ok x) :
    (De.lossyOf f).deserializeBool boolVisitor v = .ok x := by
  simp only [De.deserializeBool, De.strict, De.lossyOf, R.mapErr_eq_ok, De.interpretAsBool,
    De.deserializeAny] at h ⊢
  cases v with
  | bool t b => exact h
  | num t n => cases n <;> exact nomatch h
  | empty t e => cases e <;> exact nomatch h
  | _ => exact nomatch h

/-- A visitor that accepts nothing but numbers. -/
structure NumOnly {α : Type} (V : Visitor α) : Prop where
  bool : ∀ b x, V.visitBool b ≠ .ok x
  str : ∀ s x, V.visitStr s ≠ .ok x
  char : ∀ s x, V.visitChar s ≠ .ok x
  none : ∀ x, V.visitNone ≠ .ok x
  unit : ∀ x, V.visitUnit ≠ .ok x
  seq : ∀ de a x, V.visitSeq de a ≠ .ok x
  map : ∀ de a x, V.visitMap de a ≠ .ok x

theorem num_mono {α : Type} {V : Visitor α} (hV : NumOnly V) {f : Fig} {v : Value} {x : α}
    (h : (De.strict f).deserializeNum V v = .ok x) : (De.lossyOf f).deserializeNum V v = .ok x := by
  simp only [De.deserializeNum, De.strict, De.lossyOf, R.mapErr_eq_ok, De.interpretAsNum,
    De.deserializeAny] at h ⊢
  cases v with
  | num t n => exact h
  | empty t e =>
    cases e with
    | none => exact absurd h (hV.none x)
    | unit => exact absurd h (hV.unit x)
  | bool t b => exact absurd h (hV.bool b x)
  | string t s => exact absurd h (hV.str s x)
  | char t s => exact absurd h (hV.char s x)
  | dict t d => exact absurd h (hV.map _ _ x)
  | array t d => exact absurd h (hV.seq _ _ x)

omit [FloatOps] in
theorem intVisitor_numOnly (t : IntTy) : NumOnly (intVisitor t) := by
  constructor <;> intros <;> simp [intVisitor, invalidType]
theorem f32Visitor_numOnly : NumOnly f32Visitor := by
  constructor <;> intros <;> simp [f32Visitor, invalidType]
theorem f64Visitor_numOnly : NumOnly f64Visitor := by
  constructor <;> intros <;> simp [f64Visitor, invalidType]

omit [FloatOps] in
theorem nextValue_mono {s : Seed} (hs : s.Mono) {f : Fig} {k : Str} {v : Value} {x : Val}
    (h : MapDe.nextValue s (.strict f) k v = .ok x) : MapDe.nextValue s (.lossyOf f) k v = .ok x := by
  rw [MapDe.nextValue, R.mapErr_eq_ok] at h ⊢
  exact hs f v x h

omit [FloatOps] in
theorem nextElement_mono {s : Seed} (hs : s.Mono) {f : Fig} {i : Nat} {v : Value} {x : Val}
    (h : SeqDe.nextElement s (.strict f) i v = .ok x) : SeqDe.nextElement s (.lossyOf f) i v = .ok x := by
  rw [SeqDe.nextElement, R.mapErr_eq_ok] at h ⊢
  exact hs f v x h

omit [FloatOps] in
theorem seqLoop_mono {s : Seed} (hs : s.Mono) {f : Fig} : ∀ (a : List Value) (i : Nat) (l : List Val),
    seqLoop s (.strict f) i a = .ok l → seqLoop s (.lossyOf f) i a = .ok l
  | [], _, _, h => h
  | v :: r, i, l, h => by
    rw [seqLoop] at h ⊢
    cases h1 : SeqDe.nextElement s (.strict f) i v with
    | error e => rw [h1] at h; exact nomatch h
    | ok x =>
      rw [h1] at h
      rw [nextElement_mono hs h1]
      dsimp only at h ⊢
      cases h2 : seqLoop s (.strict f) (i + 1) r with
      | error e => rw [h2] at h; exact nomatch h
      | ok xs => rw [h2] at h; rw [seqLoop_mono hs r _ _ h2]; exact h

omit [FloatOps] in
theorem mapLoop_mono {s : Seed} (hs : s.Mono) {f : Fig} : ∀ (a : List (Str × Value)) (l : List (Str × Val)),
    mapLoop s (.strict f) a = .ok l → mapLoop s (.lossyOf f) a = .ok l
  | [], _, h => h
  | (k, v) :: r, l, h => by
    rw [mapLoop] at h ⊢
    cases h1 : MapDe.nextValue s (.strict f) k v with
    | error e => rw [h1] at h; exact nomatch h
    | ok x =>
      rw [h1] at h
      rw [nextValue_mono hs h1]
      dsimp only at h ⊢
      cases h2 : mapLoop s (.strict f) r with
      | error e => rw [h2] at h; exact nomatch h
      | ok xs => rw [h2] at h; rw [mapLoop_mono hs r _ h2]; exact h

omit [FloatOps] in
theorem tupleLoop_mono {f : Fig} {exp : Str} : ∀ (fs : List (Option Val × Seed)) (_ : ∀ p ∈ fs, Seed.Mono p.2)
    (a : List Value) (i : Nat) (l : List Val),
    tupleLoop exp (.strict f) i fs a = .ok l → tupleLoop exp (.lossyOf f) i fs a = .ok l
  | [], _, _, _, _, h => h
  | (some y, s) :: fs, hs, [], i, l, h => by
    rw [tupleLoop] at h ⊢
    cases h2 : tupleLoop exp (.strict f) (i + 1) fs [] with
    | error e => rw [h2] at h; exact nomatch h
    | ok xs =>
      rw [h2] at h
      rw [tupleLoop_mono fs (fun p hp => hs p (List.mem_cons_of_mem _ hp)) _ _ _ h2]; exact h
  | (none, s) :: fs, hs, [], i, l, h => nomatch h
  | (y, s) :: fs, hs, v :: r, i, l, h => by
    rw [tupleLoop] at h ⊢
    cases h1 : SeqDe.nextElement s (.strict f) i v with
    | error e => rw [h1] at h; exact nomatch h
    | ok x =>
      rw [h1] at h
      rw [nextElement_mono (hs (y, s) (List.mem_cons_self ..)) h1]
      dsimp only at h ⊢
      cases h2 : tupleLoop exp (.strict f) (i + 1) fs r with
      | error e => rw [h2] at h; exact nomatch h
      | ok xs =>
        rw [h2] at h
        rw [tupleLoop_mono fs (fun p hp => hs p (List.mem_cons_of_mem _ hp)) _ _ _ h2]; exact h

omit [FloatOps] in
theorem fieldLoop_mono {f : Fig} {deny : Bool} {fs : List FieldSeed} (hs : ∀ p ∈ fs, Seed.Mono p.run) :
    ∀ (d : List (Str × Value)) (acc l : List (Str × Val)),
    fieldLoop (.strict f) deny fs d acc = .ok l → fieldLoop (.lossyOf f) deny fs d acc = .ok l
  | [], _, _, h => h
  | (k, v) :: r, acc, l, h => by
    rw [fieldLoop] at h ⊢
    cases h0 : fs.find? (fun f => f.name = k) with
    | none =>
      rw [h0] at h
      dsimp only at h ⊢
      cases deny with
      | true => exact nomatch h
      | false => exact fieldLoop_mono hs r _ _ h
    | some p =>
      rw [h0] at h
      dsimp only at h ⊢
      cases h1 : MapDe.nextValue p.run (.strict f) k v with
      | error e => rw [h1] at h; exact nomatch h
      | ok x =>
        rw [h1] at h
        rw [nextValue_mono (hs p (List.mem_of_find?_eq_some h0)) h1]
        exact fieldLoop_mono hs r _ _ h

omit [FloatOps] in
theorem option_visitor_mono {s : Seed} (hs : s.Mono) : (optionVisitor s).Mono where
  some f v x h := by
    unfold optionVisitor at h ⊢
    dsimp only at h ⊢
    cases h1 : s (.strict f) v with
    | error e => rw [h1] at h; exact nomatch h
    | ok y => rw [h1] at h; rw [hs f v y h1]; exact h
  newtype f v x h := absurd h invalidType_ne
  seq f v x h := absurd h invalidType_ne
  map f v x h := absurd h invalidType_ne
  enum f v x h := absurd h invalidType_ne

omit [FloatOps] in
theorem newtype_visitor_mono {s : Seed} {n : Str} (hs : s.Mono) : (newtypeVisitor n s).Mono where
  newtype f v x h := by
    unfold newtypeVisitor at h ⊢
    dsimp only at h ⊢
    cases h1 : s (.strict f) v with
    | error e => rw [h1] at h; exact nomatch h
    | ok y => rw [h1] at h; rw [hs f v y h1]; exact h
  some f v x h := absurd h invalidType_ne
  seq f v x h := absurd h invalidType_ne
  map f v x h := absurd h invalidType_ne
  enum f v x h := absurd h invalidType_ne

omit [FloatOps] in
theorem seq_visitor_mono {s : Seed} (hs : s.Mono) : (seqVisitor s).Mono where
  seq f v x h := by
    unfold seqVisitor at h ⊢
    dsimp only at h ⊢
    cases h1 : seqLoop s (.strict f) 0 v with
    | error e => rw [h1] at h; exact nomatch h
    | ok y => rw [h1] at h; rw [seqLoop_mono hs v 0 y h1]; exact h
  some f v x h := absurd h invalidType_ne
  newtype f v x h := absurd h invalidType_ne
  map f v x h := absurd h invalidType_ne
  enum f v x h := absurd h invalidType_ne

omit [FloatOps] in
theorem map_visitor_mono {s : Seed} (hs : s.Mono) : (mapVisitor s).Mono where
  map f v x h := by
    unfold mapVisitor at h ⊢
    dsimp only at h ⊢
    cases h1 : mapLoop s (.strict f) v with
    | error e => rw [h1] at h; exact nomatch h
    | ok y => rw [h1] at h; rw [mapLoop_mono hs v y h1]; exact h
  some f v x h := absurd h invalidType_ne
  newtype f v x h := absurd h invalidType_ne
  seq f v x h := absurd h invalidType_ne
  enum f v x h := absurd h invalidType_ne

omit [FloatOps] in
theorem tuple_visitor_mono {a b : Str} {ss : List Seed} (hs : ∀ s ∈ ss, Seed.Mono s) : (tupleVisitor a b ss).Mono where
  seq f v x h := by
    unfold tupleVisitor at h ⊢
    dsimp only at h ⊢
    have hs' : ∀ p ∈ ss.map (fun run => ((none : Option Val), run)), Seed.Mono p.2 := by
      intro p hp
      obtain ⟨s, hs1, rfl⟩ := List.mem_map.1 hp
      exact hs s hs1
    cases h1 : tupleLoop b (.strict f) 0 (ss.map fun run => (none, run)) v with
    | error e => rw [h1] at h; exact nomatch h
    | ok y => rw [h1] at h; rw [tupleLoop_mono _ hs' v 0 y h1]; exact h
  some f v x h := absurd h invalidType_ne
  newtype f v x h := absurd h invalidType_ne
  map f v x h := absurd h invalidType_ne
  enum f v x h := absurd h invalidType_ne

omit [FloatOps] in
theorem struct_visitor_mono {a b : Str} {deny : Bool} {ss : List FieldSeed} (hs : ∀ s ∈ ss, Seed.Mono s.run) :
    (structVisitor a b deny ss).Mono where
  seq f v x h := by
    unfold structVisitor at h ⊢
    dsimp only at h ⊢
    have hs' : ∀ p ∈ ss.map (fun f => (f.dflt, f.run)), Seed.Mono p.2 := by
      intro p hp
      obtain ⟨s, hs1, rfl⟩ := List.mem_map.1 hp
      exact hs s hs1
    cases h1 : tupleLoop b (.strict f) 0 (ss.map fun f => (f.dflt, f.run)) v with
    | error e => rw [h1] at h; exact nomatch h
    | ok y => rw [h1] at h; rw [tupleLoop_mono _ hs' v 0 y h1]; exact h
  map f v x h := by
    unfold structVisitor at h ⊢
    dsimp only at h ⊢
    cases h1 : fieldLoop (.strict f) deny ss v [] with
    | error e => rw [h1] at h; exact nomatch h
    | ok y => rw [h1] at h; rw [fieldLoop_mono hs v [] y h1]; exact h
  some f v x h := absurd h invalidType_ne
  newtype f v x h := absurd h invalidType_ne
  enum f v x h := absurd h invalidType_ne

omit [FloatOps] in
theorem pairs_visitor_mono {s : Seed} (hs : s.Mono) : (pairsVisitor s).Mono where
  map f v x h := by
    unfold pairsVisitor at h ⊢
    dsimp only at h ⊢
    cases h1 : mapLoop s (.strict f) v with
    | error e => rw [h1] at h; exact nomatch h
    | ok y => rw [h1] at h; rw [mapLoop_mono hs v y h1]; exact h
  some f v x h := absurd h invalidType_ne
  newtype f v x h := absurd h invalidType_ne
  seq f v x h := absurd h invalidType_ne
  enum f v x h := absurd h invalidType_ne

omit [FloatOps] in
theorem keyedLoop_mono {key : Str → R Val} {s : Seed} (hs : s.Mono) : ∀ (d : List (Str × Value)) {f : Fig} (x : List (Val × Val)),
    keyedLoop key s (.strict f) d = .ok x → keyedLoop key s (.lossyOf f) d = .ok x
  | [], _, _, h => h
  | (k, v) :: r, f, x, h => by
    rw [keyedLoop] at h ⊢
    cases h0 : (key k).mapErr (MapDe.err k v) with
    | error e => rw [h0] at h; exact nomatch h
    | ok a =>
      rw [h0] at h
      dsimp only at h ⊢
      cases h1 : MapDe.nextValue s (.strict f) k v with
      | error e => rw [h1] at h; exact nomatch h
      | ok y =>
        have h2 : MapDe.nextValue s (.lossyOf f) k v = .ok y := by
          rw [MapDe.nextValue, R.mapErr_eq_ok] at h1 ⊢
          exact hs f v y h1
        rw [h1] at h
        rw [h2]
        dsimp only at h ⊢
        cases h3 : keyedLoop key s (.strict f) r with
        | error e => rw [h3] at h; exact nomatch h
        | ok xs => rw [h3] at h; rw [keyedLoop_mono hs r xs h3]; exact h

omit [FloatOps] in
theorem keyed_visitor_mono {key : Str → R Val} {s : Seed} (hs : s.Mono) : (keyedVisitor key s).Mono where
  map f v x h := by
    unfold keyedVisitor at h ⊢
    dsimp only at h ⊢
    cases h1 : keyedLoop key s (.strict f) v with
    | error e => rw [h1] at h; exact nomatch h
    | ok y => rw [h1] at h; rw [keyedLoop_mono hs v y h1]; exact h
  some f v x h := absurd h invalidType_ne
  newtype f v x h := absurd h invalidType_ne
  seq f v x h := absurd h invalidType_ne
  enum f v x h := absurd h invalidType_ne

/-- The same for a variant. -/
def VariantSeed.Mono (s : VariantSeed) : Prop :=
  ∀ f k v x, s.with (.strict f) k v = .ok x → s.with (.lossyOf f) k v = .ok x

omit [FloatOps] in
theorem leaf_visitor_mono {α : Type} {V : Visitor α} (h1 : ∀ de de' v, V.visitSome de v = V.visitSome de' v)
    (h2 : ∀ de de' v, V.visitNewtype de v = V.visitNewtype de' v) (h3 : ∀ de de' v, V.visitSeq de v = V.visitSeq de' v)
    (h4 : ∀ de de' v, V.visitMap de v = V.visitMap de' v)
    (h5 : ∀ de de' v, V.visitEnum (.map de v) = V.visitEnum (.map de' v)) : V.Mono where
  some f v x h := by rw [h1 _ (.strict f)]; exact h
  newtype f v x h := by rw [h2 _ (.strict f)]; exact h
  seq f v x h := by rw [h3 _ (.strict f)]; exact h
  map f v x h := by rw [h4 _ (.strict f)]; exact h
  enum f v x h := by rw [h5 _ (.strict f)]; exact h

omit [FloatOps] in
theorem lookup_mem {β : Type} {k : Str} {v : β} : ∀ {l : List (Str × β)}, l.lookup k = some v → (k, v) ∈ l
  | (k', v') :: r, h => by
    rw [List.lookup_cons] at h
    split at h
    · next hk =>
      have := eq_of_beq hk
      cases this
      cases h
      exact List.mem_cons_self ..
    · exact List.mem_cons_of_mem _ (lookup_mem h)

omit [FloatOps] in
theorem enum_visitor_mono {n : Str} {vs : List (Str × VariantSeed)} (hs : ∀ s ∈ vs, s.2.Mono) :
    (enumVisitor n vs).Mono where
  enum f d x h := by
    unfold enumVisitor at h ⊢
    dsimp only at h ⊢
    cases d with
    | nil => exact nomatch h
    | cons e d =>
      obtain ⟨k, v⟩ := e
      dsimp only at h ⊢
      cases h1 : vs.lookup k with
      | none => rw [h1] at h; exact nomatch h
      | some s =>
        rw [h1] at h
        dsimp only at h ⊢
        cases h2 : s.with (.strict f) k v with
        | error e => rw [h2] at h; exact nomatch h
        | ok y => rw [h2] at h; rw [hs (k, s) (lookup_mem h1) f k v y h2]; exact h
  some f v x h := absurd h invalidType_ne
  newtype f v x h := absurd h invalidType_ne
  seq f v x h := absurd h invalidType_ne
  map f v x h := absurd h invalidType_ne

omit [FloatOps] in
theorem charVisitor_mono : charVisitor.Mono :=
  leaf_visitor_mono (fun _ _ _ => rfl) (fun _ _ _ => rfl) (fun _ _ _ => rfl) (fun _ _ _ => rfl) (fun _ _ _ => rfl)
omit [FloatOps] in
theorem stringVisitor_mono : stringVisitor.Mono :=
  leaf_visitor_mono (fun _ _ _ => rfl) (fun _ _ _ => rfl) (fun _ _ _ => rfl) (fun _ _ _ => rfl) (fun _ _ _ => rfl)
omit [FloatOps] in
theorem pathVisitor_mono : pathVisitor.Mono :=
  leaf_visitor_mono (fun _ _ _ => rfl) (fun _ _ _ => rfl) (fun _ _ _ => rfl) (fun _ _ _ => rfl) (fun _ _ _ => rfl)
omit [FloatOps] in
theorem flagVisitor_mono : flagVisitor.Mono :=
  leaf_visitor_mono (fun _ _ _ => rfl) (fun _ _ _ => rfl) (fun _ _ _ => rfl) (fun _ _ _ => rfl) (fun _ _ _ => rfl)
omit [FloatOps] in
theorem unitVisitor_mono (n : Str) : (unitVisitor n).Mono :=
  leaf_visitor_mono (fun _ _ _ => rfl) (fun _ _ _ => rfl) (fun _ _ _ => rfl) (fun _ _ _ => rfl) (fun _ _ _ => rfl)

omit [FloatOps] in
theorem parsedVisitor_mono (s : Str) (parse : Str → Except Str Val) : (parsedVisitor s parse).Mono :=
  leaf_visitor_mono (fun _ _ _ => rfl) (fun _ _ _ => rfl) (fun _ _ _ => rfl) (fun _ _ _ => rfl) (fun _ _ _ => rfl)

omit [FloatOps] in
theorem converted_eq_ok {conv : Val → Except Str Val} {r : R Val} {x : Val} :
    converted conv r = .ok x ↔ ∃ y, r = .ok y ∧ conv y = .ok x := by
  unfold converted
  cases r with
  | error e => exact ⟨nofun, nofun⟩
  | ok y =>
    dsimp only
    cases h : conv y with
    | ok z => exact ⟨fun h' => ⟨y, rfl, h ▸ congrArg _ (Except.ok.inj h')⟩, fun ⟨_, h1, h2⟩ => by cases h1; rw [h] at h2; cases h2; rfl⟩
    | error m => exact ⟨nofun, fun ⟨_, h1, h2⟩ => by cases h1; rw [h] at h2; cases h2⟩

/-! ## Buffers -/

omit [FloatOps] in
theorem Value.depth_pos : ∀ v : Value, 0 < v.depth
  | .string _ _ | .char _ _ | .bool _ _ | .num _ _ | .empty _ _ => Nat.one_pos
  | .dict _ _ | .array _ _ => Nat.succ_pos _

omit [FloatOps] in
theorem seqLoop_congr {run run' : Seed} {de : De} : ∀ (a : List Value) (i : Nat), (∀ v ∈ a, run de v = run' de v) →
    seqLoop run de i a = seqLoop run' de i a
  | [], _, _ => rfl
  | v :: a, i, h => by
    rw [seqLoop, seqLoop, SeqDe.nextElement, SeqDe.nextElement, h v (List.mem_cons_self ..),
      seqLoop_congr a (i + 1) fun w hw => h w (List.mem_cons_of_mem _ hw)]

omit [FloatOps] in
theorem mapLoop_congr {run run' : Seed} {de : De} : ∀ (d : List (Str × Value)), (∀ e ∈ d, run de e.2 = run' de e.2) →
    mapLoop run de d = mapLoop run' de d
  | [], _ => rfl
  | (k, v) :: d, h => by
    rw [mapLoop, mapLoop, MapDe.nextValue, MapDe.nextValue, h (k, v) (List.mem_cons_self ..),
      mapLoop_congr d fun w hw => h w (List.mem_cons_of_mem _ hw)]

omit [FloatOps] in
theorem Value.depthA_mem : ∀ {a : List Value} {v : Value}, v ∈ a → v.depth ≤ Value.depthA a
  | w :: a, v, h => by
    rw [Value.depthA]
    rcases List.mem_cons.1 h with rfl | h
    · exact Nat.le_max_left ..
    · exact Nat.le_trans (Value.depthA_mem h) (Nat.le_max_right ..)

omit [FloatOps] in
theorem Value.depthD_mem : ∀ {d : List (Str × Value)} {e : Str × Value}, e ∈ d → e.2.depth ≤ Value.depthD d
  | (k, w) :: a, e, h => by
    rw [Value.depthD]
    rcases List.mem_cons.1 h with rfl | h
    · exact Nat.le_max_left ..
    · exact Nat.le_trans (Value.depthD_mem h) (Nat.le_max_right ..)

omit [FloatOps] in
theorem anyVisitor_congr {s : Str} {run run' : Seed} {de : De} {v : Value}
    (h : ∀ w : Value, w.depth < v.depth → run de w = run' de w) :
    de.deserializeAny (anyVisitor s run) v = de.deserializeAny (anyVisitor s run') v := by
  cases v with
  | array t a =>
    show R.mapErr _ _ = R.mapErr _ _
    unfold anyVisitor
    dsimp only
    rw [seqLoop_congr a 0 fun w hw => h w (by rw [Value.depth]; exact Nat.lt_succ_of_le (Value.depthA_mem hw))]
  | dict t d =>
    show R.mapErr _ _ = R.mapErr _ _
    unfold anyVisitor
    dsimp only
    rw [mapLoop_congr d fun w hw => h w.2 (by rw [Value.depth]; exact Nat.lt_succ_of_le (Value.depthD_mem hw))]
  | empty t e => cases e <;> rfl
  | _ => rfl

omit [FloatOps] in
/-- Any bound will do that is as large as the depth. -/
theorem anyN_enough {s : Str} {de : De} : ∀ (n m : Nat) (v : Value), v.depth ≤ n → v.depth ≤ m →
    anyN s n de v = anyN s m de v
  | 0, _, v, h, _ => absurd (v.depth_pos) (by omega)
  | _ + 1, 0, v, _, h => absurd (v.depth_pos) (by omega)
  | n + 1, m + 1, v, hn, hm => by
    rw [anyN, anyN]
    exact anyVisitor_congr fun w hw => anyN_enough n m w (by omega) (by omega)

/-- Buffering is `deserialize_any` with the visitor of buffers. -/
theorem Ty.any_eq (s : Str) (de : De) (v : Value) :
    (Ty.any s).de de v = de.deserializeAny (anyVisitor s (Ty.any s).de) v := by
  show anyN s v.depth de v = _
  have hp := v.depth_pos
  obtain ⟨n, hn⟩ : ∃ n, v.depth = n + 1 := ⟨v.depth - 1, by omega⟩
  rw [hn, anyN]
  refine anyVisitor_congr fun w hw => ?_
  show _ = anyN s w.depth de w
  exact anyN_enough n w.depth w (by omega) (Nat.le_refl _)

omit [FloatOps] in
theorem anyVisitor_mono {x : Str} {s : Seed} (hs : s.Mono) : (anyVisitor x s).Mono where
  seq f v x h := by
    unfold anyVisitor at h ⊢
    dsimp only at h ⊢
    cases h1 : seqLoop s (.strict f) 0 v with
    | error e => rw [h1] at h; exact nomatch h
    | ok y => rw [h1] at h; rw [seqLoop_mono hs v 0 y h1]; exact h
  map f v x h := by
    unfold anyVisitor at h ⊢
    dsimp only at h ⊢
    cases h1 : mapLoop s (.strict f) v with
    | error e => rw [h1] at h; exact nomatch h
    | ok y => rw [h1] at h; rw [mapLoop_mono hs v y h1]; exact h
  some f v x h := absurd h invalidType_ne
  newtype f v x h := absurd h invalidType_ne
  enum f v x h := absurd h invalidType_ne

omit [FloatOps] in
theorem anyN_mono (s : Str) : ∀ n, (anyN s n).Mono
  | 0 => fun _ _ _ h => nomatch h
  | n + 1 => fun _ _ _ h => any_mono (anyVisitor_mono (anyN_mono s n)) h

omit [FloatOps] in
theorem flatSeed_mono {fs : List FieldSeed} (hs : ∀ p ∈ fs, Seed.Mono p.run) (k : Str) : (flatSeed fs k).Mono := by
  unfold flatSeed
  cases h : fs.find? (fun f => f.name = k) with
  | none => exact fun f v x h => anyN_mono _ v.depth f v x h
  | some p => exact hs p (List.mem_of_find?_eq_some h)

omit [FloatOps] in
theorem flatLoop_mono {f : Fig} {fs : List FieldSeed} (hs : ∀ p ∈ fs, Seed.Mono p.run) :
    ∀ (d : List (Str × Value)) (l : List (Str × Val)),
    flatLoop fs (.strict f) d = .ok l → flatLoop fs (.lossyOf f) d = .ok l
  | [], _, h => h
  | (k, v) :: r, l, h => by
    rw [flatLoop] at h ⊢
    cases h1 : MapDe.nextValue (flatSeed fs k) (.strict f) k v with
    | error e => rw [h1] at h; exact nomatch h
    | ok x =>
      rw [h1] at h
      rw [nextValue_mono (flatSeed_mono hs k) h1]
      dsimp only at h ⊢
      cases h2 : flatLoop fs (.strict f) r with
      | error e => rw [h2] at h; exact nomatch h
      | ok xs => rw [h2] at h; rw [flatLoop_mono hs r _ h2]; exact h

omit [FloatOps] in
/-- When a struct with flattened fields is read from a dictionary. -/
theorem flat_ok {s : Str} {fs : List FieldSeed} {conv : List Val → List (Str × Val) → Except Kind Val} {de : De}
    {d : List (Str × Value)} {x : Val} : (flatVisitor s fs conv).visitMap de d = .ok x ↔
      ∃ l xs, flatLoop fs de d = .ok l ∧ fieldFinish l fs = .ok xs ∧
        conv xs (l.filter fun e => (fs.find? (fun f => f.name = e.1)).isNone) = .ok x := by
  unfold flatVisitor
  dsimp only
  cases h1 : flatLoop fs de d with
  | error e => exact ⟨nofun, fun ⟨_, _, h, _⟩ => nomatch h⟩
  | ok l =>
    dsimp only
    cases h2 : fieldFinish l fs with
    | error e => exact ⟨nofun, fun ⟨_, _, h, h', _⟩ => by cases h; rw [h2] at h'; cases h'⟩
    | ok xs =>
      dsimp only
      constructor
      · intro h
        refine ⟨l, xs, rfl, h2, ?_⟩
        cases h3 : conv xs (l.filter fun e => (fs.find? (fun f => f.name = e.1)).isNone) with
        | error k => rw [h3] at h; cases h
        | ok y => rw [h3] at h; cases h; rfl
      · rintro ⟨_, _, h, h', h3⟩
        cases h
        rw [h2] at h'
        cases h'
        rw [h3]

omit [FloatOps] in
theorem flatVisitor_mono {s : Str} {fs : List FieldSeed} {conv : List Val → List (Str × Val) → Except Kind Val}
    (hs : ∀ p ∈ fs, Seed.Mono p.run) : (flatVisitor s fs conv).Mono where
  map f v x h := by
    obtain ⟨l, xs, h1, h2⟩ := flat_ok.1 h
    exact flat_ok.2 ⟨l, xs, flatLoop_mono hs v l h1, h2⟩
  seq f v x h := absurd h invalidType_ne
  some f v x h := absurd h invalidType_ne
  newtype f v x h := absurd h invalidType_ne
  enum f v x h := absurd h invalidType_ne

mutual
theorem Ty.de_mono : (t : Ty) → Seed.Mono t.de
  | .bool => fun f v x h => by rw [Ty.de] at h ⊢; exact bool_mono h
  | .int t => fun f v x h => by
    cases t <;> rw [Ty.de] at h ⊢ <;> first | exact h | (exact num_mono (intVisitor_numOnly _) h) | simp
  | .f32 => fun f v x h => by rw [Ty.de] at h ⊢; exact num_mono f32Visitor_numOnly h
  | .f64 => fun f v x h => by rw [Ty.de] at h ⊢; exact num_mono f64Visitor_numOnly h
  | .char => fun f v x h => by rw [Ty.de] at h ⊢; exact any_mono charVisitor_mono h
  | .string => fun f v x h => by rw [Ty.de] at h ⊢; exact any_mono stringVisitor_mono h
  | .pathBuf => fun f v x h => by rw [Ty.de] at h ⊢; exact any_mono pathVisitor_mono h
  | .unit => fun f v x h => by rw [Ty.de] at h ⊢; exact any_mono (unitVisitor_mono _) h
  | .unitStruct n => fun f v x h => by rw [Ty.de] at h ⊢; exact any_mono (unitVisitor_mono _) h
  | .option t => fun f v x h => by rw [Ty.de] at h ⊢; exact option_mono (option_visitor_mono (Ty.de_mono t)) h
  | .newtype n t => fun f v x h => by
    rw [Ty.de] at h ⊢; exact (newtype_visitor_mono (Ty.de_mono t)).newtype f v x h
  | .seq t => fun f v x h => by rw [Ty.de] at h ⊢; exact any_mono (seq_visitor_mono (Ty.de_mono t)) h
  | .tuple ts => fun f v x h => by rw [Ty.de] at h ⊢; exact any_mono (tuple_visitor_mono (Ty.deEach_mono ts)) h
  | .tupleStruct n ts => fun f v x h => by
    rw [Ty.de] at h ⊢; exact any_mono (tuple_visitor_mono (Ty.deEach_mono ts)) h
  | .map t => fun f v x h => by rw [Ty.de] at h ⊢; exact any_mono (map_visitor_mono (Ty.de_mono t)) h
  | .struct n name deny fs => fun f v x h => by
    rw [Ty.de] at h ⊢; exact struct_mono (struct_visitor_mono (Ty.deFields_mono fs)) h
  | .enum n vs => fun f v x h => by
    rw [Ty.de] at h ⊢; exact enum_mono (enum_visitor_mono (Ty.deVariants_mono n vs)) h
  | .value => fun f v x h => by
    rw [Ty.de] at h ⊢
    dsimp only at h ⊢
    rw [show Value.de (.lossyOf f) v = Value.de (.strict f) v from Value.de_lossy _ _ _ v]; exact h
  | .tag => fun f v x h => by
    rw [Ty.de] at h ⊢
    dsimp only at h ⊢
    rw [show Tag.de (.lossyOf f) v = Tag.de (.strict f) v from Tag.de_lossy _ _ _ v]; exact h
  | .flag => fun f v x h => by rw [Ty.de] at h ⊢; exact any_mono flagVisitor_mono h
  | .pairs t => fun f v x h => by rw [Ty.de] at h ⊢; exact any_mono (pairs_visitor_mono (Ty.de_mono t)) h
  | .keyed kt t => fun f v x h => by rw [Ty.de] at h ⊢; exact any_mono (keyed_visitor_mono (Ty.de_mono t)) h
  | .parsed s parse _ => fun f v x h => by rw [Ty.de] at h ⊢; exact any_mono (parsedVisitor_mono s parse) h
  | .via t conv _ => fun f v x h => by
    rw [Ty.de] at h ⊢
    obtain ⟨y, h1, h2⟩ := converted_eq_ok.1 h
    exact converted_eq_ok.2 ⟨y, Ty.de_mono t f v y h1, h2⟩
  | .any s => fun f v x h => anyN_mono s v.depth f v x h
  | .flat n fs conv _ => fun f v x h => by
    rw [Ty.de] at h ⊢; exact any_mono (flatVisitor_mono (Ty.deFields_mono fs)) h
theorem Ty.deEach_mono : (ts : List Ty) → ∀ s ∈ Ty.deEach ts, Seed.Mono s
  | [], s, h => by rw [Ty.deEach] at h; exact nomatch h
  | t :: ts, s, h => by
    rw [Ty.deEach] at h
    rcases List.mem_cons.1 h with h | h
    · rw [h]; exact Ty.de_mono t
    · exact Ty.deEach_mono ts s h
theorem Ty.deFields_mono : (fs : List (Str × Option Val × Ty)) → ∀ s ∈ Ty.deFields fs, Seed.Mono s.run
  | [], s, h => by rw [Ty.deFields] at h; exact nomatch h
  | (n, d, t) :: fs, s, h => by
    rw [Ty.deFields] at h
    rcases List.mem_cons.1 h with h | h
    · rw [h]; exact Ty.de_mono t
    · exact Ty.deFields_mono fs s h
theorem Ty.deVariants_mono (n : Str) : (vs : List (Str × VTy)) → ∀ s ∈ Ty.deVariants n vs, s.2.Mono
  | [], s, h => by rw [Ty.deVariants] at h; exact nomatch h
  | (m, v) :: vs, s, h => by
    rw [Ty.deVariants] at h
    rcases List.mem_cons.1 h with h | h
    · rw [h]; exact VTy.de_mono _ v
    · exact Ty.deVariants_mono n vs s h
theorem VTy.de_mono (n : Str) : (v : VTy) → (v.de n).Mono
  | .unit => fun f k v x h => by
    rw [VTy.de] at h ⊢
    exact nextValue_mono (s := fun de v => de.deserializeAny (unitVisitor (str "unit")) v)
      (fun f v x h => any_mono (unitVisitor_mono _) h) h
  | .newtype t => fun f k v x h => by rw [VTy.de] at h ⊢; exact nextValue_mono (Ty.de_mono t) h
  | .tuple ts => fun f k v x h => by
    rw [VTy.de] at h ⊢
    exact nextValue_mono (s := fun de v => de.deserializeAny (tupleVisitor _ _ _) v)
      (fun f v x h => any_mono (tuple_visitor_mono (Ty.deEach_mono ts)) h) h
  | .struct deny fs => fun f k v x h => by
    rw [VTy.de] at h ⊢
    exact nextValue_mono (s := fun de v => de.deserializeAny (structVisitor _ _ _ _) v)
      (fun f v x h => any_mono (struct_visitor_mono (Ty.deFields_mono fs)) h) h
end

end Figment
