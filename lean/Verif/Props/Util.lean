import Verif.Props.Magic
/-!
# C55, C56: `bool_from_str_or_int` and `vec_tuple_map`
-/
namespace Figment
variable [FloatOps]

/-! ## C55 -/

omit [FloatOps] in
theorem Num.small_eq {t : Tag} {n : Num} (h : (Value.num t n).is128 = false) : n.visited.small? = n.intVal := by
  rw [← (Num.visited_intVal n).1]
  cases n with
  | u128 v => cases h
  | i128 v => cases h
  | usize v =>
    show (Num.tryUsize v).small? = (Num.tryUsize v).intVal
    unfold Num.tryUsize
    split
    · rfl
    split
    · rfl
    split <;> rfl
  | isize v =>
    show (Num.tryIsize v).small? = (Num.tryIsize v).intVal
    unfold Num.tryIsize
    split
    · rfl
    split
    · rfl
    split <;> rfl
  | _ => rfl

omit [FloatOps] in
theorem flag_text {s : Str} {x : Val} : flagVisitor.visitStr s = .ok x ↔
    (x = .bool true ∧ s.lower = str "true") ∨ (x = .bool false ∧ s.lower = str "false") := by
  have ht : (str "true").lower = str "true" := by decide
  have hf : (str "false").lower = str "false" := by decide
  show (if Str.uncasedEq s (str "true") then Except.ok (Val.bool true)
    else if Str.uncasedEq s (str "false") then .ok (.bool false)
    else invalidValue (.str s) (str "true or false")) = .ok x ↔ _
  unfold Str.uncasedEq
  rw [ht, hf]
  have hne : str "true" ≠ str "false" := by decide
  by_cases h1 : s.lower = str "true"
  · rw [if_pos (beq_iff_eq.2 h1)]
    constructor
    · intro h; exact .inl ⟨(Except.ok.inj h).symm, h1⟩
    · rintro (⟨rfl, _⟩ | ⟨_, h⟩)
      · rfl
      · exact absurd (h1.symm.trans h) hne
  · rw [if_neg fun h => h1 (beq_iff_eq.1 h)]
    by_cases h2 : s.lower = str "false"
    · rw [if_pos (beq_iff_eq.2 h2)]
      constructor
      · intro h; exact .inr ⟨(Except.ok.inj h).symm, h2⟩
      · rintro (⟨_, h⟩ | ⟨rfl, _⟩)
        · exact absurd h h1
        · rfl
    · rw [if_neg fun h => h2 (beq_iff_eq.1 h)]
      constructor
      · exact nofun
      · rintro (⟨_, h⟩ | ⟨_, h⟩)
        · exact absurd h h1
        · exact absurd h h2

/-- **C55**, for a value read by any deserialiser of the crate. Missing: 128-bit integers, see `C55_fails`. -/
theorem C55_partial (de : De) (v : Value) (h : v.is128 = false) (x : Val) :
    Ty.flag.de de v = .ok x ↔ ∃ b, x = .bool b ∧ v.IsFlag b := by
  show De.deserializeAny de flagVisitor v = .ok x ↔ _
  rw [De.deserializeAny.eq_def, R.mapErr_eq_ok]
  cases v with
  | string t s =>
    dsimp only
    rw [flag_text]
    constructor
    · rintro (⟨rfl, h⟩ | ⟨rfl, h⟩)
      · exact ⟨_, rfl, .yes _ _ rfl h⟩
      · exact ⟨_, rfl, .no _ _ rfl h⟩
    · rintro ⟨b, rfl, h⟩
      cases h with
      | yes _ _ h1 h2 => cases h1; exact .inl ⟨rfl, h2⟩
      | no _ _ h1 h2 => cases h1; exact .inr ⟨rfl, h2⟩
  | char t s =>
    show flagVisitor.visitStr [s] = .ok x ↔ _
    rw [flag_text]
    constructor
    · rintro (⟨rfl, h⟩ | ⟨rfl, h⟩)
      · exact ⟨_, rfl, .yes _ _ rfl h⟩
      · exact ⟨_, rfl, .no _ _ rfl h⟩
    · rintro ⟨b, rfl, h⟩
      cases h with
      | yes _ _ h1 h2 => cases h1; exact .inl ⟨rfl, h2⟩
      | no _ _ h1 h2 => cases h1; exact .inr ⟨rfl, h2⟩
  | bool t b =>
    constructor
    · intro h; exact ⟨b, (Except.ok.inj h).symm, .bool _ _⟩
    · rintro ⟨c, rfl, h⟩
      cases h with
      | bool => rfl
      | yes _ _ h1 h2 => cases h1
      | no _ _ h1 h2 => cases h1
  | num t n =>
    dsimp only
    rw [Num.deserializeAny_visited]
    show (match n.visited.small? with
      | some i => if i = 0 ∨ i = 1 then Except.ok (Val.bool (i ≠ 0)) else invalidValue n.visited.toActual (str "0 or 1")
      | none => invalidType n.visited.unexpected (str "a boolean")) = .ok x ↔ _
    rw [Num.small_eq h]
    constructor
    · intro h
      cases hi : n.intVal with
      | none => rw [hi] at h; exact nomatch h
      | some i =>
        rw [hi] at h
        dsimp only at h
        split at h
        · next h1 =>
          rcases h1 with rfl | rfl
          · exact ⟨false, (Except.ok.inj h).symm, .zero _ _ hi⟩
          · exact ⟨true, (Except.ok.inj h).symm, .one _ _ hi⟩
        · exact nomatch h
    · rintro ⟨b, rfl, h⟩
      cases h with
      | yes _ _ h1 h2 => cases h1
      | no _ _ h1 h2 => cases h1
      | one _ _ h1 => rw [h1]; rfl
      | zero _ _ h1 => rw [h1]; rfl
  | empty t e =>
    constructor
    · cases e <;> exact nofun
    · rintro ⟨b, rfl, h⟩
      cases h with
      | yes _ _ h1 h2 => cases h1
      | no _ _ h1 h2 => cases h1
  | dict t d =>
    constructor
    · exact nofun
    · rintro ⟨b, rfl, h⟩
      cases h with
      | yes _ _ h1 h2 => cases h1
      | no _ _ h1 h2 => cases h1
  | array t d =>
    constructor
    · exact nofun
    · rintro ⟨b, rfl, h⟩
      cases h with
      | yes _ _ h1 h2 => cases h1
      | no _ _ h1 h2 => cases h1

/-- **C55** for the value at a path of a figment. Missing: 128-bit integers, see `C55_fails`. -/
theorem C55_extract_inner_partial (f : Fig) (path : Str) (v : Value) (hv : f.findValue path = .ok v)
    (h : v.is128 = false) (x : Val) :
    (f.extractInner path .flag = .ok x ↔ ∃ b, x = .bool b ∧ v.IsFlag b) ∧
    (f.extractInnerLossy path .flag = .ok x ↔ ∃ b, x = .bool b ∧ v.IsFlag b) := by
  simp only [Fig.extractInner, Fig.extractInnerLossy, Fig.extractInnerWith_ok hv]
  exact ⟨C55_partial _ v h x, C55_partial _ v h x⟩

/-- What is missing in C55: no 128-bit integer is read, though 0 and 1 are documented forms. -/
theorem C55_fails (de : De) (t : Tag) :
    (Value.num t (.u128 1#128)).IsFlag true ∧ (Value.num t (.i128 0#128)).IsFlag false ∧
    ∀ v : Value, v.is128 = true → ∀ x, Ty.flag.de de v ≠ .ok x := by
  refine ⟨.one _ _ rfl, .zero _ _ rfl, ?_⟩
  intro v h x
  show De.deserializeAny de flagVisitor v ≠ .ok x
  rw [De.deserializeAny.eq_def, ne_eq, R.mapErr_eq_ok]
  cases v with
  | num t n =>
    cases n with
    | u128 v => exact nofun
    | i128 v => exact nofun
    | _ => cases h
  | _ => cases h

/-- **C55**, what holds of every value: exactly the documented forms but for 128-bit integers are read, by any
deserialiser of the crate and at any path of a figment. -/
theorem C55_exact (v : Value) (x : Val) :
    (∀ de, Ty.flag.de de v = .ok x ↔ v.is128 = false ∧ ∃ b, x = .bool b ∧ v.IsFlag b) ∧
    (∀ f path, Fig.findValue f path = .ok v →
      (f.extractInner path .flag = .ok x ↔ v.is128 = false ∧ ∃ b, x = .bool b ∧ v.IsFlag b) ∧
      (f.extractInnerLossy path .flag = .ok x ↔ v.is128 = false ∧ ∃ b, x = .bool b ∧ v.IsFlag b)) := by
  have h : ∀ de, Ty.flag.de de v = .ok x ↔ v.is128 = false ∧ ∃ b, x = .bool b ∧ v.IsFlag b := by
    intro de
    cases hv : v.is128 with
    | false => rw [C55_partial de v hv x]; simp
    | true => simpa using (C55_fails de Tag.Default).2.2 v hv x
  refine ⟨h, fun f path hf => ?_⟩
  simp only [Fig.extractInner, Fig.extractInnerLossy, Fig.extractInnerWith_ok hf]
  exact ⟨h _, h _⟩

omit [FloatOps] in
example : (Value.string Tag.Default (str "fAlSe")).IsFlag false ∧
    (Value.string Tag.Default (str "fAlSe")).is128 = false := ⟨.no _ _ rfl (by decide), rfl⟩

omit [FloatOps] in
/-- Text that is a number is none of the forms. -/
example (b : Bool) : ¬ (Value.string Tag.Default (str "1")).IsFlag b := by
  intro h
  cases h with
  | yes _ _ h1 h2 => cases h1; exact absurd h2 (by decide)
  | no _ _ h1 h2 => cases h1; exact absurd h2 (by decide)

/-! ## C56 -/

section
variable {κ α β : Type} [Ord κ]
omit [FloatOps]

theorem Map.insert_map (g : α → β) (k : κ) (v : α) (m : Map κ α) :
    Map.insert k (g v) (m.map fun e => (e.1, g e.2)) = (Map.insert k v m).map fun e => (e.1, g e.2) := by
  induction m with
  | nil => rfl
  | cons e r ih =>
    obtain ⟨k', v'⟩ := e
    rw [List.map_cons, Map.insert, Map.insert]
    cases compare k k' with
    | lt => rfl
    | eq => rfl
    | gt => dsimp only; rw [ih]; rfl

theorem Map.ofList_map (g : α → β) (l : List (κ × α)) :
    Map.ofList (l.map fun e => (e.1, g e.2)) = (Map.ofList l).map fun e => (e.1, g e.2) := by
  have key : ∀ (l : List (κ × α)) (m : Map κ α), Map.extend (m.map fun e => (e.1, g e.2)) (l.map fun e => (e.1, g e.2)) =
      (Map.extend m l).map fun e => (e.1, g e.2) := by
    intro l
    induction l with
    | nil => exact fun m => rfl
    | cons e r ih =>
      intro m
      show Map.extend (Map.insert e.1 (g e.2) (m.map fun e => (e.1, g e.2))) _ = _
      rw [Map.insert_map]
      exact ih _
  exact key l []

theorem Map.insert_perm {k : κ} {v : α} {m : Map κ α} (h : ∀ e ∈ m, compare k e.1 ≠ .eq) :
    (Map.insert k v m).Perm ((k, v) :: m) := by
  induction m with
  | nil => exact .refl _
  | cons e r ih =>
    obtain ⟨k', v'⟩ := e
    rw [Map.insert]
    cases hc : compare k k' with
    | lt => exact .refl _
    | eq => exact absurd hc (h _ (.head _))
    | gt => exact ((ih fun e he => h e (.tail _ he)).cons _).trans (.swap ..)
end

omit [FloatOps] in
theorem Map.ofList_perm {α : Type} {l : List (Str × α)} (h : (l.map (·.1)).Nodup) : (Map.ofList l).Perm l := by
  have key : ∀ (l : List (Str × α)) (m : Map Str α), ((m ++ l).map (·.1)).Nodup → (Map.extend m l).Perm (m ++ l) := by
    intro l
    induction l with
    | nil => exact fun m _ => by rw [List.append_nil]; exact .refl _
    | cons e r ih =>
      intro m hn
      have h1 : (Map.insert e.1 e.2 m).Perm (e :: m) := by
        refine Map.insert_perm fun x hx hc => ?_
        rw [List.map_append, List.nodup_append] at hn
        exact hn.2.2 x.1 (List.mem_map.2 ⟨x, hx, rfl⟩) e.1 (.head _) (Std.LawfulEqOrd.eq_of_compare hc).symm
      have h2 : (Map.insert e.1 e.2 m ++ r).Perm (m ++ e :: r) :=
        (h1.append_right r).trans List.perm_middle.symm
      exact (ih _ ((h2.map _).nodup_iff.2 hn)).trans h2
  exact key l [] h

omit [FloatOps] in
theorem Ty.pairs_ser {t : Ty} {l : List (Str × Val)} (h : ∀ e ∈ l, ∃ w, (t.ser e.2).serialize = .ok w) :
    ∃ w, ((Ty.pairs t).ser (.map l)).serialize = .ok w ∧
      ((Ty.pairs t).ser (.map (Map.ofList l))).serialize = .ok w := by
  have key : ∀ l : List (Str × Val), (∀ e ∈ l, ∃ w, (t.ser e.2).serialize = .ok w) →
      ∃ z : List (Str × (Val × Value)), (z.map fun e => (e.1, e.2.1)) = l ∧
        ∀ e ∈ z, (t.ser e.2.1).serialize = .ok e.2.2 := by
    intro l
    induction l with
    | nil => exact fun _ => ⟨[], rfl, nofun⟩
    | cons e r ih =>
      intro h
      obtain ⟨w, hw⟩ := h e (.head _)
      obtain ⟨z, h1, h2⟩ := ih fun x hx => h x (.tail _ hx)
      refine ⟨(e.1, e.2, w) :: z, by rw [List.map_cons, h1], ?_⟩
      intro x hx
      rcases List.mem_cons.1 hx with rfl | hx
      · exact hw
      · exact h2 x hx
  have run : ∀ z : List (Str × (Val × Value)), (∀ e ∈ z, (t.ser e.2.1).serialize = .ok e.2.2) →
      Ser.serializeMap ((z.map fun e => (e.1, e.2.1)).map fun e => (.str e.1, t.ser e.2)) =
        .ok (z.map fun e => (e.1, e.2.2)) := by
    intro z
    induction z with
    | nil => exact fun _ => rfl
    | cons e r ih =>
      intro h
      rw [List.map_cons, List.map_cons, Ser.serializeMap, Ser.serialize, h e (.head _)]
      dsimp only [Value.ofStr]
      rw [ih fun x hx => h x (.tail _ hx)]
      rfl
  obtain ⟨z, rfl, hz⟩ := key l h
  refine ⟨.ofDict (Map.ofList (z.map fun e => (e.1, e.2.2))), ?_, ?_⟩
  · rw [Ty.ser, Ser.serialize, run z hz]
  · rw [Map.ofList_map (fun e : Val × Value => e.1), Ty.ser, Ser.serialize, run _ fun e he => hz e (Map.mem_ofList he), ← Map.ofList_map (fun e : Val × Value => e.2)]
    dsimp only
    rw [Map.ofList_sorted (Map.Sorted.ofList _)]

/-- **C56**: a list of pairs with distinct keys is written, and whatever has the content written, whoever supplied it, is
read, on its own and from every figment, strictly and lossily, as the same pairs sorted by their keys. -/
theorem C56_value (t : Ty) (ht : t.faithful = true) (l : List (Str × Val)) (hn : (l.map (·.1)).Nodup)
    (hl : ∀ e ∈ l, t.Has e.2) :
    ∃ w l', ((Ty.pairs t).ser (.map l)).serialize = .ok w ∧ l'.Perm l ∧
      (l'.Pairwise fun a b => compare a.1 b.1 = .lt) ∧ ∀ w' : Value, w'.strip = w.strip →
        w'.deserialize (.pairs t) = .ok (.map l') ∧
        ∀ f, (Ty.pairs t).de (De.strict f) w' = .ok (.map l') ∧ (Ty.pairs t).de (De.lossyOf f) w' = .ok (.map l') := by
  obtain ⟨w, h1, h2⟩ := Ty.pairs_ser (t := t) (l := l) fun e he => by
    obtain ⟨w, h, _⟩ := Ty.back t ht e.2 (hl e he)
    exact ⟨w, h⟩
  have hx : (Ty.pairs t).Has (.map (Map.ofList l)) :=
    ⟨_, rfl, Map.Sorted.ofList _, fun e he => hl e (Map.mem_ofList he)⟩
  obtain ⟨w', h3, h4⟩ := C30_value_partial (.pairs t) ht _ hx
  rw [h2] at h3
  cases h3
  exact ⟨w, Map.ofList l, h1, Map.ofList_perm hn, Map.Sorted.ofList _, h4⟩

/-- **C56** through a figment: pairs provided by `Serialized` with a key are extracted at the key sorted by their keys. -/
theorem C56_extract_inner (t : Ty) (ht : t.faithful = true) (l : List (Str × Val)) (hn : (l.map (·.1)).Nodup)
    (hl : ∀ e ∈ l, t.Has e.2)
    (s : Serialized) (hs : s.value = (Ty.pairs t).ser (.map l)) (key : Str) (hkey : s.key = some key)
    (hk : pathKeys key ≠ []) (o : Order) (loc : Location) (c c' : BitVec 64) (f : Fig)
    (hf : Fig.new.provide s.toProvider o loc c = (some f, c')) (p : Profile)
    (hpr : s.profile.same Profile.Default = true ∨ s.profile.same Profile.Global = true ∨ s.profile.same p = true) :
    ∃ l', l'.Perm l ∧ (l'.Pairwise fun a b => compare a.1 b.1 = .lt) ∧
      (f.select p).extractInner key (.pairs t) = .ok (.map l') ∧
      (f.select p).extractInnerLossy key (.pairs t) = .ok (.map l') := by
  obtain ⟨w, l', h1, h2, h3, h4⟩ := C56_value t ht l hn hl
  rw [← hs] at h1
  exact ⟨l', h2, h3, Serialized.extract_inner h1 (fun f w' h => ((h4 w' h).2 f).1) hkey hk hf hpr⟩

/-- **C56**: the entries of a dictionary are read in key order, each with its value. -/
theorem C56_reads (t : Ty) (de : De) (tag : Tag) (d : Dict) (x : Val)
    (h : (Ty.pairs t).de de (.dict tag d) = .ok x) :
    ∃ l, x = .map l ∧ l.map (·.1) = d.map (·.1) ∧ ∀ p ∈ l.zip d, t.de de p.2.2 = .ok p.1.2 := by
  have h' : De.deserializeAny de (pairsVisitor t.de) (.dict tag d) = .ok x := h
  rw [De.deserializeAny.eq_def, R.mapErr_eq_ok] at h'
  have h2 : (match mapLoop t.de de d with
    | .ok l => Except.ok (Val.map l)
    | .error e => .error e) = .ok x := h'
  have key : ∀ (d : List (Str × Value)) (l : List (Str × Val)), mapLoop t.de de d = .ok l →
      l.map (·.1) = d.map (·.1) ∧ ∀ p ∈ l.zip d, t.de de p.2.2 = .ok p.1.2 := by
    intro d
    induction d with
    | nil => intro l h; cases h; exact ⟨rfl, nofun⟩
    | cons e r ih =>
      intro l h
      obtain ⟨k, v⟩ := e
      rw [mapLoop, MapDe.nextValue] at h
      cases h1 : t.de de v with
      | error e => rw [h1] at h; cases h
      | ok y =>
        rw [h1] at h
        dsimp only [R.mapErr] at h
        cases h2 : mapLoop t.de de r with
        | error e => rw [h2] at h; cases h
        | ok ys =>
          rw [h2] at h
          cases h
          obtain ⟨h3, h4⟩ := ih ys h2
          refine ⟨by rw [List.map_cons, List.map_cons, h3], ?_⟩
          intro p hp
          rcases List.mem_cons.1 hp with rfl | hp
          · exact h1
          · exact h4 p hp
  cases h3 : mapLoop t.de de d with
  | error e => rw [h3] at h2; cases h2
  | ok l => rw [h3] at h2; cases h2; exact ⟨l, rfl, key d l h3⟩

example : (Ty.int .u8).faithful = true ∧ ([(str "b", Val.int 1), (str "a", .int 2)].map (·.1)).Nodup ∧
    ∀ e ∈ [(str "b", Val.int 1), (str "a", .int 2)], (Ty.int .u8).Has e.2 := by
  refine ⟨by decide, by decide, ?_⟩
  intro e he
  simp only [List.mem_cons, List.not_mem_nil, or_false] at he
  rcases he with rfl | rfl
  · exact ⟨1, rfl, by decide, by decide⟩
  · exact ⟨2, rfl, by decide, by decide⟩

example : ∃ w, ((Ty.pairs (.int .u8)).ser (.map [(str "b", .int 1), (str "a", .int 2)])).serialize = .ok w ∧
    w.deserialize (.pairs (.int .u8)) = .ok (.map [(str "a", .int 2), (str "b", .int 1)]) := ⟨_, rfl, rfl⟩

end Figment
