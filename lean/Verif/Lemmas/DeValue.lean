import Verif.Lemmas.De
import Verif.Lemmas.Value
import Verif.Lemmas.Tag
import Verif.Lemmas.Figment
import Verif.Spec.Types
import Verif.Spec.Num
/-!
# Lemmas: extracting a `Value`
-/
namespace Figment

/-- The number a visitor is given for a number (value/de.rs:341-374). -/
def Num.visited : Num → Num
  | .usize n => .tryUsize n
  | .isize n => .tryIsize n
  | n => n

namespace Value

theorem tag_ofTag (de : De) (t : Tag) : Tag.de de (ofTag t) = .ok t := rfl

theorem mapTag_inherit_aux (s t u : Tag) :
    (if ((if u.named then u else s) : Tag).same Tag.Default = true then t else (if u.named then u else s)) =
    if u.named then u else if s.named then s else t := by
  cases hu : u.named with
  | true =>
    have : u.same Tag.Default = false := by simpa [Tag.named] using hu
    simp [this]
  | false =>
    cases hs : s.named with
    | true =>
      have : s.same Tag.Default = false := by simpa [Tag.named] using hs
      simp [this]
    | false =>
      have : s.same Tag.Default = true := by simpa [Tag.named] using hs
      simp [this]

mutual
theorem mapTag_inherit (s t : Tag) : ∀ v : Value, (v.inherit s).mapTag (fun _ => t) = v.inherit (if s.named then s else t)
  | .string u v => by rw [inherit, mapTag, inherit, mapTag_inherit_aux]
  | .char u v => by rw [inherit, mapTag, inherit, mapTag_inherit_aux]
  | .bool u v => by rw [inherit, mapTag, inherit, mapTag_inherit_aux]
  | .num u v => by rw [inherit, mapTag, inherit, mapTag_inherit_aux]
  | .empty u v => by rw [inherit, mapTag, inherit, mapTag_inherit_aux]
  | .dict u d => by
    rw [inherit, mapTag, inherit, mapTag_inherit_aux, mapTag_inheritD]
    cases hu : u.named <;> simp [hu]
  | .array u a => by
    rw [inherit, mapTag, inherit, mapTag_inherit_aux, mapTag_inheritA]
    cases hu : u.named <;> simp [hu]
theorem mapTag_inheritD (s t : Tag) : ∀ d : List (Str × Value),
    mapTagD (fun _ => t) (inheritD s d) = inheritD (if s.named then s else t) d
  | [] => rfl
  | (k, v) :: r => by rw [inheritD, mapTagD, inheritD, mapTag_inherit, mapTag_inheritD]
theorem mapTag_inheritA (s t : Tag) : ∀ a : List Value,
    mapTagA (fun _ => t) (inheritA s a) = inheritA (if s.named then s else t) a
  | [] => rfl
  | v :: r => by rw [inheritA, mapTagA, inheritA, mapTag_inherit, mapTag_inheritA]
end

theorem inherit_own (t : Tag) (v : Value) (h : v.tag.named = true) : v.inherit t = v.inherit v.tag := by
  cases v <;> simp [Value.tag] at h <;> simp [inherit, h]

/-- The parent's turn at retagging a value that has had its own. -/
theorem mapTag_inherit_self (t : Tag) (v : Value) : (v.inherit v.tag).mapTag (fun _ => t) = v.inherit t := by
  rw [mapTag_inherit]
  cases h : v.tag.named with
  | true => rw [if_pos rfl, inherit_own t v h]
  | false => rw [if_neg (by decide)]

/-- A value of no provenance whose children have had their turn at retagging. -/
def childrenOwn : Value → Value
  | .dict _ d => .dict Tag.Default (d.map fun e => (e.1, e.2.inherit e.2.tag))
  | .array _ a => .array Tag.Default (a.map fun v => v.inherit v.tag)
  | v => v.setTag Tag.Default

theorem inheritD_eq (t : Tag) (d : List (Str × Value)) : inheritD t d = d.map fun e => (e.1, e.2.inherit t) := by
  induction d with
  | nil => rfl
  | cons e r ih => obtain ⟨k, v⟩ := e; rw [inheritD, ih]; rfl
theorem inheritA_eq (t : Tag) (a : List Value) : inheritA t a = a.map fun v => v.inherit t := by
  induction a with
  | nil => rfl
  | cons v r ih => rw [inheritA, ih]; rfl
theorem mapNumD_eq (g : Num → Num) (d : List (Str × Value)) : mapNumD g d = d.map fun e => (e.1, e.2.mapNum g) := by
  induction d with
  | nil => rfl
  | cons e r ih => obtain ⟨k, v⟩ := e; rw [mapNumD, ih]; rfl
theorem mapNumA_eq (g : Num → Num) (a : List Value) : mapNumA g a = a.map fun v => v.mapNum g := by
  induction a with
  | nil => rfl
  | cons v r ih => rw [mapNumA, ih]; rfl

theorem default_same : Tag.Default.same Tag.Default = true := by decide

theorem childrenOwn_mapTag (t : Tag) (v : Value) (hv : v.tag = t) :
    (childrenOwn v).mapTag (fun _ => t) = v.inherit t := by
  subst hv
  cases v with
  | dict u d =>
    rw [childrenOwn, mapTag, inherit, default_same, if_pos rfl, mapTagD_eq, List.map_map, inheritD_eq]
    simp only [Function.comp_def, mapTag_inherit_self]
    show _ = _
    cases hu : u.named <;> rfl
  | array u a =>
    rw [childrenOwn, mapTag, inherit, default_same, if_pos rfl, mapTagA_eq, List.map_map, inheritA_eq]
    simp only [Function.comp_def, mapTag_inherit_self]
    show _ = _
    cases hu : u.named <;> rfl
  | _ => simp [childrenOwn, setTag, mapTag, inherit, default_same, Value.tag]

theorem mapNum_tag (g : Num → Num) (v : Value) : (v.mapNum g).tag = v.tag := by cases v <;> rfl

theorem noReservedD_iff {d : List (Str × Value)} :
    noReservedD d = true ↔ ∀ e ∈ d, e.1 ≠ FIELD0 ∧ e.1 ≠ FIELD1 ∧ e.2.noReserved = true := by
  induction d with
  | nil => simp [noReservedD]
  | cons e r ih =>
    obtain ⟨k, v⟩ := e
    simp only [noReservedD, Bool.and_eq_true, ih, bne_iff_ne, List.forall_mem_cons, and_assoc]

theorem noReservedA_iff {a : List Value} : noReservedA a = true ↔ ∀ v ∈ a, v.noReserved = true := by
  induction a with
  | nil => simp [noReservedA]
  | cons v r ih => simp only [noReservedA, Bool.and_eq_true, ih, List.forall_mem_cons]

/-- What `Value::deserialize` gives when `RawValue::deserialize` gives the value with its children done. -/
theorem deOfRaw_own (f : Fig) (l : Bool) (v w : Value) (h : w.tag = v.tag) :
    deOfRaw ⟨some f, l⟩ v (.ok (childrenOwn w)) = .ok (w.inherit v.tag) := by
  rw [deOfRaw]
  simp only [MapDe.nextValue, tag_ofTag, R.mapErr_ok, MapState.finish]
  rw [childrenOwn_mapTag _ _ h]

theorem rawDeMap_eq (f : Fig) (l : Bool) : ∀ (d : List (Str × Value)) (st : MapState),
    (∀ e ∈ d, rawDe ⟨some f, l⟩ e.2 = .ok (childrenOwn (e.2.mapNum Num.visited))) →
    (∀ e ∈ d, e.1 ≠ FIELD0 ∧ e.1 ≠ FIELD1) → Map.Sorted d →
    (∀ e ∈ st.dict, ∀ e' ∈ d, compare e.1 e'.1 = .lt) →
    rawDeMap ⟨some f, l⟩ d st =
      .ok { st with dict := st.dict ++ d.map fun e => (e.1, (e.2.mapNum Num.visited).inherit e.2.tag) }
  | [], st, _, _, _, _ => by simp [rawDeMap]
  | (k, v) :: r, st, h, hk, hs, hst => by
    have h1 := h (k, v) (List.mem_cons_self ..)
    have h2 := hk (k, v) (List.mem_cons_self ..)
    rw [rawDeMap, h1, deOfRaw_own _ _ _ _ (mapNum_tag _ v), visitEntry, if_neg h2.1, if_neg h2.2]
    dsimp only [R.mapErr_ok]
    rw [Map.insert_last fun e he => hst e he (k, v) (List.mem_cons_self ..)]
    rw [rawDeMap_eq f l r _ (fun e he => h e (List.mem_cons_of_mem _ he))
      (fun e he => hk e (List.mem_cons_of_mem _ he)) hs.tail]
    · simp
    · intro e he e' he'
      rcases List.mem_append.1 he with he | he
      · exact hst e he e' (List.mem_cons_of_mem _ he')
      · rw [List.mem_singleton.1 he]
        exact (List.pairwise_cons.1 hs).1 e' he'

theorem rawDeSeq_eq (f : Fig) (l : Bool) : ∀ (a : List Value) (i : Nat),
    (∀ v ∈ a, rawDe ⟨some f, l⟩ v = .ok (childrenOwn (v.mapNum Num.visited))) →
    rawDeSeq ⟨some f, l⟩ i a = .ok (a.map fun v => (v.mapNum Num.visited).inherit v.tag)
  | [], _, _ => rfl
  | v :: r, i, h => by
    rw [rawDeSeq, h v (List.mem_cons_self ..), deOfRaw_own _ _ _ _ (mapNum_tag _ v), R.mapErr_ok,
      rawDeSeq_eq f l r (i + 1) fun v hv => h v (List.mem_cons_of_mem _ hv)]
    rfl

theorem rawDe_ok (f : Fig) (l : Bool) (v : Value) : v.WF → v.noReserved = true →
    rawDe ⟨some f, l⟩ v = .ok (childrenOwn (v.mapNum Num.visited)) := by
  induction v using Value.induct with
  | hstring t s => intro _ _; rfl
  | hchar t s => intro _ _; rfl
  | hbool t s => intro _ _; rfl
  | hnum t n => intro _ _; cases n <;> rfl
  | hempty t s => intro _ _; rfl
  | hdict t d ih =>
    intro hw hr
    rw [wf_dict] at hw
    rw [noReserved, noReservedD_iff] at hr
    rw [rawDe, rawDeMap_eq f l d _ (fun e he => ih e he (hw.2 e he) (hr e he).2.2)
      (fun e he => ⟨(hr e he).1, (hr e he).2.1⟩) hw.1 (fun e he => absurd he List.not_mem_nil)]
    simp only [MapState.finish, mapNum, mapNumD_eq, childrenOwn, ofDict, List.nil_append, List.map_map,
      Function.comp_def, mapNum_tag]
  | harray t a ih =>
    intro hw hr
    rw [wf_array] at hw
    rw [noReserved, noReservedA_iff] at hr
    rw [rawDe, rawDeSeq_eq f l a _ (fun e he => ih e he (hw e he) (hr e he))]
    simp only [mapNum, mapNumA_eq, childrenOwn, ofArray, List.map_map, Function.comp_def, mapNum_tag]

/-- Extracting a value gives the value, numbers narrowed, tags inherited. -/
theorem de_ok (f : Fig) (l : Bool) (v : Value) (hw : v.WF) (hr : v.noReserved = true) :
    Value.de ⟨some f, l⟩ v = .ok ((v.mapNum Num.visited).inherit v.tag) := by
  rw [Value.de, rawDe_ok f l v hw hr, deOfRaw_own _ _ _ _ (mapNum_tag _ v)]

mutual
theorem inherit_of_named (t : Tag) : ∀ v : Value, v.tagsAll Tag.named = true → v.inherit t = v
  | .string u v, h => by rw [tagsAll] at h; rw [inherit, if_pos h]
  | .char u v, h => by rw [tagsAll] at h; rw [inherit, if_pos h]
  | .bool u v, h => by rw [tagsAll] at h; rw [inherit, if_pos h]
  | .num u v, h => by rw [tagsAll] at h; rw [inherit, if_pos h]
  | .empty u v, h => by rw [tagsAll] at h; rw [inherit, if_pos h]
  | .dict u d, h => by
    rw [tagsAll, Bool.and_eq_true] at h; rw [inherit, if_pos h.1, inheritD_of_named _ d h.2]
  | .array u a, h => by
    rw [tagsAll, Bool.and_eq_true] at h; rw [inherit, if_pos h.1, inheritA_of_named _ a h.2]
theorem inheritD_of_named (t : Tag) : ∀ d : List (Str × Value), tagsAllD Tag.named d = true → inheritD t d = d
  | [], _ => rfl
  | (k, v) :: r, h => by
    rw [tagsAllD, Bool.and_eq_true] at h
    rw [inheritD, inherit_of_named t v h.1, inheritD_of_named t r h.2]
theorem inheritA_of_named (t : Tag) : ∀ d : List Value, tagsAllA Tag.named d = true → inheritA t d = d
  | [], _ => rfl
  | v :: r, h => by
    rw [tagsAllA, Bool.and_eq_true] at h
    rw [inheritA, inherit_of_named t v h.1, inheritA_of_named t r h.2]
end

mutual
theorem tagsAll_mapNum (P : Tag → Bool) (g : Num → Num) : ∀ v : Value, (v.mapNum g).tagsAll P = v.tagsAll P
  | .string u v | .char u v | .bool u v | .num u v | .empty u v => rfl
  | .dict u d => by rw [mapNum, tagsAll, tagsAll, tagsAllD_mapNum]
  | .array u a => by rw [mapNum, tagsAll, tagsAll, tagsAllA_mapNum]
theorem tagsAllD_mapNum (P : Tag → Bool) (g : Num → Num) : ∀ d : List (Str × Value),
    tagsAllD P (mapNumD g d) = tagsAllD P d
  | [] => rfl
  | (k, v) :: r => by rw [mapNumD, tagsAllD, tagsAllD, tagsAll_mapNum, tagsAllD_mapNum]
theorem tagsAllA_mapNum (P : Tag → Bool) (g : Num → Num) : ∀ d : List Value,
    tagsAllA P (mapNumA g d) = tagsAllA P d
  | [] => rfl
  | v :: r => by rw [mapNumA, tagsAllA, tagsAllA, tagsAll_mapNum, tagsAllA_mapNum]
end

/-! ## Under `&Value` -/

theorem plainMap_eq : ∀ (d : List (Str × Value)) (st : MapState),
    (∀ e ∈ d, rawDe De.plain e.2 = .ok ((e.2.mapNum Num.visited).strip)) →
    (∀ e ∈ d, e.1 ≠ FIELD0 ∧ e.1 ≠ FIELD1) → Map.Sorted d →
    (∀ e ∈ st.dict, ∀ e' ∈ d, compare e.1 e'.1 = .lt) →
    rawDeMap De.plain d st =
      .ok { st with dict := st.dict ++ d.map fun e => (e.1, (e.2.mapNum Num.visited).strip) }
  | [], st, _, _, _, _ => by simp [rawDeMap]
  | (k, v) :: r, st, h, hk, hs, hst => by
    have h1 := h (k, v) (List.mem_cons_self ..)
    have h2 := hk (k, v) (List.mem_cons_self ..)
    rw [rawDeMap, h1, show ∀ x, deOfRaw De.plain v x = x from fun x => rfl, visitEntry, if_neg h2.1, if_neg h2.2]
    dsimp only [R.mapErr_ok]
    rw [Map.insert_last fun e he => hst e he (k, v) (List.mem_cons_self ..)]
    rw [plainMap_eq r _ (fun e he => h e (List.mem_cons_of_mem _ he))
      (fun e he => hk e (List.mem_cons_of_mem _ he)) hs.tail]
    · simp
    · intro e he e' he'
      rcases List.mem_append.1 he with he | he
      · exact hst e he e' (List.mem_cons_of_mem _ he')
      · rw [List.mem_singleton.1 he]
        exact (List.pairwise_cons.1 hs).1 e' he'

theorem plainSeq_eq : ∀ (a : List Value) (i : Nat),
    (∀ v ∈ a, rawDe De.plain v = .ok ((v.mapNum Num.visited).strip)) →
    rawDeSeq De.plain i a = .ok (a.map fun v => (v.mapNum Num.visited).strip)
  | [], _, _ => rfl
  | v :: r, i, h => by
    rw [rawDeSeq, h v (List.mem_cons_self ..), show ∀ x, deOfRaw De.plain v x = x from fun x => rfl, R.mapErr_ok,
      plainSeq_eq r (i + 1) fun v hv => h v (List.mem_cons_of_mem _ hv)]
    rfl

theorem plain_ok (v : Value) : v.WF → v.noReserved = true →
    Value.de De.plain v = .ok ((v.mapNum Num.visited).strip) := by
  rw [show Value.de De.plain v = rawDe De.plain v from rfl]
  induction v using Value.induct with
  | hstring t s => intro _ _; rfl
  | hchar t s => intro _ _; rfl
  | hbool t s => intro _ _; rfl
  | hnum t n => intro _ _; cases n <;> rfl
  | hempty t s => intro _ _; rfl
  | hdict t d ih =>
    intro hw hr
    rw [wf_dict] at hw
    rw [noReserved, noReservedD_iff] at hr
    rw [rawDe, plainMap_eq d _ (fun e he => ih e he (hw.2 e he) (hr e he).2.2)
      (fun e he => ⟨(hr e he).1, (hr e he).2.1⟩) hw.1 (fun e he => absurd he List.not_mem_nil)]
    simp only [MapState.finish, mapNum, mapNumD_eq, strip, stripD_eq, ofDict, List.nil_append, List.map_map,
      Function.comp_def]
  | harray t a ih =>
    intro hw hr
    rw [wf_array] at hw
    rw [noReserved, noReservedA_iff] at hr
    rw [rawDe, plainSeq_eq a _ (fun e he => ih e he (hw e he) (hr e he))]
    simp only [mapNum, mapNumA_eq, strip, stripA_eq, ofArray, List.map_map, Function.comp_def]

end Value

/-! ## `usize` and `isize` -/

theorem Num.tryUsize_intVal (n : BitVec 64) : (Num.tryUsize n).intVal = some (n.toNat : Int) ∧
    (Num.tryUsize n).isSigned = false := by
  unfold Num.tryUsize
  have key : ∀ w, (n.setWidth w).setWidth 64 = n → w ≤ 64 → (n.setWidth w).toNat = n.toNat := by
    intro w h hw
    have := congrArg BitVec.toNat h
    rw [BitVec.toNat_setWidth] at this
    rw [Nat.mod_eq_of_lt] at this
    · exact this
    · exact Nat.lt_of_lt_of_le (n.setWidth w).isLt (Nat.pow_le_pow_right (by decide) hw)
  split
  · next h => exact ⟨congrArg (fun m : Nat => some (m : Int)) (key 8 h (by decide)), rfl⟩
  split
  · next h => exact ⟨congrArg (fun m : Nat => some (m : Int)) (key 16 h (by decide)), rfl⟩
  split
  · next h => exact ⟨congrArg (fun m : Nat => some (m : Int)) (key 32 h (by decide)), rfl⟩
  exact ⟨rfl, rfl⟩

theorem Num.tryIsize_intVal (n : BitVec 64) : (Num.tryIsize n).intVal = some n.toInt ∧
    (Num.tryIsize n).isSigned = true := by
  unfold Num.tryIsize
  have key : ∀ w, (n.setWidth w).signExtend 64 = n → w ≤ 64 → (n.setWidth w).toInt = n.toInt := by
    intro w h hw
    have := congrArg BitVec.toInt h
    rw [BitVec.toInt_signExtend_of_le hw] at this
    exact this
  split
  · next h => exact ⟨congrArg some (key 8 h (by decide)), rfl⟩
  split
  · next h => exact ⟨congrArg some (key 16 h (by decide)), rfl⟩
  split
  · next h => exact ⟨congrArg some (key 32 h (by decide)), rfl⟩
  exact ⟨rfl, rfl⟩

end Figment
