import Verif.Lemmas.RoundTrip
import Verif.Lemmas.Made
import Verif.Lemmas.Same
/-!
# Lemmas: extraction from figments
-/
namespace Figment

theorem Num.visited_toActual (n : Num) : n.visited.toActual = n.toActual := by
  have hu : ∀ (n : BitVec 64) (w : Nat), (n.setWidth w).setWidth 64 = n → w ≤ 64 →
      (n.setWidth w).setWidth 128 = n.setWidth 128 := by
    intro n w h hw
    apply BitVec.eq_of_toNat_eq
    have := congrArg BitVec.toNat h
    simp only [BitVec.toNat_setWidth] at this ⊢
    have h1 : n.toNat % 2 ^ w < 2 ^ 64 :=
      Nat.lt_of_lt_of_le (Nat.mod_lt _ (Nat.two_pow_pos w)) (Nat.pow_le_pow_right (by decide) hw)
    rw [Nat.mod_eq_of_lt h1] at this
    rw [this]
  have hi : ∀ (n : BitVec 64) (w : Nat), (n.setWidth w).signExtend 64 = n → w ≤ 64 →
      (n.setWidth w).signExtend 128 = n.signExtend 128 := by
    intro n w h hw
    apply BitVec.eq_of_toInt_eq
    rw [BitVec.toInt_signExtend_of_le (by omega), BitVec.toInt_signExtend_of_le (by decide)]
    have := congrArg BitVec.toInt h
    rwa [BitVec.toInt_signExtend_of_le hw] at this
  cases n with
  | usize n =>
    show (Num.tryUsize n).toActual = _
    unfold Num.tryUsize
    split
    · next h => exact congrArg Actual.unsigned (hu n 8 h (by decide))
    split
    · next h => exact congrArg Actual.unsigned (hu n 16 h (by decide))
    split
    · next h => exact congrArg Actual.unsigned (hu n 32 h (by decide))
    rfl
  | isize n =>
    show (Num.tryIsize n).toActual = _
    unfold Num.tryIsize
    split
    · next h => exact congrArg Actual.signed (hi n 8 h (by decide))
    split
    · next h => exact congrArg Actual.signed (hi n 16 h (by decide))
    split
    · next h => exact congrArg Actual.signed (hi n 32 h (by decide))
    rfl
  | _ => rfl

theorem Num.visited_intVal (n : Num) : n.visited.intVal = n.intVal ∧ n.visited.isSigned = n.isSigned := by
  cases n with
  | usize n => exact Num.tryUsize_intVal n
  | isize n => exact Num.tryIsize_intVal n
  | _ => exact ⟨rfl, rfl⟩

theorem Num.visited_narrowest (k : BitVec 64) :
    (Num.usize k).visited.Narrowest ∧ (Num.isize k).visited.Narrowest := by
  have hw : ∀ (m : Num) (w' : Nat), m.width = some w' → w' = 8 ∨ w' = 16 ∨ w' = 32 ∨ w' = 64 ∨ w' = 128 := by
    intro m w' h
    cases m <;> simp only [Num.width, Option.some.injEq, reduceCtorEq] at h <;> omega
  have hu : ∀ (m : Num) (w' : Nat), m.width = some w' → m.isSigned = false → m.intVal = some (k.toNat : Int) →
      w' ≤ 64 → (k.setWidth w').setWidth 64 = k := by
    intro m w' h h1 h2 h3
    have h4 : k.toNat < 2 ^ w' := by
      cases m <;> simp only [Num.width, Option.some.injEq, reduceCtorEq, Num.isSigned, Num.intVal, Int.natCast_inj] at h h1 h2 <;>
        rw [← h2, ← h] <;> exact BitVec.isLt _
    apply BitVec.eq_of_toNat_eq
    rw [BitVec.toNat_setWidth, BitVec.toNat_setWidth, Nat.mod_eq_of_lt h4, Nat.mod_eq_of_lt k.isLt]
  have hi : ∀ (m : Num) (w' : Nat), m.width = some w' → m.isSigned = true → m.intVal = some k.toInt →
      w' ≤ 64 → (k.setWidth w').signExtend 64 = k := by
    intro m w' h h1 h2 h3
    have key : ∀ (w : Nat) (b : BitVec w), b.toInt = k.toInt → w ≤ 64 → (k.setWidth w).signExtend 64 = k := by
      intro w b hb hw
      have hbk : b.signExtend 64 = k := by
        apply BitVec.eq_of_toInt_eq
        rw [BitVec.toInt_signExtend_of_le hw, hb]
      have : k.setWidth w = b := by
        rw [← hbk]
        apply BitVec.eq_of_getLsbD_eq
        intro i hi'
        rw [BitVec.getLsbD_setWidth, BitVec.getLsbD_signExtend]
        simp [hi', show i < 64 by omega]
      rw [this, hbk]
    cases m <;> simp only [Num.width, Option.some.injEq, reduceCtorEq, Num.isSigned, Num.intVal] at h h1 h2 <;>
      subst h <;> exact key _ _ h2 h3
  constructor
  · show (Num.tryUsize k).Narrowest
    have hv := Num.tryUsize_intVal k
    have h0 : ∀ (m : Num) (w' : Nat), m.width = some w' → m.isSigned = (Num.tryUsize k).isSigned →
        m.intVal = (Num.tryUsize k).intVal → w' ≤ 64 → (k.setWidth w').setWidth 64 = k := by
      intro m w' a b c; rw [hv.2] at b; rw [hv.1] at c; exact hu m w' a b c
    revert h0
    unfold Num.tryUsize
    split
    · next h =>
      intro h0
      refine ⟨8, rfl, fun m w' a b c => ?_⟩
      rcases hw m w' a with h | h | h | h | h <;> omega
    next n8 =>
    split
    · next h =>
      intro h0
      refine ⟨16, rfl, fun m w' a b c => ?_⟩
      rcases hw m w' a with h | h | h | h | h <;> subst h <;> try omega
      exact absurd (h0 m _ a b c (by decide)) n8
    next n16 =>
    split
    · next h =>
      intro h0
      refine ⟨32, rfl, fun m w' a b c => ?_⟩
      rcases hw m w' a with h | h | h | h | h <;> subst h <;> try omega
      · exact absurd (h0 m _ a b c (by decide)) n8
      · exact absurd (h0 m _ a b c (by decide)) n16
    next n32 =>
      intro h0
      refine ⟨64, rfl, fun m w' a b c => ?_⟩
      rcases hw m w' a with h | h | h | h | h <;> subst h <;> try omega
      · exact absurd (h0 m _ a b c (by decide)) n8
      · exact absurd (h0 m _ a b c (by decide)) n16
      · exact absurd (h0 m _ a b c (by decide)) n32
  · show (Num.tryIsize k).Narrowest
    have hv := Num.tryIsize_intVal k
    have h0 : ∀ (m : Num) (w' : Nat), m.width = some w' → m.isSigned = (Num.tryIsize k).isSigned →
        m.intVal = (Num.tryIsize k).intVal → w' ≤ 64 → (k.setWidth w').signExtend 64 = k := by
      intro m w' a b c; rw [hv.2] at b; rw [hv.1] at c; exact hi m w' a b c
    revert h0
    unfold Num.tryIsize
    split
    · next h =>
      intro h0
      refine ⟨8, rfl, fun m w' a b c => ?_⟩
      rcases hw m w' a with h | h | h | h | h <;> omega
    next n8 =>
    split
    · next h =>
      intro h0
      refine ⟨16, rfl, fun m w' a b c => ?_⟩
      rcases hw m w' a with h | h | h | h | h <;> subst h <;> try omega
      exact absurd (h0 m _ a b c (by decide)) n8
    next n16 =>
    split
    · next h =>
      intro h0
      refine ⟨32, rfl, fun m w' a b c => ?_⟩
      rcases hw m w' a with h | h | h | h | h <;> subst h <;> try omega
      · exact absurd (h0 m _ a b c (by decide)) n8
      · exact absurd (h0 m _ a b c (by decide)) n16
    next n32 =>
      intro h0
      refine ⟨64, rfl, fun m w' a b c => ?_⟩
      rcases hw m w' a with h | h | h | h | h <;> subst h <;> try omega
      · exact absurd (h0 m _ a b c (by decide)) n8
      · exact absurd (h0 m _ a b c (by decide)) n16
      · exact absurd (h0 m _ a b c (by decide)) n32

namespace Value

mutual
theorem same_mapNum {g : Num → Num} (hg : ∀ n, (g n).toActual = n.toActual) : ∀ v w : Value, (v.mapNum g).same w = v.same w
  | .string .., w => by cases w <;> simp only [mapNum, same]
  | .char .., w => by cases w <;> simp only [mapNum, same]
  | .bool .., w => by cases w <;> simp only [mapNum, same]
  | .num .., w => by cases w <;> simp only [mapNum, same, Num.same, hg]
  | .empty .., w => by cases w <;> simp only [mapNum, same]
  | .dict _ d, w => by cases w <;> simp only [mapNum, same]; exact sameD_mapNum hg ..
  | .array _ a, w => by cases w <;> simp only [mapNum, same]; exact sameA_mapNum hg ..
theorem sameD_mapNum {g : Num → Num} (hg : ∀ n, (g n).toActual = n.toActual) :
    ∀ d d' : List (Str × Value), sameD (mapNumD g d) d' = sameD d d'
  | [], d' => by cases d' <;> rfl
  | (k, v) :: r, d' => by
    cases d' with
    | nil => rfl
    | cons e r' => simp only [mapNumD, sameD, same_mapNum hg v e.2, sameD_mapNum hg r r']
theorem sameA_mapNum {g : Num → Num} (hg : ∀ n, (g n).toActual = n.toActual) :
    ∀ a a' : List Value, sameA (mapNumA g a) a' = sameA a a'
  | [], d' => by cases d' <;> rfl
  | v :: r, d' => by
    cases d' with
    | nil => rfl
    | cons e r' => simp only [mapNumA, sameA, same_mapNum hg v e, sameA_mapNum hg r r']
end

/-- Everything inside the value has a tag that names a provider. -/
def insideNamed : Value → Bool
  | .dict _ d => tagsAllD Tag.named d
  | .array _ a => tagsAllA Tag.named a
  | _ => true

theorem insideNamed_of_tagsAll {v : Value} (h : v.tagsAll Tag.named = true) : v.insideNamed = true := by
  cases v <;> simp only [tagsAll, Bool.and_eq_true] at h <;> first | rfl | exact h.2

theorem inherit_own_of_inside {v : Value} (h : v.insideNamed = true) : v.inherit v.tag = v := by
  cases v with
  | dict t d => rw [inherit, inheritD_of_named _ _ h]; simp only [Value.tag, ite_self]
  | array t d => rw [inherit, inheritA_of_named _ _ h]; simp only [Value.tag, ite_self]
  | _ => simp only [inherit, Value.tag, ite_self]

theorem insideNamed_mapNum (g : Num → Num) (v : Value) : (v.mapNum g).insideNamed = v.insideNamed := by
  cases v with
  | dict t d => exact tagsAllD_mapNum ..
  | array t d => exact tagsAllA_mapNum ..
  | _ => rfl

theorem de_named (f : Fig) (l : Bool) {v : Value} (hw : v.WF) (hr : v.noReserved = true)
    (hn : v.insideNamed = true) : Value.de ⟨some f, l⟩ v = .ok (v.mapNum Num.visited) := by
  rw [de_ok f l v hw hr, ← mapNum_tag Num.visited v, inherit_own_of_inside]
  rw [insideNamed_mapNum, hn]

theorem noReserved_getKeys {ks : List Str} {v w : Value} (hv : v.noReserved = true) (h : v.getKeys ks = some w) :
    w.noReserved = true := by
  induction ks generalizing v with
  | nil => rw [getKeys_nil] at h; rwa [← Option.some.inj h]
  | cons k ks ih =>
    cases v with
    | dict t d =>
      rw [getKeys_dict_cons] at h
      cases hg : Map.get k d with
      | none => rw [hg] at h; cases h
      | some u =>
        rw [hg] at h
        obtain ⟨k', hm, _⟩ := Map.mem_of_get hg
        rw [noReserved, noReservedD_iff] at hv
        exact ih (hv _ hm).2.2 h
    | _ => rw [getKeys_leaf_cons rfl] at h; cases h

theorem getKeys_strip {ks : List Str} {v : Value} : v.strip.getKeys ks = (v.getKeys ks).map strip := by
  induction ks generalizing v with
  | nil => rw [getKeys_nil, getKeys_nil]; rfl
  | cons k ks ih =>
    cases v with
    | dict t d =>
      rw [strip, getKeys_dict_cons, getKeys_dict_cons, get_stripD]
      cases Map.get k d with
      | none => rfl
      | some u => exact ih
    | _ => rw [getKeys_leaf_cons rfl, getKeys_leaf_cons rfl]; rfl

end Value

/-- The merged data of a figment made in an execution. -/
theorem Made.Inv.merged {y : Made} (hy : y.Inv) {v : Value} (h : y.fig.merged = .ok v) :
    v.WF ∧ v.tag = Tag.Default ∧ v.insideNamed = true := by
  cases hval : y.fig.value with
  | error er => simp [Fig.merged, Fig.resolvedValue, hval] at h
  | ok m =>
    have hwf := hy.wf m hval
    have hall := hy.named_all hval
    obtain ⟨v', h1, h2, _⟩ := Fig.merged_view hval hwf
    rw [h1] at h
    rw [Except.ok.inj h] at h1 h2
    refine ⟨h2, ?_⟩
    rw [Fig.merged_ok hval] at h1
    rw [← Except.ok.inj h1]
    refine ⟨rfl, ?_⟩
    have hD := Data.tagsAll_dictOf hall Profile.Default
    have hG := Data.tagsAll_dictOf hall Profile.Global
    have hS := Data.tagsAll_dictOf hall y.fig.profile
    have wD := hwf.dictOf Profile.Default
    have wG := hwf.dictOf Profile.Global
    have wS := hwf.dictOf y.fig.profile
    rw [Value.insideNamed]
    split
    · split
      · exact Dict.tagsAll_coalesce _ (Dict.wf_coalesce _ wD wS) wG (Dict.tagsAll_coalesce _ wD wS hD hS) hG
      · exact Dict.tagsAll_coalesce _ wD wG hD hG
    · exact Dict.tagsAll_coalesce _ wD wG hD hG

theorem Value.insideNamed_getKeys {ks : List Str} {v w : Value} (hv : v.insideNamed = true)
    (h : v.getKeys ks = some w) : w.insideNamed = true := by
  cases ks with
  | nil => rw [Value.getKeys_nil] at h; rwa [← Option.some.inj h]
  | cons k ks =>
    cases v with
    | dict t d =>
      rw [Value.getKeys_dict_cons] at h
      cases hg : Map.get k d with
      | none => rw [hg] at h; cases h
      | some u =>
        rw [hg] at h
        obtain ⟨k', hm, _⟩ := Map.mem_of_get hg
        exact Value.insideNamed_of_tagsAll (Value.tagsAll_getKeys (Value.tagsAllD_iff.1 hv _ hm) h)
    | _ => rw [Value.getKeys_leaf_cons rfl] at h; cases h

/-- Merging data of one profile that applies. -/
theorem Fig.merged_single {f : Fig} {pr : Profile} {d : Dict} (hf : f.value = .ok [(pr, d)]) (hd : Map.Sorted d)
    (hpr : pr.same Profile.Default = true ∨ pr.same Profile.Global = true ∨ pr.same f.profile = true) :
    f.merged = .ok (.dict Tag.Default d) := by
  rw [Fig.merged_ok hf]
  have hget : ∀ q : Profile, Data.dictOf [(pr, d)] q = if q.same pr = true then d else [] := by
    intro q
    simp only [Data.dictOf, Map.get, Profile.same_iff]
    split <;> rfl
  have hsym : ∀ q : Profile, pr.same q = q.same pr := fun q => by
    rw [Bool.eq_iff_iff, Profile.same_iff, Profile.same_iff]; exact Map.cmp_symm
  have hcong : ∀ {a b : Profile}, a.same pr = true → b.same pr = true → a.same b = true := by
    intro a b ha hb
    rw [Profile.same_iff] at ha hb ⊢
    rw [Map.cmp_congr_right (Map.cmp_symm.1 (Map.cmp_symm.1 hb))]
    exact ha
  have hDG : Profile.Default.same Profile.Global = false := by decide
  simp only [hget, hsym] at hpr ⊢
  congr 2
  by_cases hD : Profile.Default.same pr = true
  · have hG : ¬ Profile.Global.same pr = true := fun hG => by rw [hcong hD hG] at hDG; cases hDG
    have hP : f.profile.isCustom = true → ¬ f.profile.same pr = true := by
      intro hc hp
      have := hcong hp hD
      simp [Profile.isCustom, this] at hc
    rw [if_pos hD, if_neg hG]
    by_cases hc : f.profile.isCustom = true
    · rw [if_pos hc, if_neg (hP hc), show Dict.merge d [] = d from Dict.coalesce_nil_right hd _]
      split <;> exact Dict.coalesce_nil_right hd _
    · rw [if_neg hc]
      exact Dict.coalesce_nil_right hd _
  · by_cases hG : Profile.Global.same pr = true
    · have hP : f.profile.isCustom = true → ¬ f.profile.same pr = true := by
        intro hc hp
        have := hcong hp hG
        simp [Profile.isCustom, this] at hc
      rw [if_neg hD, if_pos hG]
      by_cases hc : f.profile.isCustom = true
      · rw [if_pos hc, if_neg (hP hc), show Dict.merge [] [] = [] from rfl]
        split <;> exact Dict.coalesce_nil_left hd _
      · rw [if_neg hc]
        exact Dict.coalesce_nil_left hd _
    · have hp : f.profile.same pr = true := (hpr.resolve_left hD).resolve_left hG
      have hc : f.profile.isCustom = true := by
        rw [Profile.isCustom, Bool.and_eq_true, Bool.not_eq_true', Bool.not_eq_true']
        constructor
        · rw [Bool.eq_false_iff]; intro h
          rw [Profile.same_iff] at h hp hD
          exact hD (by rw [← Map.cmp_congr_left h]; exact hp)
        · rw [Bool.eq_false_iff]; intro h
          rw [Profile.same_iff] at h hp hG
          exact hG (by rw [← Map.cmp_congr_left h]; exact hp)
      rw [if_pos hc, if_neg hD, if_neg hG, if_pos hp, show Dict.merge [] d = d from Dict.coalesce_nil_left hd _]
      have hsome : (Map.get f.profile ([(pr, d)] : Data)).isSome = true := by
        rw [Profile.same_iff] at hp
        simp [Map.get, hp]
      rw [if_pos hsome]
      exact Dict.coalesce_nil_right hd _

end Figment
