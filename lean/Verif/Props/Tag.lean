import Verif.Lemmas.Process
import Verif.Spec.Examples
/-!
# C18 – C20: tags
-/
namespace Figment

/-! ## C20 -/

/-- **C20**: packing an id below 2^62 and a profile kind, and unpacking, gives both back. -/
theorem C20_tag_roundtrip (id : BitVec 64) (p : ProfileTag) (h : id.toNat < 2 ^ 62) :
    (Tag.new id p).metadataId = id ∧ (Tag.new id p).profileTag = p ∧
      (Tag.new id p).profile = match p with
        | .Default => some Profile.Default
        | .Global => some Profile.Global
        | .Custom => none := by
  refine ⟨Tag.metadataId_new_of_lt h p, Tag.profileTag_new id p, ?_⟩
  rw [Tag.profile, Tag.profileTag_new]
  cases p <;> rfl

/-- **C20**: every raw tag is the packing of its parts (bit patterns `10` of the kind read as `11`). -/
theorem C20_tag_parts (t : Tag) :
    t.metadataId.toNat = t.raw.toNat % 2 ^ 62 ∧
    (t.profileTag = .Default ↔ t.raw.toNat / 2 ^ 62 = 0) ∧
    (t.profileTag = .Global ↔ t.raw.toNat / 2 ^ 62 = 1) := by
  have hr := t.raw.isLt
  have hq : t.raw.toNat / 2 ^ 62 < 4 := by omega
  have hk : ((t.raw &&& Tag.profileTagMask) >>> Tag.profileTagShift).setWidth 8
      = BitVec.ofNat 8 (t.raw.toNat / 2 ^ 62) := by
    apply BitVec.eq_of_getLsbD_eq
    intro i hi
    simp only [Tag.profileTagShift, BitVec.getLsbD_setWidth, BitVec.getLsbD_ushiftRight,
      BitVec.getLsbD_and, Tag.getLsbD_profileTagMask, BitVec.getLsbD_ofNat, hi, decide_true,
      Bool.true_and]
    rw [Nat.testBit_div_two_pow, BitVec.testBit_toNat, Nat.add_comm i 62]
    by_cases h2 : 62 + i < 64
    · simp [h2]
    · rw [BitVec.getLsbD_of_ge _ _ (by omega)]; simp
  refine ⟨Tag.metadataId_toNat t, ?_, ?_⟩
  all_goals
    rw [Tag.profileTag, hk]
    generalize t.raw.toNat / 2 ^ 62 = q at hq ⊢
    rcases (by omega : q = 0 ∨ q = 1 ∨ q = 2 ∨ q = 3) with rfl | rfl | rfl | rfl <;> decide

/-- **C20**: changing the profile keeps the id; equality and order are those of the ids. -/
theorem C20_tag_order (a b : Tag) (p : Profile) :
    (a.forProfile p).metadataId = a.metadataId ∧
    (a.forProfile p).same a = true ∧
    (a.same b = true ↔ a.metadataId = b.metadataId) ∧
    (compare a b = .eq ↔ a.same b = true) ∧
    (compare a b = .lt ↔ a.metadataId.toNat < b.metadataId.toNat) := by
  refine ⟨Tag.metadataId_forProfile a p, Tag.same_forProfile a p, by simp [Tag.same], Tag.compare_eq_iff_same,
    Tag.compare_lt_iff⟩

/-- **C20**: the orderings agree, the order is total and transitive, and equal tags hash alike: tags can be the keys of
sorted and of hash maps. -/
theorem C20_tag_keys (a b c : Tag) :
    a.partialCmp b = some (compare a b) ∧
    compare b a = (compare a b).swap ∧
    (compare a b ≠ .gt → compare b c ≠ .gt → compare a c ≠ .gt) ∧
    (a.same b = true → a.hashed = b.hashed) ∧
    (a.hashed = b.hashed → a.same b = true) ∧
    Tag.default.isDefault = true := by
  refine ⟨rfl, Std.OrientedCmp.eq_swap, fun h1 h2 => ?_, fun h => ?_, fun h => ?_, rfl⟩
  · have := Std.TransCmp.isLE_trans (cmp := (compare : Tag → Tag → Ordering)) (a := a) (b := b) (c := c)
    cases h3 : compare a b <;> cases h4 : compare b c <;> cases h5 : compare a c <;> simp_all
  · exact (C20_tag_order a b Profile.Default).2.2.1.1 h
  · exact (C20_tag_order a b Profile.Default).2.2.1.2 h

example : (Tag.new 12345#64 .Custom).metadataId = 12345#64 ∧ (Tag.new 12345#64 .Custom).profile = none := by
  decide

/-! ## C18 -/

/-- A tag tells the profile: for a value emitted under `default` or `global` (in any casing) its tag's
profile is that profile, for any other profile it is none. -/
def TagTells (t : Tag) (pr : Profile) : Prop :=
  (Str.lower pr.name = str "default" → t.profile = some Profile.Default) ∧
  (Str.lower pr.name = str "global" → t.profile = some Profile.Global) ∧
  (Str.lower pr.name ≠ str "default" → Str.lower pr.name ≠ str "global" → t.profile = none)

theorem tagTells_forProfile (t : Tag) (pr : Profile) : TagTells (t.forProfile pr) pr := by
  have h1 : Str.lower Profile.Default.name = str "default" := by decide
  have h2 : Str.lower Profile.Global.name = str "global" := by decide
  have hg : str "global" ≠ str "default" := by decide
  refine ⟨fun h => ?_, fun h => ?_, fun h h' => ?_⟩ <;>
    rw [Tag.profile, Tag.profileTag_forProfile, ProfileTag.ofProfile] <;>
    simp only [Profile.same, Str.uncasedEq, h1, h2]
  · simp [h, ProfileTag.toProfile]
  · simp [h, hg, ProfileTag.toProfile]
  · simp [h, h', ProfileTag.toProfile]

/-- **C18**: when untagged data is provided, every value in it, at any depth, gets the tag that was
obtained, made to tell the profile it was emitted under. -/
theorem C18_tag_tells_profile (tag : Tag) (n : Data)
    (hn : n.tagsAll fun t => t.same Tag.Default) (pr : Profile) (d : Dict)
    (hd : Map.get pr (Fig.retagData tag n) = some d) :
    (Value.tagsAllD (fun t => t == tag.forProfile pr) d = true) ∧
    (tag.forProfile pr).same tag = true ∧ TagTells (tag.forProfile pr) pr := by
  refine ⟨?_, Tag.same_forProfile _ _, tagTells_forProfile tag pr⟩
  rw [Fig.get_retagData] at hd
  cases hg : Map.get pr n with
  | none => rw [hg] at hd; cases hd
  | some d0 =>
    rw [hg] at hd
    simp only [Option.map_some, Option.some.injEq] at hd
    subst hd
    obtain ⟨k, hk, _⟩ := Map.mem_of_get hg
    have h0 := Value.tagsAllD_iff.1 (hn _ hk)
    rw [Value.tagsAllD_iff, Value.mapTagD_eq]
    intro e he
    obtain ⟨x, hx, rfl⟩ := List.mem_map.1 he
    have key : ∀ v : Value, v.tagsAll (fun t => t.same Tag.Default) = true →
        (v.mapTag fun _ => tag.forProfile pr).tagsAll (fun t => t == tag.forProfile pr) = true := by
      intro v
      refine Value.induct (P := fun v => v.tagsAll (fun t => t.same Tag.Default) = true →
        (v.mapTag fun _ => tag.forProfile pr).tagsAll (fun t => t == tag.forProfile pr) = true)
        ?_ ?_ ?_ ?_ ?_ ?_ ?_ v
      iterate 5 (intro t v h; simp only [Value.tagsAll] at h; simp [Value.mapTag, Value.tagsAll, h])
      · intro t d ih h
        rw [Value.tagsAll_dict] at h
        rw [Value.mapTag, Value.tagsAll_dict]
        refine ⟨by simp [h.1], fun e he => ?_⟩
        rw [Value.mapTagD_eq] at he
        obtain ⟨y, hy, rfl⟩ := List.mem_map.1 he
        exact ih y hy (h.2 y hy)
      · intro t d ih h
        rw [Value.tagsAll_array] at h
        rw [Value.mapTag, Value.tagsAll_array]
        refine ⟨by simp [h.1], fun e he => ?_⟩
        rw [Value.mapTagA_eq] at he
        obtain ⟨y, hy, rfl⟩ := List.mem_map.1 he
        exact ih y hy (h.2 y hy)
    exact key _ (h0 _ hx)

example : Ex.data1.tagsAll fun t => t.same Tag.Default := by decide
example : ((Tag.new 7#64 .Default).forProfile ⟨str "GLOBAL"⟩).profile = some Profile.Global := by decide

/-! ## C19 -/

/-- **C19**: in every execution with fewer than 2^64 calls, the tags given out are, in the order of the
calls, those with the ids 1, 2, 3, ... up to the last id; a call beyond that gives none (it panics). -/
theorem C19_tags (steps : List Step) (h : steps.countP Step.isObtain < 2 ^ 64) :
    (Proc.exec steps).obtained.length = min (steps.countP Step.isObtain) (2 ^ 62 - 1) ∧
    ∀ i (hi : i < (Proc.exec steps).obtained.length),
      ((Proc.exec steps).obtained[i]).metadataId.toNat = i + 1 := by
  have he := (Proc.exec_counter steps h).2
  refine ⟨by rw [he]; simp [Proc.tagsAfter], ?_⟩
  rw [he]
  exact fun i hi => Proc.tagsAfter_id hi

/-- **C19**, as in the words: a tag given out later is greater, so no two are equal, and none equals the
default tag. -/
theorem C19_tags_unique (steps : List Step) (h : steps.countP Step.isObtain < 2 ^ 64) :
    (Proc.exec steps).obtained.Pairwise (fun a b => compare a b = .lt ∧ a.same b = false) ∧
    ∀ t ∈ (Proc.exec steps).obtained, t.same Tag.Default = false ∧ t.isDefault = false := by
  have hC := (C19_tags steps h).2
  refine ⟨?_, ?_⟩
  · rw [List.pairwise_iff_getElem]
    intro i j hi hj hij
    have h1 := hC i hi
    have h2 := hC j hj
    have h3 : compare ((Proc.exec steps).obtained[i]) ((Proc.exec steps).obtained[j]) = .lt := by
      rw [Tag.compare_lt_iff]; omega
    refine ⟨h3, ?_⟩
    cases hs : Tag.same ((Proc.exec steps).obtained[i]) ((Proc.exec steps).obtained[j]) with
    | false => rfl
    | true => rw [← Tag.compare_eq_iff_same, h3] at hs; cases hs
  · intro t ht
    obtain ⟨i, hi, rfl⟩ := List.getElem_of_mem ht
    have h1 := hC i hi
    refine ⟨?_, ?_⟩
    · simp only [Tag.same, Tag.default_metadataId]
      rw [beq_eq_false_iff_ne]
      intro hz
      rw [hz] at h1
      simp at h1
    · simp only [Tag.isDefault, beq_eq_false_iff_ne]
      intro hz
      have : ((Proc.exec steps).obtained[i]) = Tag.Default := by
        cases hh : (Proc.exec steps).obtained[i]; rw [hh] at hz; simp only at hz; rw [hz]
      rw [this, Tag.default_metadataId] at h1
      simp at h1

/-- **C19**: after the last id has been given out, a call panics and gives no tag (for as long as the
64-bit counter has not come round). -/
theorem C19_exhausted_panics (counter : BitVec 64) (h : 2 ^ 62 ≤ counter.toNat) :
    (Tag.next counter).1 = none := by
  rw [Tag.next_eq]
  simp [show ¬ counter.toNat < 2 ^ 62 by omega]

/-- An execution with interleaved calls: two calls are running when a third starts, the first completes
last. -/
example : ((Proc.exec [.new, .obtain, .obtain, .provide 0 1 Ex.prov1 .Merge Ex.loc, .obtain,
    .provideFig 0 1 0 .Join Ex.loc]).obtained.map (·.metadataId.toNat)) = [1, 2, 3] := by decide

end Figment
