import Verif.Lemmas.Tag
import Verif.Lemmas.Provide
import Verif.Spec.Examples
import Verif.Spec.History
/-!
# C01 – C09: combining providers

`m.at profile path` is what is at a path of the data before, `m'.at profile path` after, and
`n.given tag profile path` what the provider contributes there (its data, with provenance `tag`).
The four rules `View.merge`, `View.join`, `View.adjoin`, `View.admerge` are in `Verif.Spec.View`.
-/
namespace Figment

/-! ## C01 -/

/-- **C01**: after `merge`, at every path of every profile the data is what the merge rule says. -/
theorem C01_merge {f g : Fig} {p : Provider} {loc : Location} {c c' : BitVec 64} {m n : Data}
    (hf : f.value = .ok m) (hp : p.data = .ok n) (hm : m.WF) (hn : n.WF)
    (h : f.merge p loc c = (some g, c')) :
    ∃ (tag : Tag) (m' : Data), Tag.next c = (some tag, c') ∧ g.value = .ok m' ∧
      ∀ pr path, m'.at pr path = View.merge (m.at pr) (n.given tag pr) path := by
  obtain ⟨tag, m', h1, h2, _, _, h5⟩ := Fig.provide_ok hf hp hm hn h
  exact ⟨tag, m', h1, h2, fun pr path => by rw [h5]; rfl⟩

/-- **C01**, as in the words: a value of the provider that is no dictionary, or that meets no
dictionary, is there whole; a value only the figment has stays, if no value of the provider is above. -/
theorem C01_merge_provider_wins {f g : Fig} {p : Provider} {loc : Location} {c c' : BitVec 64}
    {m n : Data} (hf : f.value = .ok m) (hp : p.data = .ok n) (hm : m.WF) (hn : n.WF)
    (h : f.merge p loc c = (some g, c')) :
    ∃ (tag : Tag) (m' : Data), Tag.next c = (some tag, c') ∧ g.value = .ok m' ∧
      (∀ pr path s, n.given tag pr path = some s → m'.at pr path = some s) ∧
      (∀ pr path, n.at pr path = none → View.blocked (n.at pr) path = false →
        m'.at pr path = m.at pr path) ∧
      (∀ pr path, n.at pr path = none → View.blocked (n.at pr) path = true →
        m'.at pr path = none) := by
  obtain ⟨tag, m', h1, h2, _, _, h5⟩ := Fig.provide_ok hf hp hm hn h
  refine ⟨tag, m', h1, h2, fun pr path s hs => ?_, fun pr path hs hb => ?_, fun pr path hs hb => ?_⟩
  · rw [h5]; exact View.merge_some hs
  all_goals
    have hg : n.given tag pr path = none := by
      cases path with
      | nil => simp [Data.at_nil] at hs
      | cons k ks => simp [Data.given, hs]
    rw [h5]
    simp [View.coalesce, View.merge, hg, Data.blocked_given, hb]

example : ∃ g c', Ex.fig1.merge Ex.prov2 Ex.loc 5#64 = (some g, c') := ⟨_, _, rfl⟩
/-- Merging `data2` into `data1`: `b.x` is overwritten, `b.y` too, `b.z`, `c`, `global` are added. -/
example :
    (coalesceProfiles Ex.data1 Ex.data2 .Merge).at Profile.Default [str "b", str "x"]
      = some (.leaf (Ex.s "two"))
    ∧ (coalesceProfiles Ex.data1 Ex.data2 .Merge).at Profile.Default [str "a"] = some (.leaf (Ex.n 1))
    ∧ (coalesceProfiles Ex.data1 Ex.data2 .Merge).at Profile.Default [str "b", str "y"]
      = some (.leaf (Ex.a [Ex.n 9])) := by decide

/-! ## C02 -/

/-- **C02**: after `join`, at every path of every profile the data is what the join rule says. -/
theorem C02_join {f g : Fig} {p : Provider} {loc : Location} {c c' : BitVec 64} {m n : Data}
    (hf : f.value = .ok m) (hp : p.data = .ok n) (hm : m.WF) (hn : n.WF)
    (h : f.join p loc c = (some g, c')) :
    ∃ (tag : Tag) (m' : Data), Tag.next c = (some tag, c') ∧ g.value = .ok m' ∧
      ∀ pr path, m'.at pr path = View.join (m.at pr) (n.given tag pr) path := by
  obtain ⟨tag, m', h1, h2, _, _, h5⟩ := Fig.provide_ok hf hp hm hn h
  exact ⟨tag, m', h1, h2, fun pr path => by rw [h5]; rfl⟩

/-- **C02**, as in the words: everything that was there stays there; a path with nothing at it and no
non-dictionary above it takes what the provider has; below a non-dictionary nothing appears. -/
theorem C02_join_keeps {f g : Fig} {p : Provider} {loc : Location} {c c' : BitVec 64} {m n : Data}
    (hf : f.value = .ok m) (hp : p.data = .ok n) (hm : m.WF) (hn : n.WF)
    (h : f.join p loc c = (some g, c')) :
    ∃ (tag : Tag) (m' : Data), Tag.next c = (some tag, c') ∧ g.value = .ok m' ∧
      (∀ pr path s, m.at pr path = some s → m'.at pr path = some s) ∧
      (∀ pr path, m.at pr path = none → View.blocked (m.at pr) path = false →
        m'.at pr path = n.given tag pr path) ∧
      (∀ pr path, m.at pr path = none → View.blocked (m.at pr) path = true →
        m'.at pr path = none) := by
  obtain ⟨tag, m', h1, h2, _, _, h5⟩ := Fig.provide_ok hf hp hm hn h
  refine ⟨tag, m', h1, h2, fun pr path s hs => ?_, fun pr path hs hb => ?_, fun pr path hs hb => ?_⟩
  · rw [h5]; exact View.join_some hs
  · rw [h5]; simp [View.coalesce, View.join, hs, hb]
  · rw [h5]; simp [View.coalesce, View.join, hs, hb]

example : ∃ g c', Ex.fig1.join Ex.prov2 Ex.loc 5#64 = (some g, c') := ⟨_, _, rfl⟩
example :
    (coalesceProfiles Ex.data1 Ex.data2 .Join).at Profile.Default [str "b", str "x"]
      = some (.leaf (Ex.n 2))
    ∧ (coalesceProfiles Ex.data1 Ex.data2 .Join).at Profile.Default [str "b", str "z"]
      = some (.leaf (Ex.n 7)) := by decide

/-! ## C03 -/

/-- **C03**: after `adjoin`, at every path of every profile the data is what the adjoin rule says. -/
theorem C03_adjoin {f g : Fig} {p : Provider} {loc : Location} {c c' : BitVec 64} {m n : Data}
    (hf : f.value = .ok m) (hp : p.data = .ok n) (hm : m.WF) (hn : n.WF)
    (h : f.adjoin p loc c = (some g, c')) :
    ∃ (tag : Tag) (m' : Data), Tag.next c = (some tag, c') ∧ g.value = .ok m' ∧
      ∀ pr path, m'.at pr path = View.adjoin (m.at pr) (n.given tag pr) path := by
  obtain ⟨tag, m', h1, h2, _, _, h5⟩ := Fig.provide_ok hf hp hm hn h
  exact ⟨tag, m', h1, h2, fun pr path => by rw [h5]; rfl⟩

/-- **C03**, as in the words: where both hold arrays, the figment's elements are followed by the
provider's (with the provider's tag); everywhere else the result is as with join. -/
theorem C03_adjoin_arrays {f g : Fig} {p : Provider} {loc : Location} {c c' : BitVec 64} {m n : Data}
    (hf : f.value = .ok m) (hp : p.data = .ok n) (hm : m.WF) (hn : n.WF)
    (h : f.adjoin p loc c = (some g, c')) :
    ∃ (tag : Tag) (m' : Data), Tag.next c = (some tag, c') ∧ g.value = .ok m' ∧
      (∀ pr path t t' a b, m.at pr path = some (.leaf (.array t a)) →
        n.at pr path = some (.leaf (.array t' b)) →
        m'.at pr path
          = some (.leaf (.array t (a ++ b.map (Value.mapTag fun _ => tag.forProfile pr))))) ∧
      (∀ pr path,
        (¬ ∃ t t' a b, m.at pr path = some (.leaf (.array t a)) ∧
          n.at pr path = some (.leaf (.array t' b))) →
        m'.at pr path = View.join (m.at pr) (n.given tag pr) path) := by
  obtain ⟨tag, m', h1, h2, _, _, h5⟩ := Fig.provide_ok hf hp hm hn h
  refine ⟨tag, m', h1, h2, fun pr path t t' a b ha hb => ?_, fun pr path hno => ?_⟩
  · have hg : n.given tag pr path
        = some (.leaf (.array (if t'.same Tag.Default then tag.forProfile pr else t')
            (b.map (Value.mapTag fun _ => tag.forProfile pr)))) := by
      cases path with
      | nil => simp [Data.at_nil] at hb
      | cons k ks => simp [Data.given, hb, Shape.retag, Value.mapTag, Value.mapTagA_eq]
    rw [h5]; simp [View.coalesce, View.adjoin, ha, hg]
  · rw [h5]
    simp only [View.coalesce, View.adjoin]
    split
    · rename_i t a t' b ha hb
      exfalso
      cases path with
      | nil => simp [Data.at_nil] at ha
      | cons k ks =>
        simp only [Data.given, Option.map_eq_some_iff] at hb
        obtain ⟨s, hs, hr⟩ := hb
        cases s with
        | dict t => simp [Shape.retag] at hr
        | leaf v =>
          simp only [Shape.retag, Shape.leaf.injEq] at hr
          cases v <;> simp [Value.mapTag] at hr
          exact hno ⟨_, _, _, _, ha, hs⟩
    · rfl

example : ∃ g c', Ex.fig1.adjoin Ex.prov2 Ex.loc 5#64 = (some g, c') := ⟨_, _, rfl⟩
example :
    (coalesceProfiles Ex.data1 Ex.data2 .Adjoin).at Profile.Default [str "b", str "y"]
      = some (.leaf (Ex.a [Ex.n 3, Ex.n 4, Ex.n 9]))
    ∧ (coalesceProfiles Ex.data1 Ex.data2 .Adjoin).at Profile.Default [str "b", str "x"]
      = some (.leaf (Ex.n 2)) := by decide

/-! ## C04 -/

/-- **C04**: after `admerge`, at every path of every profile the data is what the admerge rule says. -/
theorem C04_admerge {f g : Fig} {p : Provider} {loc : Location} {c c' : BitVec 64} {m n : Data}
    (hf : f.value = .ok m) (hp : p.data = .ok n) (hm : m.WF) (hn : n.WF)
    (h : f.admerge p loc c = (some g, c')) :
    ∃ (tag : Tag) (m' : Data), Tag.next c = (some tag, c') ∧ g.value = .ok m' ∧
      ∀ pr path, m'.at pr path = View.admerge (m.at pr) (n.given tag pr) path := by
  obtain ⟨tag, m', h1, h2, _, _, h5⟩ := Fig.provide_ok hf hp hm hn h
  exact ⟨tag, m', h1, h2, fun pr path => by rw [h5]; rfl⟩

/-- **C04**, as in the words: where both hold arrays, the figment's elements are followed by the
provider's (with the provider's tag); everywhere else the result is as with merge. -/
theorem C04_admerge_arrays {f g : Fig} {p : Provider} {loc : Location} {c c' : BitVec 64} {m n : Data}
    (hf : f.value = .ok m) (hp : p.data = .ok n) (hm : m.WF) (hn : n.WF)
    (h : f.admerge p loc c = (some g, c')) :
    ∃ (tag : Tag) (m' : Data), Tag.next c = (some tag, c') ∧ g.value = .ok m' ∧
      (∀ pr path t t' a b, m.at pr path = some (.leaf (.array t a)) →
        n.at pr path = some (.leaf (.array t' b)) →
        m'.at pr path
          = some (.leaf (.array t (a ++ b.map (Value.mapTag fun _ => tag.forProfile pr))))) ∧
      (∀ pr path,
        (¬ ∃ t t' a b, m.at pr path = some (.leaf (.array t a)) ∧
          n.at pr path = some (.leaf (.array t' b))) →
        m'.at pr path = View.merge (m.at pr) (n.given tag pr) path) := by
  obtain ⟨tag, m', h1, h2, _, _, h5⟩ := Fig.provide_ok hf hp hm hn h
  refine ⟨tag, m', h1, h2, fun pr path t t' a b ha hb => ?_, fun pr path hno => ?_⟩
  · have hg : n.given tag pr path
        = some (.leaf (.array (if t'.same Tag.Default then tag.forProfile pr else t')
            (b.map (Value.mapTag fun _ => tag.forProfile pr)))) := by
      cases path with
      | nil => simp [Data.at_nil] at hb
      | cons k ks => simp [Data.given, hb, Shape.retag, Value.mapTag, Value.mapTagA_eq]
    rw [h5]; simp [View.coalesce, View.admerge, ha, hg]
  · rw [h5]
    simp only [View.coalesce, View.admerge]
    split
    · rename_i t a t' b ha hb
      exfalso
      cases path with
      | nil => simp [Data.at_nil] at ha
      | cons k ks =>
        simp only [Data.given, Option.map_eq_some_iff] at hb
        obtain ⟨s, hs, hr⟩ := hb
        cases s with
        | dict t => simp [Shape.retag] at hr
        | leaf v =>
          simp only [Shape.retag, Shape.leaf.injEq] at hr
          cases v <;> simp [Value.mapTag] at hr
          exact hno ⟨_, _, _, _, ha, hs⟩
    · rfl

example : ∃ g c', Ex.fig1.admerge Ex.prov2 Ex.loc 5#64 = (some g, c') := ⟨_, _, rfl⟩
example :
    (coalesceProfiles Ex.data1 Ex.data2 .Admerge).at Profile.Default [str "b", str "y"]
      = some (.leaf (Ex.a [Ex.n 3, Ex.n 4, Ex.n 9]))
    ∧ (coalesceProfiles Ex.data1 Ex.data2 .Admerge).at Profile.Default [str "b", str "x"]
      = some (.leaf (Ex.s "two")) := by decide

/-! ## C05 -/

/-- **C05**: for all four strategies, the profiles of the result are exactly those of both sides; in
each profile, and in every dictionary below that both sides have, the keys are exactly the union;
and the result is again made of sorted maps without duplicates. -/
theorem C05_keys {f g : Fig} {p : Provider} {o : Order} {loc : Location} {c c' : BitVec 64} {m n : Data}
    (hf : f.value = .ok m) (hp : p.data = .ok n) (hm : m.WF) (hn : n.WF)
    (h : f.provide p o loc c = (some g, c')) :
    ∃ m' : Data, g.value = .ok m' ∧ m'.WF ∧
      (∀ pr, (Map.get pr m').isSome ↔ (Map.get pr m).isSome ∨ (Map.get pr n).isSome) ∧
      (∀ pr k, k ∈ (m'.dictOf pr).keys ↔ k ∈ (m.dictOf pr).keys ∨ k ∈ (n.dictOf pr).keys) ∧
      (∀ pr path t t' k, m.at pr path = some (.dict t) → n.at pr path = some (.dict t') →
        ((m'.at pr (path ++ [k])).isSome ↔
          (m.at pr (path ++ [k])).isSome ∨ (n.at pr (path ++ [k])).isSome)) := by
  obtain ⟨tag, ht, hg⟩ := Fig.provide_eq_some h
  have hn' := Fig.wf_retagData tag hn
  refine ⟨coalesceProfiles m (Fig.retagData tag n) o, ?_, Data.wf_coalesce hm hn' o, ?_, ?_, ?_⟩
  · rw [hg]; simp only [Fig.provideWith, hf, hp, Fig.combine_ok]
  · intro pr
    rw [coalesceProfiles, Map.get_coalesce _ hm.1 hn'.1, Fig.get_retagData]
    cases Map.get pr m <;> cases Map.get pr n <;> simp [optCombine]
  · intro pr k
    have hd1 := (Dict.wf_iff.1 (hm.dictOf pr)).1
    have hd2 := (Dict.wf_iff.1 (hn'.dictOf pr)).1
    rw [Data.dictOf_coalesce hm hn', Map.mem_keys_iff, Map.mem_keys_iff, Map.mem_keys_iff,
      Dict.get_coalesce hd1 hd2]
    have hr : Data.dictOf (Fig.retagData tag n) pr
        = Value.mapTagD (fun _ => tag.forProfile pr) (n.dictOf pr) := by
      simp only [Data.dictOf, Fig.get_retagData]
      cases Map.get pr n <;> rfl
    rw [hr, Value.get_mapTagD]
    cases Map.get k (m.dictOf pr) <;> cases Map.get k (n.dictOf pr) <;> simp [optCombine]
  · intro pr path t t' k h1 h2
    have key : ∀ (A B : View), View.Tree A → View.Tree B → A path = some (.dict t) →
        (∃ t', B path = some (.dict t')) →
        ((View.coalesce o A B (path ++ [k])).isSome ↔ (A (path ++ [k])).isSome ∨ (B (path ++ [k])).isSome) := by
      intro A B hA hB ha hb
      have hbA : View.blocked A (path ++ [k]) = false := by
        cases hc : View.blocked A (path ++ [k]) with
        | false => rfl
        | true =>
          obtain ⟨i, hi, v, hv⟩ := View.blocked_iff.1 hc
          rcases Nat.lt_or_ge i path.length with hlt | hge
          · obtain ⟨s, hs⟩ := hA path i hlt (by simp [ha])
            rw [List.take_append_of_le_length (by omega), hs] at hv; simp at hv
          · have : i = path.length := by simp at hi; omega
            rw [this, List.take_left, ha] at hv; simp at hv
      have hbB : View.blocked B (path ++ [k]) = false := by
        obtain ⟨t', hb⟩ := hb
        cases hc : View.blocked B (path ++ [k]) with
        | false => rfl
        | true =>
          obtain ⟨i, hi, v, hv⟩ := View.blocked_iff.1 hc
          rcases Nat.lt_or_ge i path.length with hlt | hge
          · obtain ⟨s, hs⟩ := hB path i hlt (by simp [hb])
            rw [List.take_append_of_le_length (by omega), hs] at hv; simp at hv
          · have : i = path.length := by simp at hi; omega
            rw [this, List.take_left, hb] at hv; simp at hv
      cases o <;> simp only [View.coalesce, View.merge, View.join, View.adjoin, View.admerge, hbA, hbB]
      · cases A (path ++ [k]) <;> cases B (path ++ [k]) <;> simp
      · cases A (path ++ [k]) <;> cases B (path ++ [k]) <;> simp
      · split
        · rename_i hx hy; simp [hx]
        · cases A (path ++ [k]) <;> cases B (path ++ [k]) <;> simp
      · split
        · rename_i hx hy; simp [hx]
        · cases A (path ++ [k]) <;> cases B (path ++ [k]) <;> simp
    have h3 := key (m.at pr) ((Fig.retagData tag n).at pr) (Data.tree_at _ _) (Data.tree_at _ _) h1 (by
      rw [Fig.at_retagData]
      cases path with
      | nil => exact ⟨_, rfl⟩
      | cons k ks => simp [Data.given, h2, Shape.retag])
    rw [← Data.at_coalesce hm hn', Fig.at_retagData] at h3
    rw [h3]
    have h4 : (n.given tag pr (path ++ [k])).isSome = (n.at pr (path ++ [k])).isSome := by
      cases path <;> simp [Data.given]
    rw [h4]

example : ∃ g c', Ex.fig1.provide Ex.prov2 .Admerge Ex.loc 5#64 = (some g, c') := ⟨_, _, rfl⟩
example : ((coalesceProfiles Ex.data1 Ex.data2 .Adjoin).dictOf Profile.Default).keys
    = [str "a", str "b", str "c"] := by decide

/-! ## C06 -/

/-- **C06**, any mix of strategies: the data is the left fold of the pairwise rules over the calls, in
order. (The list `tags` has the tags the calls obtained, which are those with the next ids.) -/
theorem C06_fold {f g : Fig} {calls : List Call} {c c' : BitVec 64} {m : Data}
    (hf : f.value = .ok m) (hm : m.WF)
    (hc : ∀ x ∈ calls, ∃ n : Data, x.provider.data = .ok n ∧ n.WF)
    (h : f.provideAll calls c = (some g, c')) :
    ∃ (tags : List Tag) (m' : Data), tags.length = calls.length ∧
      (∀ (i : Nat) t, tags[i]? = some t → t.metadataId.toNat = c.toNat + i ∧ t.profile = some Profile.Default) ∧
      g.value = .ok m' ∧ m'.WF ∧
      ∀ pr, m'.at pr = (calls.zip tags).foldl (fun A (x, tag) =>
        View.coalesce x.order A
          (match x.provider.data with
            | .ok n => Data.given n tag pr
            | .error _ => fun _ => none)) (m.at pr) := by
  induction calls generalizing f c m with
  | nil =>
    simp only [Fig.provideAll, Prod.mk.injEq, Option.some.injEq] at h
    rw [← h.1]
    exact ⟨[], m, rfl, fun _ _ h => by simp at h, hf, hm, fun pr => rfl⟩
  | cons x r ih =>
    rw [Fig.provideAll] at h
    split at h
    · rename_i g1 c1 h1
      obtain ⟨n, hxn, hnw⟩ := hc x (List.mem_cons_self ..)
      obtain ⟨tag, m1, hn, h2, h3, _, h4⟩ := Fig.provide_ok hf hxn hm hnw h1
      obtain ⟨tags, m', h5, ht, h6, h7, h8⟩ := ih h2 h3 (fun y hy => hc y (List.mem_cons_of_mem _ hy)) h
      rw [Tag.next_eq, Prod.mk.injEq] at hn
      obtain ⟨hn, rfl⟩ := hn
      have hlt : c.toNat < 2 ^ 62 := by
        refine Decidable.byContradiction fun h => ?_
        rw [if_neg h] at hn
        cases hn
      rw [if_pos hlt, Option.some.injEq] at hn
      refine ⟨tag :: tags, m', by simp [h5], fun i t hi => ?_, h6, h7, fun pr => ?_⟩
      · cases i with
        | zero =>
          simp only [List.getElem?_cons_zero, Option.some.injEq] at hi
          subst hi hn
          exact ⟨by rw [Tag.metadataId_new_of_lt hlt]; rfl, by rw [Tag.profile, Tag.profileTag_new]; rfl⟩
        | succ i =>
          rw [List.getElem?_cons_succ] at hi
          obtain ⟨h9, h10⟩ := ht i t hi
          refine ⟨?_, h10⟩
          rw [h9, BitVec.toNat_add, Nat.mod_eq_of_lt (by simp; omega)]
          simp; omega
      rw [h8, List.zip_cons_cons, List.foldl_cons, h4]
      simp only [hxn]
    · simp at h

/-- **C06**, merges: at a path above which no provider has a non-dictionary, the last provider that
has something there decides. -/
theorem C06_last_merge_wins {g : Fig} {provs : List (Data × Metadata × Location)} {c c' : BitVec 64}
    (hw : ∀ x ∈ provs, x.1.WF)
    (h : Fig.new.provideAll (provs.map fun x => ⟨.Merge, Provider.plain x.2.1 (.ok x.1), x.2.2⟩) c
      = (some g, c')) :
    ∃ m' : Data, g.value = .ok m' ∧ ∀ pr path, path ≠ [] →
      (∀ x ∈ provs, View.blocked (x.1.at pr) path = false) →
      (m'.at pr path).map Shape.strip
        = (provs.reverse.findSome? fun x => x.1.at pr path).map Shape.strip := by
  obtain ⟨tags, m', hl, _, hg, _, hat⟩ := C06_fold (m := []) rfl Data.wf_nil (by
    intro x hx
    obtain ⟨y, hy, rfl⟩ := List.mem_map.1 hx
    exact ⟨y.1, rfl, hw y hy⟩) h
  refine ⟨m', hg, fun pr path hne hb => ?_⟩
  have hfold : ∀ (l : List (Data × Metadata × Location)) (ts : List Tag) (A : View), ts.length = l.length →
      ((((l.map fun x => (⟨.Merge, Provider.plain x.2.1 (.ok x.1), x.2.2⟩ : Call)).zip ts).foldl (fun A (x, tag) =>
        View.coalesce x.order A
          (match x.provider.data with
            | .ok n => Data.given n tag pr
            | .error _ => fun _ => none)) A).strip : View)
      = (l.map fun x => (x.1.at pr).strip).foldl View.merge A.strip := by
    intro l
    induction l with
    | nil => intro ts A _; simp
    | cons y r ih =>
      intro ts A hlen
      cases ts with
      | nil => simp at hlen
      | cons t ts =>
        simp only [List.map_cons, List.zip_cons_cons, List.foldl_cons, Provider.plain]
        have := ih ts (View.coalesce .Merge A (Data.given y.1 t pr)) (by simpa using hlen)
        simp only [Provider.plain] at this
        rw [this]
        congr 1
        simp only [View.coalesce, View.strip_merge, Data.strip_given]
  have h1 : (m'.at pr path).map Shape.strip = (m'.at pr).strip path := rfl
  rw [h1, hat, hfold _ _ _ (by simpa using hl), View.foldl_merge]
  · have h2 : (View.strip (Data.at [] pr)) path = none := by
      cases path with
      | nil => exact absurd rfl hne
      | cons k ks => rfl
    rw [h2, Option.or_none, ← List.map_reverse]
    induction provs.reverse with
    | nil => rfl
    | cons y r ih =>
      simp only [List.map_cons, List.findSome?_cons]
      cases hy : y.1.at pr path with
      | none => simp only [View.strip, hy, Option.map_none]; exact ih
      | some s => simp [View.strip, hy]
  · intro B hB
    obtain ⟨x, hx, rfl⟩ := List.mem_map.1 hB
    rw [View.blocked_strip]
    exact hb x hx

/-- **C06**, joins: at a path above which no provider has a non-dictionary, the first provider that
has something there decides. -/
theorem C06_first_join_wins {g : Fig} {provs : List (Data × Metadata × Location)} {c c' : BitVec 64}
    (hw : ∀ x ∈ provs, x.1.WF)
    (h : Fig.new.provideAll (provs.map fun x => ⟨.Join, Provider.plain x.2.1 (.ok x.1), x.2.2⟩) c
      = (some g, c')) :
    ∃ m' : Data, g.value = .ok m' ∧ ∀ pr path, path ≠ [] →
      (∀ x ∈ provs, View.blocked (x.1.at pr) path = false) →
      (m'.at pr path).map Shape.strip
        = (provs.findSome? fun x => x.1.at pr path).map Shape.strip := by
  obtain ⟨tags, m', hl, _, hg, _, hat⟩ := C06_fold (m := []) rfl Data.wf_nil (by
    intro x hx
    obtain ⟨y, hy, rfl⟩ := List.mem_map.1 hx
    exact ⟨y.1, rfl, hw y hy⟩) h
  refine ⟨m', hg, fun pr path hne hb => ?_⟩
  have hfold : ∀ (l : List (Data × Metadata × Location)) (ts : List Tag) (A : View), ts.length = l.length →
      ((((l.map fun x => (⟨.Join, Provider.plain x.2.1 (.ok x.1), x.2.2⟩ : Call)).zip ts).foldl (fun A (x, tag) =>
        View.coalesce x.order A
          (match x.provider.data with
            | .ok n => Data.given n tag pr
            | .error _ => fun _ => none)) A).strip : View)
      = (l.map fun x => (x.1.at pr).strip).foldl View.join A.strip := by
    intro l
    induction l with
    | nil => intro ts A _; simp
    | cons y r ih =>
      intro ts A hlen
      cases ts with
      | nil => simp at hlen
      | cons t ts =>
        simp only [List.map_cons, List.zip_cons_cons, List.foldl_cons, Provider.plain]
        have := ih ts (View.coalesce .Join A (Data.given y.1 t pr)) (by simpa using hlen)
        simp only [Provider.plain] at this
        rw [this]
        congr 1
        simp only [View.coalesce, View.strip_join, Data.strip_given]
  have h1 : (m'.at pr path).map Shape.strip = (m'.at pr).strip path := rfl
  rw [h1, hat, hfold _ _ _ (by simpa using hl), View.foldl_join]
  · have h2 : (View.strip (Data.at [] pr)) path = none := by
      cases path with
      | nil => exact absurd rfl hne
      | cons k ks => rfl
    rw [h2, Option.none_or]
    clear hat hl h hb hw hfold
    induction provs with
    | nil => rfl
    | cons y r ih =>
      simp only [List.map_cons, List.findSome?_cons]
      cases hy : y.1.at pr path with
      | none => simp only [View.strip, hy, Option.map_none]; exact ih
      | some s => simp [View.strip, hy]
  · cases path with
    | nil => rfl
    | cons k ks => rw [View.blocked_strip, Data.at]; exact Value.blocked_dict_cons _ _ _ _
  · intro B hB
    obtain ⟨x, hx, rfl⟩ := List.mem_map.1 hB
    rw [View.blocked_strip]
    exact hb x hx

/-- The hypotheses of the C06 theorems hold for two overlapping providers. -/
example : ∃ g c', Fig.new.provideAll
    (([(Ex.data1, Metadata.Default, Ex.loc), (Ex.data2, Metadata.Default, Ex.loc)] :
      List (Data × Metadata × Location)).map
        fun x => ⟨.Merge, Provider.plain x.2.1 (.ok x.1), x.2.2⟩) 1#64 = (some g, c') := ⟨_, _, rfl⟩
example : View.blocked (Ex.data1.at Profile.Default) [str "b", str "x"] = false := by decide

/-! ## C07 -/

/-- **C07**, identity: providing data in which no profile has any key changes the data at no path. -/
theorem C07_empty {f g : Fig} {p : Provider} {o : Order} {loc : Location} {c c' : BitVec 64} {m n : Data}
    (hf : f.value = .ok m) (hp : p.data = .ok n) (hm : m.WF) (hn : n.WF)
    (he : ∀ e ∈ n, e.2 = [])
    (h : f.provide p o loc c = (some g, c')) :
    ∃ m' : Data, g.value = .ok m' ∧ (∀ pr path, m'.at pr path = m.at pr path) ∧ (n = [] → m' = m) := by
  obtain ⟨tag, ht, hg⟩ := Fig.provide_eq_some h
  refine ⟨coalesceProfiles m (Fig.retagData tag n) o, ?_, ?_, ?_⟩
  · rw [hg]; simp only [Fig.provideWith, hf, hp, Fig.combine_ok]
  · intro pr path
    have hd : Data.dictOf (Fig.retagData tag n) pr = [] := by
      simp only [Data.dictOf, Fig.get_retagData]
      cases hx : Map.get pr n with
      | none => rfl
      | some d =>
        obtain ⟨k, hk, _⟩ := Map.mem_of_get hx
        have := he _ hk
        simp only at this
        simp [this, Value.mapTagD]
    rw [Data.at, Data.dictOf_coalesce hm (Fig.wf_retagData tag hn), hd,
      Dict.coalesce_nil_right (Dict.wf_iff.1 (hm.dictOf pr)).1]
    rfl
  · rintro rfl
    exact Map.coalesce_nil_right _ hm.1

/-- **C07**, idempotence of `merge`: merging the same data again (necessarily with a new tag) leaves
the same data, provenance aside. -/
theorem C07_merge_idempotent {f g k : Fig} {p q : Provider} {loc loc' : Location}
    {c c' d d' : BitVec 64} {m n : Data}
    (hf : f.value = .ok m) (hp : p.data = .ok n) (hq : q.data = .ok n) (hm : m.WF) (hn : n.WF)
    (h1 : f.merge p loc c = (some g, c')) (h2 : g.merge q loc' d = (some k, d')) :
    ∃ m1 m2 : Data, g.value = .ok m1 ∧ k.value = .ok m2 ∧
      ∀ pr path, (m2.at pr path).map Shape.strip = (m1.at pr path).map Shape.strip := by
  obtain ⟨tag, m1, _, hg, hw, _, ha⟩ := Fig.provide_ok hf hp hm hn h1
  obtain ⟨tag', m2, _, hk, _, _, hb⟩ := Fig.provide_ok hg hq hw hn h2
  refine ⟨m1, m2, hg, hk, fun pr path => ?_⟩
  show (m2.at pr).strip path = (m1.at pr).strip path
  rw [hb, View.strip_coalesce, ha, View.strip_coalesce, Data.strip_given, Data.strip_given]
  exact congrFun (View.merge_idem _ _) path

/-- **C07**, idempotence of `join`. -/
theorem C07_join_idempotent {f g k : Fig} {p q : Provider} {loc loc' : Location}
    {c c' d d' : BitVec 64} {m n : Data}
    (hf : f.value = .ok m) (hp : p.data = .ok n) (hq : q.data = .ok n) (hm : m.WF) (hn : n.WF)
    (h1 : f.join p loc c = (some g, c')) (h2 : g.join q loc' d = (some k, d')) :
    ∃ m1 m2 : Data, g.value = .ok m1 ∧ k.value = .ok m2 ∧
      ∀ pr path, (m2.at pr path).map Shape.strip = (m1.at pr path).map Shape.strip := by
  obtain ⟨tag, m1, _, hg, hw, _, ha⟩ := Fig.provide_ok hf hp hm hn h1
  obtain ⟨tag', m2, _, hk, _, _, hb⟩ := Fig.provide_ok hg hq hw hn h2
  refine ⟨m1, m2, hg, hk, fun pr path => ?_⟩
  show (m2.at pr).strip path = (m1.at pr).strip path
  rw [hb, View.strip_coalesce, ha, View.strip_coalesce, Data.strip_given, Data.strip_given]
  exact congrFun (View.join_idem _ _) path

example : ∃ g c' k d', Ex.fig1.merge Ex.prov2 Ex.loc 5#64 = (some g, c') ∧
    g.merge Ex.prov2 Ex.loc c' = (some k, d') := ⟨_, _, _, _, rfl, rfl⟩
example : ∃ g c', Ex.fig1.merge (Provider.plain Metadata.Default (.ok [(Ex.dev, [])])) Ex.loc 5#64
    = (some g, c') := ⟨_, _, rfl⟩

/-- `adjoin` is not idempotent: arrays grow. -/
theorem C07_adjoin_not_idempotent :
    (coalesceProfiles (coalesceProfiles Ex.data1 Ex.data2 .Adjoin) Ex.data2 .Adjoin).at
      Profile.Default [str "b", str "y"]
    ≠ (coalesceProfiles Ex.data1 Ex.data2 .Adjoin).at Profile.Default [str "b", str "y"] := by decide

/-! ## C08 -/

/-- **C08** for values: joining `b` into `a` gives exactly what merging `a` into `b` gives, tags
included. -/
theorem C08_join_is_swapped_merge (a b : Value) (ha : a.WF) (hb : b.WF) :
    a.coalesce b .Join = b.coalesce a .Merge := by
  apply Value.ext_view _ _ (Value.wf_coalesce _ _ _ ha hb) (Value.wf_coalesce _ _ _ hb ha)
  intro p
  rw [Value.view_coalesce _ _ _ ha hb, Value.view_coalesce _ _ _ hb ha]
  rfl

/-- **C08** for data by profile. -/
theorem C08_join_is_swapped_merge_data (a b : Data) (ha : a.WF) (hb : b.WF) (pr : Profile)
    (path : List Str) :
    Data.at (coalesceProfiles a b .Join) pr path = Data.at (coalesceProfiles b a .Merge) pr path := by
  rw [Data.at_coalesce ha hb, Data.at_coalesce hb ha]; rfl

/-- **C08** for figments: `f.join(g)` and `g.merge(f)` hold the same data, values and tags, when every
value in the two figments has provenance. -/
theorem C08_figments {f g x y : Fig} {l l' : Location} {c c' d d' : BitVec 64} {m n : Data}
    (hf : f.value = .ok m) (hg : g.value = .ok n) (hm : m.WF) (hn : n.WF)
    (tf : m.tagsAll Tag.named) (tg : n.tagsAll Tag.named)
    (h1 : f.join g.toProvider l c = (some x, c')) (h2 : g.merge f.toProvider l' d = (some y, d')) :
    ∃ m1 m2 : Data, x.value = .ok m1 ∧ y.value = .ok m2 ∧ ∀ pr path, m1.at pr path = m2.at pr path := by
  obtain ⟨t1, m1, _, e1, _, _, a1⟩ := Fig.provide_ok (p := g.toProvider) hf hg hm hn h1
  obtain ⟨t2, m2, _, e2, _, _, a2⟩ := Fig.provide_ok (p := f.toProvider) hg hf hn hm h2
  refine ⟨m1, m2, e1, e2, fun pr path => ?_⟩
  have e3 : n.given t1 pr = n.at pr := by
    funext q; rw [← Fig.at_retagData, Fig.retagData_named _ tg]
  have e4 : m.given t2 pr = m.at pr := by
    funext q; rw [← Fig.at_retagData, Fig.retagData_named _ tf]
  rw [a1, a2, e3, e4]
  rfl

/-- A figment all of whose values have provenance. -/
example : ∃ m, Ex.fig1.value = .ok m ∧ m.tagsAll Tag.named ∧ m.WF :=
  ⟨_, rfl, by decide, by decide⟩

example : (Ex.d [(str "a", Ex.n 1)]).coalesce (Ex.d [(str "a", Ex.n 2), (str "b", Ex.n 3)]) .Join
    = Ex.d [(str "a", Ex.n 1), (str "b", Ex.n 3)] := by decide

/-! ## C09 -/

/-- **C09** does not hold in general: `k` is a dictionary in the first and third, a number in the
second. -/
theorem C09_merge_grouping_fails :
    ∃ a b c : Data, a.WF ∧ b.WF ∧ c.WF ∧
      (coalesceProfiles a (coalesceProfiles b c .Merge) .Merge).at Profile.Default [str "k", str "x"]
      ≠ (coalesceProfiles (coalesceProfiles a b .Merge) c .Merge).at Profile.Default [str "k", str "x"] :=
  ⟨[(Profile.Default, [(str "k", Ex.d [(str "x", Ex.n 1)])])],
   [(Profile.Default, [(str "k", Ex.n 2)])],
   [(Profile.Default, [(str "k", Ex.d [(str "y", Ex.n 3)])])], by decide, by decide, by decide, by decide⟩

/-- **C09** for data: grouping of merges does not matter, at every path and tags included, if no path
is a dictionary in the first and the third but not in the second. -/
theorem C09_merge_grouping_partial {a b c : Data} (ha : a.WF) (hb : b.WF) (hc : c.WF) (pr : Profile)
    (h : ∀ q t t' v, a.at pr q = some (.dict t) → c.at pr q = some (.dict t') →
      b.at pr q ≠ some (.leaf v)) (path : List Str) :
    (coalesceProfiles a (coalesceProfiles b c .Merge) .Merge).at pr path
      = (coalesceProfiles (coalesceProfiles a b .Merge) c .Merge).at pr path := by
  rw [Data.at_coalesce ha (Data.wf_coalesce hb hc _), Data.at_coalesce (Data.wf_coalesce ha hb _) hc]
  have h1 : Data.at (coalesceProfiles b c .Merge) pr = View.merge (b.at pr) (c.at pr) := by
    funext q; rw [Data.at_coalesce hb hc]; rfl
  have h2 : Data.at (coalesceProfiles a b .Merge) pr = View.merge (a.at pr) (b.at pr) := by
    funext q; rw [Data.at_coalesce ha hb]; rfl
  rw [h1, h2]
  refine congrFun (View.merge_assoc (Data.tree_at a pr) ?_) path
  rintro q ⟨t, ht⟩ ⟨t', ht'⟩ v
  exact h q t t' v ht ht'

/-- **C09**, exactly: the two groupings differ at a path if and only if the first side has something there, the second
has a non-dictionary above it, where the third has a dictionary, and the third has nothing at the path and no
non-dictionary above it. -/
theorem C09_merge_grouping_exact {a b c : Data} (ha : a.WF) (hb : b.WF) (hc : c.WF) (pr : Profile) (path : List Str) :
    (coalesceProfiles a (coalesceProfiles b c .Merge) .Merge).at pr path
      ≠ (coalesceProfiles (coalesceProfiles a b .Merge) c .Merge).at pr path ↔
    a.at pr path ≠ none ∧ c.at pr path = none ∧ View.blocked (c.at pr) path = false ∧
      ∃ n < path.length, ∃ v t, b.at pr (path.take n) = some (.leaf v) ∧ c.at pr (path.take n) = some (.dict t) := by
  rw [Data.at_coalesce ha (Data.wf_coalesce hb hc _), Data.at_coalesce (Data.wf_coalesce ha hb _) hc]
  have h1 : Data.at (coalesceProfiles b c .Merge) pr = View.merge (b.at pr) (c.at pr) := by
    funext q; rw [Data.at_coalesce hb hc]; rfl
  have h2 : Data.at (coalesceProfiles a b .Merge) pr = View.merge (a.at pr) (b.at pr) := by
    funext q; rw [Data.at_coalesce ha hb]; rfl
  rw [h1, h2]
  exact View.merge_assoc_iff (Data.tree_at b pr) path

/-- **C09** for figments: `a.merge(Figment::from(b).merge(c))` and `a.merge(b).merge(c)` hold the same
data, provenance aside, under the same condition. -/
theorem C09_figments_partial {fa fb fbc g1 x g2 : Fig} {pb pc : Provider} {l1 l2 l3 l4 l5 : Location}
    {c1 c1' c2 c2' c3 c3' c4 c4' c5 c5' : BitVec 64} {a b c : Data}
    (hfa : fa.value = .ok a) (hpb : pb.data = .ok b) (hpc : pc.data = .ok c)
    (ha : a.WF) (hb : b.WF) (hc : c.WF) (pr : Profile)
    (h : ∀ q t t' v, a.at pr q = some (.dict t) → c.at pr q = some (.dict t') →
      b.at pr q ≠ some (.leaf v))
    (e1 : Fig.from pb l1 c1 = (some fb, c1')) (e2 : fb.merge pc l2 c2 = (some fbc, c2'))
    (e3 : fa.merge fbc.toProvider l3 c3 = (some g1, c3'))
    (e4 : fa.merge pb l4 c4 = (some x, c4')) (e5 : x.merge pc l5 c5 = (some g2, c5')) :
    ∃ m1 m2 : Data, g1.value = .ok m1 ∧ g2.value = .ok m2 ∧ ∀ path,
      (m1.at pr path).map Shape.strip = (m2.at pr path).map Shape.strip := by
  obtain ⟨t1, mb, _, v1, w1, _, a1⟩ := Fig.provide_ok (m := []) rfl hpb Data.wf_nil hb e1
  obtain ⟨t2, mbc, _, v2, w2, _, a2⟩ := Fig.provide_ok v1 hpc w1 hc e2
  obtain ⟨t3, m1, _, v3, w3, _, a3⟩ := Fig.provide_ok (p := fbc.toProvider) hfa v2 ha w2 e3
  obtain ⟨t4, mab, _, v4, w4, _, a4⟩ := Fig.provide_ok hfa hpb ha hb e4
  obtain ⟨t5, m2, _, v5, w5, _, a5⟩ := Fig.provide_ok v4 hpc w4 hc e5
  refine ⟨m1, m2, v3, v5, fun path => ?_⟩
  show (m1.at pr).strip path = (m2.at pr).strip path
  simp only [a3, a5, a2, a4, a1, View.strip_coalesce, Data.strip_given]
  have hnil : View.coalesce .Merge (View.strip (Data.at [] pr)) (b.at pr).strip = (b.at pr).strip := by
    funext q
    simp only [View.coalesce, View.merge]
    cases hq : (b.at pr).strip q with
    | some s => rfl
    | none =>
      simp only
      split
      · rfl
      · cases q with
        | nil => simp [View.strip, Data.at_nil] at hq
        | cons k ks => rfl
  rw [hnil]
  refine congrFun (View.merge_assoc (View.tree_strip (Data.tree_at a pr)) ?_) path
  rintro q ⟨t, ht⟩ ⟨t', ht'⟩ v hv
  simp only [View.strip, Option.map_eq_some_iff] at ht ht' hv
  obtain ⟨s1, hs1, hr1⟩ := ht
  obtain ⟨s2, hs2, hr2⟩ := ht'
  obtain ⟨s3, hs3, hr3⟩ := hv
  cases s1 <;> simp [Shape.strip] at hr1
  cases s2 <;> simp [Shape.strip] at hr2
  cases s3 <;> simp [Shape.strip] at hr3
  exact h q _ _ _ hs1 hs2 hs3

/-- The condition holds of data that overlaps at several paths. -/
example : (coalesceProfiles Ex.data1 (coalesceProfiles Ex.data2 Ex.data1 .Merge) .Merge)
    = (coalesceProfiles (coalesceProfiles Ex.data1 Ex.data2 .Merge) Ex.data1 .Merge) := by decide

end Figment
