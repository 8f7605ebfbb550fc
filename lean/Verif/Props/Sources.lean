import Verif.Props.Build
import Verif.Lemmas.Provide
/-!
# C16, C60 and C61, for figments built in any way

The specification is `Build.sources`, `Build.failures` and `Build.Has` (Spec/Build).
-/
namespace Figment

/-- The metadata of a figment that was built while the counter went from `c` to `c'`. -/
structure Map.Within (m : Map Tag Metadata) (c c' : BitVec 64) : Prop where
  le : c.toNat ≤ c'.toNat
  sorted : Map.Sorted m
  ids : ∀ e ∈ m, c.toNat ≤ e.1.metadataId.toNat ∧ e.1.metadataId.toNat < c'.toNat

theorem Map.Within.append {m l : Map Tag Metadata} {c c1 c2 : BitVec 64} (h : Map.Within m c c1) (h' : Map.Within l c1 c2) :
    Map.Within (m ++ l) c c2 where
  le := Nat.le_trans h.le h'.le
  sorted := List.pairwise_append.2 ⟨h.sorted, h'.sorted, fun a ha b hb =>
    Tag.compare_lt_iff.2 (Nat.lt_of_lt_of_le (h.ids a ha).2 (h'.ids b hb).1)⟩
  ids := fun e he => by
    rcases List.mem_append.1 he with he | he
    · exact ⟨(h.ids e he).1, Nat.lt_of_lt_of_le (h.ids e he).2 h'.le⟩
    · exact ⟨Nat.le_trans h.le (h'.ids e he).1, (h'.ids e he).2⟩

theorem Map.Within.next {c c' : BitVec 64} {t : Tag} (h : Tag.next c = (some t, c')) (md : Metadata) :
    Map.Within [(t, md)] c c' := by
  obtain ⟨_, hc, ht, rfl⟩ := Tag.next_some h
  have h1 : (c + 1#64).toNat = c.toNat + 1 := by
    rw [BitVec.toNat_add]
    show (c.toNat + 1) % 2 ^ 64 = _
    omega
  refine ⟨by omega, List.pairwise_singleton _ _, fun e he => ?_⟩
  rw [List.mem_singleton.1 he, ht]
  omega

theorem Map.Within.get_none {m l : Map Tag Metadata} {c c1 c2 : BitVec 64} (h : Map.Within m c c1)
    (h' : Map.Within l c1 c2) {t : Tag} {md : Metadata} (ht : Map.get t l = some md) : Map.get t m = none := by
  cases hm : Map.get t m with
  | none => rfl
  | some md' =>
    obtain ⟨k, hk, hc⟩ := Map.mem_of_get ht
    obtain ⟨k', hk', hc'⟩ := Map.mem_of_get hm
    have e1 : t.metadataId.toNat = k.metadataId.toNat := Nat.compare_eq_eq.1 hc
    have e2 : t.metadataId.toNat = k'.metadataId.toNat := Nat.compare_eq_eq.1 hc'
    have h1 := (h.ids _ hk').2
    have h2 := (h'.ids _ hk).1
    dsimp only at h1 h2
    omega

theorem Map.extend_within {m l : Map Tag Metadata} {c c1 c2 : BitVec 64} (h : Map.Within m c c1)
    (h' : Map.Within l c1 c2) : Map.extend m l = m ++ l := Map.extend_append (h.append h').sorted

theorem Map.insert_within {m : Map Tag Metadata} {c c1 c2 : BitVec 64} (h : Map.Within m c c1) {t : Tag} {md : Metadata}
    (h' : Map.Within [(t, md)] c1 c2) : Map.insert t md m = m ++ [(t, md)] :=
  Map.extend_within h h'

theorem Map.Within.nil {c : BitVec 64} : Map.Within [] c c :=
  ⟨Nat.le_refl _, List.Pairwise.nil, fun _ h => absurd h List.not_mem_nil⟩

/-- What an answer reports, with the metadata the map has for it. -/
def failedBy (md : Map Tag Metadata) : Except Error Data → List ((Kind × List Str) × Option Metadata)
  | .ok _ => []
  | .error e => (Error.items e).map fun y => (y.what, Map.get y.head.tag md)

theorem failedBy_mono {md md' : Map Tag Metadata} {d : Except Error Data} {l : List ((Kind × List Str) × Metadata)}
    (h : failedBy md d = l.map fun x => (x.1, some x.2))
    (hm : ∀ t x, Map.get t md = some x → Map.get t md' = some x) :
    failedBy md' d = l.map fun x => (x.1, some x.2) := by
  cases d with
  | ok n => exact h
  | error e =>
    rw [← h]
    refine List.map_congr_left fun y hy => ?_
    have : (y.what, Map.get y.head.tag md) ∈ failedBy md (.error e) := List.mem_map.2 ⟨y, hy, rfl⟩
    rw [h] at this
    obtain ⟨x, _, hx⟩ := List.mem_map.1 this
    have hg : Map.get y.head.tag md = some x.2 := (congrArg Prod.snd hx).symm
    rw [hg, hm _ _ hg]

theorem firstThen_map {α β : Type} (g : α → β) (a b : List α) :
    (firstThen a b).map g = firstThen (a.map g) (b.map g) := by
  cases a <;> cases b <;> rfl

theorem failedBy_chain (md : Map Tag Metadata) (e prev : Error) :
    failedBy md (.error (e.chain prev)) = firstThen (failedBy md (.error prev)) (failedBy md (.error e)) := by
  cases prev <;> cases e <;> rfl

/-- Combining an answer whose errors need no tag, or are one alone and get the tag. -/
theorem failedBy_combine (md : Map Tag Metadata) (tag : Tag) (o : Order) (d v : Except Error Data) (e' : Error → Error)
    (he : ∀ e, d = .error e → e.retagged tag = e' e) :
    failedBy md (Fig.combine tag o d v) = firstThen (failedBy md v)
      (failedBy md (match (generalizing := false) d with | .ok n => .ok n | .error e => .error (e' e))) := by
  cases d with
  | ok n =>
    cases v with
    | ok m => rfl
    | error e => cases e <;> rfl
  | error e =>
    cases v with
    | ok m => rw [Fig.combine, he e rfl]; rfl
    | error prev =>
      rw [Fig.combine, he e rfl, failedBy_chain]

theorem Error.retagged_of_named {tag : Tag} {e : Error} (h : e.head.tag.isDefault = false) : e.retagged tag = e := by
  rw [Error.retagged, h]
  rfl

theorem failedBy_resolved (md md' : Map Tag Metadata) (pr : Profile) (e : Error) :
    failedBy md (.error (e.resolved md' pr)) = failedBy md (.error e) := by
  induction e with
  | last h => rfl
  | cons h p ih => exact congrArg (_ :: ·) ih

theorem failedBy_head {md : Map Tag Metadata} {e : Error} {l : List ((Kind × List Str) × Metadata)}
    (h : failedBy md (.error e) = l.map fun x => (x.1, some x.2)) : ∃ x, Map.get e.head.tag md = some x := by
  have hm : (e.what, Map.get e.head.tag md) ∈ failedBy md (.error e) := by
    cases e <;> exact List.mem_cons_self
  rw [h] at hm
  obtain ⟨x, _, hx⟩ := List.mem_map.1 hm
  exact ⟨x.2, (congrArg Prod.snd hx).symm⟩

theorem Map.Within.not_default {m : Map Tag Metadata} {c c' : BitVec 64} (h : Map.Within m c c') (hc : 0 < c.toNat)
    {t : Tag} {x : Metadata} (ht : Map.get t m = some x) : t.isDefault = false := by
  obtain ⟨k, hk, he⟩ := Map.mem_of_get ht
  have e1 : t.metadataId.toNat = k.metadataId.toNat := Nat.compare_eq_eq.1 he
  have h1 := (h.ids _ hk).1
  dsimp only at h1
  cases hd : t.isDefault with
  | false => rfl
  | true =>
    have : t = Tag.Default := by
      simp only [Tag.isDefault, beq_iff_eq] at hd
      cases t
      exact congrArg Tag.mk hd
    rw [this, Tag.default_metadataId] at e1
    simp at e1
    omega

/-- One call: where the metadata goes, and what is reported. -/
theorem Fig.provide_sources {f g : Fig} {p : Provider} {o : Order} {loc : Location} {c c1 c2 c' : BitVec 64}
    (mp : Map Tag Metadata) (hf : Map.Within f.metadata c c1) (hmp : Map.Within mp c1 c2)
    (hp : p.metadataMap = some mp ∨ p.metadataMap = none ∧ mp = [])
    (h : f.provide p o loc c2 = (some g, c')) :
    ∃ tag, Tag.next c2 = (some tag, c') ∧
      g.metadata = f.metadata ++ mp ++ [(tag, { p.metadata with provideLocation := some loc })] ∧
      Map.Within g.metadata c c' ∧ g.value = Fig.combine tag o p.data f.value := by
  obtain ⟨tag, ht, rfl⟩ := Fig.provide_eq_some h
  have hn := Map.Within.next ht { p.metadata with provideLocation := some loc }
  have hb := hf.append hmp
  have he : (match p.metadataMap with
      | some map => Map.extend f.metadata map
      | none => f.metadata) = f.metadata ++ mp := by
    rcases hp with hp | ⟨hp, rfl⟩
    · rw [hp]; exact Map.extend_within hf hmp
    · rw [hp]; exact (List.append_nil _).symm
  have hg : (f.provideWith p o loc tag).metadata
      = f.metadata ++ mp ++ [(tag, { p.metadata with provideLocation := some loc })] := by
    show Map.insert tag _ (match p.metadataMap with
      | some map => Map.extend f.metadata map
      | none => f.metadata) = _
    rw [he]
    exact Map.insert_within hb hn
  exact ⟨tag, ht, hg, hg ▸ hb.append hn, rfl⟩

theorem Build.make_sources : ∀ (b : Build) {c c' : BitVec 64} {f : Fig}, b.Ordinary → b.make c = (some f, c') →
    Map.Within f.metadata c c' ∧ f.metadataList = b.sources ∧
    (0 < c.toNat → failedBy f.metadata f.value = b.failures.map fun x => (x.1, some x.2))
  | .new, c, c', f, _, h => by
    cases h
    exact ⟨.nil, rfl, fun _ => rfl⟩
  | .add b x, c, c', f, ho, h => by
    rw [Build.make] at h
    cases hb : b.make c with
    | mk g c1 =>
      rw [hb] at h
      cases g with
      | none => cases h
      | some g =>
        obtain ⟨h1, h2, h3⟩ := Build.make_sources b ho.1 hb
        obtain ⟨tag, ht, hg, hw, hv⟩ := Fig.provide_sources [] h1 .nil (.inr ⟨ho.2.1, rfl⟩) h
        rw [List.append_nil] at hg
        refine ⟨hw, ?_, fun hc => ?_⟩
        · rw [Fig.metadataList, hg, List.map_append, ← Fig.metadataList, h2]
          rfl
        · have hn := Map.Within.next ht { x.provider.metadata with provideLocation := some x.loc }
          have hold : failedBy f.metadata g.value = b.failures.map fun x => (x.1, some x.2) :=
            failedBy_mono (h3 hc) fun t y hy => by rw [hg, Map.get_append, hy]; rfl
          rw [hv, failedBy_combine f.metadata tag x.order x.provider.data g.value (·.retagged tag) (fun _ _ => rfl),
            hold, Build.failures, firstThen_map]
          congr 1
          cases hd : x.provider.data with
          | ok n => rfl
          | error e =>
            obtain ⟨hp, hq⟩ := ho.2.2 e hd
            cases e with
            | cons h p => cases hp
            | last h =>
              have hq : h.tag = Tag.Default := hq
              have hr : (Error.last h).retagged tag = .last { h with tag := tag } := by
                rw [Error.retagged]
                show (if h.tag.isDefault then _ else _) = _
                rw [hq]
                rfl
              dsimp only
              rw [hr]
              have hget : Map.get tag f.metadata
                  = some { x.provider.metadata with provideLocation := some x.loc } := by
                have hs : Map.get tag [(tag, ({ x.provider.metadata with provideLocation := some x.loc } : Metadata))]
                    = some { x.provider.metadata with provideLocation := some x.loc } := by
                  rw [Map.get, if_pos (Std.ReflCmp.compare_self)]
                rw [hg, Map.get_append, h1.get_none hn hs, hs]
                rfl
              show [(_, Map.get tag f.metadata)] = _
              rw [hget]
              rfl
  | .put b o other loc, c, c', f, ho, h => by
    rw [Build.make] at h
    cases hb : b.make c with
    | mk g c1 =>
      rw [hb] at h
      cases g with
      | none => cases h
      | some g =>
        dsimp only at h
        cases hoo : other.make c1 with
        | mk g' c2 =>
          rw [hoo] at h
          cases g' with
          | none => cases h
          | some g' =>
            obtain ⟨h1, h2, h3⟩ := Build.make_sources b ho.1 hb
            obtain ⟨k1, k2, k3⟩ := Build.make_sources other ho.2 hoo
            obtain ⟨tag, ht, hg, hw, hv⟩ := Fig.provide_sources g'.metadata h1 k1 (.inl rfl) h
            refine ⟨hw, ?_, fun hc => ?_⟩
            · rw [Fig.metadataList, hg, List.map_append, List.map_append]
              show g.metadataList ++ g'.metadataList ++ _ = _
              rw [h2, k2]
              rfl
            · have hc1 : 0 < c1.toNat := Nat.lt_of_lt_of_le hc h1.le
              have k3 := k3 hc1
              have hold : failedBy f.metadata g.value = b.failures.map fun x => (x.1, some x.2) :=
                failedBy_mono (h3 hc) fun t y hy => by rw [hg, Map.get_append, Map.get_append, hy]; rfl
              have hnew : failedBy f.metadata g'.value = other.failures.map fun x => (x.1, some x.2) :=
                failedBy_mono k3 fun t y hy => by
                  rw [hg, Map.get_append, Map.get_append, h1.get_none k1 hy, hy]; rfl
              rw [hv, failedBy_combine f.metadata tag o g'.toProvider.data g.value id, hold, Build.failures,
                firstThen_map]
              · congr 1
                show failedBy f.metadata (match (generalizing := false) g'.value with
                  | .ok n => .ok n | .error e => .error e) = _
                rw [← hnew]
                cases g'.value <;> rfl
              · intro e he
                have he : g'.value = .error e := he
                rw [he] at k3
                obtain ⟨y, hy⟩ := failedBy_head k3
                exact Error.retagged_of_named (k1.not_default hc1 hy)
  | .select b p, c, c', f, ho, h => by
    rw [Build.make] at h
    cases hb : b.make c with
    | mk g c1 =>
      rw [hb] at h
      cases g with
      | none => cases h
      | some g =>
        cases h
        have := Build.make_sources b ho hb
        exact this
  | .focus b key, c, c', f, ho, h => by
    rw [Build.make] at h
    cases hb : b.make c with
    | mk g c1 =>
      rw [hb] at h
      cases g with
      | none => cases h
      | some g =>
        cases h
        obtain ⟨h1, h2, h3⟩ := Build.make_sources b ho hb
        refine ⟨h1, h2, fun hc => ?_⟩
        rw [Build.failures, ← h3 hc, Fig.focus, Fig.resolvedValue]
        cases g.value with
        | ok m => rfl
        | error e => exact failedBy_resolved _ _ _ e

/-- **C61**, exactly: `metadata()` of a figment built in any way. -/
theorem C61_built (b : Build) (hb : b.Ordinary) (c c' : BitVec 64) (f : Fig) (h : b.make c = (some f, c')) :
    f.metadataList = b.sources := (Build.make_sources b hb h).2.1

/-- **C16**, exactly: each of the errors that are reported by a figment built in any way, with the provider it names. -/
theorem C16_built (b : Build) (hb : b.Ordinary) (c c' : BitVec 64) (hc : 0 < c.toNat) (f : Fig)
    (h : b.make c = (some f, c')) (e : Error) (he : f.merged = .error e) (l : List Error)
    (hl : Error.Yields (some e) l) :
    l.map (fun y => (y.what, y.head.metadata)) = b.failures.map fun x => (x.1, some x.2) := by
  have h3 := (Build.make_sources b hb h).2.2 hc
  rw [← h3]
  cases hv : f.value with
  | ok m =>
    rw [Fig.merged, Fig.resolvedValue, hv] at he
    cases he
  | error e0 =>
    rw [Fig.merged, Fig.resolvedValue, hv] at he
    cases he
    rw [Error.yields_iff.1 hl, Error.items_resolved, List.map_map]
    refine List.map_congr_left fun y hy => ?_
    cases y with
    | last h => rfl
    | cons h p =>
      exfalso
      clear hl hv h3
      induction e0 with
      | last h' => cases List.mem_singleton.1 hy
      | cons h' p' ih =>
        rcases List.mem_cons.1 hy with hy | hy
        · cases hy
        · exact ih hy

/-! ## C60 -/

theorem Fig.provide_has {f g : Fig} {p : Provider} {o : Order} {loc : Location} {c c' : BitVec 64} {m n m' : Data}
    (hf : f.value = .ok m) (hp : p.data = .ok n) (hm : m.WF) (hn : n.WF) (h : f.provide p o loc c = (some g, c'))
    (hg : g.value = .ok m') (pr : Profile) :
    (Map.get pr m').isSome = true ↔ (Map.get pr m).isSome = true ∨ (Map.get pr n).isSome = true := by
  obtain ⟨tag, _, rfl⟩ := Fig.provide_eq_some h
  simp only [Fig.provideWith, hf, hp, Fig.combine, Except.ok.injEq] at hg
  subst hg
  rw [coalesceProfiles, Map.get_coalesce _ hm.1 (Fig.wf_retagData tag hn).1, Fig.get_retagData]
  cases Map.get pr m <;> cases Map.get pr n <;> simp [optCombine]

theorem Data.focus_has {m : Data} (hm : m.WF) (key : Str) (pr : Profile) :
    (Map.get pr (m.focus key)).isSome = true ↔ (Map.get pr m).isSome = true ∧
      (m.at pr).strip (pathKeys key) = some (.dict Tag.Default) := by
  rw [Data.get_focus hm, View.strip, Data.at, Data.dictOf]
  cases Map.get pr m with
  | none => simp
  | some d =>
    rw [Option.bind_some, Fig.focusDict_eq, Option.getD_some]
    have hv := Value.view_append (.dict Tag.Default d) (pathKeys key) []
    rw [List.append_nil] at hv
    rw [hv]
    cases (Value.dict Tag.Default d).getKeys (pathKeys key) with
    | none => simp
    | some w => cases w <;> simp [Value.asDict?, Value.view, Value.shape, Shape.strip]

theorem Build.make_has : ∀ (b : Build) {c c' : BitVec 64} {f : Fig}, b.make c = (some f, c') → b.Fine →
    ∀ m, f.value = .ok m → ∀ pr, (Map.get pr m).isSome = true ↔ b.Has pr
  | .new, c, c', f, h, _, m, hm, pr => by
    cases h
    cases hm
    exact ⟨fun h => by simp [Map.get] at h, fun h => h.elim⟩
  | .add b x, c, c', f, h, hf, m, hm, pr => by
    rw [Build.make] at h
    cases hb : b.make c with
    | mk g c1 =>
      rw [hb] at h
      cases g with
      | none => cases h
      | some g =>
        have hfb : b.Fine := fun d hd => hf d (by simp [Build.answers, hd])
        obtain ⟨_, m0, hm0, hw0, _⟩ := Build.make_view b hb hfb
        obtain ⟨n, hn, hnw⟩ := hf x.provider.data (by simp [Build.answers])
        rw [Fig.provide_has hm0 hn hw0 hnw h hm, Build.make_has b hb hfb m0 hm0, ← Map.mem_keys_same, Build.Has, hn]
        simp
  | .put b o other loc, c, c', f, h, hf, m, hm, pr => by
    rw [Build.make] at h
    cases hb : b.make c with
    | mk g c1 =>
      rw [hb] at h
      cases g with
      | none => cases h
      | some g =>
        dsimp only at h
        cases ho : other.make c1 with
        | mk g' c2 =>
          rw [ho] at h
          cases g' with
          | none => cases h
          | some g' =>
            have hfb : b.Fine := fun d hd => hf d (by simp [Build.answers, hd])
            have hfo : other.Fine := fun d hd => hf d (by simp [Build.answers, hd])
            obtain ⟨_, m0, hm0, hw0, _⟩ := Build.make_view b hb hfb
            obtain ⟨_, n, hn, hnw, _⟩ := Build.make_view other ho hfo
            rw [Fig.provide_has (p := g'.toProvider) hm0 hn hw0 hnw h hm, Build.make_has b hb hfb m0 hm0,
              Build.make_has other ho hfo n hn, Build.Has]
  | .select b p, c, c', f, h, hf, m, hm, pr => by
    rw [Build.make] at h
    cases hb : b.make c with
    | mk g c1 =>
      rw [hb] at h
      cases g with
      | none => cases h
      | some g =>
        cases h
        exact Build.make_has b hb hf m hm pr
  | .focus b key, c, c', f, h, hf, m, hm, pr => by
    rw [Build.make] at h
    cases hb : b.make c with
    | mk g c1 =>
      rw [hb] at h
      cases g with
      | none => cases h
      | some g =>
        cases h
        obtain ⟨_, m0, hm0, hw0, hat⟩ := Build.make_view b hb hf
        rw [Fig.focus_value_ok hm0 hw0 key] at hm
        cases hm
        rw [Data.focus_has hw0, Build.make_has b hb hf m0 hm0, Build.Has, hat]

/-- **C60**, for figments built in any way: `profiles()` is in strictly increasing case-insensitive order, and has exactly
the profiles there is data for. -/
theorem C60_built (b : Build) (hb : b.Fine) (c c' : BitVec 64) (f : Fig) (h : b.make c = (some f, c')) :
    f.profiles.Pairwise (fun p q => compare (Str.lower p.name) (Str.lower q.name) = .lt) ∧
    ∀ pr : Profile, (∃ q ∈ f.profiles, q.same pr = true) ↔ b.Has pr := by
  obtain ⟨_, m, hm, hw, _⟩ := Build.make_view b h hb
  rw [Fig.profiles, hm]
  refine ⟨?_, fun pr => (Map.mem_keys_same pr m).trans (Build.make_has b h hb m hm pr)⟩
  show List.Pairwise _ (m.map (·.1))
  rw [List.pairwise_map]
  exact hw.1

/-! ## Example -/

/-- A provider of the name that fails. -/
def Ex.named (x : String) : Call :=
  ⟨.Merge, Provider.plain (Metadata.named (str x)) (.error (Error.ofKind (.message (str "no " ++ str x)))), Ex.loc⟩

/-- Of four failing providers, two of a figment put into another that is focused, three are named, of five that are listed. -/
def Ex.four : Build :=
  .put (.add (.add .new (Ex.named "a")) (Ex.named "b")) .Join
    (.focus (.add (.add .new (Ex.named "x")) (Ex.named "y")) (str "k")) Ex.loc

example : Ex.four.Ordinary := by
  refine ⟨⟨⟨trivial, rfl, ?_⟩, rfl, ?_⟩, ⟨⟨trivial, rfl, ?_⟩, rfl, ?_⟩⟩ <;>
    (intro e he; cases he; exact ⟨rfl, rfl⟩)

example : Ex.four.sources.map (·.name) = [str "a", str "b", str "x", str "y", Metadata.Default.name] := rfl
example : Ex.four.failures.map (·.2.name) = [str "a", str "x", str "y"] := rfl

example : ∃ f c', Ex.four.make 1#64 = (some f, c') ∧ ∃ e, f.merged = .error e ∧ e.count = 3 :=
  ⟨_, _, rfl, _, rfl, rfl⟩

/-- Focusing leaves the profiles that have a dictionary at the key. -/
example : ∃ f c', Ex.part.make 1#64 = (some f, c') ∧ f.profiles = [Profile.Default] := ⟨_, _, rfl, rfl⟩

end Figment
