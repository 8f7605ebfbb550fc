import Verif.Lemmas.Reads
import Verif.Lemmas.Part
import Verif.Lemmas.Merged
import Verif.Props.Origin
import Verif.Props.Layer
import Verif.Props.History
import Verif.Props.Extract
/-!
# C47: what extraction depends on; C22 for extraction
-/
namespace Figment
variable [FloatOps]

omit [FloatOps] in
theorem ErrorHead.Alike.eq_of_eq {a b : ErrorHead} (h : a.Alike (· = ·) b) : a = b := by
  obtain ⟨t, p, m, q, k⟩ := a
  obtain ⟨t', p', m', q', k'⟩ := b
  obtain ⟨h1, h2, h3, h4, h5⟩ := h
  have : p = p' := by cases h2 with
    | none => rfl
    | some h => exact congrArg some h
  cases h1; cases this; cases h3; cases h4; cases h5
  rfl

omit [FloatOps] in
theorem Error.Alike.eq_of_eq {a b : Error} (h : a.Alike (· = ·) b) : a = b := by
  induction h with
  | last h => rw [h.eq_of_eq]
  | cons h _ ih => rw [h.eq_of_eq, ih]

/-- What a type gives depends only on the part of the value it reads, the selected profile, and the metadata of the
tags in that part. -/
theorem Ty.de_congr {same : Tag → Bool} {f g : Fig} (a : Agree (· = ·) same f g) (t : Ty) {v w : Value}
    (h : t.part v = t.part w) (ht : (t.part v).tagsAll same = true) (l : Bool) :
    t.de ⟨some f, l⟩ v = t.de ⟨some g, l⟩ w := by
  rw [Ty.de_part t v, Ty.de_part t w, ← h]
  exact (Ty.reads a t l _ ht).elim (fun _ _ h => by rw [h.1.eq_of_eq]) fun _ => rfl

/-! ## C47 -/

/-- **C47**: the result of `extract` depends only on the part of the merged data that the type reads (`Ty.part`: of a
struct its fields), and, for errors and magic values, on the selected profile and the metadata of the values read.
What is not read, at any depth, does not matter. -/
theorem C47_part (f g : Fig) (t : Ty) (v w : Value) (hf : f.merged = .ok v) (hg : g.merged = .ok w)
    (hpart : t.part v = t.part w) (hprofile : f.profile = g.profile)
    (known : Tag → Bool) (hdflt : known Tag.Default = true) (hknown : (t.part v).tagsAll known = true)
    (hmeta : ∀ tag, known tag = true → f.getMetadata tag = g.getMetadata tag) :
    f.extract t = g.extract t ∧ f.extractLossy t = g.extractLossy t := by
  have a : Agree (· = ·) known f g := ⟨hprofile, hmeta, hdflt, fun _ => rfl⟩
  rw [Fig.extract, Fig.extractWith, hf, Fig.extract, Fig.extractWith, hg, Fig.extractLossy, Fig.extractWith, hf,
    Fig.extractLossy, Fig.extractWith, hg]
  exact ⟨Ty.de_congr a t hpart hknown false, Ty.de_congr a t hpart hknown true⟩

/-- The same for `extract_inner`. -/
theorem C47_part_inner (f g : Fig) (t : Ty) (path : Str) (v w : Value)
    (hf : f.findValue path = .ok v) (hg : g.findValue path = .ok w)
    (hpart : t.part v = t.part w) (hprofile : f.profile = g.profile)
    (known : Tag → Bool) (hdflt : known Tag.Default = true) (hknown : (t.part v).tagsAll known = true)
    (hmeta : ∀ tag, known tag = true → f.getMetadata tag = g.getMetadata tag) :
    f.extractInner path t = g.extractInner path t ∧ f.extractInnerLossy path t = g.extractInnerLossy path t := by
  have a : Agree (· = ·) known f g := ⟨hprofile, hmeta, hdflt, fun _ => rfl⟩
  rw [Fig.extractInner, Fig.extractInnerWith, hf, Fig.extractInner, Fig.extractInnerWith, hg, Fig.extractInnerLossy,
    Fig.extractInnerWith, hf, Fig.extractInnerLossy, Fig.extractInnerWith, hg]
  dsimp only
  rw [De.strict, De.lossyOf, Ty.de_congr a t hpart hknown false, Ty.de_congr a t hpart hknown true]
  exact ⟨rfl, rfl⟩

omit [FloatOps] in
theorem Ty.struct_part_eq {n name : Str} {fs : List (Str × Option Val × Ty)} (hn : magicNames.contains name = false)
    {tag : Tag} {d d' : Dict} (hd : Map.Sorted d) (hd' : Map.Sorted d')
    (h : ∀ k ∈ fs.map (·.1), Map.get k d = Map.get k d') :
    (Ty.struct n name false fs).part (.dict tag d) = (Ty.struct n name false fs).part (.dict tag d') := by
  rw [Ty.part, Ty.part, hn]
  simp only [Bool.or_self, Bool.false_eq_true, if_false]
  rw [Dict.part_congr hd hd' fun k => ?_]
  by_cases hk : k ∈ fs.map (·.1)
  · exact .inr (h k hk)
  · exact .inl (Ty.partFields_none hk)

omit [FloatOps] in
theorem Ty.struct_part_tags {n name : Str} {fs : List (Str × Option Val × Ty)} (hn : magicNames.contains name = false)
    {tag : Tag} {d : Dict} (hd : Map.Sorted d) {P : Tag → Bool} (htag : P tag = true)
    (h : ∀ k ∈ fs.map (·.1), ∀ v, Map.get k d = some v → v.tagsAll P = true) :
    ((Ty.struct n name false fs).part (.dict tag d)).tagsAll P = true := by
  rw [Ty.part, hn]
  simp only [Bool.or_self, Bool.false_eq_true, if_false]
  rw [Value.tagsAll, Bool.and_eq_true]
  refine ⟨htag, Dict.tagsAll_part fun e he w hw => ?_⟩
  refine Ty.partFields_tagsAll fs e.1 e.2 w (h e.1 ?_ e.2 (Map.get_eq_some_of_mem hd he)) hw
  refine Decidable.byContradiction fun hk => ?_
  rw [Ty.partFields_none hk] at hw
  cases hw

/-- **C47**: extracting a struct depends only on its fields. If two figments have the same selected profile, the same
values at the struct's fields, and the same metadata for these values, `extract` and `extract_lossy` have the same
result, value or error. Other keys may differ: unknown keys are ignored. -/
theorem C47_extract (f g : Fig) (n name : Str) (hname : magicNames.contains name = false)
    (fs : List (Str × Option Val × Ty)) (d d' : Dict) (hd : d.WF) (hd' : d'.WF)
    (hf : f.merged = .ok (.dict Tag.Default d)) (hg : g.merged = .ok (.dict Tag.Default d'))
    (hfields : ∀ k ∈ fs.map (·.1), Map.get k d = Map.get k d') (hprofile : f.profile = g.profile)
    (known : Tag → Bool) (hdflt : known Tag.Default = true)
    (hknown : ∀ k ∈ fs.map (·.1), ∀ v, Map.get k d = some v → v.tagsAll known = true)
    (hmeta : ∀ tag, known tag = true → f.getMetadata tag = g.getMetadata tag) :
    f.extract (.struct n name false fs) = g.extract (.struct n name false fs) ∧
    f.extractLossy (.struct n name false fs) = g.extractLossy (.struct n name false fs) := by
  have hs := (Dict.wf_iff.1 hd).1
  exact C47_part f g _ _ _ hf hg (Ty.struct_part_eq hname hs (Dict.wf_iff.1 hd').1 hfields) hprofile known hdflt
    (Ty.struct_part_tags hname hs hdflt hknown) hmeta

/-- `Ex.valFig` with keys `Ex.ty` does not have, from another provider. -/
def Ex.valFig2 : Fig :=
  ⟨Profile.Default, [(⟨9⟩, Metadata.named (str "nine"))], .ok [(Profile.Default,
    [(str "a", .num ⟨1⟩ (.i16 (-300#16))), (str "b", .bool ⟨9⟩ true),
     (str "flags", .array ⟨1⟩ [.bool ⟨1⟩ true, .bool ⟨1⟩ false]),
     (str "mode", .dict ⟨1⟩ [(str "Level", .num ⟨1⟩ (.u64 7#64)), (str "Off", .string ⟨9⟩ (str "x"))]),
     (str "z", .array ⟨9⟩ [])])]⟩

/-- The parts agree (of `mode`, only the first entry counts), though the data does not. -/
example : ∃ v w, Ex.valFig.merged = .ok v ∧ Ex.valFig2.merged = .ok w ∧ Ex.ty.part v = Ex.ty.part w ∧
    (Ex.ty.part v).tagsAll (fun t => t == Tag.Default || t == ⟨1⟩) = true ∧ Ex.valFig.profile = Ex.valFig2.profile ∧
    v.asDict?.map List.length ≠ w.asDict?.map List.length :=
  ⟨_, _, rfl, rfl, rfl, by decide, rfl, by decide⟩

/-- Two fields of `Ex.ty`, for `C47_extract`. -/
example : ∃ d d' : Dict, Ex.valFig.merged = .ok (.dict Tag.Default d) ∧ Ex.valFig2.merged = .ok (.dict Tag.Default d') ∧
    d.WF ∧ d'.WF ∧ (∀ k ∈ [str "a", str "flags"], Map.get k d = Map.get k d') ∧
    (∀ k ∈ [str "a", str "flags"], ∀ v, Map.get k d = some v →
      v.tagsAll (fun t => t == Tag.Default || t == ⟨1⟩) = true) := by
  refine ⟨_, _, rfl, rfl, by decide, by decide, ?_, ?_⟩
  · intro k hk
    rcases List.mem_cons.1 hk with rfl | hk
    · rfl
    rcases List.mem_cons.1 hk with rfl | hk
    · rfl
    · cases hk
  · intro k hk v hv
    rcases List.mem_cons.1 hk with rfl | hk
    · cases hv; decide
    rcases List.mem_cons.1 hk with rfl | hk
    · cases hv; decide
    · cases hk

/-- A struct that denies unknown fields does depend on the other keys. -/
example : (Ex.valFig.extract (.struct (str "C") (str "C") true [(str "a", none, .int .i16)])).isOk =
    (Ex.valFig2.extract (.struct (str "C") (str "C") true [(str "a", none, .int .i16)])).isOk ∧
    (Ex.valFig.extract (.struct (str "C") (str "C") true
      [(str "a", none, .int .i16), (str "flags", none, .value), (str "mode", none, .value)])).isOk ≠
    (Ex.valFig2.extract (.struct (str "C") (str "C") true
      [(str "a", none, .int .i16), (str "flags", none, .value), (str "mode", none, .value)])).isOk :=
  ⟨rfl, fun h => by cases h⟩

/-! Freshness: the tag of a new `provide` call is on nothing that exists. -/

omit [FloatOps] in
theorem Proc.fresh_default {steps : List Step} (h : steps.countP Step.isObtain < 2 ^ 64)
    (hp : ∀ s ∈ steps, s.Plain) {t : Tag} (ht : t ∈ (Proc.exec steps).pending) : (!Tag.Default.same t) = true := by
  have hI := Proc.exec_inv steps h hp
  have hn := ((Proc.exec_tags steps h).names t (hI.pending_obtained t ht)).1
  rw [Tag.same_comm]; simpa [Tag.named] using hn

omit [FloatOps] in
theorem Proc.fresh_data {steps : List Step} (h : steps.countP Step.isObtain < 2 ^ 64)
    (hp : ∀ s ∈ steps, s.Plain) {x : Made} (hx : x ∈ (Proc.exec steps).made) {t : Tag}
    (ht : t ∈ (Proc.exec steps).pending) {m : Data} (hm : x.fig.value = .ok m) : m.tagsAll fun tag => !tag.same t := by
  have hI := Proc.exec_inv steps h hp
  have hi := hI.made x hx
  refine (hi.tags m hm).tagsAll (hi.wf m hm) fun pr e he _ => ?_
  have h2 := hI.pending_fresh t ht x hx e he
  have h3 := Tag.same_forProfile e.tag pr
  simp only [Tag.same, Bool.not_eq_true', beq_iff_eq, beq_eq_false_iff_ne] at h2 h3 ⊢
  intro h4
  exact h2 (h3.symm.trans h4)

/-- **C47**, over histories: adding a provider, with any strategy, whose data has none of the struct's fields in any
profile leaves the result of extracting the struct as it was, value or error. (The provider selects no profile and
brings no metadata of others, as all but figments do.) -/
theorem C47_provide (steps : List Step) (h : steps.countP Step.isObtain < 2 ^ 64) (hp : ∀ s ∈ steps, s.Plain)
    (x : Made) (hx : x ∈ (Proc.exec steps).made) (t : Tag) (ht : t ∈ (Proc.exec steps).pending)
    (p : Provider) (data : Data) (hdata : p.data = .ok data) (hwf : data.WF) (hpr : p.profile = none)
    (hmm : p.metadataMap = none) (o : Order) (loc : Location) (n name : Str)
    (hname : magicNames.contains name = false) (fs : List (Str × Option Val × Ty))
    (hother : ∀ pr, ∀ k ∈ fs.map (·.1), Map.get k (data.dictOf pr) = none) :
    (x.fig.provideWith p o loc t).extract (.struct n name false fs) = x.fig.extract (.struct n name false fs) ∧
    (x.fig.provideWith p o loc t).extractLossy (.struct n name false fs) =
      x.fig.extractLossy (.struct n name false fs) := by
  have hI := Proc.exec_inv steps h hp
  have hi := hI.made x hx
  have hprofile : (x.fig.provideWith p o loc t).profile = x.fig.profile := by simp only [Fig.provideWith, hpr]
  have hmeta : ∀ tag, (!tag.same t) = true →
      (x.fig.provideWith p o loc t).getMetadata tag = x.fig.getMetadata tag := by
    intro tag hs
    have hne : compare tag t ≠ .eq := fun hc => by rw [Tag.compare_eq_iff_same.1 hc] at hs; cases hs
    simp only [Fig.getMetadata, Fig.provideWith, hmm, Map.get_insert, if_neg hne]
  cases hv : x.fig.value with
  | error e =>
    have hgv : (x.fig.provideWith p o loc t).value = .error e := by
      simp only [Fig.provideWith, hdata, hv, Fig.combine]
    have hm : (x.fig.provideWith p o loc t).merged = x.fig.merged := by
      rw [Fig.merged, Fig.merged, Fig.resolvedValue, Fig.resolvedValue, hgv, hv, hprofile]
      simp only
      rw [Error.resolved_congr e]
      intro z hz
      obtain ⟨en, hen, _, h1, _⟩ := hi.errors e hv z hz
      rw [h1]
      refine hmeta _ ?_
      rw [hI.pending_fresh t ht x hx en hen]; rfl
    have hme : x.fig.merged = .error (e.resolved x.fig.metadata x.fig.profile) := by
      rw [Fig.merged, Fig.resolvedValue, hv]
    rw [Fig.extract, Fig.extractWith, hm, Fig.extract, Fig.extractWith, hme, Fig.extractLossy, Fig.extractWith, hm,
      Fig.extractLossy, Fig.extractWith, hme]
    exact ⟨rfl, rfl⟩
  | ok m =>
    have hgv : (x.fig.provideWith p o loc t).value = .ok (coalesceProfiles m (Fig.retagData t data) o) := by
      simp only [Fig.provideWith, hdata, hv, Fig.combine]
    have wm := hi.wf m hv
    have wn := Fig.wf_retagData t hwf
    obtain ⟨d, hd1, hd2, hd3, hd4⟩ := Fig.merged_spec hv wm
    obtain ⟨d', hd1', hd2', hd3', -⟩ := Fig.merged_spec hgv (Data.wf_coalesce wm wn o)
    have hget : ∀ k ∈ fs.map (·.1), Map.get k d' = Map.get k d := by
      intro k hk
      rw [hd3', hd3, hprofile]
      congr 1
      funext pr
      rw [Data.dictOf_coalesce wm wn, Dict.get_coalesce (Dict.wf_iff.1 (wm.dictOf pr)).1 (Dict.wf_iff.1 (wn.dictOf pr)).1,
        Data.dictOf_retag, Value.get_mapTagD, hother pr k hk]
      cases Map.get k (m.dictOf pr) <;> rfl
    refine C47_extract _ _ n name hname fs d' d hd2' hd2 hd1' hd1 hget hprofile (fun tag => !tag.same t)
      (Proc.fresh_default h hp ht) (fun k hk v hg => ?_) hmeta
    rw [hget k hk] at hg
    exact Value.tagsAll_of_get (Value.tagsAllD_iff.1 (hd4 _ (Proc.fresh_data h hp hx ht hv))) hg

/-- A struct with fields `a` and `x`, and the provider of `data2`, which has neither at the top. -/
example : ∃ x t, (Proc.exec (Ex.steps ++ [.obtain])).made[1]? = some x ∧
    t ∈ (Proc.exec (Ex.steps ++ [.obtain])).pending ∧ Ex.prov2.data = .ok Ex.data2 ∧ Ex.data2.WF ∧
    ∀ pr, ∀ k ∈ [str "a", str "x"], Map.get k (Data.dictOf Ex.data2 pr) = none := by
  refine ⟨_, _, rfl, List.mem_singleton.2 rfl, rfl, Ex.data2_wf, fun pr k hk => ?_⟩
  have hall : ∀ e ∈ Ex.data2, Map.get k e.2 = none := by
    rcases List.mem_cons.1 hk with rfl | hk
    · decide
    rcases List.mem_cons.1 hk with rfl | hk
    · decide
    · cases hk
  unfold Data.dictOf
  cases hg : Map.get pr Ex.data2 with
  | none => rfl
  | some d =>
    obtain ⟨k', hm, _⟩ := Map.mem_of_get hg
    exact hall _ hm

/-! ## C22 -/

/-- **C22**: `Figment::from(y)` extracts to what `y` extracts to, value or error, for every type. -/
theorem C22_from_extract (steps : List Step) (h : steps.countP Step.isObtain < 2 ^ 64)
    (hp : ∀ s ∈ steps, s.Plain) (y : Made) (hy : y ∈ (Proc.exec steps).made)
    (t : Tag) (ht : t ∈ (Proc.exec steps).pending) (loc : Location) (g : Fig)
    (hg : g = Fig.new.provideWith y.fig.toProvider .Merge loc t) (ty : Ty) :
    g.extract ty = y.fig.extract ty ∧ g.extractLossy ty = y.fig.extractLossy ty ∧
    ∀ path, g.extractInner path ty = y.fig.extractInner path ty ∧
      g.extractInnerLossy path ty = y.fig.extractInnerLossy path ty := by
  have hI := Proc.exec_inv steps h hp
  have hiy := hI.made y hy
  obtain ⟨-, hprofile, hmerged, hfind, -⟩ := C22_from steps h hp y hy t ht loc g hg
  have hmeta : ∀ tag, (!tag.same t) = true → g.getMetadata tag = y.fig.getMetadata tag := by
    intro tag hs
    have hne : compare tag t ≠ .eq := fun hc => by rw [Tag.compare_eq_iff_same.1 hc] at hs; cases hs
    subst hg
    simp only [Fig.getMetadata, Fig.provideWith, Fig.toProvider, Fig.new, Map.get_insert,
      Map.get_extend_sorted _ _ hiy.sorted, if_neg hne]
    cases Map.get tag y.fig.metadata <;> rfl
  have hdflt := Proc.fresh_default h hp ht
  have htags : ∀ v, y.fig.merged = .ok v → v.tagsAll (fun tag => !tag.same t) = true := by
    intro v hv
    cases hval : y.fig.value with
    | error e => simp [Fig.merged, Fig.resolvedValue, hval] at hv
    | ok m =>
      obtain ⟨d, h1, -, -, h4⟩ := Fig.merged_spec hval (hiy.wf m hval)
      rw [h1] at hv
      cases hv
      rw [Value.tagsAll, Bool.and_eq_true]
      exact ⟨hdflt, h4 _ (Proc.fresh_data h hp hy ht hval)⟩
  cases hm : y.fig.merged with
  | error e =>
    have hm' := hmerged.trans hm
    refine ⟨?_, ?_, fun path => ⟨?_, ?_⟩⟩
    · rw [Fig.extract, Fig.extractWith, hm', Fig.extract, Fig.extractWith, hm]
    · rw [Fig.extractLossy, Fig.extractWith, hm', Fig.extractLossy, Fig.extractWith, hm]
    · rw [Fig.extractInner, Fig.extractInnerWith, (hfind path).1, Fig.extractInner, Fig.extractInnerWith, Fig.findValue, hm]
    · rw [Fig.extractInnerLossy, Fig.extractInnerWith, (hfind path).1, Fig.extractInnerLossy, Fig.extractInnerWith,
        Fig.findValue, hm]
  | ok v =>
    have hv := htags v hm
    obtain ⟨h1, h2⟩ := C47_part g y.fig ty v v (hmerged.trans hm) hm rfl hprofile _ hdflt
      (Ty.part_tagsAll ty v hv) hmeta
    refine ⟨h1, h2, fun path => ?_⟩
    cases hfp : y.fig.findValue path with
    | error e =>
      have hfp' := (hfind path).1.trans hfp
      rw [Fig.extractInner, Fig.extractInnerWith, hfp', Fig.extractInner, Fig.extractInnerWith, hfp,
        Fig.extractInnerLossy, Fig.extractInnerWith, hfp', Fig.extractInnerLossy, Fig.extractInnerWith, hfp]
      exact ⟨rfl, rfl⟩
    | ok w =>
      refine C47_part_inner g y.fig ty path w w ((hfind path).1.trans hfp) hfp rfl hprofile _ hdflt
        (Ty.part_tagsAll ty w ?_) hmeta
      rw [Fig.findValue, hm] at hfp
      simp only [Value.find_eq] at hfp
      cases hk : v.getKeys (pathKeys path) with
      | none => rw [hk] at hfp; cases hfp
      | some u => rw [hk] at hfp; cases hfp; exact Value.tagsAll_getKeys hv hk

/-! ## C10 for extraction -/

omit [FloatOps] in
theorem Error.Alike.withPath {r : Profile → Profile → Prop} {e e' : Error} (h : e.Alike r e') (path : Str) :
    (e.withPath path).Alike r (e'.withPath path) := by
  cases h with
  | last h => exact .last ⟨h.tag, h.profile, h.metadata, congrArg (· ++ _) h.path, h.kind⟩
  | cons h h' => exact .cons ⟨h.tag, h.profile, h.metadata, congrArg (· ++ _) h.path, h.kind⟩ h'

omit [FloatOps] in
theorem ErrorHead.Alike.refl {r : Profile → Profile → Prop} (hr : ∀ p, r p p) (x : ErrorHead) : x.Alike r x :=
  ⟨rfl, by cases x.profile with
    | none => exact .none
    | some p => exact .some (hr p), rfl, rfl, rfl⟩

omit [FloatOps] in
theorem Error.Alike.refl {r : Profile → Profile → Prop} (hr : ∀ p, r p p) (e : Error) : e.Alike r e := by
  induction e with
  | last x => exact .last (.refl hr x)
  | cons x p ih => exact .cons (.refl hr x) ih

omit [FloatOps] in
theorem Error.Alike.tagsIn_all (e : Error) : e.tagsIn (fun _ => true) = true := by
  induction e with
  | last x => rfl
  | cons x p ih => exact ih

omit [FloatOps] in
@[elab_as_elim]
theorem AlikeResult.elim {α : Type} {motive : R α → R α → Prop} {r r' : R α} (h : AlikeResult r r')
    (error : ∀ e e', Error.Alike (fun p q => Str.lower p.name = Str.lower q.name) e e' → motive (.error e) (.error e'))
    (ok : ∀ x, motive (.ok x) (.ok x)) : motive r r' := by
  cases h with
  | ok x => exact ok x
  | error h => exact error _ _ h

omit [FloatOps] in
theorem Value.tagsAll_all (v : Value) : v.tagsAll (fun _ => true) = true := by
  refine Value.rec (motive_1 := fun v => v.tagsAll (fun _ => true) = true)
    (motive_2 := fun d => Value.tagsAllD (fun _ => true) d = true) (motive_3 := fun a => Value.tagsAllA (fun _ => true) a = true)
    (motive_4 := fun e => e.2.tagsAll (fun _ => true) = true) ?_ ?_ ?_ ?_ ?_ ?_ ?_ ?_ ?_ ?_ ?_ ?_ v <;>
    intros <;> simp_all [Value.tagsAll, Value.tagsAllD, Value.tagsAllA]

/-- **C10**, extraction: with either of two profile names selected that differ in case only, every lookup and every
extraction at every type gives the same value, or the same error but for the case of the profile's name in it; also if
a provider failed. -/
theorem C10_extract (f : Fig) (p q : Profile) (h : Str.lower p.name = Str.lower q.name) (t : Ty) :
    AlikeResult ((f.select p).extract t) ((f.select q).extract t) ∧
    AlikeResult ((f.select p).extractLossy t) ((f.select q).extractLossy t) ∧
    ∀ path, AlikeResult ((f.select p).findValue path) ((f.select q).findValue path) ∧
      AlikeResult ((f.select p).extractInner path t) ((f.select q).extractInner path t) ∧
      AlikeResult ((f.select p).extractInnerLossy path t) ((f.select q).extractInnerLossy path t) := by
  have a : Agree (fun p q => Str.lower p.name = Str.lower q.name) (fun _ => true) (f.select p) (f.select q) :=
    ⟨h, fun _ _ => rfl, rfl, fun _ => rfl⟩
  have hd : ∀ l v, AlikeResult (t.de ⟨some (f.select p), l⟩ v) (t.de ⟨some (f.select q), l⟩ v) := fun l v =>
    (Ty.reads a t l v (Value.tagsAll_all v)).elim (fun _ _ h => .error h.1) fun x => .ok x
  have hr : ∀ e : Error, e.Alike (fun p q => Str.lower p.name = Str.lower q.name) e := Error.Alike.refl fun _ => rfl
  have hm : AlikeResult (f.select p).merged (f.select q).merged := by
    cases hv : f.value with
    | ok m =>
      rw [(C10_select f m hv p q h).1]
      cases (f.select q).merged with
      | ok v => exact .ok v
      | error e => exact .error (hr e)
    | error e =>
      have hx : ∀ p, (f.select p).merged = .error (e.resolved f.metadata p) := fun p => by
        rw [Fig.merged, Fig.resolvedValue, Fig.select, hv]
      rw [hx p, hx q]
      exact .error (a.resolved ⟨hr e, Error.Alike.tagsIn_all e⟩).1
  have hf : ∀ path, AlikeResult ((f.select p).findValue path) ((f.select q).findValue path) := fun path => by
    rw [Fig.findValue, Fig.findValue]
    refine hm.elim (fun _ _ h => .error h) fun v => ?_
    dsimp only
    cases v.find path with
    | some w => exact .ok w
    | none => exact .error (hr _)
  have houter : ∀ l, AlikeResult ((f.select p).extractWith fun f v => t.de ⟨some f, l⟩ v)
      ((f.select q).extractWith fun f v => t.de ⟨some f, l⟩ v) := by
    intro l
    rw [Fig.extractWith, Fig.extractWith]
    exact hm.elim (fun _ _ h => .error h) fun v => hd l v
  have hinner : ∀ l path, AlikeResult ((f.select p).extractInnerWith (fun f v => t.de ⟨some f, l⟩ v) path)
      ((f.select q).extractInnerWith (fun f v => t.de ⟨some f, l⟩ v) path) := by
    intro l path
    rw [Fig.extractInnerWith, Fig.extractInnerWith]
    refine (hf path).elim (fun _ _ h => .error h) fun v => ?_
    dsimp only
    exact (hd l v).elim (fun _ _ h => .error (h.withPath path)) fun x => .ok x
  exact ⟨houter false, houter true, fun path => ⟨hf path, hinner false path, hinner true path⟩⟩

/-- Non-vacuity: `Dev` and `DEV` are different names; a type that does not fit gives errors, which tell the names. -/
example [FloatOps] : ∃ (f : Fig) (p q : Profile) (e e' : Error), p ≠ q ∧ Str.lower p.name = Str.lower q.name ∧
    (f.select p).extractInner (str "a") .bool = .error e ∧ (f.select q).extractInner (str "a") .bool = .error e' ∧
    e.head.profile = some p ∧ e'.head.profile = some q := by
  refine ⟨{ Fig.new with value := .ok [(⟨str "dev"⟩, [(str "a", .string (Tag.new 1 .Custom) (str "x"))])] },
    ⟨str "Dev"⟩, ⟨str "DEV"⟩, _, _, by decide, rfl, rfl, rfl, rfl, rfl⟩

/-! ## C14 for extraction -/

/-- **C14**, extraction: after any history in which a provider failed, and whatever is selected or focused on then, every
extraction at every type and path fails, with the same error for all types and paths. -/
theorem C14_extract (ops : List Op) (c c' : BitVec 64) (g : Fig) (h : Fig.new.run ops c = (some g, c'))
    (he : ∃ e, Except.error e ∈ opData ops) (keys : List Str) (p : Profile) :
    ∃ e, ∀ (f : Fig), f = (keys.foldl Fig.focus g).select p → ∀ (t : Ty) (path : Str),
      f.extract t = .error e ∧ f.extractLossy t = .error e ∧ f.extractInner path t = .error e ∧
      f.extractInnerLossy path t = .error e ∧ f.findValue path = .error e := by
  have hg : ∃ e, g.value = .error e := by
    cases hv : g.value with
    | error e => exact ⟨e, rfl⟩
    | ok m =>
      obtain ⟨e, he⟩ := he
      obtain ⟨n, hn⟩ := (C14_failure ops c c' g h).1.1 ⟨m, hv⟩ _ he
      cases hn
  have hk : ∀ (keys : List Str) (g : Fig), (∃ e, g.value = .error e) → ∃ e, (keys.foldl Fig.focus g).value = .error e := by
    intro keys
    induction keys with
    | nil => exact fun _ h => h
    | cons k ks ih =>
      rintro g ⟨e, he⟩
      exact ih _ ⟨e.resolved g.metadata g.profile, by rw [Fig.focus, Fig.resolvedValue, he]⟩
  obtain ⟨e, hv⟩ := hk keys g hg
  refine ⟨e.resolved (keys.foldl Fig.focus g).metadata p, ?_⟩
  rintro f rfl t path
  have hm : ((keys.foldl Fig.focus g).select p).merged = .error (e.resolved (keys.foldl Fig.focus g).metadata p) := by
    rw [Fig.merged, Fig.resolvedValue, Fig.select, hv]
  have hf : ((keys.foldl Fig.focus g).select p).findValue path =
      .error (e.resolved (keys.foldl Fig.focus g).metadata p) := by rw [Fig.findValue, hm]
  refine ⟨?_, ?_, ?_, ?_, hf⟩
  · rw [Fig.extract, Fig.extractWith, hm]
  · rw [Fig.extractLossy, Fig.extractWith, hm]
  · rw [Fig.extractInner, Fig.extractInnerWith, hf]
  · rw [Fig.extractInnerLossy, Fig.extractInnerWith, hf]

/-- Non-vacuity: a history with a provider that fails between two that do not. -/
example : ∃ g c', Fig.new.run [.add ⟨.Merge, Ex.prov1, Ex.loc⟩, .add ⟨.Join, Ex.provErr, Ex.loc⟩,
    .add ⟨.Merge, Ex.prov2, Ex.loc⟩] 1#64 = (some g, c') ∧ ∃ e, Except.error e ∈
      opData [.add ⟨.Merge, Ex.prov1, Ex.loc⟩, .add ⟨.Join, Ex.provErr, Ex.loc⟩, .add ⟨.Merge, Ex.prov2, Ex.loc⟩] :=
  ⟨_, _, rfl, _, .tail _ (.head _)⟩

end Figment
