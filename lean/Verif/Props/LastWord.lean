import Verif.Spec.LastWord
import Verif.Props.Result
/-!
# C89: which provider has the last word, across profiles

The specification is `Data.ComesFrom` (Spec/LastWord).
-/
namespace Figment

theorem View.blocked_false {A : View} {keys : List Str} :
    View.blocked A keys = false ↔ ∀ n < keys.length, ∀ w, A (keys.take n) ≠ some (.leaf w) := by
  rw [View.blocked, List.any_eq_false]
  constructor
  · intro h n hn w hw
    have := h n (List.mem_range.2 hn)
    rw [hw] at this
    exact this rfl
  · intro h n hn
    have := h n (List.mem_range.1 hn)
    split
    · next w hw => exact absurd hw (this w)
    · simp

theorem View.blocked_leaf_false {A : View} (hA : View.Tree A) {keys : List Str} (h : (A keys).isSome) :
    View.blocked A keys = false := by
  refine View.blocked_false.2 fun n hn w hw => ?_
  obtain ⟨t, ht⟩ := hA keys n hn h
  rw [hw] at ht
  cases ht

theorem Data.quiet_iff {m : Data} {pr : Profile} {keys : List Str} :
    m.Quiet pr keys ↔ m.at pr keys = none ∧ View.blocked (m.at pr) keys = false := by
  rw [Data.Quiet, View.blocked_false]

theorem View.merge_quiet {A B : View} {keys : List Str} (h : B keys = none) (hb : View.blocked B keys = false) :
    View.merge A B keys = A keys := by
  rw [View.merge, h]
  simp [hb]

/-- A value that is not a dictionary is at the path if and only if it comes from some profile. -/
theorem Data.layered_leaf (m : Data) (sel : Profile) (keys : List Str) (v : Value) :
    m.layered sel keys = some (.leaf v) ↔ ∃ pr, m.ComesFrom sel pr keys v := by
  constructor
  · intro h
    rw [Data.layered] at h
    cases hg : m.at Profile.Global keys with
    | some s =>
      have : s = .leaf v := by
        split at h <;> rw [View.merge, hg] at h <;> cases h <;> rfl
      subst this
      refine ⟨_, .global, hg, fun q hq => ?_⟩
      generalize hgg : Profile.Global = x at hq
      cases hq with
      | selected hc => cases hgg
      | global => cases hgg
      | both hc => subst hgg; exact absurd hc (by decide)
    | none =>
      have hgb : View.blocked (m.at Profile.Global) keys = false := by
        cases hb : View.blocked (m.at Profile.Global) keys with
        | false => rfl
        | true => split at h <;> rw [View.merge, hg] at h <;> simp [hb] at h
      split at h
      · next hc =>
        rw [View.merge_quiet hg hgb] at h
        cases hs : m.at sel keys with
        | some s =>
          rw [View.merge, hs] at h
          cases h
          refine ⟨_, .selected hc, hs, fun q hq => ?_⟩
          cases hq with
          | selected hc => exact absurd hc (by decide)
          | global => exact Data.quiet_iff.2 ⟨hg, hgb⟩
          | both _ => exact Data.quiet_iff.2 ⟨hg, hgb⟩
        | none =>
          have hsb : View.blocked (m.at sel) keys = false := by
            cases hb : View.blocked (m.at sel) keys with
            | false => rfl
            | true => rw [View.merge, hs] at h; simp [hb] at h
          rw [View.merge_quiet hs hsb] at h
          refine ⟨_, .default, h, fun q hq => ?_⟩
          generalize hgg : Profile.Default = x at hq
          cases hq with
          | selected _ => exact Data.quiet_iff.2 ⟨hs, hsb⟩
          | global => exact Data.quiet_iff.2 ⟨hg, hgb⟩
          | both _ => exact Data.quiet_iff.2 ⟨hg, hgb⟩
      · next hc =>
        rw [View.merge_quiet hg hgb] at h
        refine ⟨_, .default, h, fun q hq => ?_⟩
        generalize hgg : Profile.Default = x at hq
        cases hq with
        | selected h => exact absurd h hc
        | global => exact Data.quiet_iff.2 ⟨hg, hgb⟩
        | both h => exact absurd h hc
  · rintro ⟨pr, hl, hv, hq⟩
    rw [Data.layered]
    cases hl with
    | global =>
      split <;> rw [View.merge, hv]
    | selected hc =>
      obtain ⟨h1, h2⟩ := Data.quiet_iff.1 (hq _ (.both hc))
      rw [if_pos hc, View.merge_quiet h1 h2, View.merge, hv]
    | default =>
      obtain ⟨h1, h2⟩ := Data.quiet_iff.1 (hq _ .global)
      split
      · next hc =>
        obtain ⟨h3, h4⟩ := Data.quiet_iff.1 (hq _ (.selected hc))
        rw [View.merge_quiet h1 h2, View.merge_quiet h3 h4, hv]
      · rw [View.merge_quiet h1 h2, hv]

theorem Fig.find_leaf {f : Fig} {m : Data} (hf : f.value = .ok m) (hm : m.WF) (path : Str) {v : Value}
    (hv : v.asDict? = none) :
    f.findValue path = .ok v ↔ m.layered f.profile (pathKeys path) = some (.leaf v) := by
  obtain ⟨u, hu, _, hview⟩ := Fig.merged_view hf hm
  rw [← hview, Value.view_eq_getKeys, Fig.findValue, hu]
  simp only [Value.find_eq]
  cases hk : u.getKeys (pathKeys path) with
  | none => simp
  | some w =>
    simp only [Option.map_some, Option.some.injEq, Except.ok.injEq]
    constructor
    · rintro rfl
      exact Value.shape_leaf hv
    · intro h
      cases w <;> first | cases h; rfl | cases h

theorem Data.given_cons (n : Data) (tag : Tag) (pr : Profile) (k : Str) (ks : List Str) :
    n.given tag pr (k :: ks) = (n.at pr (k :: ks)).map (Shape.retag (tag.forProfile pr)) := rfl

theorem View.leaf_of_coalesce {o : Order} {A B : View} {p : List Str} {w : Value}
    (h : View.coalesce o A B p = some (.leaf w)) : (∃ x, A p = some (.leaf x)) ∨ ∃ x, B p = some (.leaf x) := by
  have merge : ∀ {w}, View.merge A B p = some (.leaf w) → (∃ x, A p = some (.leaf x)) ∨ ∃ x, B p = some (.leaf x) := by
    intro w h
    rw [View.merge] at h
    split at h
    · next s hs => cases h; exact .inr ⟨_, hs⟩
    · split at h
      · cases h
      · exact .inl ⟨_, h⟩
  have join : ∀ {w}, View.join A B p = some (.leaf w) → (∃ x, A p = some (.leaf x)) ∨ ∃ x, B p = some (.leaf x) := by
    intro w h
    rw [View.join] at h
    split at h
    · next s hs => cases h; exact .inl ⟨_, hs⟩
    · split at h
      · cases h
      · exact .inr ⟨_, h⟩
  cases o with
  | Merge => exact merge h
  | Join => exact join h
  | Adjoin =>
    rw [View.coalesce, View.adjoin] at h
    split at h
    · next h1 _ => exact .inl ⟨_, h1⟩
    · exact join h
  | Admerge =>
    rw [View.coalesce, View.admerge] at h
    split at h
    · next h1 _ => exact .inl ⟨_, h1⟩
    · exact merge h

theorem View.coalesce_none {o : Order} {A B : View} {p : List Str} (hA : A p = none) (hB : B p = none) :
    View.coalesce o A B p = none := by
  cases o <;> simp [View.coalesce, View.merge, View.join, View.adjoin, View.admerge, hA, hB]

theorem Data.leaf_of_given {n : Data} {tag : Tag} {pr : Profile} {p : List Str} {w : Value}
    (h : n.given tag pr p = some (.leaf w)) : ∃ x, n.at pr p = some (.leaf x) := by
  cases p with
  | nil => cases h
  | cons k ks =>
    rw [Data.given_cons] at h
    cases hn : n.at pr (k :: ks) with
    | none => rw [hn] at h; cases h
    | some s =>
      rw [hn] at h
      cases s with
      | dict t => cases h
      | leaf x => exact ⟨x, rfl⟩

theorem Data.none_of_given {n : Data} {tag : Tag} {pr : Profile} {p : List Str} (h : n.at pr p = none) :
    n.given tag pr p = none := by
  cases p with
  | nil => cases h
  | cons k ks => rw [Data.given_cons, h]; rfl

/-- Where neither the figment nor the provider says anything, nothing is said after providing. -/
theorem Data.quiet_coalesce {m n m' : Data} {o : Order} {tag : Tag} {q : Profile} {keys : List Str}
    (hat : m'.at q = View.coalesce o (m.at q) (n.given tag q)) (hm : m.Quiet q keys) (hn : n.Quiet q keys) :
    m'.Quiet q keys := by
  refine ⟨?_, fun i hi w hw => ?_⟩
  · rw [hat]
    exact View.coalesce_none hm.1 (Data.none_of_given hn.1)
  · rw [hat] at hw
    rcases View.leaf_of_coalesce hw with ⟨x, hx⟩ | ⟨x, hx⟩
    · exact hm.2 i hi x hx
    · obtain ⟨y, hy⟩ := Data.leaf_of_given hx
      exact hn.2 i hi y hy

/-- **C89**: a value that is not a dictionary is found at a path if and only if one of the profiles that count has it
there, and those put over that profile have nothing there, nor anything but dictionaries above. -/
theorem C89_found {f : Fig} {m : Data} (hf : f.value = .ok m) (hm : m.WF) (path : Str) (v : Value)
    (hv : v.asDict? = none) :
    f.findValue path = .ok v ↔ ∃ pr, m.ComesFrom f.profile pr (pathKeys path) v := by
  rw [Fig.find_leaf hf hm path hv, Data.layered_leaf]

/-- **C89**: what a merged provider has at a path is found there, unless a profile put over the one it is for has, in the
figment or in the provider, something there or in the way. -/
theorem C89_merge {f g : Fig} {p : Provider} {loc : Location} {c c' : BitVec 64} {m n : Data} (hf : f.value = .ok m)
    (hp : p.data = .ok n) (hm : m.WF) (hn : n.WF) (h : f.merge p loc c = (some g, c')) (path : Str) (pr : Profile)
    (w : Value) (hw : n.ComesFrom g.profile pr (pathKeys path) w)
    (hq : ∀ q, Over g.profile pr q → m.Quiet q (pathKeys path)) :
    ∃ tag, Tag.next c = (some tag, c') ∧ g.findValue path = .ok (w.mapTag fun _ => tag.forProfile pr) := by
  obtain ⟨tag, m', ht, hv, hw', _, hat⟩ := Fig.provide_ok hf hp hm hn h
  obtain ⟨hl, hleaf, hover⟩ := hw
  have hwd : w.asDict? = none := by
    have := hleaf
    rw [Data.at, Value.view_eq_getKeys] at this
    cases hk : (Value.dict Tag.Default (n.dictOf pr)).getKeys (pathKeys path) with
    | none => rw [hk] at this; cases this
    | some u =>
      rw [hk] at this
      cases u <;> first | (cases this; rfl) | cases this
  refine ⟨tag, ht, (C89_found hv hw' path _ ?_).2 ⟨pr, hl, ?_, fun q hqq => ?_⟩⟩
  · rw [Value.asDict_mapTag, hwd]; rfl
  · rw [hat]
    cases hk : pathKeys path with
    | nil => rw [hk] at hleaf; cases hleaf
    | cons k ks =>
      rw [hk] at hleaf
      show View.merge _ _ _ = _
      rw [View.merge, Data.given_cons, hleaf]
      rfl
  · exact Data.quiet_coalesce (hat q) (hq q hqq) (hover q hqq)

/-- **C89**: what a merged provider has for `global` is found, whatever there was and whatever is selected. -/
theorem C89_global {f g : Fig} {p : Provider} {loc : Location} {c c' : BitVec 64} {m n : Data} (hf : f.value = .ok m)
    (hp : p.data = .ok n) (hm : m.WF) (hn : n.WF) (h : f.merge p loc c = (some g, c')) (path : Str) (w : Value)
    (hw : n.at Profile.Global (pathKeys path) = some (.leaf w)) (sel : Profile) :
    ∃ tag, Tag.next c = (some tag, c') ∧
      (g.select sel).findValue path = .ok (w.mapTag fun _ => tag.forProfile Profile.Global) := by
  have none_over : ∀ {s q : Profile}, ¬ Over s Profile.Global q := by
    intro s q hq
    generalize hgg : Profile.Global = x at hq
    cases hq with
    | selected hc => cases hgg
    | global => cases hgg
    | both hc => subst hgg; exact absurd hc (by decide)
  obtain ⟨tag, ht, hfound⟩ := C89_merge hf hp hm hn h path Profile.Global w
    ⟨.global, hw, fun q hq => absurd hq none_over⟩ fun q hq => absurd hq none_over
  obtain ⟨tag', m', ht', hv, hw', _, hat⟩ := Fig.provide_ok hf hp hm hn h
  refine ⟨tag, ht, ?_⟩
  have hnd : (w.mapTag fun _ => tag.forProfile Profile.Global).asDict? = none := by
    have := hw
    rw [Data.at, Value.view_eq_getKeys] at this
    cases hk : (Value.dict Tag.Default (n.dictOf Profile.Global)).getKeys (pathKeys path) with
    | none => rw [hk] at this; cases this
    | some u =>
      rw [hk] at this
      cases u <;> first | (cases this; rfl) | cases this
  have h1 := (C89_found hv hw' path _ hnd).1 hfound
  refine (C89_found (f := g.select sel) hv hw' path _ hnd).2 ⟨Profile.Global, .global, ?_, fun q hq => absurd hq none_over⟩
  have ht2 : tag' = tag := by rw [ht] at ht'; cases ht'; rfl
  rw [hat, ht2]
  cases hk : pathKeys path with
  | nil => rw [hk] at hw; cases hw
  | cons k ks =>
    rw [hk] at hw
    show View.merge _ _ _ = _
    rw [View.merge, Data.given_cons, hw]
    rfl

/-- **C89**: a joined provider does not change what is found at a path, whatever it has in the profile the value comes
from and in those below; only what it has in the profiles put over that one can. The same of an adjoined one, except for
arrays. -/
theorem C89_join {f g : Fig} {p : Provider} {o : Order} {loc : Location} {c c' : BitVec 64} {m n : Data}
    (hf : f.value = .ok m) (hp : p.data = .ok n) (hm : m.WF) (hn : n.WF) (h : f.provide p o loc c = (some g, c'))
    (path : Str) (pr : Profile) (v : Value) (ho : o = .Join ∨ (o = .Adjoin ∧ ∀ t a, v ≠ .array t a))
    (hv : m.ComesFrom f.profile pr (pathKeys path) v) (hq : ∀ q, Over f.profile pr q → n.Quiet q (pathKeys path)) :
    f.findValue path = .ok v ∧ g.findValue path = .ok v := by
  obtain ⟨tag, m', ht, hgv, hw', _, hat⟩ := Fig.provide_ok hf hp hm hn h
  have hprof : g.profile = f.profile := by
    obtain ⟨_, _, rfl⟩ := Fig.provide_eq_some h
    rcases ho with rfl | ⟨rfl, _⟩ <;> simp only [Fig.provideWith] <;> split <;> rfl
  have hvd : v.asDict? = none := by
    have := hv.2.1
    rw [Data.at, Value.view_eq_getKeys] at this
    cases hk : (Value.dict Tag.Default (m.dictOf pr)).getKeys (pathKeys path) with
    | none => rw [hk] at this; cases this
    | some u =>
      rw [hk] at this
      cases u <;> first | (cases this; rfl) | cases this
  refine ⟨(C89_found hf hm path v hvd).2 ⟨pr, hv⟩, (C89_found hgv hw' path v hvd).2 ⟨pr, ?_⟩⟩
  obtain ⟨hl, hleaf, hover⟩ := hv
  rw [hprof]
  refine ⟨hl, ?_, fun q hqq => Data.quiet_coalesce (hat q) (hover q hqq) (hq q hqq)⟩
  rw [hat]
  rcases ho with rfl | ⟨rfl, hna⟩
  · show View.join _ _ _ = _
    rw [View.join, hleaf]
  · show View.adjoin _ _ _ = _
    rw [View.adjoin, View.join, hleaf]
    split
    · next h1 _ => cases h1; exact absurd rfl (hna _ _)
    · rfl

/-- **C89**: what a joined provider has for `default` never changes what is found. -/
theorem C89_join_default {f g : Fig} {p : Provider} {loc : Location} {c c' : BitVec 64} {m n : Data}
    (hf : f.value = .ok m) (hp : p.data = .ok n) (hm : m.WF) (hn : n.WF) (h : f.join p loc c = (some g, c'))
    (hd : ∀ e ∈ n, e.1.same Profile.Default = true) (path : Str) (v : Value) (hv : v.asDict? = none)
    (hfound : f.findValue path = .ok v) : g.findValue path = .ok v := by
  obtain ⟨pr, hcf⟩ := (C89_found hf hm path v hv).1 hfound
  have empty : ∀ q : Profile, q.same Profile.Default ≠ true → n.Quiet q (pathKeys path) ∨ pathKeys path = [] := by
    intro q hq
    have hg : Map.get q n = none := by
      cases hg : Map.get q n with
      | none => rfl
      | some d =>
        obtain ⟨k', hmem, hc⟩ := Map.mem_of_get hg
        exact absurd (Profile.same_iff.2 (Std.TransCmp.eq_trans hc (Profile.same_iff.1 (hd _ hmem)))) hq
    have hat : ∀ k ks, n.at q (k :: ks) = none := by
      intro k ks
      rw [Data.at, Data.dictOf, hg]
      rfl
    cases hk : pathKeys path with
    | nil => exact .inr rfl
    | cons k ks =>
      refine .inl ⟨hat k ks, fun i hi w hw => ?_⟩
      cases i with
      | zero => cases hw
      | succ i => rw [List.take_succ_cons, hat] at hw; cases hw
  refine (C89_join hf hp hm hn h path pr v (.inl rfl) hcf fun q hq => ?_).2
  have hne : q.same Profile.Default ≠ true := by
    cases hq with
    | selected hc => intro hs; simp [Profile.isCustom, hs] at hc
    | global => decide
    | both _ => decide
  rcases empty q hne with h | h
  · exact h
  · have := hcf.2.1
    rw [h] at this
    cases this

/-! ## After any history -/

/-- `Data.Quiet`, of a view. -/
def View.Quiet (A : View) (keys : List Str) : Prop :=
  A keys = none ∧ ∀ n < keys.length, ∀ w, A (keys.take n) ≠ some (.leaf w)

theorem Data.quiet_strip {n : Data} {pr : Profile} {keys : List Str} (h : n.Quiet pr keys) :
    View.Quiet (fun p => (n.at pr p).map Shape.strip) keys := by
  refine ⟨by dsimp only; rw [h.1]; rfl, fun i hi w hw => ?_⟩
  cases hn : n.at pr (keys.take i) with
  | none => simp [hn] at hw
  | some s =>
    cases s with
    | dict t => simp [hn, Shape.strip] at hw
    | leaf x => exact h.2 i hi x hn

theorem View.Quiet.coalesce {A B : View} {keys : List Str} (hA : A.Quiet keys) (hB : B.Quiet keys) (o : Order) :
    View.Quiet (View.coalesce o A B) keys := by
  refine ⟨View.coalesce_none hA.1 hB.1, fun i hi w hw => ?_⟩
  rcases View.leaf_of_coalesce hw with ⟨x, hx⟩ | ⟨x, hx⟩
  · exact hA.2 i hi x hx
  · exact hB.2 i hi x hx

theorem historyView_quiet {ops : List Op} {q : Profile} {keys : List Str} (hk : keys ≠ []) (h : OpsQuiet ops q keys) :
    View.Quiet (historyView ops q) keys := by
  have gen : ∀ (ops : List Op) (A : View), A.Quiet keys → OpsQuiet ops q keys →
      View.Quiet (ops.foldl (Op.after q) A) keys := by
    intro ops
    induction ops with
    | nil => exact fun A hA _ => hA
    | cons o r ih =>
      intro A hA hq
      rw [List.foldl_cons]
      cases o with
      | select p => exact ih _ hA hq
      | add y =>
        refine ih _ ?_ fun n hn => hq n (by simp only [opData, List.mem_cons]; exact .inr hn)
        rw [Op.after]
        split
        · next n hn => exact hA.coalesce (Data.quiet_strip (hq n (by simp [opData, hn]))) _
        · exact hA
  refine gen ops _ ⟨by simp [hk], fun i hi w hw => ?_⟩ h
  cases keys with
  | nil => exact hk rfl
  | cons k ks => cases i <;> simp at hw

theorem historyView_stays {post : List Op} {pr : Profile} {keys : List Str} {w : Value}
    (h : ∀ y ∈ post, y.Leaves pr keys w) {A : View} (hA : A keys = some (.leaf w.strip)) :
    post.foldl (Op.after pr) A keys = some (.leaf w.strip) := by
  induction post generalizing A with
  | nil => exact hA
  | cons o r ih =>
    rw [List.foldl_cons]
    refine ih (fun y hy => h y (by simp [hy])) ?_
    cases o with
    | select p => exact hA
    | add y =>
      cases hn : y.provider.data with
      | error e => simp only [Op.after, hn]; exact hA
      | ok n =>
        simp only [Op.after, hn]
        rcases h (.add y) (by simp) with hq | ho | ⟨ho, hna⟩
        · have hB := Data.quiet_strip (hq n hn)
          have hb : View.blocked (fun p => (n.at pr p).map Shape.strip) keys = false := View.blocked_false.2 hB.2
          have hB1 : (n.at pr keys).map Shape.strip = none := hB.1
          have hm : View.merge A (fun p => (n.at pr p).map Shape.strip) keys = some (.leaf w.strip) := by
            rw [View.merge_quiet (B := fun p => (n.at pr p).map Shape.strip) hB1 hb, hA]
          have hj : View.join A (fun p => (n.at pr p).map Shape.strip) keys = some (.leaf w.strip) := by
            rw [View.join, hA]
          cases y.order with
          | Merge => exact hm
          | Join => exact hj
          | Adjoin =>
            simp only [View.coalesce, View.adjoin, hA, hB1]
            split
            · next h2 => cases h2
            · exact hj
          | Admerge =>
            simp only [View.coalesce, View.admerge, hA, hB1]
            split
            · next h2 => cases h2
            · exact hm
        · rw [ho]
          simp only [View.coalesce, View.join, hA]
        · rw [ho]
          simp only [View.coalesce, View.adjoin, View.join, hA]
          split
          · next h1 _ =>
            exfalso
            cases w <;> simp [Value.strip] at h1
            exact hna _ _ rfl
          · rfl

/-- What the last word says is what is there. -/
theorem LastWord.result {pre : List Op} {x : Call} {post : List Op} {pr : Profile} {keys : List Str} {w : Value}
    (h : LastWord pre x post pr keys w) :
    historyResult (pre ++ .add x :: post) keys = some (.leaf w.strip) := by
  obtain ⟨hc, ⟨n, hn, hw⟩, hb, ha, ho⟩ := h
  have hk : keys ≠ [] := by rintro rfl; cases hw
  have here : historyView (pre ++ .add x :: post) pr keys = some (.leaf w.strip) := by
    rw [historyView, List.foldl_append, List.foldl_cons]
    refine historyView_stays ha ?_
    rw [Op.after, hn]
    dsimp only
    have hB : (n.at pr keys).map Shape.strip = some (.leaf w.strip) := by rw [hw]; rfl
    rcases hb with hb | hb
    · simp only [hb, View.coalesce, View.merge, hB]
    · obtain ⟨q1, q2⟩ := historyView_quiet hk hb
      rw [historyView] at q1
      have q3 : View.blocked (historyView pre pr) keys = false := View.blocked_false.2 q2
      rw [historyView] at q3
      cases x.order <;> simp [View.coalesce, View.merge, View.join, View.adjoin, View.admerge, q1, q3, hB]
  have quiet : ∀ q, Over (historySelected (pre ++ .add x :: post)) pr q →
      historyView (pre ++ .add x :: post) q keys = none ∧
        View.blocked (historyView (pre ++ .add x :: post) q) keys = false := by
    intro q hq
    obtain ⟨h1, h2⟩ := historyView_quiet hk (ho q hq)
    exact ⟨h1, View.blocked_false.2 h2⟩
  rw [historyResult]
  generalize historySelected (pre ++ .add x :: post) = sel at hc quiet ⊢
  cases hc with
  | global => split <;> rw [View.merge, here]
  | selected hcu =>
    obtain ⟨h1, h2⟩ := quiet _ (.both hcu)
    rw [if_pos hcu, View.merge_quiet h1 h2, View.merge, here]
  | default =>
    obtain ⟨h1, h2⟩ := quiet _ .global
    split
    · next hcu =>
      obtain ⟨h3, h4⟩ := quiet _ (.selected hcu)
      rw [View.merge_quiet h1 h2, View.merge_quiet h3 h4, here]
    · rw [View.merge_quiet h1 h2, here]

/-- **C89**: after any history in which no provider failed, what is extracted at a path, at any type, is exactly what the
value of the provider that has the last word there means, read as the type; and extraction fails with the first fault of
that value. -/
theorem C89_history [FloatOps] (pre : List Op) (x : Call) (post : List Op) (hwf : OpsWF (pre ++ .add x :: post))
    (hok : ∀ d ∈ opData (pre ++ .add x :: post), ∃ n, d = .ok n) (c c' : BitVec 64) (f : Fig)
    (hf : Fig.new.run (pre ++ .add x :: post) c = (some f, c')) (path : Str) (pr : Profile) (w : Value)
    (h : LastWord pre x post pr (pathKeys path) w) (t : Ty) (ht : t.proper false = true) :
    (∀ y, f.extractInner path t = .ok y ↔ t.Means false (fun _ => none) w.strip y) ∧
    (∀ y, f.extractInnerLossy path t = .ok y ↔ t.Means true (fun _ => none) w.strip y) ∧
    (∀ p k, FailsAt (f.extractInner path t) p k ↔ ∃ p',
      p = p' ++ (Str.splitOn '.' path).filter (fun key => !key.isEmpty) ∧
        t.Complains false (fun _ => none) w.strip p' k) ∧
    ∀ p k, FailsAt (f.extractInnerLossy path t) p k ↔ ∃ p',
      p = p' ++ (Str.splitOn '.' path).filter (fun key => !key.isEmpty) ∧
        t.Complains true (fun _ => none) w.strip p' k := by
  obtain ⟨v, hv, _, hview, hm⟩ := C66_history _ hwf hok c c' f hf
  have hk : v.getKeys (pathKeys path) = some w.strip := by
    have := hview (pathKeys path)
    rw [h.result, Value.view_eq_getKeys] at this
    cases hg : v.getKeys (pathKeys path) with
    | none => rw [hg] at this; cases this
    | some u =>
      rw [hg] at this
      cases u <;> first | (cases this; rfl) | (simp only [Option.map_some, Value.shape, Option.some.injEq, Shape.leaf.injEq] at this; rw [this]) | cases this
  have hfault := C66_faults _ hwf hok c c' f hf v hv hview t ht
  refine ⟨fun y => ((hm t ht y).2.2 path).1.trans ?_, fun y => ((hm t ht y).2.2 path).2.trans ?_,
    fun p k => ((hfault p k).2.2 path).1.trans ?_, fun p k => ((hfault p k).2.2 path).2.trans ?_⟩
  · rw [hk]; simp
  · rw [hk]; simp
  · rw [hk]; simp
  · rw [hk]; simp

/-! ## Examples -/

/-- Joined, a provider for `global` does change what is found; merged, one for `default` does not if `global` has it. -/
example : ∃ f g h c' d', Fig.new.run [.add ⟨.Merge, Ex.prov1, Ex.loc⟩] 1#64 = (some f, c') ∧
    f.join (Provider.plain (Metadata.named (str "x")) (.ok [(Profile.Global, [(str "a", Ex.n 9)])])) Ex.loc c'
      = (some g, d') ∧
    (∃ e, g.merge (Provider.plain (Metadata.named (str "y")) (.ok [(Profile.Default, [(str "a", Ex.n 7)])])) Ex.loc d'
      = (some h, e)) ∧
    (f.findValue (str "a")).map Value.strip = .ok (Ex.n 1) ∧ (g.findValue (str "a")).map Value.strip = .ok (Ex.n 9) ∧
    (h.findValue (str "a")).map Value.strip = .ok (Ex.n 9) :=
  ⟨_, _, _, _, _, rfl, rfl, ⟨_, rfl⟩, rfl, rfl, rfl⟩

/-- The hypotheses of `C89_merge` and `C89_join`: `a` of `data1` comes from `Dev` if that is selected, whatever `data2`
has. -/
example : Ex.data1.ComesFrom Ex.dev Ex.dev [str "a"] (Ex.n 5) ∧
    (∀ q, Over Ex.dev Ex.dev q → Ex.data2.Quiet q [str "a"]) ∧
    Ex.data1.ComesFrom Profile.Default Profile.Default [str "b", str "x"] (Ex.n 2) := by
  have q1 : ∀ m : Data, m.at Profile.Global [str "a"] = none → m.Quiet Profile.Global [str "a"] := by
    intro m h
    refine ⟨h, fun i hi w hw => ?_⟩
    have : i = 0 := by simpa using hi
    subst this
    cases hw
  refine ⟨⟨.selected (by decide), rfl, fun q hq => ?_⟩, fun q hq => ?_, .default, rfl, fun q hq => ?_⟩
  · cases hq with
    | both _ => exact q1 _ rfl
  · cases hq with
    | both _ => exact q1 _ rfl
  · have : q = Profile.Global := by
      generalize hs : Profile.Default = s at hq
      cases hq with
      | selected hc => exact absurd hc (by decide)
      | global => rfl
      | both _ => rfl
    subst this
    refine Data.quiet_iff.2 ⟨rfl, rfl⟩

/-- A history in which a provider has the last word at `b.x`: it is merged for `default`, then others are joined and a
profile is selected that has nothing at `b`. -/
example : LastWord [.add ⟨.Merge, Ex.prov1, Ex.loc⟩] ⟨.Merge, Ex.prov2, Ex.loc⟩
    [.add ⟨.Join, Ex.prov1, Ex.loc⟩, .select Ex.dev] Profile.Default (pathKeys (str "b.x")) (Ex.s "two") := by
  have hsel : historySelected ([.add ⟨.Merge, Ex.prov1, Ex.loc⟩] ++ .add ⟨.Merge, Ex.prov2, Ex.loc⟩ ::
    [.add ⟨.Join, Ex.prov1, Ex.loc⟩, .select Ex.dev]) = Ex.dev := rfl
  refine ⟨.default, ⟨_, rfl, rfl⟩, .inl rfl, ?_, ?_⟩
  · intro y hy
    simp only [List.mem_cons, List.not_mem_nil, or_false] at hy
    rcases hy with rfl | rfl
    · exact .inr (.inl rfl)
    · trivial
  · rw [hsel]
    intro q hq n hn
    simp only [List.cons_append, List.nil_append, opData, Ex.prov1, Ex.prov2, Provider.plain, List.mem_cons,
      Except.ok.injEq, List.not_mem_nil, or_false] at hn
    have hq : q = Ex.dev ∨ q = Profile.Global := by
      generalize hs : Profile.Default = s at hq
      cases hq with
      | selected _ => exact .inl rfl
      | global => exact .inr rfl
      | both _ => exact .inr rfl
    rcases hq with rfl | rfl <;> rcases hn with rfl | rfl | rfl <;> exact Data.quiet_iff.2 ⟨rfl, rfl⟩

end Figment
