import Verif.Props.Float
import Verif.Props.Env
import Verif.Props.Layer
import Verif.Props.Parse
import Verif.Props.Means
import Verif.Props.Magic
import Verif.Lemmas.Outcome
import Verif.Lemmas.Either
import Verif.Spec.Examples
/-!
# C82: from a variable of the environment to the typed result

`Value.parse` is what a variable's text becomes, `Env.iter` the variables an `Env` emits, with their keys (C36).
-/
namespace Figment

/-- In the data, the profile has nothing at the path, and no value above it that is not a dictionary. -/
def Data.Silent (m : Data) (pr : Profile) (path : Str) : Prop :=
  m.at pr (pathKeys path) = none ∧ View.blocked (m.at pr) (pathKeys path) = false

/-- What the variables are provided for counts at the path, if `sel` is selected: their profile is `global`, or `global`
has nothing there and their profile is the one selected, or `default` and the selected one has nothing there either. -/
def Env.Counts (e : Env) (m : Data) (sel : Profile) (path : Str) : Prop :=
  e.profile.same Profile.Global = true ∨
    (m.Silent Profile.Global path ∧ ((sel.isCustom = true ∧ e.profile.same sel = true) ∨
      (e.profile.same Profile.Default = true ∧ (sel.isCustom = true → m.Silent sel path))))

attribute [local instance] FloatOps.std

section

/-- At the path there is what the text says. -/
def Fig.Holds (f : Fig) (path text : Str) : Prop :=
  ∃ w u, Value.parse text = .ok w ∧ f.findValue path = .ok u ∧ u.strip = w

/-- The data of variables: one dictionary, for the profile. -/
theorem Env.data_form {e : Env} {vars : List (Str × Str)} {n : Data} (hn : e.data vars = .ok n) :
    ∃ d : Dict, n = [(e.profile, d)] ∧ d.WF ∧ (Value.ofDict d).view =
      ((e.iter vars).map fun x => View.under (Str.splitOn '.' x.1) (Value.parsed x.2).view).foldl View.merge View.empty := by
  have h : ∀ x ∈ e.iter vars, Value.parse x.2 = .ok (Value.parsed x.2) := by
    have hall : ∀ (es : List (Str × Str)) (acc d : Dict), Env.dataLoop es acc = .ok d →
        ∀ x ∈ es, Value.parse x.2 = .ok (Value.parsed x.2) := by
      intro es
      induction es with
      | nil => intro acc d _ x hx; cases hx
      | cons y ys ih =>
        obtain ⟨k, v⟩ := y
        intro acc d hd x hx
        rw [Env.dataLoop] at hd
        cases hp : Value.parse v with
        | ok w =>
          rcases List.mem_cons.1 hx with rfl | hx
          · exact Value.parse_parsed hp
          · simp only [hp, Out.bind] at hd
            cases hn : (nest k w).asDict? with
            | none => simp [hn] at hd
            | some nd => simp only [hn] at hd; exact ih _ _ hd x hx
        | err e => cases e
        | panic => simp [hp, Out.bind] at hd
        | loop => simp [hp, Out.bind] at hd
    cases hl : Env.dataLoop (e.iter vars) [] with
    | ok d => exact hall _ _ _ hl
    | err e => cases e
    | panic => rw [Env.data, hl] at hn; cases hn
    | loop => rw [Env.data, hl] at hn; cases hn
  obtain ⟨d, h1, h2, h3⟩ := C37_data e vars Value.parsed h
  rw [h1] at hn
  cases hn
  exact ⟨d, rfl, h2, h3⟩

theorem Env.at_other {e : Env} {d : Dict} {pr : Profile} (h : e.profile.same pr ≠ true) :
    Data.dictOf [(e.profile, d)] pr = [] := by
  rw [Data.dictOf, Map.get, if_neg]
  · rfl
  · intro hc
    exact h (Profile.same_iff.2 (Std.OrientedCmp.eq_symm hc))

theorem Env.at_own {e : Env} {d : Dict} {pr : Profile} (h : e.profile.same pr = true) :
    Data.dictOf [(e.profile, d)] pr = d := by
  rw [Data.dictOf, Map.get, if_pos (Std.OrientedCmp.eq_symm (Profile.same_iff.1 h))]
  rfl

/-- What a text parses to has the default provenance everywhere. -/
theorem Value.strip_parse {s : Str} {v : Value} (h : Value.parse s = .ok v) : v.strip = v := by
  rcases (C33_exact v).1 ⟨s, h⟩ with rfl | ⟨_, _, h⟩
  · rfl
  · exact h

theorem Value.tag_of_strip {v : Value} (h : v.strip = v) : v.tag = Tag.Default := by
  rw [← h]; cases v <;> rfl

/-- **C82** (found): after an `Env` is merged, at the key of a variable there is what the variable's text says, if no
later variable is for the same key, for one above it or one below it, and if its profile counts; and it is attributed to
the environment. (Dictionaries are left out: they are united with what is there.) -/
theorem C82_found (e : Env) (vars : List (Str × Str)) (n : Data) (hn : e.data vars = .ok n)
    (a b : List (Str × Str)) (k v : Str) (w : Value) (hi : e.iter vars = a ++ (k, v) :: b)
    (hw : Value.parse v = .ok w) (hd : w.asDict? = none) (hb : ∀ x ∈ b, ¬ Overlap x.1 k)
    (f : Fig) (m : Data) (hf : f.value = .ok m) (hm : m.WF) (loc : Location) (tag : Tag) (sel : Profile)
    (hp : e.Counts m sel k) :
    ((f.provideWith (e.giving n) .Merge loc tag).select sel).Holds k v ∧
    ((f.provideWith (e.giving n) .Merge loc tag).select sel).findMetadata k =
      some { e.metadata with provideLocation := some loc } := by
  obtain ⟨d, rfl, hdwf, hview⟩ := Env.data_form hn
  have hnwf : Data.WF [(e.profile, d)] := ⟨List.pairwise_singleton .., by simpa using hdwf⟩
  have hk : plainPath k := (C37_keys e vars k v (by rw [hi]; simp)).1
  have hkeys : pathKeys k = Str.splitOn '.' k := pathKeys_of_plain hk
  have hkne : pathKeys k ≠ [] := by rw [hkeys]; exact Str.splitOn_ne_nil _ _
  -- what the variables show at the key
  have hleafd : (Value.ofDict d).view (pathKeys k) = some (.leaf w) := by
    have := View.last_wins (a := a.map fun x => (x.1, Value.parsed x.2))
      (b := b.map fun x => (x.1, Value.parsed x.2)) (k := k) (w := w)
      (by intro x hx; obtain ⟨y, hy, rfl⟩ := List.mem_map.1 hx; exact hb y hy) (.inl hd) []
    rw [List.append_nil, Value.view_nil, Value.shape_leaf hd] at this
    rw [hview, hi, hkeys, ← this]
    have hpw : Value.parsed v = w := by
      have := Value.parse_parsed hw
      rw [hw] at this; cases this; rfl
    simp [List.map_map, Function.comp_def, hpw]
  obtain ⟨w', hw'def⟩ : ∃ w' : Value, w' = w.mapTag fun _ => tag.forProfile e.profile := ⟨_, rfl⟩
  have hw'd : w'.asDict? = none := by rw [hw'def, Value.asDict_mapTag, hd]; rfl
  have hgiven : ∀ pr, e.profile.same pr = true →
      Data.given [(e.profile, d)] tag pr (pathKeys k) = some (.leaf w') := by
    intro pr hpr
    cases hks : pathKeys k with
    | nil => exact absurd hks hkne
    | cons k0 ks =>
      rw [hks] at hleafd
      simp only [Data.given]
      rw [Data.at, Env.at_own hpr]
      have h1 : (Value.dict Tag.Default d).view (k0 :: ks) = some (.leaf w) := hleafd
      rw [h1, hw'def]
      simp only [Option.map_some, Shape.retag]
      rw [Tag.forProfile_congr (Profile.same_iff.1 hpr)]
  have hother : ∀ pr, e.profile.same pr ≠ true → Data.given [(e.profile, d)] tag pr = noView :=
    fun pr hpr => Data.given_empty (Env.at_other hpr) tag
  have hv : ((f.provideWith (e.giving [(e.profile, d)]) .Merge loc tag).select sel).value
      = .ok (coalesceProfiles m (Fig.retagData tag [(e.profile, d)]) .Merge) := by
    simp only [Fig.select, Fig.provideWith, hf, Env.giving, Provider.plain, Fig.combine]
  have hat : ∀ pr p, Data.at (coalesceProfiles m (Fig.retagData tag [(e.profile, d)]) .Merge) pr p =
      View.merge (m.at pr) (Data.given [(e.profile, d)] tag pr) p := by
    intro pr p
    rw [Data.at_coalesce hm (Fig.wf_retagData tag hnwf)]
    have : Data.at (Fig.retagData tag [(e.profile, d)]) pr = Data.given [(e.profile, d)] tag pr :=
      funext fun p => Fig.at_retagData tag _ pr p
    rw [this]; rfl
  have hwfc := Data.wf_coalesce hm (Fig.wf_retagData tag hnwf) .Merge
  have hown : ∀ pr, e.profile.same pr = true →
      Data.at (coalesceProfiles m (Fig.retagData tag [(e.profile, d)]) .Merge) pr (pathKeys k) = some (.leaf w') :=
    fun pr hpr => by rw [hat]; exact View.merge_some (hgiven pr hpr)
  have hsilent : ∀ pr, e.profile.same pr ≠ true → m.Silent pr k →
      Data.Silent (coalesceProfiles m (Fig.retagData tag [(e.profile, d)]) .Merge) pr k := by
    intro pr hpr ⟨h1, h2⟩
    have hsame : ∀ p, p ≠ [] →
        Data.at (coalesceProfiles m (Fig.retagData tag [(e.profile, d)]) .Merge) pr p = m.at pr p := by
      intro p hp
      rw [hat, hother pr hpr, View.merge_noView _ _ hp]
    refine ⟨by rw [hsame _ hkne, h1], ?_⟩
    rw [Bool.eq_false_iff] at h2 ⊢
    intro hbl
    obtain ⟨i, hi, x, hx⟩ := View.blocked_iff.1 hbl
    refine h2 (View.blocked_iff.2 ⟨i, hi, x, ?_⟩)
    by_cases h0 : (pathKeys k).take i = []
    · rw [h0] at hx; cases hx
    · rwa [hsame _ h0] at hx
  have hfind : ((f.provideWith (e.giving [(e.profile, d)]) .Merge loc tag).select sel).findValue k = .ok w' := by
    by_cases hg : e.profile.same Profile.Global = true
    · exact C11_global_wins _ _ hv hwfc k _ (hown _ hg) hw'd
    · rcases hp with hp | ⟨hs, hp⟩
      · exact absurd hp hg
      · obtain ⟨s1, s2⟩ := hsilent _ hg hs
        have key := C11_selected_wins _ _ hv hwfc k w' hw'd s1 s2
        rcases hp with ⟨hc, hsame⟩ | ⟨hdef, hsel⟩
        · exact key.1 hc (hown _ hsame)
        · refine key.2 (hown _ hdef) fun hc => ?_
          refine hsilent sel (fun hsame => ?_) (hsel hc)
          have h1 : compare sel Profile.Default = .eq :=
            Std.TransCmp.eq_trans (Std.OrientedCmp.eq_symm (Profile.same_iff.1 hsame)) (Profile.same_iff.1 hdef)
          have h2 : sel.isCustom = true := hc
          rw [Profile.isCustom, Profile.same_iff.2 h1] at h2
          cases h2
  have hstrip : w.strip = w := Value.strip_parse hw
  refine ⟨⟨w, w', hw, hfind, by rw [hw'def, Value.strip_mapTag, hstrip]⟩, ?_⟩
  rw [Fig.findMetadata, hfind]
  have htag : w'.tag = tag.forProfile e.profile := by
    rw [hw'def, Value.tag_mapTag, Value.tag_of_strip hstrip]; rfl
  simp only [htag, Fig.select, Fig.provideWith]
  rw [Map.get_insert]
  have : compare (tag.forProfile e.profile) tag = .eq := Tag.compare_eq_iff_same.2 (Tag.same_forProfile _ _)
  simp [this, Env.giving, Provider.plain]

/-! ## The other paths -/

theorem View.foldl_merge_leaf {x : Value} {p : List Str} : ∀ {l : List View} {A : View},
    l.foldl View.merge A p = some (.leaf x) → A p = some (.leaf x) ∨ ∃ B ∈ l, B p = some (.leaf x)
  | [], _, h => .inl h
  | B :: l, A, h => by
    rcases foldl_merge_leaf (l := l) h with h | ⟨C, hC, h⟩
    · unfold View.merge at h
      cases hB : B p with
      | some t => rw [hB] at h; exact .inr ⟨B, List.mem_cons_self, by rw [hB]; exact h⟩
      | none =>
        rw [hB] at h
        dsimp only at h
        split at h
        · cases h
        · exact .inl h
    · exact .inr ⟨C, List.mem_cons_of_mem _ hC, h⟩

/-- A side that has nothing at a path and above it only dictionaries changes nothing there, and puts no value above it that
is not a dictionary. -/
theorem View.merge_aside {A B : View} {q : List Str} (h1 : B q = none) (h2 : View.blocked B q = false) :
    View.merge A B q = A q ∧ (View.blocked (View.merge A B) q = true → View.blocked A q = true) := by
  refine ⟨by simp [View.merge, h1, h2], fun h => ?_⟩
  obtain ⟨i, hi, x, hx⟩ := View.blocked_iff.1 h
  refine View.blocked_iff.2 ⟨i, hi, x, ?_⟩
  unfold View.merge at hx
  cases hB : B (q.take i) with
  | some t =>
    rw [hB] at hx
    cases hx
    rw [View.blocked_iff.2 ⟨i, hi, x, hB⟩] at h2
    cases h2
  | none =>
    rw [hB] at hx
    dsimp only at hx
    split at hx
    · cases hx
    · exact hx

/-- **C82** (the rest): what is found at a path stays as it is when an `Env` is merged, if no variable is for that path, for
one above it or one below it. (Dictionaries are left out: variables below them change them.) -/
theorem C82_others (e : Env) (vars : List (Str × Str)) (n : Data) (hn : e.data vars = .ok n)
    (path : Str) (hpath : plainPath path) (ho : ∀ x ∈ e.iter vars, ¬ Overlap x.1 path)
    (f : Fig) (m : Data) (hf : f.value = .ok m) (hm : m.WF) (u : Value) (hu : f.findValue path = .ok u)
    (hd : u.asDict? = none) (loc : Location) (tag : Tag) :
    (f.provideWith (e.giving n) .Merge loc tag).findValue path = .ok u := by
  obtain ⟨d, rfl, hdwf, hview⟩ := Env.data_form hn
  have hnwf : Data.WF [(e.profile, d)] := ⟨List.pairwise_singleton .., by simpa using hdwf⟩
  have hkeys : pathKeys path = Str.splitOn '.' path := pathKeys_of_plain hpath
  have hkne : pathKeys path ≠ [] := by rw [hkeys]; exact Str.splitOn_ne_nil _ _
  have hE1 : (Value.ofDict d).view (pathKeys path) = none := by
    have := View.foldl_under_other (vals := (e.iter vars).map fun x => (x.1, Value.parsed x.2)) (k := path)
      (by intro x hx; obtain ⟨y, hy, rfl⟩ := List.mem_map.1 hx; exact ho y hy) View.empty []
    rw [List.append_nil, List.map_map] at this
    rw [hview, hkeys]
    refine this.trans ?_
    rw [View.empty, if_neg (by rw [← hkeys]; exact hkne)]
  have hE2 : ∀ i x, (Value.ofDict d).view ((pathKeys path).take i) ≠ some (.leaf x) := by
    intro i x hx
    rw [hview] at hx
    rcases View.foldl_merge_leaf hx with h | ⟨B, hB, h⟩
    · unfold View.empty at h
      split at h <;> cases h
    · obtain ⟨y, hy, rfl⟩ := List.mem_map.1 hB
      unfold View.under at h
      split at h
      · rename_i hpre
        refine ho y hy (.inl ?_)
        rw [← hkeys]
        exact (List.isPrefixOf_iff_prefix.1 hpre).trans (List.take_prefix _ _)
      · split at h <;> cases h
  -- what the variables give for any profile is beside the path
  have hgiven : ∀ pr, Data.given [(e.profile, d)] tag pr (pathKeys path) = none ∧
      View.blocked (Data.given [(e.profile, d)] tag pr) (pathKeys path) = false := by
    intro pr
    by_cases hpr : e.profile.same pr = true
    · have hg : ∀ q, q ≠ [] → Data.given [(e.profile, d)] tag pr q =
          ((Value.ofDict d).view q).map (Shape.retag (tag.forProfile pr)) := by
        intro q hq
        cases q with
        | nil => exact absurd rfl hq
        | cons k ks => simp only [Data.given]; rw [Data.at, Env.at_own hpr]; rfl
      refine ⟨by rw [hg _ hkne, hE1]; rfl, ?_⟩
      rw [Bool.eq_false_iff]
      intro hbl
      obtain ⟨i, hi, x, hx⟩ := View.blocked_iff.1 hbl
      by_cases h0 : (pathKeys path).take i = []
      · rw [h0] at hx; cases hx
      · rw [hg _ h0] at hx
        cases hv : (Value.ofDict d).view ((pathKeys path).take i) with
        | none => rw [hv] at hx; cases hx
        | some sh =>
          rw [hv] at hx
          cases sh with
          | dict t => cases hx
          | leaf y => exact hE2 i y hv
    · rw [Data.given_empty (Env.at_other hpr) tag]
      exact ⟨by rw [noView, if_neg hkne], noView_blocked _⟩
  have hv : (f.provideWith (e.giving [(e.profile, d)]) .Merge loc tag).value
      = .ok (coalesceProfiles m (Fig.retagData tag [(e.profile, d)]) .Merge) := by
    simp only [Fig.provideWith, hf, Env.giving, Provider.plain, Fig.combine]
  obtain ⟨c, hcdef⟩ : ∃ c, c = coalesceProfiles m (Fig.retagData tag [(e.profile, d)]) .Merge := ⟨_, rfl⟩
  have hwfc := Data.wf_coalesce hm (Fig.wf_retagData tag hnwf) .Merge
  rw [← hcdef] at hv hwfc
  have hat : ∀ pr, c.at pr = View.merge (m.at pr) (Data.given [(e.profile, d)] tag pr) := by
    intro pr
    funext p
    rw [hcdef, Data.at_coalesce hm (Fig.wf_retagData tag hnwf)]
    have : Data.at (Fig.retagData tag [(e.profile, d)]) pr = Data.given [(e.profile, d)] tag pr :=
      funext fun p => Fig.at_retagData tag _ pr p
    rw [this]; rfl
  have hsame : ∀ pr, c.at pr (pathKeys path) = m.at pr (pathKeys path) ∧
      (View.blocked (c.at pr) (pathKeys path) = true → View.blocked (m.at pr) (pathKeys path) = true) := by
    intro pr
    rw [hat]
    exact View.merge_aside (hgiven pr).1 (hgiven pr).2
  obtain ⟨v, hmv, hvv⟩ := C11_layering f m hf hm
  obtain ⟨v', hmv', hvv'⟩ := C11_layering _ c hv hwfc
  have hup : v.view (pathKeys path) = some (.leaf u) := by
    rw [Fig.findValue, hmv] at hu
    simp only [Value.find_eq] at hu
    refine (Value.getKeys_eq_some_iff_view hd).1 ?_
    cases hg : v.getKeys (pathKeys path) with
    | none => rw [hg] at hu; cases hu
    | some z => rw [hg] at hu; cases hu; rfl
  have step : ∀ {A B A' B' : View} {s : Shape} {q : List Str}, View.merge A B q = some s → B' q = B q →
      (View.blocked B' q = true → View.blocked B q = true) → (A q = some s → A' q = some s) →
      View.merge A' B' q = some s := by
    intro A B A' B' s q h h1 h2 h3
    unfold View.merge at h ⊢
    rw [h1]
    cases hB : B q with
    | some t => rw [hB] at h; exact h
    | none =>
      rw [hB] at h
      dsimp only at h ⊢
      split at h
      · cases h
      · rename_i hb
        rw [if_neg fun hb' => hb (h2 hb')]
        exact h3 h
  have hup' : v'.view (pathKeys path) = some (.leaf u) := by
    rw [hvv] at hup
    rw [hvv']
    have hprof : (f.provideWith (e.giving [(e.profile, d)]) .Merge loc tag).profile = f.profile := rfl
    rw [hprof]
    split at hup
    · rename_i hc
      rw [if_pos hc]
      exact step hup (hsame _).1 (hsame _).2 fun h => step h (hsame _).1 (hsame _).2 fun h => by rw [(hsame _).1]; exact h
    · rename_i hc
      rw [if_neg hc]
      exact step hup (hsame _).1 (hsame _).2 fun h => by rw [(hsame _).1]; exact h
  rw [Fig.findValue, hmv']
  simp only [Value.find_eq, (Value.getKeys_eq_some_iff_view hd).2 hup']

/-! ## As a type -/

theorem Fig.Holds.means {f : Fig} {path text : Str} (h : f.Holds path text) : ∃ w u, Value.parse text = .ok w ∧
    u.strip = w ∧ ∀ (t : Ty), t.proper false = true → ∀ y,
      f.extractInner path t = .ok y ↔ t.Means false f.fileAt u y := by
  obtain ⟨w, u, h1, h2, h3⟩ := h
  have hwf : u.WF := Value.wf_of_strip (v := w) (by rw [h3, Value.strip_parse h1]) (Value.wf_parse h1)
  refine ⟨w, u, h1, h3, fun t ht y => ?_⟩
  rw [Fig.extractInner, Fig.extractInnerWith_ok h2]
  exact (C63_value f false t ht u hwf nofun y).1

/-- A text that is a number or a truth value is without quotes. -/
theorem Value.parse_bare {s : Str} {v : Value} (h : Value.parse s = .ok v)
    (hv : (∃ n, v = .ofNum n) ∨ ∃ b, v = .ofBool b) : Bare (Str.trim s) v := by
  have hs : ¬ Ws s := by
    intro hs
    rw [Value.parse_ws hs] at h
    cases h
    rcases hv with ⟨_, h⟩ | ⟨_, h⟩ <;> cases h
  by_cases hr : ∃ v, Reads Parser.CodeQuoted (Str.trim s) v
  · obtain ⟨w, hw⟩ := hr
    rw [Value.parse_reads hw] at h
    cases h
    generalize ht : Str.trim s = t at hw ⊢
    cases hw with
    | @bare a u b _ ha hb _ _ _ _ h3 h4 h =>
      have : u = a ++ (u ++ b) := by
        rw [← ht, ← Str.trim_trim, ht, Str.trim_of_split ha hb h3 h4]
      rwa [← this]
    | string | char | array | dict => rcases hv with ⟨_, h⟩ | ⟨_, h⟩ <;> cases h
  · rcases Value.parse_text hs hr with h' | h' <;> rw [h'] at h <;> cases h
    rcases hv with ⟨_, h⟩ | ⟨_, h⟩ <;> cases h

/-- Which texts are integers. -/
theorem Value.parse_int (s : Str) (i : Int) : (∃ n, Value.parse s = .ok (.ofNum n) ∧ n.IsInt i) ↔
    IntText (Str.trim s) i ∧ -(2 ^ 63) ≤ i ∧ i < 2 ^ 64 := by
  constructor
  · rintro ⟨n, h, hi⟩
    have hb := Value.parse_bare h (.inl ⟨n, rfl⟩)
    generalize hv : Value.ofNum n = v at hb
    generalize Str.trim s = t at hb ⊢
    cases hb with
    | float _ _ => cases hv; cases hi.1
    | @unsigned _ k _ _ hk' =>
      cases hv
      have := hi.1
      simp only [Num.intVal, Option.some.injEq] at this
      have hk := k.isLt
      rw [← this]
      exact ⟨hk', by omega, by omega⟩
    | @signed _ k _ _ hk' =>
      cases hv
      have := hi.1
      simp only [Num.intVal, Option.some.injEq] at this
      have h1 := k.le_toInt
      have h2 := k.toInt_lt
      rw [← this]
      exact ⟨hk', by omega, by omega⟩
    | tt | ff | dotted | text => cases hv
  · rintro ⟨h, h1, h2⟩
    have hdot : '.' ∉ Str.trim s := fun hd => absurd (h.chars '.' hd) (by decide)
    have hne : Str.trim s ≠ [] := by
      obtain ⟨ds, hds, _, ⟨h, _⟩ | ⟨h, _⟩ | ⟨h, _⟩⟩ := h <;> rw [h]
      · exact hds
      · simp
      · simp
    have hspec := fun c hc => let ⟨a, b, d, e, _⟩ := h.not_special c hc; And.intro a (And.intro b (And.intro d e))
    by_cases hm : (Str.trim s).head? = some '-'
    · have h0 := h.nonpos hm
      have hk : (BitVec.ofInt 64 i).toInt = i := by
        rw [BitVec.toInt_ofInt]; exact Int.bmod_eq_of_le (by omega) (by omega)
      exact ⟨.isize (BitVec.ofInt 64 i), Value.parse_reads (Reads.simple hne hspec
        (.signed hdot hm (by rw [hk]; exact h))), by simp [Num.intVal, hk], by simp [Num.width]⟩
    · have h0 := h.nonneg hm
      have hk : ((BitVec.ofNat 64 i.toNat).toNat : Int) = i := by
        rw [BitVec.toNat_ofNat, Nat.mod_eq_of_lt (by omega)]; omega
      exact ⟨.usize (BitVec.ofNat 64 i.toNat), Value.parse_reads (Reads.simple hne hspec
        (.unsigned hdot hm (by rw [hk]; exact h))), by simp only [Num.intVal]; rw [hk], by simp [Num.width]⟩

/-- **C82** (integers): where the text is, extraction as an integer type (of at most 64 bits) gives `i` if and only if the
text is, white space around it aside, the decimal text of `i`, and `i` is a value of the type. -/
theorem C82_integer (f : Fig) (path v : Str) (h : f.Holds path v) (t : IntTy) (h1 : t ≠ .u128) (h2 : t ≠ .i128)
    (i : Int) : f.extractInner path (.int t) = .ok (.int i) ↔
      IntText (Str.trim v) i ∧ t.min ≤ i ∧ i ≤ t.max := by
  obtain ⟨w, u, hw, hs, key⟩ := h.means
  rw [key (.int t) rfl, Ty.Means]
  have hr : t.min ≤ i → i ≤ t.max → -(2 ^ 63) ≤ i ∧ i < 2 ^ 64 := by
    cases t <;> simp [IntTy.min, IntTy.max] at h1 h2 ⊢ <;> omega
  constructor
  · rintro ⟨_, _, n, j, hn, hj, h3, h4, h5⟩
    cases h5
    rcases hn with ⟨tag, rfl⟩ | ⟨h, _⟩
    · exact ⟨((Value.parse_int v i).1 ⟨n, by rw [hw, ← hs]; rfl, hj⟩).1, h3, h4⟩
    · cases h
  · rintro ⟨h3, h4, h5⟩
    obtain ⟨n, hn, hi⟩ := (Value.parse_int v i).2 ⟨h3, hr h4 h5⟩
    rw [hw] at hn
    cases hn
    obtain ⟨tag, rfl⟩ := Value.strip_eq_num hs
    exact ⟨h1, h2, n, i, .inl ⟨tag, rfl⟩, hi, h4, h5, rfl⟩

/-- **C82** (truth values): the text is `true` or `false`, white space around it aside. -/
theorem C82_bool (f : Fig) (path v : Str) (h : f.Holds path v) (b : Bool) :
    f.extractInner path .bool = .ok (.bool b) ↔ Str.trim v = if b then str "true" else str "false" := by
  obtain ⟨w, u, hw, hs, key⟩ := h.means
  rw [key .bool rfl, Ty.Means]
  constructor
  · rintro ⟨c, hc, ⟨tag, rfl⟩ | ⟨h, _⟩⟩
    · cases hc
      have hb := Value.parse_bare (s := v) (v := .ofBool b) (by rw [hw, ← hs]; rfl) (.inr ⟨b, rfl⟩)
      generalize ht : Str.trim v = t at hb ⊢
      generalize hv : Value.ofBool b = x at hb
      cases hb <;> cases hv <;> rfl
    · cases h
  · intro ht
    have hp : Value.parse v = .ok (.ofBool b) := by
      refine Value.parse_reads ?_
      rw [ht]
      cases b
      · exact Reads.simple (by decide) (by decide) .ff
      · exact Reads.simple (by decide) (by decide) .tt
    rw [hw] at hp
    cases hp
    obtain ⟨tag, rfl⟩ := Value.strip_eq_bool hs
    exact ⟨b, rfl, .inl ⟨tag, rfl⟩⟩

/-- What is written in the grammar is not only white space. -/
theorem Value.parse_empty {s : Str} {e : Empty} (h : Value.parse s = .ok (.ofEmpty e)) : Ws s := by
  by_cases hs : Ws s
  · exact hs
  · by_cases hr : ∃ v, Reads Parser.CodeQuoted (Str.trim s) v
    · obtain ⟨w, hw⟩ := hr
      rw [Value.parse_reads hw] at h
      cases h
      generalize hv : Value.ofEmpty e = v at hw
      generalize Str.trim s = t at hw
      cases hw with
      | bare _ _ _ _ _ _ _ _ h => cases h <;> cases hv
      | string | char | array | dict => cases hv
    · rcases Value.parse_text hs hr with h' | h' <;> rw [h'] at h <;> cases h

/-- **C82** (options): extraction as an `Option` gives `None` if and only if the text is only white space, or nothing at all. -/
theorem C82_none (f : Fig) (path v : Str) (h : f.Holds path v) (t : Ty) (ht : (Ty.option t).proper false = true) :
    f.extractInner path (.option t) = .ok .none ↔ Ws v := by
  obtain ⟨w, u, hw, hs, key⟩ := h.means
  rw [key _ ht, Ty.Means]
  constructor
  · rintro (⟨_, tag, e, rfl⟩ | ⟨_, y, h, _⟩)
    · exact Value.parse_empty (e := e) (by rw [hw, ← hs]; rfl)
    · cases h
  · intro hws
    rw [Value.parse_ws hws] at hw
    cases hw
    obtain ⟨tag, rfl⟩ := Value.strip_eq_empty hs
    exact .inl ⟨rfl, tag, _, rfl⟩

/-- **C82** (text): the text is quoted, with escapes; or a character between single quotes; or any other text that is not
some other value in the grammar, and not only white space. Missing: quoted text with a character that is not ASCII before
its first escape, for which it is false (`C82_fails`). -/
theorem C82_text_partial (f : Fig) (path v : Str) (hc : CleanText v) (h : f.Holds path v) (s : Str) :
    f.extractInner path .string = .ok (.str s) ↔
      (∃ q, Str.trim v = '"' :: (q ++ ['"']) ∧ Unescapes false q s) ∨
      (∃ c, Str.trim v = ['\'', c, '\''] ∧ s = [c]) ∨
      (¬ Ws v ∧ s = Str.trim v ∧ ∀ w, Writes (Str.trim v) w → w = .ofStr s) := by
  obtain ⟨w, u, hw, hs, key⟩ := h.means
  rw [key .string rfl, Ty.Means]
  have hg := C35_grammar_partial v hc
  have htext : (∃ s', Val.str s = .str s' ∧ u.text? = some s') ↔ w = .ofStr s ∨ ∃ c, s = [c] ∧ w = .ofChar c := by
    rw [← hs]
    cases u <;> simp [Value.text?, Value.strip, Value.ofStr, Value.ofChar, eq_comm]
  rw [htext]
  have hnw : ∀ x, Writes (Str.trim v) x → ¬ Ws v := by
    intro x hx hws
    rw [Str.trim_ws hws] at hx
    exact hx.ne_ws Ws.nil
  have hfun : ∀ x, Writes (Str.trim v) x → x = w := by
    intro x hx
    have := (hg x).2 (.inr (.inl hx))
    rw [hw] at this
    cases this; rfl
  constructor
  · intro hcase
    rcases (hg w).1 hw with ⟨_, rfl⟩ | hwr | ⟨h1, h2, rfl⟩
    · rcases hcase with h | ⟨_, _, h⟩ <;> cases h
    · have hws := hnw w hwr
      have hfun' : w = .ofStr s → s = Str.trim v → ∀ x, Writes (Str.trim v) x → x = .ofStr s :=
        fun h _ x hx => (hfun x hx).trans h
      generalize ht : Str.trim v = t at hwr hfun' ⊢
      have htt : Str.trim t = t := by rw [← ht, Str.trim_trim]
      cases hwr with
      | @bare a u b _ ha hb _ _ _ _ h3 h4 h =>
        have hu : u = a ++ (u ++ b) := by
          conv => rhs; rw [← htt]
          rw [Str.trim_of_split ha hb h3 h4]
        rcases hcase with he | ⟨c, _, he⟩
        · refine .inr (.inr ⟨hws, ?_, ?_⟩)
          · rw [← hu]
            subst he
            generalize hx : Value.ofStr s = x at h
            cases h <;> cases hx <;> rfl
          · refine hfun' he ?_
            rw [← hu]
            subst he
            generalize hx : Value.ofStr s = x at h
            cases h <;> cases hx <;> rfl
        · subst he
          generalize hx : Value.ofChar c = x at h
          cases h <;> cases hx
      | @string a q t' b ha hb h =>
        have : Str.trim (a ++ ('"' :: (q ++ ['"']) ++ b)) = '"' :: (q ++ ['"']) :=
          Str.trim_of_split ha hb (by intro c hc; cases hc; decide)
            (by intro c hc; rw [← List.cons_append, List.getLast?_concat] at hc; cases hc; decide)
        have he : a ++ '"' :: (q ++ '"' :: b) = '"' :: (q ++ ['"']) := by
          rw [← htt, ← this]; simp
        rcases hcase with h' | ⟨_, _, h'⟩ <;> cases h'
        exact .inl ⟨q, he, h⟩
      | @char a b c ha hb =>
        have : Str.trim (a ++ (['\'', c, '\''] ++ b)) = ['\'', c, '\''] :=
          Str.trim_of_split ha hb (by intro c hc; cases hc; decide)
            (by intro c' hc; simp at hc; rw [← hc]; decide)
        have he : a ++ '\'' :: c :: '\'' :: b = ['\'', c, '\''] := by
          rw [← htt, ← this]; simp
        rcases hcase with h' | ⟨_, rfl, h'⟩ <;> cases h'
        exact .inr (.inl ⟨c, he, rfl⟩)
      | array | dict => rcases hcase with h | ⟨_, _, h⟩ <;> cases h
    · rcases hcase with h | ⟨_, _, h⟩
      · cases h
        exact .inr (.inr ⟨h1, rfl, fun x hx => absurd ⟨x, hx⟩ h2⟩)
      · cases h
  · rintro (⟨q, hq, hu⟩ | ⟨c, hq, rfl⟩ | ⟨h1, h2, h3⟩)
    · left
      have : Writes (Str.trim v) (.ofStr s) := by
        rw [hq]; exact Reads.string (a := []) (b := []) Ws.nil Ws.nil hu
      exact (hfun _ this).symm
    · right
      have : Writes (Str.trim v) (.ofChar c) := by
        rw [hq]; exact Reads.char (a := []) (b := []) c Ws.nil Ws.nil
      exact ⟨c, rfl, (hfun _ this).symm⟩
    · left
      by_cases hx : ∃ x, Writes (Str.trim v) x
      · obtain ⟨x, hx⟩ := hx
        rw [← hfun x hx, h3 x hx]
      · have := (hg (.ofStr (Str.trim v))).2 (.inr (.inr ⟨h1, hx, rfl⟩))
        rw [hw] at this
        cases this
        rw [h2]

/-- **C82** (floating point numbers): the text is a decimal number with a dot, and the result the nearest `f64` (C80); or it
is the decimal text of an integer of 64 bits, and the result the `f64` nearest to that. -/
theorem C82_float (f : Fig) (path v : Str) (h : f.Holds path v) (y : F64) :
    f.extractInner path .f64 = .ok (.f64 y) ↔
      (∃ neg n d, Decimal (Str.trim v) neg n d ∧ y.Nearest neg n d) ∨
      (∃ i, IntText (Str.trim v) i ∧ -(2 ^ 63) ≤ i ∧ i < 2 ^ 64 ∧ y.Nearest (decide (i < 0)) i.natAbs 1) := by
  obtain ⟨w, u, hw, hf, hs⟩ := h
  have hsrc : f.sourceOf (some path) = .ok u := hf
  have hint : ∀ n, u.IsNum false n → Value.parse v = .ok (.ofNum n) := by
    rintro n (⟨tag, rfl⟩ | ⟨h, _⟩)
    · rw [hw, ← hs]; rfl
    · cases h
  have hnum : ∀ n, Value.parse v = .ok (.ofNum n) → u.IsNum false n := by
    intro n hn
    rw [hw] at hn
    cases hn
    obtain ⟨tag, rfl⟩ := Value.strip_eq_num hs
    exact .inl ⟨tag, rfl⟩
  have hby : f.extractInner path .f64 = f.extractBy false (some path) .f64 := rfl
  rw [hby]
  constructor
  · intro h
    have hn : ∃ n, u.IsNum false n := by
      obtain ⟨w', u', h1, h2, key⟩ := Fig.Holds.means ⟨w, u, hw, hf, hs⟩
      obtain ⟨n, _, hn, _⟩ := (key .f64 rfl (.f64 y)).1 h
      rw [hw] at h1
      cases h1
      rcases hn with ⟨tag, rfl⟩ | ⟨h, _⟩
      · rw [← h2] at hs
        obtain ⟨tag, rfl⟩ := Value.strip_eq_num hs
        exact ⟨n, .inl ⟨tag, rfl⟩⟩
      · cases h
    obtain ⟨n, hn⟩ := hn
    have hp := hint n hn
    rcases (extract_f64 hsrc hn y).1 h with rfl | ⟨z, rfl, _⟩ | ⟨i, hi, rfl⟩
    · exact .inl ((C80_value v y).1 hp)
    · have hb := Value.parse_bare hp (.inl ⟨_, rfl⟩)
      generalize hv : Value.ofNum (.f32 z) = x at hb
      generalize Str.trim v = t at hb
      cases hb <;> cases hv
    · obtain ⟨h1, h2, h3⟩ := (Value.parse_int v i).1 ⟨n, hp, hi⟩
      exact .inr ⟨i, h1, h2, h3, ((C81_integer f false (some path) u hsrc n hn i hi).1 _).1 h⟩
  · rintro (h | ⟨i, h1, h2, h3, h4⟩)
    · exact (extract_f64 hsrc (hnum _ ((C80_value v y).2 h)) y).2 (.inl rfl)
    · obtain ⟨n, hn, hi⟩ := (Value.parse_int v i).2 ⟨h1, h2, h3⟩
      exact ((C81_integer f false (some path) u hsrc n (hnum n hn) i hi).1 y).2 h4

/-! ## A case -/

/-- `Env::prefixed("APP_").split("__")`. -/
def Ex.appEnv : Env := EnvStart.thenCalls (.prefixed (str "APP_")) [.split (str "__")]

/-- Variables: a port, a nested name, a flag, nothing, and some that are not for the application. -/
def Ex.appVars : List (Str × Str) :=
  [(str "PATH", str "/bin"), (str "APP_PORT", str " 8080 "), (str "app_Db__Name", str "\"a\\tb\""), (str "APP_B__X", str "true"),
   (str "APP_EMPTY", str ""), (str "APP_RATE", str "0.5")]

/-- What they give. -/
def Ex.appData : Data :=
  [(Profile.Default,
    [(str "b", .ofDict [(str "x", .ofBool true)]), (str "db", .ofDict [(str "name", .ofStr (str "a\tb"))]),
     (str "empty", .ofEmpty .unit), (str "port", .ofNum (.usize 8080#64)), (str "rate", .ofNum (.f64 0x3fe0000000000000#64))])]

example : Ex.appEnv.iter Ex.appVars =
    [(str "port", str " 8080 "), (str "db.name", str "\"a\\tb\""), (str "b.x", str "true"), (str "empty", str ""),
     (str "rate", str "0.5")] := by decide

theorem Ex.appEnv_data : Ex.appEnv.data Ex.appVars = .ok Ex.appData := by decide +kernel

/-- A figment with other data, and the environment merged over it. -/
def Ex.appFig : Fig := Ex.fig1.provideWith (Ex.appEnv.giving Ex.appData) .Merge Ex.loc ⟨2#64⟩

-- the port counts whatever is selected, and so does `b.x`, over which nothing else has a value
theorem Ex.appFig_port : (Ex.appFig.select Ex.dev).Holds (str "port") (str " 8080 ") :=
  (C82_found Ex.appEnv Ex.appVars Ex.appData Ex.appEnv_data []
    [(str "db.name", str "\"a\\tb\""), (str "b.x", str "true"), (str "empty", str ""), (str "rate", str "0.5")]
    (str "port") (str " 8080 ") (.ofNum (.usize 8080#64)) (by decide) rfl rfl (by decide) Ex.fig1
    (Fig.retagData ⟨1#64⟩ Ex.data1) rfl (Fig.wf_retagData _ Ex.data1_wf) Ex.loc ⟨2#64⟩ Ex.dev
    (.inr ⟨⟨rfl, rfl⟩, .inr ⟨rfl, fun _ => ⟨rfl, rfl⟩⟩⟩)).1

example : (Ex.appFig.select Ex.dev).extractInner (str "port") (.int .u16) = .ok (.int 8080) :=
  (C82_integer _ _ _ Ex.appFig_port .u16 nofun nofun 8080).2
    ⟨⟨str "8080", by decide, by decide, .inl ⟨by decide, by decide⟩⟩, by decide, by decide⟩
example : ¬ ∃ i, (Ex.appFig.select Ex.dev).extractInner (str "port") (.int .u8) = .ok (.int i) := by
  rintro ⟨i, h⟩
  obtain ⟨h1, _, h2⟩ := (C82_integer _ _ _ Ex.appFig_port .u8 nofun nofun i).1 h
  have := Dec.IntText.functional h1 (m := 8080) ⟨str "8080", by decide, by decide, .inl ⟨by decide, by decide⟩⟩
  subst this
  exact absurd h2 (by decide)
-- `a` is in profile `Dev`, which counts more than the default one the variables are for
example : ¬ Ex.appEnv.Counts Ex.data1 Ex.dev (str "a") := by
  rintro (h | ⟨_, ⟨_, h⟩ | ⟨_, h⟩⟩)
  · exact absurd h (by decide)
  · exact absurd h (by decide)
  · exact absurd (h (by decide)).1 (by decide)
-- and stays as it is, for no variable is for it
example : plainPath (str "a") ∧ (∀ x ∈ Ex.appEnv.iter Ex.appVars, ¬ Overlap x.1 (str "a")) ∧
    ∃ u, (Ex.fig1.select Ex.dev).findValue (str "a") = .ok u ∧ u.asDict? = none := ⟨by decide, by decide, _, rfl, rfl⟩
-- hypotheses of the theorems on types
example : Ex.appFig.Holds (str "b.x") (str "true") := ⟨_, _, rfl, rfl, rfl⟩
example : Ex.appFig.Holds (str "db.name") (str "\"a\\tb\"") := ⟨_, _, rfl, rfl, rfl⟩
example : Ex.appFig.Holds (str "empty") (str "") := ⟨_, _, rfl, rfl, rfl⟩
example : Ex.appFig.Holds (str "rate") (str "0.5") :=
  ⟨.ofNum (.f64 0x3fe0000000000000#64), _, by decide +kernel, rfl, rfl⟩
example : Ex.appFig.extractInner (str "db.name") .string = .ok (.str (str "a\tb")) := rfl
example : Unescapes false (str "a\\tb") (str "a\tb") :=
  .plain (by decide) (by decide) (by decide) (.named (m := Char.ofNat 9) (by decide)
    (.plain (by decide) (by decide) (by decide) .nil))

example : CleanText (str "\"a\\tb\"") ∧ CleanText (str "8080 é") := ⟨C32_clean _ (.inl (by decide)), C32_clean _ (.inr (.inl (by decide)))⟩

/-- The full statement of `C82_text_partial` is false: the quoted text `éa\n` becomes `é`, a new line, without the `a`. -/
theorem C82_fails : ∃ (f : Fig) (path v s q : Str), f.Holds path v ∧ Str.trim v = '"' :: (q ++ ['"']) ∧ Unescapes false q s ∧
    f.extractInner path .string ≠ .ok (.str s) := by
  refine ⟨Ex.fig1.provideWith (Ex.appEnv.giving [(Profile.Default, [(str "k", .ofStr (str "é\n"))])]) .Merge Ex.loc ⟨2#64⟩,
    str "k", str "\"éa\\n\"", str "éa\n", str "éa\\n", ⟨.ofStr (str "é\n"), _, by decide +kernel, rfl, rfl⟩, by decide, ?_, ?_⟩
  · exact .plain (by decide) (by decide) (by decide) (.plain (by decide) (by decide) (by decide)
      (.named (m := Char.ofNat 10) (by decide) .nil))
  · have h : (Ex.fig1.provideWith (Ex.appEnv.giving [(Profile.Default, [(str "k", .ofStr (str "é\n"))])]) .Merge Ex.loc
        ⟨2#64⟩).extractInner (str "k") .string = .ok (.str (str "é\n")) := rfl
    rw [h]
    intro h
    injection h with h
    injection h with h
    exact absurd h (by decide)
-- the data is what the environment gives
example : Ex.appEnv.data [(str "APP_K", str "\"éa\\n\"")] = .ok [(Profile.Default, [(str "k", .ofStr (str "é\n"))])] := by
  decide +kernel

end
end Figment
