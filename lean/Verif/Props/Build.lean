import Verif.Spec.Build
import Verif.Lemmas.Focus
import Verif.Props.Result
import Verif.Lemmas.Error
/-!
# C88: what is extracted from a figment built in any way

The specification is `Build.view`, `Build.selected` and `Build.result` (Spec/Build).
-/
namespace Figment
variable [FloatOps]

omit [FloatOps] in
theorem Fig.provide_profile {f g : Fig} {p : Provider} {o : Order} {loc : Location} {c c' : BitVec 64}
    (h : f.provide p o loc c = (some g, c')) :
    g.profile = match (generalizing := false) o with
      | .Merge | .Admerge => p.profile.getD f.profile
      | .Join | .Adjoin => f.profile := by
  unfold Fig.provide at h
  cases ht : Tag.next c with
  | mk tag c1 =>
    rw [ht] at h
    cases tag with
    | none => cases h
    | some tag =>
      cases h
      show (match p.profile with | some q => f.profile.coalesce q o | none => f.profile) = _
      cases p.profile with
      | none => cases o <;> rfl
      | some q => cases o <;> rfl

omit [FloatOps] in
/-- Built without failures, the data, without provenance, is what the specification says, and so is the profile. -/
theorem Build.make_view : ∀ (b : Build) {c c' : BitVec 64} {f : Fig}, b.make c = (some f, c') → b.Fine →
    f.profile = b.selected ∧ ∃ m : Data, f.value = .ok m ∧ m.WF ∧ ∀ pr, (m.at pr).strip = b.view pr
  | .new, c, c', f, h, _ => by
    cases h
    refine ⟨rfl, [], rfl, Data.wf_nil, fun pr => ?_⟩
    funext p
    cases p with
    | nil => rfl
    | cons k ks => rfl
  | .add b x, c, c', f, h, hf => by
    rw [Build.make] at h
    cases hb : b.make c with
    | mk g c1 =>
      rw [hb] at h
      cases g with
      | none => cases h
      | some g =>
        obtain ⟨hp, m, hm, hmw, hat⟩ := Build.make_view b hb fun d hd => hf d (by simp [Build.answers, hd])
        obtain ⟨n, hn, hnw⟩ := hf x.provider.data (by simp [Build.answers])
        obtain ⟨tag', m', _, hv, hw', _, hat'⟩ := Fig.provide_ok hm hn hmw hnw h
        refine ⟨?_, m', hv, hw', fun pr => ?_⟩
        · rw [Fig.provide_profile h, hp]
          cases hx : x.order <;> simp only [Build.selected, hx]
        · rw [hat', View.strip_coalesce, Data.strip_given, hat, Build.view, hn]
          rfl
  | .put b o other loc, c, c', f, h, hf => by
    rw [Build.make] at h
    cases hb : b.make c with
    | mk g c1 =>
      rw [hb] at h
      cases g with
      | none => cases h
      | some g =>
        dsimp only at h
        cases ho : other.make c1 with
        | mk g' c2 =>
          rw [ho] at h
          cases g' with
          | none => cases h
          | some g' =>
            obtain ⟨hp, m, hm, hmw, hat⟩ := Build.make_view b hb fun d hd => hf d (by simp [Build.answers, hd])
            obtain ⟨hp', n, hn, hnw, hatn⟩ := Build.make_view other ho fun d hd => hf d (by simp [Build.answers, hd])
            obtain ⟨tag', m', _, hv, hw', _, hat'⟩ := Fig.provide_ok (p := g'.toProvider) hm hn hmw hnw h
            refine ⟨?_, m', hv, hw', fun pr => ?_⟩
            · rw [Fig.provide_profile h, hp]
              cases o <;> first | rfl | exact hp'
            · rw [hat', View.strip_coalesce, Data.strip_given, hat, hatn, Build.view]
  | .select b p, c, c', f, h, hf => by
    rw [Build.make] at h
    cases hb : b.make c with
    | mk g c1 =>
      rw [hb] at h
      cases g with
      | none => cases h
      | some g =>
        cases h
        obtain ⟨hp, m, hm, hmw, hat⟩ := Build.make_view b hb hf
        exact ⟨rfl, m, hm, hmw, hat⟩
  | .focus b key, c, c', f, h, hf => by
    rw [Build.make] at h
    cases hb : b.make c with
    | mk g c1 =>
      rw [hb] at h
      cases g with
      | none => cases h
      | some g =>
        cases h
        obtain ⟨hp, m, hm, hmw, hat⟩ := Build.make_view b hb hf
        refine ⟨hp, _, Fig.focus_value_ok hm hmw key, Data.wf_focus hmw key, fun pr => ?_⟩
        funext p
        rw [Build.view, View.below]
        cases p with
        | nil => rfl
        | cons k ks =>
          rw [if_neg (by simp), ← hat, View.strip, View.strip, Data.at_focus hmw]

omit [FloatOps] in
theorem Build.make_result {b : Build} {c c' : BitVec 64} {f : Fig} (h : b.make c = (some f, c')) (hf : b.Fine) :
    ∃ m : Data, f.value = .ok m ∧ m.WF ∧ ∀ p, (m.layered f.profile).strip p = b.result p := by
  obtain ⟨hp, m, hm, hmw, hat⟩ := Build.make_view b h hf
  refine ⟨m, hm, hmw, fun p => ?_⟩
  rw [Data.layered, Build.result, ← hp, ← hat, ← hat, ← hat]
  split
  · rw [View.strip_merge, View.strip_merge]
  · rw [View.strip_merge]

/-- **C88**: what is extracted from a figment built in any way: with providers and other figments added, profiles selected
and focused, in any order and nested to any depth, from providers that do not fail. The selected profile is as the rules
say, and there is one value that has at each path what the rules say; the four extractions, at any type, give exactly
what that value, or the value at the path in it, means when read as the type. -/
theorem C88_extract (b : Build) (hb : b.Fine) (c c' : BitVec 64) (f : Fig) (h : b.make c = (some f, c')) :
    f.profile = b.selected ∧
    ∃ v : Value, v.WF ∧ v.strip = v ∧ (∀ p, v.view p = b.result p) ∧
      ∀ t : Ty, t.proper false = true → ∀ x,
        (f.extract t = .ok x ↔ t.Means false (fun _ => none) v x) ∧
        (f.extractLossy t = .ok x ↔ t.Means true (fun _ => none) v x) ∧
        ∀ path,
          (f.extractInner path t = .ok x ↔
            ∃ u, v.getKeys (pathKeys path) = some u ∧ t.Means false (fun _ => none) u x) ∧
          (f.extractInnerLossy path t = .ok x ↔
            ∃ u, v.getKeys (pathKeys path) = some u ∧ t.Means true (fun _ => none) u x) := by
  obtain ⟨m, hm, hmw, hR⟩ := Build.make_result h hb
  exact ⟨(Build.make_view b h hb).1, Fig.means_of_view hm hmw hR⟩

/-- **C88**, the errors: extraction fails exactly if the value has a fault, read as the type, with the path and the kind of
the first one. -/
theorem C88_faults (b : Build) (hb : b.Fine) (c c' : BitVec 64) (f : Fig) (h : b.make c = (some f, c')) (v : Value)
    (hv : v.WF) (hview : ∀ p, v.view p = b.result p) (t : Ty) (ht : t.proper false = true) (p : List Str) (k : Kind) :
    (FailsAt (f.extract t) p k ↔ t.Complains false (fun _ => none) v p k) ∧
    (FailsAt (f.extractLossy t) p k ↔ t.Complains true (fun _ => none) v p k) ∧
    ∀ path,
      (FailsAt (f.extractInner path t) p k ↔
        (v.getKeys (pathKeys path) = none ∧ p = [] ∧ k = .missingField path) ∨
        ∃ u p', v.getKeys (pathKeys path) = some u ∧ p = p' ++ (Str.splitOn '.' path).filter (fun key => !key.isEmpty) ∧
          t.Complains false (fun _ => none) u p' k) ∧
      (FailsAt (f.extractInnerLossy path t) p k ↔
        (v.getKeys (pathKeys path) = none ∧ p = [] ∧ k = .missingField path) ∨
        ∃ u p', v.getKeys (pathKeys path) = some u ∧ p = p' ++ (Str.splitOn '.' path).filter (fun key => !key.isEmpty) ∧
          t.Complains true (fun _ => none) u p' k) := by
  obtain ⟨m, hm, hmw, hR⟩ := Build.make_result h hb
  exact Fig.faults_of_view hm hmw hR v hv hview t ht p k

/-- **C88**: figments built differently say the same if the rules give the same for both. -/
theorem C88_same (b b' : Build) (hb : b.Fine) (hb' : b'.Fine) (c c' d d' : BitVec 64) (f g : Fig)
    (hf : b.make c = (some f, c')) (hg : b'.make d = (some g, d')) (hsame : ∀ p, b.result p = b'.result p) (t : Ty)
    (ht : t.proper false = true) :
    SayTheSame (f.extract t) (g.extract t) ∧ SayTheSame (f.extractLossy t) (g.extractLossy t) ∧
    ∀ path, SayTheSame (f.extractInner path t) (g.extractInner path t) ∧
      SayTheSame (f.extractInnerLossy path t) (g.extractInnerLossy path t) := by
  obtain ⟨_, v, v1, _, v3, v4⟩ := C88_extract b hb c c' f hf
  obtain ⟨_, w, w1, _, w3, w4⟩ := C88_extract b' hb' d d' g hg
  obtain rfl : v = w := Value.ext_view v w v1 w1 fun p => by rw [v3, w3, hsame]
  have hv := C88_faults b hb c c' f hf v v1 v3 t ht
  have hw := C88_faults b' hb' d d' g hg v v1 w3 t ht
  refine ⟨⟨fun x => (v4 t ht x).1.trans (w4 t ht x).1.symm, fun p k => (hv p k).1.trans (hw p k).1.symm⟩,
    ⟨fun x => (v4 t ht x).2.1.trans (w4 t ht x).2.1.symm, fun p k => (hv p k).2.1.trans (hw p k).2.1.symm⟩,
    fun path => ⟨⟨fun x => ((v4 t ht x).2.2 path).1.trans ((w4 t ht x).2.2 path).1.symm,
      fun p k => ((hv p k).2.2 path).1.trans ((hw p k).2.2 path).1.symm⟩,
      ⟨fun x => ((v4 t ht x).2.2 path).2.trans ((w4 t ht x).2.2 path).2.symm,
      fun p k => ((hv p k).2.2 path).2.trans ((hw p k).2.2 path).2.symm⟩⟩⟩

omit [FloatOps] in
theorem Build.view_root : ∀ (b : Build) (pr : Profile), b.view pr [] = some (.dict Tag.Default)
  | .new, _ => rfl
  | .add b x, pr => by
    have h1 := Build.view_root b pr
    have h2 : answerView pr x.provider.data [] = some (.dict Tag.Default) := by
      cases x.provider.data <;> rfl
    rw [Build.view]
    cases x.order <;> simp [View.coalesce, View.merge, View.join, View.adjoin, View.admerge, h1, h2]
  | .put b o other _, pr => by
    have h1 := Build.view_root b pr
    have h2 := Build.view_root other pr
    rw [Build.view]
    cases o <;> simp [View.coalesce, View.merge, View.join, View.adjoin, View.admerge, h1, h2]
  | .select b _, pr => by rw [Build.view]; exact Build.view_root b pr
  | .focus b key, pr => rfl

omit [FloatOps] in
theorem View.coalesce_fresh (o : Order) {B : View} (hB : B [] = some (.dict Tag.Default)) :
    View.coalesce o (fun p => if p = [] then some (.dict Tag.Default) else none) B = B := by
  funext p
  cases p with
  | nil => cases o <;> simp [View.coalesce, View.merge, View.join, View.adjoin, View.admerge, hB]
  | cons k ks =>
    have hb : View.blocked (fun p => if p = [] then some (Shape.dict Tag.Default) else none) (k :: ks) = false := by
      rw [View.blocked, List.any_eq_false]
      intro n _
      cases n <;> simp
    cases o <;> simp only [View.coalesce, View.merge, View.join, View.adjoin, View.admerge, hb] <;> simp
    all_goals cases h : B (k :: ks) <;> simp

omit [FloatOps] in
theorem Build.view_wrapped (o : Order) (b : Build) (loc : Location) (pr : Profile) :
    (Build.put .new o b loc).view pr = b.view pr := by
  rw [Build.view]
  exact View.coalesce_fresh o (Build.view_root b pr)

/-- **C88**: a figment put into a new one, with `merge` or `admerge`, says what it said itself; with `join` and `adjoin`
too, once its profile is selected. -/
theorem C88_wrapped (b : Build) (hb : b.Fine) (o : Order) (loc : Location) (wrapped : Build)
    (hw : (wrapped = .put .new o b loc ∧ (o = .Merge ∨ o = .Admerge)) ∨
      wrapped = .select (.put .new o b loc) b.selected)
    (c c' d d' : BitVec 64) (f g : Fig) (hf : b.make c = (some f, c')) (hg : wrapped.make d = (some g, d')) (t : Ty)
    (ht : t.proper false = true) :
    g.profile = f.profile ∧
    SayTheSame (f.extract t) (g.extract t) ∧ SayTheSame (f.extractLossy t) (g.extractLossy t) ∧
    ∀ path, SayTheSame (f.extractInner path t) (g.extractInner path t) ∧
      SayTheSame (f.extractInnerLossy path t) (g.extractInnerLossy path t) := by
  have hfine : wrapped.Fine := by
    rcases hw with ⟨rfl, _⟩ | rfl <;> exact fun x hx => hb x (by simpa [Build.answers] using hx)
  have hsel : wrapped.selected = b.selected := by
    rcases hw with ⟨rfl, rfl | rfl⟩ | rfl <;> rfl
  have hview : ∀ pr, wrapped.view pr = b.view pr := by
    rcases hw with ⟨rfl, _⟩ | rfl
    · exact Build.view_wrapped o b loc
    · exact Build.view_wrapped o b loc
  refine ⟨?_, C88_same b wrapped hb hfine c c' d d' f g hf hg (fun p => ?_) t ht⟩
  · rw [(Build.make_view b hf hb).1, (Build.make_view wrapped hg hfine).1, hsel]
  · rw [Build.result, Build.result, hsel, hview, hview, hview]

/-- **C88**: focusing on a key and then on another says what focusing on the path of both says. -/
theorem C88_focused (b : Build) (hb : b.Fine) (key key' : Str) (hk : ∀ k ∈ Str.splitOn '.' key, k ≠ [])
    (c c' d d' : BitVec 64) (f g : Fig) (hf : (Build.focus (.focus b key) key').make c = (some f, c'))
    (hg : (Build.focus b (key ++ '.' :: key')).make d = (some g, d')) (t : Ty) (ht : t.proper false = true) :
    SayTheSame (f.extract t) (g.extract t) ∧ SayTheSame (f.extractLossy t) (g.extractLossy t) ∧
    ∀ path, SayTheSame (f.extractInner path t) (g.extractInner path t) ∧
      SayTheSame (f.extractInnerLossy path t) (g.extractInnerLossy path t) := by
  refine C88_same (.focus (.focus b key) key') (.focus b (key ++ '.' :: key')) hb hb c c' d d' f g hf hg (fun p => ?_) t ht
  have hview : ∀ pr, (Build.focus (.focus b key) key').view pr = (Build.focus b (key ++ '.' :: key')).view pr := by
    intro pr
    funext p
    simp only [Build.view, View.below]
    by_cases hp : p = []
    · rw [if_pos hp, if_pos hp]
    · rw [if_neg hp, if_neg hp, if_neg (by simp [hp]), pathKeys_append hk, List.append_assoc]
  rw [Build.result, Build.result, hview, hview, hview]
  rfl

omit [FloatOps] in
theorem Fig.provide_available {f g : Fig} {p : Provider} {o : Order} {loc : Location} {c c' : BitVec 64}
    (h : f.provide p o loc c = (some g, c')) :
    (∃ m, g.value = .ok m) ↔ (∃ m, f.value = .ok m) ∧ ∃ n, p.data = .ok n := by
  unfold Fig.provide at h
  cases ht : Tag.next c with
  | mk tag c1 =>
    rw [ht] at h
    cases tag with
    | none => cases h
    | some tag =>
      cases h
      show (∃ m, Fig.combine tag o p.data f.value = .ok m) ↔ _
      cases p.data <;> cases f.value <;> simp [Fig.combine]

omit [FloatOps] in
theorem Build.available : ∀ (b : Build) {c c' : BitVec 64} {f : Fig}, b.make c = (some f, c') →
    ((∃ m, f.value = .ok m) ↔ ∀ d ∈ b.answers, ∃ n, d = .ok n)
  | .new, c, c', f, h => by cases h; simp [Fig.new, Build.answers]
  | .add b x, c, c', f, h => by
    rw [Build.make] at h
    cases hb : b.make c with
    | mk g c1 =>
      rw [hb] at h
      cases g with
      | none => cases h
      | some g =>
        rw [Fig.provide_available h, Build.available b hb]
        simp only [Build.answers, List.mem_append, List.mem_singleton]
        exact ⟨fun ⟨h1, h2⟩ d hd => hd.elim (h1 d) fun e => e ▸ h2,
          fun h => ⟨fun d hd => h d (.inl hd), h _ (.inr rfl)⟩⟩
  | .put b o other loc, c, c', f, h => by
    rw [Build.make] at h
    cases hb : b.make c with
    | mk g c1 =>
      rw [hb] at h
      cases g with
      | none => cases h
      | some g =>
        dsimp only at h
        cases ho : other.make c1 with
        | mk g' c2 =>
          rw [ho] at h
          cases g' with
          | none => cases h
          | some g' =>
            rw [Fig.provide_available h, Build.available b hb]
            have h2 : (∃ n, g'.toProvider.data = .ok n) ↔ _ := Build.available other ho
            rw [h2]
            simp only [Build.answers, List.mem_append]
            exact ⟨fun ⟨h1, h2⟩ d hd => hd.elim (h1 d) (h2 d),
              fun h => ⟨fun d hd => h d (.inl hd), fun d hd => h d (.inr hd)⟩⟩
  | .select b p, c, c', f, h => by
    rw [Build.make] at h
    cases hb : b.make c with
    | mk g c1 =>
      rw [hb] at h
      cases g with
      | none => cases h
      | some g =>
        cases h
        have := Build.available b hb
        exact this
  | .focus b key, c, c', f, h => by
    rw [Build.make] at h
    cases hb : b.make c with
    | mk g c1 =>
      rw [hb] at h
      cases g with
      | none => cases h
      | some g =>
        cases h
        have := Build.available b hb
        rw [Build.answers, ← this, Fig.focus, Fig.resolvedValue]
        cases g.value <;> simp

/-- **C88**, failures: if any provider failed, be it one that was added to a figment put into another, and whatever was
selected and focused on, every extraction fails, with one error for all types and paths. -/
theorem C88_failure (b : Build) (hb : ∃ e, Except.error e ∈ b.answers) (c c' : BitVec 64) (f : Fig)
    (h : b.make c = (some f, c')) :
    ∃ e, ∀ (t : Ty) (path : Str), f.extract t = .error e ∧ f.extractLossy t = .error e ∧
      f.extractInner path t = .error e ∧ f.extractInnerLossy path t = .error e ∧ f.findValue path = .error e := by
  cases hv : f.value with
  | ok m =>
    obtain ⟨e, he⟩ := hb
    obtain ⟨n, hn⟩ := (Build.available b h).1 ⟨m, hv⟩ _ he
    cases hn
  | error e =>
    refine ⟨e.resolved f.metadata f.profile, fun t path => ?_⟩
    have hm : f.merged = .error (e.resolved f.metadata f.profile) := by rw [Fig.merged, Fig.resolvedValue, hv]
    have hf : f.findValue path = .error (e.resolved f.metadata f.profile) := by rw [Fig.findValue, hm]
    refine ⟨?_, ?_, ?_, ?_, hf⟩
    · rw [Fig.extract, Fig.extractWith, hm]
    · rw [Fig.extractLossy, Fig.extractWith, hm]
    · rw [Fig.extractInner, Fig.extractInnerWith, hf]
    · rw [Fig.extractInnerLossy, Fig.extractInnerWith, hf]

/-! ## C15, for figments built in any way -/

section
omit [FloatOps]

theorem Error.whats_eq (e : Error) : e.whats = (Error.items e).map Error.what := by
  induction e with
  | last h => rfl
  | cons h p ih => rw [Error.whats, ih]; rfl

theorem Error.whats_resolved (md : Map Tag Metadata) (pr : Profile) (e : Error) : (e.resolved md pr).whats = e.whats := by
  induction e with
  | last h => rfl
  | cons h p ih => rw [Error.resolved, Error.whats, ih]; rfl

theorem Error.whats_retagged (t : Tag) (e : Error) : (e.retagged t).whats = e.whats := by
  rw [Error.retagged]
  split
  · cases e <;> rfl
  · rfl

theorem Error.whats_ne_nil (e : Error) : e.whats ≠ [] := by cases e <;> simp [Error.whats]

theorem Error.whats_chain (e prev : Error) : (e.chain prev).whats = firstThen prev.whats e.whats := by
  have : ∀ a l, l ≠ [] → ∀ r : List (Kind × List Str), firstThen (a :: r) l = a :: l := by
    intro a l hl r
    cases l with
    | nil => exact absurd rfl hl
    | cons _ _ => rfl
  cases prev with
  | last h => rw [Error.whats, this _ _ e.whats_ne_nil]; rfl
  | cons h p => rw [Error.whats, this _ _ e.whats_ne_nil]; rfl

/-- What an answer reports. -/
def reportedBy : Except Error Data → List (Kind × List Str)
  | .ok _ => []
  | .error e => e.whats

theorem Fig.provide_reported {f g : Fig} {p : Provider} {o : Order} {loc : Location} {c c' : BitVec 64}
    (h : f.provide p o loc c = (some g, c')) :
    reportedBy g.value = firstThen (reportedBy f.value) (reportedBy p.data) := by
  obtain ⟨tag, _, rfl⟩ := Fig.provide_eq_some h
  show reportedBy (Fig.combine tag o p.data f.value) = _
  cases p.data with
  | ok n =>
    cases f.value with
    | ok m => rfl
    | error e =>
      show e.whats = firstThen e.whats []
      cases e <;> rfl
  | error e =>
    cases f.value with
    | ok m => exact Error.whats_retagged tag e
    | error prev =>
      show ((e.retagged tag).chain prev).whats = _
      rw [Error.whats_chain, Error.whats_retagged]
      rfl

theorem Build.make_reported : ∀ (b : Build) {c c' : BitVec 64} {f : Fig}, b.make c = (some f, c') →
    reportedBy f.value = b.reported
  | .new, c, c', f, h => by cases h; rfl
  | .add b x, c, c', f, h => by
    rw [Build.make] at h
    cases hb : b.make c with
    | mk g c1 =>
      rw [hb] at h
      cases g with
      | none => cases h
      | some g =>
        rw [Fig.provide_reported h, Build.make_reported b hb]
        rfl
  | .put b o other loc, c, c', f, h => by
    rw [Build.make] at h
    cases hb : b.make c with
    | mk g c1 =>
      rw [hb] at h
      cases g with
      | none => cases h
      | some g =>
        dsimp only at h
        cases ho : other.make c1 with
        | mk g' c2 =>
          rw [ho] at h
          cases g' with
          | none => cases h
          | some g' =>
            rw [Fig.provide_reported h, Build.make_reported b hb]
            exact congrArg _ (Build.make_reported other ho)
  | .select b p, c, c', f, h => by
    rw [Build.make] at h
    cases hb : b.make c with
    | mk g c1 =>
      rw [hb] at h
      cases g with
      | none => cases h
      | some g =>
        cases h
        have := Build.make_reported b hb
        exact this
  | .focus b key, c, c', f, h => by
    rw [Build.make] at h
    cases hb : b.make c with
    | mk g c1 =>
      rw [hb] at h
      cases g with
      | none => cases h
      | some g =>
        cases h
        rw [Build.reported, ← Build.make_reported b hb, Fig.focus, Fig.resolvedValue]
        cases g.value with
        | ok m => rfl
        | error e => exact Error.whats_resolved _ _ e

/-- **C15**, exactly: the errors that the error of a figment built in any way iterates over, for all extractions, with
their number. Whenever more failures come to some, of those that were only the first is kept. -/
theorem C15_exact (b : Build) (c c' : BitVec 64) (f : Fig) (h : b.make c = (some f, c')) :
    (b.reported = [] ↔ ∃ v, f.merged = .ok v) ∧
    ∀ e, f.merged = .error e → ∀ l, Error.Yields (some e) l → l.map Error.what = b.reported ∧
      e.count = b.reported.length := by
  have hr := Build.make_reported b h
  cases hv : f.value with
  | ok m =>
    rw [hv] at hr
    refine ⟨⟨fun _ => ?_, fun _ => hr.symm⟩, fun e he => ?_⟩
    · rw [Fig.merged, Fig.resolvedValue, hv]
      exact ⟨_, rfl⟩
    · rw [Fig.merged, Fig.resolvedValue, hv] at he
      cases he
  | error e =>
    rw [hv] at hr
    have hm : f.merged = .error (e.resolved f.metadata f.profile) := by rw [Fig.merged, Fig.resolvedValue, hv]
    refine ⟨⟨fun hn => ?_, fun ⟨v, hv⟩ => ?_⟩, fun e' he l hl => ?_⟩
    · rw [hn] at hr
      exact absurd hr e.whats_ne_nil
    · rw [hm] at hv
      cases hv
    · rw [hm] at he
      cases he
      have hw : l.map Error.what = b.reported := by
        rw [Error.yields_iff.1 hl, ← Error.whats_eq, Error.whats_resolved]
        exact hr
      exact ⟨hw, by rw [Error.count_eq, ← Error.yields_iff.1 hl, ← hw, List.length_map]⟩

/-- A provider that fails with the text. -/
def Ex.failing (x : String) : Call :=
  ⟨.Merge, Provider.plain Metadata.Default (.error (Error.ofKind (.message (str x)))), Ex.loc⟩

/-- Of four failures, two in a figment put into another, three are reported. -/
example : (Build.put (.add (.add .new (Ex.failing "1")) (Ex.failing "2")) .Join
      (.add (.add .new (Ex.failing "3")) (Ex.failing "4")) Ex.loc).reported.map (·.1)
    = [.message (str "1"), .message (str "3"), .message (str "4")] := rfl

example : ∃ f c', (Build.put (.add (.add .new (Ex.failing "1")) (Ex.failing "2")) .Join
      (.add (.add .new (Ex.failing "3")) (Ex.failing "4")) Ex.loc).make 1#64 = (some f, c') ∧
    ∃ e, f.merged = .error e ∧ e.count = 3 := ⟨_, _, rfl, _, rfl, rfl⟩

end

/-! ## Examples -/

/-- A figment focused on `b`, with a profile selected. -/
def Ex.part : Build := .select (.focus (.add (.add .new ⟨.Merge, Ex.prov1, Ex.loc⟩) ⟨.Admerge, Ex.prov2, Ex.loc⟩) (str "b")) Ex.dev

/-- That joined into another, and more merged after it. -/
def Ex.whole : Build := .add (.put (.add .new ⟨.Merge, Ex.prov2, Ex.loc⟩) .Join Ex.part Ex.loc) ⟨.Adjoin, Ex.prov1, Ex.loc⟩

omit [FloatOps] in
theorem Ex.part_fine : Ex.part.Fine := by
  intro d hd
  simp only [Ex.part, Build.answers, List.nil_append, List.mem_append, List.mem_singleton] at hd
  rcases hd with rfl | rfl
  · exact ⟨_, rfl, Ex.data1_wf⟩
  · exact ⟨_, rfl, Ex.data2_wf⟩

omit [FloatOps] in
theorem Ex.whole_fine : Ex.whole.Fine := by
  intro d hd
  simp only [Ex.whole, Build.answers, List.nil_append, List.mem_append, List.mem_singleton] at hd
  rcases hd with (rfl | hd) | rfl
  · exact ⟨_, rfl, Ex.data2_wf⟩
  · exact Ex.part_fine d hd
  · exact ⟨_, rfl, Ex.data1_wf⟩

example : ∃ f c', Ex.part.make 1#64 = (some f, c') ∧ Ex.part.selected = Ex.dev ∧
    Ex.part.result [str "x"] = some (.leaf (Ex.s "two")) ∧
    Ex.part.result [str "y"] = some (.leaf (Ex.a [Ex.n 3, Ex.n 4, Ex.n 9])) ∧
    Ex.part.result [str "a"] = none ∧
    f.extractInner (str "y") (.seq (.int .u64)) = .ok (.seq [.int 3, .int 4, .int 9]) :=
  ⟨_, _, rfl, rfl, rfl, rfl, rfl, rfl⟩

example : ∃ f c', Ex.whole.make 1#64 = (some f, c') ∧ Ex.whole.selected = Profile.Default ∧
    Ex.whole.result [str "x"] = some (.leaf (Ex.s "two")) ∧
    Ex.whole.result [str "a"] = some (.leaf (Ex.n 1)) ∧
    Ex.whole.result [str "b", str "y"] = some (.leaf (Ex.a [Ex.n 9, Ex.n 3, Ex.n 4])) ∧
    f.extractInner (str "b.y") (.seq (.int .u64)) = .ok (.seq [.int 9, .int 3, .int 4]) :=
  ⟨_, _, rfl, rfl, rfl, rfl, rfl, rfl⟩

/-- A figment in which `Dev` is selected. -/
def Ex.inDev : Build := .select (.add .new ⟨.Merge, Ex.prov1, Ex.loc⟩) Ex.dev

/-- Joined into a new figment without selecting its profile, a figment need not say what it said. -/
example : Ex.inDev.result [str "a"] = some (.leaf (Ex.n 5)) ∧
    (Build.put .new .Join Ex.inDev Ex.loc).result [str "a"] = some (.leaf (Ex.n 1)) ∧
    (Build.put .new .Merge Ex.inDev Ex.loc).result [str "a"] = some (.leaf (Ex.n 5)) ∧
    (Build.select (.put .new .Join Ex.inDev Ex.loc) Ex.inDev.selected).result [str "a"] = some (.leaf (Ex.n 5)) :=
  ⟨rfl, rfl, rfl, rfl⟩

example : ∃ f g c' d', (Build.put .new .Merge Ex.part Ex.loc).make 1#64 = (some f, c') ∧
    (Build.focus (.focus (.put .new .Merge Ex.whole Ex.loc) (str "b")) (str "q")).make 1#64 = (some g, d') :=
  ⟨_, _, _, _, rfl, rfl⟩

/-- A provider failed in a figment that was focused, put into another and focused again. -/
example : ∃ f c', (Build.focus (.put (.add .new ⟨.Merge, Ex.prov1, Ex.loc⟩) .Join
      (.focus (.add .new ⟨.Merge, Ex.provErr, Ex.loc⟩) (str "b")) Ex.loc) (str "b")).make 1#64 = (some f, c') ∧
    ∃ e, Except.error e ∈ (Build.focus (.put (.add .new ⟨.Merge, Ex.prov1, Ex.loc⟩) .Join
      (.focus (.add .new ⟨.Merge, Ex.provErr, Ex.loc⟩) (str "b")) Ex.loc) (str "b")).answers :=
  ⟨_, _, rfl, _, .tail _ (.head _)⟩

end Figment
