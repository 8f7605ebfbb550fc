import Verif.Spec.Result
import Verif.Lemmas.Strip
import Verif.Props.History
import Verif.Props.Means
import Verif.Props.Complains
import Verif.Lemmas.ComplainsStrip
import Verif.Props.Layer
/-!
# C66: from what the providers say to what is extracted
-/
namespace Figment
variable [FloatOps]

omit [FloatOps] in
/-- After a history without failures the data, without provenance, is what the specification says. -/
theorem Fig.run_historyView {ops : List Op} {c c' : BitVec 64} {f : Fig} (h : Fig.new.run ops c = (some f, c'))
    (hw : OpsWF ops) (hok : ∀ d ∈ opData ops, ∃ n, d = .ok n) :
    ∃ m : Data, f.value = .ok m ∧ m.WF ∧ ∀ pr, (m.at pr).strip = historyView ops pr := by
  refine Fig.run_induct (P := fun ops f => OpsWF ops → (∀ d ∈ opData ops, ∃ n, d = .ok n) →
    ∃ m : Data, f.value = .ok m ∧ m.WF ∧ ∀ pr, (m.at pr).strip = historyView ops pr) ?_ ?_ ?_ h hw hok
  · intro _ _
    refine ⟨[], rfl, Data.wf_nil, fun pr => ?_⟩
    funext p
    cases p with
    | nil => rfl
    | cons k ks => rfl
  · intro ops g x tag c1 c2 ih ht hw hok
    have hw1 : OpsWF ops := fun n hn => hw n (by simp [opData_append, hn])
    obtain ⟨m, hm, hmw, hat⟩ := ih hw1 fun d hd => hok d (by simp [opData_append, hd])
    obtain ⟨n, hn⟩ := hok x.provider.data (by simp [opData_append, opData])
    have hnw : n.WF := hw n (by simp [opData_append, opData, hn])
    have hp : Fig.provide g x.provider x.order x.loc c1 = (some (g.provideWith x.provider x.order x.loc tag), c2) := by
      rw [Fig.provide, ht]; rfl
    obtain ⟨tag', m', _, hv, hw', _, hat'⟩ := Fig.provide_ok hm hn hmw hnw hp
    refine ⟨m', hv, hw', fun pr => ?_⟩
    rw [hat', View.strip_coalesce, Data.strip_given, hat, historyView, historyView, List.foldl_append]
    simp only [List.foldl_cons, List.foldl_nil, Op.after, hn]
    rfl
  · intro ops g p ih hw hok
    obtain ⟨m, hm, hmw, hat⟩ := ih (fun n hn => hw n (by simp [opData_append, hn]))
      fun d hd => hok d (by simp [opData_append, hd])
    refine ⟨m, hm, hmw, fun pr => ?_⟩
    rw [hat, historyView, historyView, List.foldl_append]
    rfl

omit [FloatOps] in
theorem Fig.layered_history {ops : List Op} {c c' : BitVec 64} {f : Fig} (h : Fig.new.run ops c = (some f, c'))
    (hw : OpsWF ops) (hok : ∀ d ∈ opData ops, ∃ n, d = .ok n) :
    ∃ m : Data, f.value = .ok m ∧ m.WF ∧ ∀ p, (m.layered f.profile).strip p = historyResult ops p := by
  obtain ⟨m, hm, hmw, hat⟩ := Fig.run_historyView h hw hok
  have hsel : f.profile = historySelected ops := C13_selected ops c c' f h
  refine ⟨m, hm, hmw, fun p => ?_⟩
  rw [Data.layered, historyResult, ← hsel, ← hat, ← hat, ← hat]
  split
  · rw [View.strip_merge, View.strip_merge]
  · rw [View.strip_merge]

/-- What is extracted from a figment, given what its data is without provenance. -/
theorem Fig.means_of_view {f : Fig} {m : Data} (hm : f.value = .ok m) (hmw : m.WF) {R : View}
    (hR : ∀ p, (m.layered f.profile).strip p = R p) :
    ∃ v : Value, v.WF ∧ v.strip = v ∧ (∀ p, v.view p = R p) ∧
      ∀ t : Ty, t.proper false = true → ∀ x,
        (f.extract t = .ok x ↔ t.Means false (fun _ => none) v x) ∧
        (f.extractLossy t = .ok x ↔ t.Means true (fun _ => none) v x) ∧
        ∀ path,
          (f.extractInner path t = .ok x ↔
            ∃ u, v.getKeys (pathKeys path) = some u ∧ t.Means false (fun _ => none) u x) ∧
          (f.extractInnerLossy path t = .ok x ↔
            ∃ u, v.getKeys (pathKeys path) = some u ∧ t.Means true (fun _ => none) u x) := by
  obtain ⟨w, hmerged, hww, hview⟩ := Fig.merged_view hm hmw
  refine ⟨w.strip, Value.wf_strip w hww, Value.strip_strip w, fun p => ?_, fun t ht x => ?_⟩
  · rw [Value.view_strip, hview]
    show (m.layered f.profile).strip p = _
    exact hR p
  · have key : ∀ (l : Bool) (u : Value), u.WF →
        (t.de ⟨some f, l⟩ u = .ok x ↔ t.Means l (fun _ => none) u.strip x) := by
      intro l u hu
      rw [Ty.means (some f) l false nofun t ht u ⟨hu, nofun⟩ x]
      exact ⟨Ty.means_like t ht u u.strip (Value.strip_strip u).symm x,
        Ty.means_like t ht u.strip u (Value.strip_strip u) x⟩
    refine ⟨?_, ?_, fun path => ?_⟩
    · rw [Fig.extract, Fig.extractWith, hmerged]; exact key false w hww
    · rw [Fig.extractLossy, Fig.extractWith, hmerged]; exact key true w hww
    · have inner : ∀ l : Bool, f.extractInnerWith (fun f => t.de ⟨some f, l⟩) path = .ok x ↔
          ∃ u, w.strip.getKeys (pathKeys path) = some u ∧ t.Means l (fun _ => none) u x := by
        intro l
        rw [Fig.extractInnerWith, Fig.findValue, hmerged]
        simp only [Value.find_eq, Value.getKeys_strip]
        cases hk : w.getKeys (pathKeys path) with
        | none => exact ⟨nofun, fun ⟨u, hu, _⟩ => nomatch hu⟩
        | some u =>
          have hu := key l u (Value.wf_getKeys hww hk)
          constructor
          · intro h
            refine ⟨u.strip, rfl, hu.1 ?_⟩
            cases hd : t.de ⟨some f, l⟩ u with
            | ok y => simp only [hd] at h; exact h
            | error e => simp only [hd] at h; cases h
          · rintro ⟨u', hu', hx⟩
            cases hu'
            simp only [hu.2 hx]
      exact ⟨inner false, inner true⟩

/-- **C66**: what is extracted, all the way from what the providers answer. After any sequence of merges, joins, adjoins,
admerges and selects, of providers that do not fail, there is one value that has at each path what the rules for these
calls and for profiles say; `extract`, `extract_lossy`, `extract_inner` and `extract_inner_lossy` at any type give exactly
what that value, or the value at the path in it, means when read as the type. -/
theorem C66_history (ops : List Op) (hw : OpsWF ops) (hok : ∀ d ∈ opData ops, ∃ n, d = .ok n) (c c' : BitVec 64) (f : Fig)
    (h : Fig.new.run ops c = (some f, c')) :
    ∃ v : Value, v.WF ∧ v.strip = v ∧ (∀ p, v.view p = historyResult ops p) ∧
      ∀ t : Ty, t.proper false = true → ∀ x,
        (f.extract t = .ok x ↔ t.Means false (fun _ => none) v x) ∧
        (f.extractLossy t = .ok x ↔ t.Means true (fun _ => none) v x) ∧
        ∀ path,
          (f.extractInner path t = .ok x ↔
            ∃ u, v.getKeys (pathKeys path) = some u ∧ t.Means false (fun _ => none) u x) ∧
          (f.extractInnerLossy path t = .ok x ↔
            ∃ u, v.getKeys (pathKeys path) = some u ∧ t.Means true (fun _ => none) u x) := by
  obtain ⟨m, hm, hmw, hR⟩ := Fig.layered_history h hw hok
  exact Fig.means_of_view hm hmw hR

/-- How extraction from a figment fails, given what its data is without provenance. -/
theorem Fig.faults_of_view {f : Fig} {m : Data} (hm : f.value = .ok m) (hmw : m.WF) {R : View}
    (hR : ∀ p, (m.layered f.profile).strip p = R p) (v : Value) (hv : v.WF) (hview : ∀ p, v.view p = R p)
    (t : Ty) (ht : t.proper false = true) (p : List Str) (k : Kind) :
    (FailsAt (f.extract t) p k ↔ t.Complains false (fun _ => none) v p k) ∧
    (FailsAt (f.extractLossy t) p k ↔ t.Complains true (fun _ => none) v p k) ∧
    ∀ path,
      (FailsAt (f.extractInner path t) p k ↔
        (v.getKeys (pathKeys path) = none ∧ p = [] ∧ k = .missingField path) ∨
        ∃ u p', v.getKeys (pathKeys path) = some u ∧ p = p' ++ (Str.splitOn '.' path).filter (fun key => !key.isEmpty) ∧
          t.Complains false (fun _ => none) u p' k) ∧
      (FailsAt (f.extractInnerLossy path t) p k ↔
        (v.getKeys (pathKeys path) = none ∧ p = [] ∧ k = .missingField path) ∨
        ∃ u p', v.getKeys (pathKeys path) = some u ∧ p = p' ++ (Str.splitOn '.' path).filter (fun key => !key.isEmpty) ∧
          t.Complains true (fun _ => none) u p' k) := by
  obtain ⟨w, hmerged, hww, hwv⟩ := Fig.merged_view hm hmw
  have hvw : v = w.strip := by
    refine Value.ext_view v w.strip hv (Value.wf_strip w hww) fun p => ?_
    rw [hview, Value.view_strip, hwv]
    exact (hR p).symm
  subst hvw
  have inner : ∀ (l : Bool) (path : Str),
      ((w.getKeys (pathKeys path) = none ∧ p = [] ∧ k = .missingField path) ∨
        ∃ u p', w.getKeys (pathKeys path) = some u ∧ p = p' ++ (Str.splitOn '.' path).filter (fun key => !key.isEmpty) ∧
          t.Complains l f.fileAt u p' k) ↔
      ((w.strip.getKeys (pathKeys path) = none ∧ p = [] ∧ k = .missingField path) ∨
        ∃ u p', w.strip.getKeys (pathKeys path) = some u ∧
          p = p' ++ (Str.splitOn '.' path).filter (fun key => !key.isEmpty) ∧ t.Complains l (fun _ => none) u p' k) := by
    intro l path
    rw [Value.getKeys_strip]
    cases hk : w.getKeys (pathKeys path) with
    | none => simp
    | some u =>
      simp only [Option.map_some, reduceCtorEq, false_and, false_or]
      constructor
      · rintro ⟨u', p', hu, hp, hc⟩
        cases hu
        exact ⟨u.strip, p', rfl, hp, (Ty.complains_strip t ht (Value.strip_strip u).symm p' k).1 hc⟩
      · rintro ⟨u', p', hu, hp, hc⟩
        cases hu
        exact ⟨u, p', rfl, hp, (Ty.complains_strip t ht (Value.strip_strip u) p' k).1 hc⟩
  have each := fun (u : Value) (hu : u.WF) (p : List Str) => C69_value f false t ht u hu nofun p k
  refine ⟨?_, ?_, fun path => ⟨?_, ?_⟩⟩
  · rw [FailsAt, Fig.extract, Fig.extractWith, hmerged]
    exact (each w hww p).1.trans (Ty.complains_strip t ht (Value.strip_strip w).symm p k)
  · rw [FailsAt, Fig.extractLossy, Fig.extractWith, hmerged]
    exact (each w hww p).2.trans (Ty.complains_strip t ht (Value.strip_strip w).symm p k)
  · rw [← inner false path, FailsAt, Fig.extractInner, Fig.extractInnerWith_fails hmerged]
    exact or_congr Iff.rfl (exists_congr fun u => exists_congr fun p' => and_congr_right fun hu =>
      and_congr_right fun _ => (each u (Value.wf_getKeys hww hu) p').1)
  · rw [← inner true path, FailsAt, Fig.extractInnerLossy, Fig.extractInnerWith_fails hmerged]
    exact or_congr Iff.rfl (exists_congr fun u => exists_congr fun p' => and_congr_right fun hu =>
      and_congr_right fun _ => (each u (Value.wf_getKeys hww hu) p').2)

/-- **C66**: the errors, too. `v` is the value that has at each path what the rules say. `extract` fails exactly if `v` has
a fault, read as the type, with the path and the kind of the first one; likewise `extract_lossy`. `extract_inner` and
`extract_inner_lossy` say that the path is missing if there is nothing at it in `v`, else they fail as the value there
has a fault, with the path of the fault followed by the keys of the path asked for (finding 6). -/
theorem C66_faults (ops : List Op) (hw : OpsWF ops) (hok : ∀ d ∈ opData ops, ∃ n, d = .ok n) (c c' : BitVec 64) (f : Fig)
    (h : Fig.new.run ops c = (some f, c')) (v : Value) (hv : v.WF) (hview : ∀ p, v.view p = historyResult ops p)
    (t : Ty) (ht : t.proper false = true) (p : List Str) (k : Kind) :
    (FailsAt (f.extract t) p k ↔ t.Complains false (fun _ => none) v p k) ∧
    (FailsAt (f.extractLossy t) p k ↔ t.Complains true (fun _ => none) v p k) ∧
    ∀ path,
      (FailsAt (f.extractInner path t) p k ↔
        (v.getKeys (pathKeys path) = none ∧ p = [] ∧ k = .missingField path) ∨
        ∃ u p', v.getKeys (pathKeys path) = some u ∧ p = p' ++ (Str.splitOn '.' path).filter (fun key => !key.isEmpty) ∧
          t.Complains false (fun _ => none) u p' k) ∧
      (FailsAt (f.extractInnerLossy path t) p k ↔
        (v.getKeys (pathKeys path) = none ∧ p = [] ∧ k = .missingField path) ∨
        ∃ u p', v.getKeys (pathKeys path) = some u ∧ p = p' ++ (Str.splitOn '.' path).filter (fun key => !key.isEmpty) ∧
          t.Complains true (fun _ => none) u p' k) := by
  obtain ⟨m, hm, hmw, hR⟩ := Fig.layered_history h hw hok
  exact Fig.faults_of_view hm hmw hR v hv hview t ht p k

/-- **C66**: only what the rules say matters. Two figments, however they came about, with the same outcome by the rules
say the same on any extraction: they give the same, or fail with the same fault at the same path. -/
theorem C66_same (ops ops' : List Op) (hw : OpsWF ops) (hw' : OpsWF ops') (hok : ∀ d ∈ opData ops, ∃ n, d = .ok n)
    (hok' : ∀ d ∈ opData ops', ∃ n, d = .ok n) (c c' d d' : BitVec 64) (f g : Fig)
    (hf : Fig.new.run ops c = (some f, c')) (hg : Fig.new.run ops' d = (some g, d'))
    (hsame : ∀ p, historyResult ops p = historyResult ops' p) (t : Ty) (ht : t.proper false = true) :
    SayTheSame (f.extract t) (g.extract t) ∧ SayTheSame (f.extractLossy t) (g.extractLossy t) ∧
    ∀ path, SayTheSame (f.extractInner path t) (g.extractInner path t) ∧
      SayTheSame (f.extractInnerLossy path t) (g.extractInnerLossy path t) := by
  obtain ⟨v, v1, _, v3, v4⟩ := C66_history ops hw hok c c' f hf
  obtain ⟨w, w1, _, w3, w4⟩ := C66_history ops' hw' hok' d d' g hg
  obtain rfl : v = w := Value.ext_view v w v1 w1 fun p => by rw [v3, w3, hsame]
  have hv := C66_faults ops hw hok c c' f hf v v1 v3 t ht
  have hw := C66_faults ops' hw' hok' d d' g hg v v1 w3 t ht
  refine ⟨⟨fun x => (v4 t ht x).1.trans (w4 t ht x).1.symm, fun p k => (hv p k).1.trans (hw p k).1.symm⟩,
    ⟨fun x => (v4 t ht x).2.1.trans (w4 t ht x).2.1.symm, fun p k => (hv p k).2.1.trans (hw p k).2.1.symm⟩,
    fun path => ⟨⟨fun x => ((v4 t ht x).2.2 path).1.trans ((w4 t ht x).2.2 path).1.symm,
      fun p k => ((hv p k).2.2 path).1.trans ((hw p k).2.2 path).1.symm⟩,
      ⟨fun x => ((v4 t ht x).2.2 path).2.trans ((w4 t ht x).2.2 path).2.symm,
      fun p k => ((hv p k).2.2 path).2.trans ((hw p k).2.2 path).2.symm⟩⟩⟩

/-- A history: a merge, an admerge and a select. -/
def Ex.ops : List Op := [.add ⟨.Merge, Ex.prov1, Ex.loc⟩, .add ⟨.Admerge, Ex.prov2, Ex.loc⟩, .select Ex.dev]

omit [FloatOps] in
theorem Ex.ops_ok : OpsWF Ex.ops ∧ ∀ d ∈ opData Ex.ops, ∃ n, d = .ok n := by
  constructor
  · intro n hn
    simp only [Ex.ops, opData, Ex.prov1, Ex.prov2, Provider.plain, List.mem_cons, Except.ok.injEq, List.not_mem_nil,
      or_false] at hn
    rcases hn with rfl | rfl
    · exact Ex.data1_wf
    · exact Ex.data2_wf
  · intro d hd
    simp only [Ex.ops, opData, Ex.prov1, Ex.prov2, Provider.plain, List.mem_cons, List.not_mem_nil, or_false] at hd
    rcases hd with rfl | rfl
    · exact ⟨_, rfl⟩
    · exact ⟨_, rfl⟩

example : ∃ f c', Fig.new.run Ex.ops 1#64 = (some f, c') ∧
    historyResult Ex.ops [str "a"] = some (.leaf (Ex.n 5)) ∧
    historyResult Ex.ops [str "b", str "y"] = some (.leaf (Ex.a [Ex.n 3, Ex.n 4, Ex.n 9])) ∧
    historyResult Ex.ops [str "b", str "x"] = some (.leaf (Ex.s "two")) ∧
    f.extractInner (str "b.y") (.seq (.int .u64)) = .ok (.seq [.int 3, .int 4, .int 9]) :=
  ⟨_, _, rfl, rfl, rfl, rfl, rfl⟩

/-- Selecting `global` is not selecting anything. -/
example : ∀ p, historyResult (Ex.ops ++ [.select Profile.Global]) p = historyResult (Ex.ops ++ [.select Profile.Default]) p :=
  fun _ => rfl

end Figment
