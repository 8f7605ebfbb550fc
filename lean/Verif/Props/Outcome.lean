import Verif.Lemmas.Outcome
import Verif.Props.Complains
import Verif.Props.Data
import Verif.Props.Env
/-!
# C70: the whole outcome of a history, provenance and errors included

The specification is `outcome` (Spec/Outcome): which value is at each path after the calls, and which call it is from.
-/
namespace Figment

/-- **C70**: after any sequence of merges, joins, adjoins, admerges and selects, of providers that do not fail, the
merged data is the one value that has at each path what the rules for these calls and for profiles say, tagged with the
call it is from; and the figment knows of each tag what the calls say. -/
theorem C70_data (ops : List Op) (hw : OpsWF ops) (hM : MapsWF ops) (hok : ∀ d ∈ opData ops, ∃ n, d = .ok n)
    (c c' : BitVec 64) (f : Fig) (h : Fig.new.run ops c = (some f, c')) :
    ∃ v : Value, f.merged = .ok v ∧ v.WF ∧ (∀ p, v.view p = outcome c ops p) ∧
      (∀ u : Value, u.WF → (∀ p, u.view p = outcome c ops p) → u = v) ∧
      ∀ t, f.getMetadata t = outcomeMetadata c ops t := by
  obtain ⟨⟨m, hm, hmw, hat⟩, hmeta⟩ := Fig.run_outcome ops Fig.new f c c' [] h hw hok hM rfl Data.wf_nil
  obtain ⟨v, hv, hvw, hview⟩ := Fig.merged_view hm hmw
  have hsel : f.profile = historySelected ops := C13_selected ops c c' f h
  have hat' : ∀ pr, m.at pr = outcomeView c ops pr := by
    intro pr
    rw [hat, outcomeView]
    congr 1
    funext p
    cases p <;> rfl
  have hout : ∀ p, v.view p = outcome c ops p := by
    intro p
    rw [hview, Data.layered, outcome, ← hsel, hat', hat', hat']
  refine ⟨v, hv, hvw, hout, fun u hu hu' => Value.ext_view u v hu hvw fun p => ?_, hmeta⟩
  rw [hu', hout]

/-- **C70**, `find_value` and `find_metadata`: they give the value at the path, and what is known of the call it is
from. -/
theorem C70_find (ops : List Op) (hw : OpsWF ops) (hM : MapsWF ops) (hok : ∀ d ∈ opData ops, ∃ n, d = .ok n)
    (c c' : BitVec 64) (f : Fig) (h : Fig.new.run ops c = (some f, c'))
    (v : Value) (hv : v.WF) (hview : ∀ p, v.view p = outcome c ops p) (path : Str) :
    (∀ u, f.findValue path = .ok u ↔ v.getKeys (pathKeys path) = some u) ∧
    f.findMetadata path = (v.getKeys (pathKeys path)).bind fun u => outcomeMetadata c ops u.tag := by
  obtain ⟨w, hm, _, _, hu, hmeta⟩ := C70_data ops hw hM hok c c' f h
  obtain rfl := hu v hv hview
  have hf : f.findValue path = match v.getKeys (pathKeys path) with
      | some u => .ok u
      | none => .error (Error.ofKind (.missingField path)) := by
    rw [Fig.findValue, hm]
    simp only [Value.find_eq]
    rfl
  rw [Fig.findMetadata, hf]
  cases v.getKeys (pathKeys path) with
  | none => exact ⟨fun u => ⟨nofun, nofun⟩, rfl⟩
  | some u =>
    refine ⟨fun u' => ⟨fun h => by cases h; rfl, fun h => by cases h; rfl⟩, ?_⟩
    exact hmeta u.tag

/-- **C70**, the last merge: what is not a dictionary in the data of the provider merged last is what is found at its
path, and `find_metadata` says that it is from that provider and where it was merged; if it is data for the global
profile, or for the selected profile and no provider has data for the global one, or for the default profile and none has
for the other two. -/
theorem C70_latest (ops : List Op) (x : Call) (hx : x.order = .Merge) (hw : OpsWF (ops ++ [.add x]))
    (hM : MapsWF (ops ++ [.add x])) (hok : ∀ d ∈ opData (ops ++ [.add x]), ∃ n, d = .ok n)
    (c c' : BitVec 64) (f : Fig) (h : Fig.new.run (ops ++ [.add x]) c = (some f, c'))
    (n : Data) (hn : x.provider.data = .ok n) (pr : Profile) (path : Str) (w : Value)
    (hat : n.at pr (pathKeys path) = some (.leaf w)) (htag : w.tag.same Tag.Default = true)
    (hpr : pr = Profile.Global ∨
      ((∀ m : Data, Except.ok m ∈ opData (ops ++ [.add x]) → m.dictOf Profile.Global = []) ∧
        ((pr = f.profile ∧ pr.isCustom = true) ∨
          (pr = Profile.Default ∧ (f.profile.isCustom = true →
            ∀ m : Data, Except.ok m ∈ opData (ops ++ [.add x]) → m.dictOf f.profile = []))))) :
    (∃ tag, f.findValue path = .ok (w.mapTag fun _ => tag)) ∧
    f.findMetadata path = some { x.provider.metadata with provideLocation := some x.loc } := by
  obtain ⟨v, hm, hv, hview, _, hmeta⟩ := C70_data _ hw hM hok c c' f h
  obtain ⟨h1, h2⟩ := C70_find _ hw hM hok c c' f h v hv hview path
  have hsel : f.profile = historySelected (ops ++ [.add x]) := C13_selected _ c c' f h
  obtain ⟨tag, hnum⟩ := numbered_add x ops c
  have hk : pathKeys path ≠ [] := by
    intro hk
    rw [hk] at hat
    cases hat
  have hpath : ∀ pr', n.given tag pr' (pathKeys path) = (n.at pr' (pathKeys path)).map (Shape.retag (tag.forProfile pr')) := by
    intro pr'
    unfold Data.given
    cases hp : pathKeys path with
    | nil => exact absurd hp hk
    | cons k ks => rfl
  have hov : outcomeView c (ops ++ [.add x]) pr (pathKeys path) = some (.leaf (w.mapTag fun _ => tag.forProfile pr)) := by
    rw [outcomeView, hnum, List.foldl_append, List.foldl_cons, List.foldl_nil, Op.outcome, hn, hx]
    exact View.merge_some (by rw [hpath, hat]; rfl)
  have hout : outcome c (ops ++ [.add x]) (pathKeys path) = some (.leaf (w.mapTag fun _ => tag.forProfile pr)) := by
    rw [outcome, ← hsel]
    rcases hpr with rfl | ⟨hg, hpr⟩
    · split <;> exact View.merge_some hov
    · rw [outcomeView_none hg]
      rcases hpr with ⟨rfl, hc⟩ | ⟨rfl, hs⟩
      · rw [if_pos hc, View.merge_noView _ _ hk]
        exact View.merge_some hov
      · split
        · next hc => rw [outcomeView_none (hs hc), View.merge_noView _ _ hk, View.merge_noView _ _ hk, hov]
        · rw [View.merge_noView _ _ hk, hov]
  have hw' : (w.mapTag fun _ => tag.forProfile pr).asDict? = none := by
    have : w.asDict? = none := by
      cases w with
      | dict t d =>
        rw [Data.at, Value.view_eq_getKeys] at hat
        cases hg : (Value.dict Tag.Default (n.dictOf pr)).getKeys (pathKeys path) with
        | none => rw [hg] at hat; cases hat
        | some u => rw [hg] at hat; cases u <;> cases hat
      | _ => rfl
    cases w <;> first | rfl | cases this
  have hget : v.getKeys (pathKeys path) = some (w.mapTag fun _ => tag.forProfile pr) :=
    (Value.getKeys_eq_some_iff_view hw').2 (by rw [hview]; exact hout)
  refine ⟨⟨_, (h1 _).2 hget⟩, ?_⟩
  rw [h2, hget]
  show outcomeMetadata c (ops ++ [.add x]) (w.mapTag fun _ => tag.forProfile pr).tag = _
  rw [outcomeMetadata, hnum, List.foldl_append, List.foldl_cons, List.foldl_nil, Op.knows, if_pos]
  rw [Value.tag_mapTag]
  simp only [htag, if_true]
  exact Tag.same_forProfile tag pr

theorem Fig.fileAt_outcome {ops : List Op} {c : BitVec 64} {f : Fig} (h : ∀ t, f.getMetadata t = outcomeMetadata c ops t) :
    f.fileAt = outcomeFile c ops := by
  funext t
  rw [outcomeFile, ← h]
  rfl

variable [FloatOps]

/-- **C70**, `extract` and `extract_lossy`: at any type, they give what that value means when read as the type, and
otherwise fail with its first fault. The crate's own types, that show provenance, are included, for data without the keys
the crate reserves. -/
theorem C70_extract (ops : List Op) (hw : OpsWF ops) (hM : MapsWF ops) (hok : ∀ d ∈ opData ops, ∃ n, d = .ok n)
    (c c' : BitVec 64) (f : Fig) (h : Fig.new.run ops c = (some f, c'))
    (v : Value) (hv : v.WF) (hview : ∀ p, v.view p = outcome c ops p)
    (b : Bool) (hr : b = true → v.unreserved = true) (t : Ty) (ht : t.proper b = true) :
    (∀ x, f.extract t = .ok x ↔ t.Means false (outcomeFile c ops) v x) ∧
    (∀ p k, (∃ e, f.extract t = .error e ∧ e.head.path = p ∧ e.head.kind = k) ↔
      t.Complains false (outcomeFile c ops) v p k) ∧
    (∀ x, f.extractLossy t = .ok x ↔ t.Means true (outcomeFile c ops) v x) ∧
    (∀ p k, (∃ e, f.extractLossy t = .error e ∧ e.head.path = p ∧ e.head.kind = k) ↔
      t.Complains true (outcomeFile c ops) v p k) := by
  obtain ⟨w, hm, _, _, hu, hmeta⟩ := C70_data ops hw hM hok c c' f h
  obtain rfl := hu v hv hview
  rw [← Fig.fileAt_outcome hmeta, Fig.extract, Fig.extractWith, hm, Fig.extractLossy, Fig.extractWith, hm]
  exact ⟨fun x => (C63_value f b t ht v hv hr x).1, fun p k => (C69_value f b t ht v hv hr p k).1,
    fun x => (C63_value f b t ht v hv hr x).2, fun p k => (C69_value f b t ht v hv hr p k).2⟩

/-- **C70**, `extract_inner` and `extract_inner_lossy`: likewise with the value at the path; if there is none, the path is
said to be missing. -/
theorem C70_extract_inner (ops : List Op) (hw : OpsWF ops) (hM : MapsWF ops) (hok : ∀ d ∈ opData ops, ∃ n, d = .ok n)
    (c c' : BitVec 64) (f : Fig) (h : Fig.new.run ops c = (some f, c'))
    (v : Value) (hv : v.WF) (hview : ∀ p, v.view p = outcome c ops p)
    (b : Bool) (hr : b = true → v.unreserved = true) (t : Ty) (ht : t.proper b = true) (path : Str) :
    (v.getKeys (pathKeys path) = none → f.extractInner path t = .error (Error.ofKind (.missingField path)) ∧
      f.extractInnerLossy path t = .error (Error.ofKind (.missingField path))) ∧
    ∀ u, v.getKeys (pathKeys path) = some u →
      (∀ x, f.extractInner path t = .ok x ↔ t.Means false (outcomeFile c ops) u x) ∧
      (∀ p k, (∃ e, f.extractInner path t = .error e ∧
          e.head.path = p ++ (Str.splitOn '.' path).filter (fun key => !key.isEmpty) ∧ e.head.kind = k) ↔
        t.Complains false (outcomeFile c ops) u p k) ∧
      (∀ x, f.extractInnerLossy path t = .ok x ↔ t.Means true (outcomeFile c ops) u x) ∧
      (∀ p k, (∃ e, f.extractInnerLossy path t = .error e ∧
          e.head.path = p ++ (Str.splitOn '.' path).filter (fun key => !key.isEmpty) ∧ e.head.kind = k) ↔
        t.Complains true (outcomeFile c ops) u p k) := by
  obtain ⟨w, hm, _, _, hu, hmeta⟩ := C70_data ops hw hM hok c c' f h
  obtain rfl := hu v hv hview
  rw [← Fig.fileAt_outcome hmeta]
  constructor
  · intro hk
    rw [Fig.extractInner, Fig.extractInnerLossy, Fig.extractInnerWith, Fig.extractInnerWith, Fig.findValue, hm]
    simp only [Value.find_eq, hk, and_self]
  · intro u hk
    have hf : f.findValue path = .ok u := by
      rw [Fig.findValue, hm]
      simp only [Value.find_eq, hk]
    have hu1 := Value.wf_getKeys hv hk
    have hu2 := fun hb => Value.keysAll_getKeys (hr hb) hk
    have ok : ∀ (de : Fig → Value → R Val) x, f.extractInnerWith de path = .ok x ↔ de f u = .ok x := by
      intro de x
      rw [Fig.extractInnerWith, hf]
      dsimp only
      cases de f u with
      | ok y => exact Iff.rfl
      | error e => exact ⟨nofun, nofun⟩
    have bad : ∀ (de : Fig → Value → R Val) (p : List Str) (k : Kind), (∃ e, f.extractInnerWith de path = .error e ∧
        e.head.path = p ++ (Str.splitOn '.' path).filter (fun key => !key.isEmpty) ∧ e.head.kind = k) ↔
        ∃ e, de f u = .error e ∧ e.head.path = p ∧ e.head.kind = k := by
      intro de p k
      refine (Fig.extractInnerWith_fails hm path _ k).trans ⟨?_, fun h => .inr ⟨u, p, hk, rfl, h⟩⟩
      rintro (⟨h, _⟩ | ⟨u', p', h, hp, h'⟩)
      · rw [hk] at h; cases h
      · rw [hk] at h
        cases h
        rw [List.append_cancel_right hp]
        exact h'
    rw [Fig.extractInner, Fig.extractInnerLossy]
    exact ⟨fun x => (ok _ x).trans (C63_value f b t ht u hu1 hu2 x).1,
      fun p k => (bad _ p k).trans (C69_value f b t ht u hu1 hu2 p k).1,
      fun x => (ok _ x).trans (C63_value f b t ht u hu1 hu2 x).2,
      fun p k => (bad _ p k).trans (C69_value f b t ht u hu1 hu2 p k).2⟩

omit [FloatOps] in
/-- **C70**, built-in providers: how each names what it provides, and the source it gives. -/
theorem C70_builtin (fmt : Format) (fs : FileSystem) (pr : Option Profile) (text path found : Str) (required search : Bool)
    (s : Serialized) (key : Str) (value : Ser) (loc : Location) (K V : Str) (e : Env) (pre : Str) (f : Fig) :
    -- text given in the program
    (let md := (DataProvider.provider ⟨.string text, pr⟩ fmt fs).metadata
     md.name = fmt.name ++ str " source string" ∧ md.source = none) ∧
    -- a file: the one found
    (DataProvider.resolve fs path search = some found →
     let md := (DataProvider.provider ⟨.file path required search, pr⟩ fmt fs).metadata
     md.name = fmt.name ++ str " file" ∧ md.source.bind Source.filePath = some found) ∧
    -- a file that is not found: the path given
    (DataProvider.resolve fs path search = none →
     let md := (DataProvider.provider ⟨.file path required search, pr⟩ fmt fs).metadata
     md.name = fmt.name ++ str " file" ∧ md.source.bind Source.filePath = some path) ∧
    -- a serialisable value: its type, and where in the program it was wrapped
    (s.toProvider.metadata.name = s.typeName ∧
      s.toProvider.metadata.source.bind Source.codeLocation = some s.loc) ∧
    -- a pair: the two types
    ((pairProvider key value loc (K, V)).metadata.name = str "(" ++ K ++ str ", " ++ V ++ str ")" ∧
      (pairProvider key value loc (K, V)).metadata.source = none) ∧
    -- environment variables, with and without prefix
    (e.prefix = some pre → e.metadata.name = str "`" ++ Str.upper pre ++ str "` environment variable(s)" ∧
      e.metadata.source = none) ∧
    (e.prefix = none → e.metadata.name = str "environment variable(s)" ∧ e.metadata.source = none) ∧
    -- a figment
    (f.toProvider.metadata.name = str "Default" ∧ f.toProvider.metadata.source = none) := by
  refine ⟨⟨rfl, rfl⟩, ?_, ?_, ⟨rfl, rfl⟩, ⟨rfl, rfl⟩, ?_, ?_, rfl, rfl⟩
  · intro h
    refine ⟨rfl, ?_⟩
    show (some (Source.file ((DataProvider.resolve fs path search).getD path))).bind _ = _
    rw [h]
    rfl
  · intro h
    refine ⟨rfl, ?_⟩
    show (some (Source.file ((DataProvider.resolve fs path search).getD path))).bind _ = _
    rw [h]
    rfl
  · intro h
    rw [Env.metadata, h]
    refine ⟨?_, rfl⟩
    show (str "`" ++ Str.upper pre ++ str "` ") ++ str "environment variable(s)" = _
    rw [List.append_assoc]
    rfl
  · intro h
    rw [Env.metadata, h]
    exact ⟨rfl, rfl⟩

omit [FloatOps] in
/-- **C70**, sources: what a source is made from, and nothing else, is what it gives back, through one accessor only. -/
theorem C70_source (s : Source) (text : Str) (loc : Location) :
    (s.filePath = some text ↔ s = Source.ofPath text) ∧ (s.codeLocation = some loc ↔ s = Source.ofLocation loc) ∧
    (s.customText = some text ↔ s = Source.ofText text) := by
  cases s <;> refine ⟨⟨fun h => ?_, fun h => ?_⟩, ⟨fun h => ?_, fun h => ?_⟩, ⟨fun h => ?_, fun h => ?_⟩⟩ <;>
    cases h <;> rfl

/-! Cases that meet the hypotheses. -/

/-- A history: two providers and a profile selected. Its last call is a merge. -/
def Ex.opsLast : List Op := [.add ⟨.Admerge, Ex.prov2, Ex.loc⟩, .select Ex.dev]

omit [FloatOps] in
theorem Ex.opsLast_ok : OpsWF (Ex.opsLast ++ [.add ⟨.Merge, Ex.prov1, Ex.loc⟩]) ∧
    MapsWF (Ex.opsLast ++ [.add ⟨.Merge, Ex.prov1, Ex.loc⟩]) ∧
    ∀ d ∈ opData (Ex.opsLast ++ [.add ⟨.Merge, Ex.prov1, Ex.loc⟩]), ∃ n, d = .ok n := by
  refine ⟨?_, ?_, ?_⟩
  · intro n h
    simp only [Ex.opsLast, List.cons_append, List.nil_append, opData, Ex.prov1, Ex.prov2, Provider.plain, List.mem_cons,
      Except.ok.injEq, List.not_mem_nil, or_false] at h
    rcases h with rfl | rfl
    · exact Ex.data2_wf
    · exact Ex.data1_wf
  · intro x M hx hm
    simp only [Ex.opsLast, List.cons_append, List.nil_append, List.mem_cons, List.not_mem_nil, or_false,
      Op.add.injEq, reduceCtorEq, false_or] at hx
    rcases hx with rfl | rfl <;> cases hm
  · intro d hd
    simp only [Ex.opsLast, List.cons_append, List.nil_append, opData, Ex.prov1, Ex.prov2, Provider.plain, List.mem_cons,
      List.not_mem_nil, or_false] at hd
    rcases hd with rfl | rfl <;> exact ⟨_, rfl⟩

/-- The hypotheses hold, and the outcome has values of both calls, each with its tag. -/
example : ∃ f c', Fig.new.run (Ex.opsLast ++ [.add ⟨.Merge, Ex.prov1, Ex.loc⟩]) 1#64 = (some f, c') ∧
    outcome 1#64 (Ex.opsLast ++ [.add ⟨.Merge, Ex.prov1, Ex.loc⟩]) [str "a"] =
      some (.leaf (.num (Tag.new 2#64 .Custom) (.u8 5#8))) ∧
    outcome 1#64 (Ex.opsLast ++ [.add ⟨.Merge, Ex.prov1, Ex.loc⟩]) [str "g"] =
      some (.leaf (.num (Tag.new 1#64 .Global) (.u8 6#8))) ∧
    (outcomeMetadata 1#64 (Ex.opsLast ++ [.add ⟨.Merge, Ex.prov1, Ex.loc⟩]) (Tag.new 1#64 .Global)).map (·.name) =
      some (str "two") := by
  refine ⟨_, _, rfl, ?_, ?_, ?_⟩ <;> rfl

omit [FloatOps] in
/-- `C70_latest` for the first alternative, a provider of global data merged last. -/
example : ∃ f c', Fig.new.run ([.add ⟨.Admerge, Ex.prov1, Ex.loc⟩] ++ [.add ⟨.Merge, Ex.prov2, Ex.loc⟩]) 1#64 = (some f, c') ∧
    Ex.data2.at Profile.Global (pathKeys (str "g")) = some (.leaf (Ex.n 6)) ∧
    (Ex.n 6).tag.same Tag.Default = true ∧ (f.findMetadata (str "g")).map (·.name) = some (str "two") := by
  refine ⟨_, _, rfl, ?_, ?_, ?_⟩ <;> rfl

omit [FloatOps] in
/-- `C70_latest` for the second alternative: no provider has global data and the profile is selected. -/
example : ∃ f c', Fig.new.run ([.select Ex.dev] ++ [.add ⟨.Merge, Ex.prov1, Ex.loc⟩]) 1#64 = (some f, c') ∧
    Ex.data1.dictOf Profile.Global = [] ∧ Ex.dev = f.profile ∧ Ex.dev.isCustom = true ∧
    Ex.data1.at Ex.dev (pathKeys (str "a")) = some (.leaf (Ex.n 5)) ∧
    (f.findMetadata (str "a")).map (·.name) = some (str "one") := by
  refine ⟨_, _, rfl, ?_, ?_, ?_, ?_, ?_⟩ <;> rfl

end Figment
