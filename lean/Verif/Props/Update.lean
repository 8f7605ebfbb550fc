import Verif.Spec.Update
import Verif.Lemmas.Update
import Verif.Props.Result
import Verif.Props.Kept
/-!
# C83: defaults, and what is changed of them
-/
namespace Figment
variable [FloatOps]

omit [FloatOps] in
theorem Value.view_merge_strip {a b : Value} (ha : a.WF) (hb : b.WF) :
    (a.coalesce b .Merge).strip.view = View.merge a.strip.view b.strip.view := by
  have h : ∀ v : Value, v.strip.view = View.strip v.view := fun v => funext fun p => Value.view_strip v p
  rw [h, h, h, ← View.strip_merge]
  congr 1
  exact funext fun p => Value.view_coalesce .Merge a b ha hb p

omit [FloatOps] in
theorem historyView_root (ops : List Op) (pr : Profile) : historyView ops pr [] = some (.dict Tag.Default) := by
  have key : ∀ (ops : List Op) (A : View), A [] = some (.dict Tag.Default) →
      ops.foldl (Op.after pr) A [] = some (.dict Tag.Default) := by
    intro ops
    induction ops with
    | nil => exact fun A h => h
    | cons op ops ih =>
      intro A h
      refine ih _ ?_
      cases op with
      | select q => exact h
      | add c =>
        rw [Op.after]
        cases hd : c.provider.data with
        | error e => exact h
        | ok n =>
          dsimp only
          have hB : ((n.at pr []).map Shape.strip) = some (.dict Tag.Default) := rfl
          cases c.order <;> simp [View.coalesce, View.merge, View.join, View.adjoin, View.admerge, h, hB]
  exact key ops _ rfl

omit [FloatOps] in
/-- Merging an empty dictionary. -/
theorem merge_nothing {tag : Tag} {d : Dict} (h : (Value.dict tag d).WF) (tag' : Tag) :
    ((Value.dict tag d).coalesce (.dict tag' []) .Merge).strip = (Value.dict tag d).strip := by
  rw [Value.merge_dict, Dict.coalesce_eq, Map.coalesce_nil_right _ (Value.wf_dict.1 h).1]
  rfl

/-- The merge of a value and others, one after the other. -/
abbrev Value.mergeAll (a : Value) (vs : List Value) : Value := vs.foldl (fun w v => w.coalesce v .Merge) a

omit [FloatOps] in
theorem layer_fold {ops : List Op} {pr : Profile} {vs : List Value} (h : Layer ops pr vs) {tag : Tag} {d : Dict}
    (hw : (Value.dict tag d).WF) : ∃ tag' d', (Value.dict tag d).mergeAll vs = .dict tag' d' ∧ (Value.dict tag' d').WF ∧
      (∀ v ∈ vs, v.WF) ∧ (Value.dict tag' d').strip.view = View.merge (Value.dict tag d).strip.view (historyView ops pr) := by
  match vs, h with
  | [], h =>
    refine ⟨tag, d, rfl, hw, nofun, ?_⟩
    have h1 : historyView ops pr = (Value.dict Tag.Default []).strip.view := by
      funext p
      rw [h p]
      cases p <;> rfl
    have h2 : (Value.dict Tag.Default []).WF := Value.wf_dict.2 ⟨Map.Sorted.nil, nofun⟩
    rw [h1, ← Value.view_merge_strip hw h2, merge_nothing hw]
  | [v], ⟨h1, h2, h3⟩ =>
    have hr := h3 []
    rw [historyView_root, Value.view_nil] at hr
    cases v with
    | dict tag' d' =>
      refine ⟨tag', Dict.coalesce d d' .Merge, Value.merge_dict tag tag' d d', ?_, ?_, ?_⟩
      · rw [← Value.merge_dict tag]; exact Value.wf_merge hw h1
      · intro v hv; rw [List.mem_singleton] at hv; subst hv; exact h1
      · rw [← Value.merge_dict tag, Value.view_merge_strip hw h1, h2]
        congr 1
        exact funext h3
    | _ => cases hr

omit [FloatOps] in
theorem opDicts_fold {ops : List Op} (hm : ∀ c, .add c ∈ ops → c.order = .Merge) (hwf : OpsWF ops) {tag : Tag} {d : Dict}
    (hw : (Value.dict tag d).WF) (pr : Profile) :
    ∃ tag' d', (Value.dict tag d).mergeAll (opDicts pr ops) = .dict tag' d' ∧ (Value.dict tag' d').WF ∧
      (∀ v ∈ opDicts pr ops, v.WF) ∧
      (Value.dict tag' d').strip.view = ops.foldl (Op.after pr) (Value.dict tag d).strip.view := by
  induction ops generalizing tag d with
  | nil => exact ⟨tag, d, rfl, hw, nofun, rfl⟩
  | cons op ops ih =>
    have hm' : ∀ c, .add c ∈ ops → c.order = .Merge := fun c hc => hm c (List.mem_cons_of_mem _ hc)
    have hwf' : OpsWF ops := fun n hn => hwf n (by
      cases op <;> simp [opData, hn])
    cases op with
    | select q => exact ih hm' hwf' hw
    | add c =>
      rw [List.foldl_cons, Op.after]
      cases hd : c.provider.data with
      | error e =>
        have he : opDicts pr (.add c :: ops) = opDicts pr ops := by
          simp only [opDicts, List.filterMap_cons, hd]
        rw [he]
        exact ih hm' hwf' hw
      | ok n =>
        have hn : n.WF := hwf n (by simp [opData, hd])
        dsimp only
        rw [hm c List.mem_cons_self]
        have hat : (fun p => (n.at pr p).map Shape.strip) = (Value.dict Tag.Default (n.dictOf pr)).strip.view := by
          funext p
          rw [Value.view_strip]; rfl
        rw [hat, View.coalesce]
        cases hg : Map.get pr n with
        | none =>
          have he : opDicts pr (.add c :: ops) = opDicts pr ops := by
            simp only [opDicts, List.filterMap_cons, hd, hg, Option.map_none]
          have h2 : (Value.dict Tag.Default []).WF := Value.wf_dict.2 ⟨Map.Sorted.nil, nofun⟩
          rw [he, Data.dictOf, hg, Option.getD_none, ← Value.view_merge_strip hw h2, merge_nothing hw]
          exact ih hm' hwf' hw
        | some e =>
          have he : opDicts pr (.add c :: ops) = .dict Tag.Default e :: opDicts pr ops := by
            simp only [opDicts, List.filterMap_cons, hd, hg, Option.map_some]
          have h2 : (Value.dict Tag.Default e).WF := by
            have := hn.dictOf pr
            rw [Data.dictOf, hg] at this
            exact Value.wf_dict'.2 this
          rw [he, Data.dictOf, hg, Option.getD_some, ← Value.view_merge_strip hw h2, Value.merge_dict]
          obtain ⟨tag', d', h3, h4, h5, h6⟩ := ih hm' hwf' (tag := Tag.Default) (d := Dict.coalesce d e .Merge)
            (by rw [← Value.merge_dict tag]; exact Value.wf_merge hw h2)
          refine ⟨tag', d', ?_, h4, ?_, h6⟩
          · rw [Value.mergeAll, List.foldl_cons, Value.merge_dict]; exact h3
          · intro v hv
            rcases List.mem_cons.1 hv with rfl | hv
            · exact h2
            · exact h5 v hv

omit [FloatOps] in
theorem view_coalesce_start (o : Order) {d : Dict} (hd : (Value.dict Tag.Default d).WF) :
    View.coalesce o (fun p => if p = [] then some (.dict Tag.Default) else none) (Value.dict Tag.Default d).strip.view =
      (Value.dict Tag.Default d).strip.view := by
  have h1 : (fun p : List Str => if p = [] then some (Shape.dict Tag.Default) else none) =
      (Value.dict Tag.Default []).view := by
    funext p
    cases p <;> rfl
  have h2 : (Value.dict Tag.Default []).WF := Value.wf_dict.2 ⟨Map.Sorted.nil, nofun⟩
  have hs := Value.wf_strip _ hd
  rw [h1]
  funext p
  have h3 := Value.view_coalesce o (.dict Tag.Default []) (Value.dict Tag.Default d).strip h2 hs p
  rw [← h3, Value.strip, Value.coalesce_dict, Dict.coalesce_eq, Map.coalesce_nil_left _ (Value.wf_dict.1 hs).1]
  cases o <;> rfl

/-- What comes from a value, read as a type, and others merged into it. -/
theorem Fig.gives_updated {ops : List Op} (hw : OpsWF ops) (hok : ∀ d ∈ opData ops, ∃ n, d = .ok n) {c c' : BitVec 64}
    {f : Fig} (h : Fig.new.run ops c = (some f, c')) {t : Ty} (ht : t.proper false = true) (hl : t.Layered)
    {x : Val} (hx : t.Has x) (hk : t.Kept x) {w : Value} (hser : (t.ser x).serialize = .ok w) {vs : List Value}
    (hvs : ∀ v ∈ vs, v.WF) (hview : (w.mergeAll vs).strip.view = historyResult ops) : f.GivesUpdated t x vs := by
  obtain ⟨v, h1, h2, h3, h4⟩ := C66_history ops hw hok c c' f h
  have hwf : w.WF := (Ser.serialize_fresh _ _ hser).1
  have hall : ∀ (vs : List Value) (a : Value), (∀ v ∈ vs, v.WF) → a.WF → (a.mergeAll vs).WF := by
    intro vs
    induction vs with
    | nil => exact fun a _ h => h
    | cons u us ih =>
      intro a hu ha
      exact ih _ (fun v hv => hu v (List.mem_cons_of_mem _ hv)) (Value.wf_merge ha (hu u List.mem_cons_self))
  have hv : v = (w.mergeAll vs).strip := Value.ext_view _ _ h1 (Value.wf_strip _ (hall vs w hvs hwf)) fun p => by
    rw [h3, hview]
  have hsh := Ty.shaped_written t ht hl x w hx hser
  obtain ⟨w', hw', hback⟩ := C30_kept t (Ty.sound_of_proper t ht) x hx hk
  rw [hser] at hw'
  cases hw'
  have hmeans : ∀ l, t.Means l (fun _ => none) w x := fun l => by
    cases l with
    | false => exact (Ty.means_strip t ht rfl x).1 ((C63_value Fig.new false t ht w hwf nofun x).1.1 ((hback w rfl).2 Fig.new).1)
    | true => exact (Ty.means_strip t ht rfl x).1 ((C63_value Fig.new false t ht w hwf nofun x).2.1 ((hback w rfl).2 Fig.new).2)
  have hgives : ∀ l y, f.gives l t = .ok y ↔ t.Means l (fun _ => none) (w.mergeAll vs) y := by
    intro l y
    rw [← Ty.means_strip t ht (show v.strip = (w.mergeAll vs).strip by rw [hv, Value.strip_strip]) y]
    cases l with
    | false => exact (h4 t ht y).1
    | true => exact (h4 t ht y).2.1
  intro l
  constructor
  · rintro rfl
    exact (hgives l x).2 (hmeans l)
  · rintro us u rfl hus z hz y
    have hus' : ∀ v ∈ us, v.WF := fun v hv => hvs v (List.mem_append_left _ hv)
    have hu : u.WF := hvs u (List.mem_append_right _ List.mem_cons_self)
    have hm := Ty.means_merge_all l t ht hl us w x z hwf hus' hsh (fun v hv => hus v (List.dropLast_subset us hv)) (hmeans l) hz
    have hshall : ∀ (us : List Value) (a : Value), (∀ v ∈ us, v.WF) → (∀ v ∈ us, t.Shaped v) → a.WF → t.Shaped a →
        t.Shaped (a.mergeAll us) := by
      intro us
      induction us with
      | nil => exact fun a _ _ _ h => h
      | cons v vs ih =>
        intro a h1 h2 h3 h4
        exact ih _ (fun x hx => h1 x (List.mem_cons_of_mem _ hx)) (fun x hx => h2 x (List.mem_cons_of_mem _ hx))
          (Value.wf_merge h3 (h1 v List.mem_cons_self))
          (Ty.shaped_merge t a v h3 (h1 v List.mem_cons_self) h4 (h2 v List.mem_cons_self))
    have h5 := Ty.means_merge l t ht hl (w.mergeAll us) u z (hall us w hus' hwf) hu (hshall us w hus' hus hwf hsh) hm y
    rw [hgives, ← h5, Value.mergeAll, List.foldl_append]
    rfl

omit [FloatOps] in
/-- What a provider of one dictionary for the default profile brings to each profile. -/
theorem default_only {p : Provider} {q : Profile} {d : Dict} (hp : p.data = .ok [(q, d)])
    (hq : q.same Profile.Default = true) (o : Order) (loc : Location) (A : View) :
    Op.after Profile.Default A (.add ⟨o, p, loc⟩) = View.coalesce o A (Value.dict Tag.Default d).strip.view ∧
    ∀ pr : Profile, pr.same Profile.Default = false →
      Op.after pr A (.add ⟨o, p, loc⟩) = View.coalesce o A (Value.dict Tag.Default []).strip.view := by
  have key : ∀ pr : Profile, Op.after pr A (.add ⟨o, p, loc⟩) =
      View.coalesce o A (Value.dict Tag.Default (Data.dictOf [(q, d)] pr)).strip.view := by
    intro pr
    simp only [Op.after, hp]
    congr 1
    funext p
    rw [Value.view_strip]
    rfl
  rw [Profile.same_iff] at hq
  refine ⟨?_, fun pr hpr => ?_⟩
  · rw [key, Data.dictOf, Map.get, if_pos (Map.cmp_symm.1 hq)]; rfl
  · rw [key, Data.dictOf, Map.get, if_neg]
    · rfl
    · intro h
      rw [Map.cmp_congr_right hq, ← Profile.same_iff, hpr] at h
      cases h

omit [FloatOps] in
theorem merge_start (A : View) (hA : A [] = some (.dict Tag.Default)) :
    View.merge A (Value.dict Tag.Default []).strip.view = A ∧ View.join A (Value.dict Tag.Default []).strip.view = A := by
  constructor
  · funext p
    cases p with
    | nil => exact hA.symm
    | cons k ks =>
      have hb : View.blocked (Value.dict Tag.Default []).strip.view (k :: ks) = false := by
        rw [Value.strip, Value.stripD, Value.blocked_dict_cons, Map.get_nil]
      simp only [View.merge, hb]
      rfl
  · funext p
    cases p with
    | nil => simp only [View.join, hA]
    | cons k ks =>
      simp only [View.join]
      cases h : A (k :: ks) with
      | some s => rfl
      | none =>
        dsimp only
        split <;> rfl

omit [FloatOps] in
theorem Value.mergeAll_append (a : Value) (us vs : List Value) : a.mergeAll (us ++ vs) = (a.mergeAll us).mergeAll vs :=
  List.foldl_append

/-- **C83**: defaults given as a value of a type, then merges. First a provider of a value of a type, such as
`Serialized::defaults`, then any providers, all merged: what is extracted at the type is the value changed where a
provider's data for the default profile says so, provider by provider; then where what there is for the selected
profile, if it is a custom one, says so; and then where what there is for the global profile says so. -/
theorem C83_defaults_first_partial (t : Ty) (ht : t.proper false = true) (hl : t.Layered) (x : Val) (hx : t.Has x)
    (hk : t.Kept x) (s : Serialized) (hs : s.value = t.ser x) (hkey : s.key = none)
    (hpr : s.profile.same Profile.Default = true) (hdict : ∃ tg d, (t.ser x).serialize = .ok (.dict tg d))
    (o : Order) (loc : Location) (rest : List Op) (hm : ∀ c, .add c ∈ rest → c.order = .Merge)
    (hw : OpsWF rest) (hok : ∀ d ∈ opData rest, ∃ n, d = .ok n) (Ss Gs : List Value)
    (hS : if (historySelected rest).isCustom then Layer rest (historySelected rest) Ss else Ss = [])
    (hG : Layer rest Profile.Global Gs)
    (c c' : BitVec 64) (f : Fig) (h : Fig.new.run (.add ⟨o, s.toProvider, loc⟩ :: rest) c = (some f, c')) :
    f.GivesUpdated t x (opDicts Profile.Default rest ++ Ss ++ Gs) := by
  obtain ⟨tg, d, hser⟩ := hdict
  have hdata : s.toProvider.data = .ok [(s.profile, d)] :=
    (C28_serialized_dict s (by rw [hkey]; nofun)).1 tg d (by rw [hs]; exact hser)
  have hwd : (Value.dict tg d).WF := (Ser.serialize_fresh _ _ hser).1
  have hwd0 : (Value.dict Tag.Default d).WF := Value.wf_dict.2 (Value.wf_dict.1 hwd)
  have hopw : OpsWF (.add ⟨o, s.toProvider, loc⟩ :: rest) := by
    intro n hn
    simp only [opData, List.mem_cons, hdata, Except.ok.injEq] at hn
    rcases hn with rfl | hn
    · refine ⟨List.pairwise_singleton _ _, fun e he => ?_⟩
      rw [List.mem_singleton] at he
      subst he
      exact hwd0
    · exact hw n hn
  have hopok : ∀ d ∈ opData (.add ⟨o, s.toProvider, loc⟩ :: rest), ∃ n, d = .ok n := by
    intro e he
    simp only [opData, List.mem_cons, hdata] at he
    rcases he with rfl | he
    · exact ⟨_, rfl⟩
    · exact hok e he
  have hsel : historySelected (.add ⟨o, s.toProvider, loc⟩ :: rest) = historySelected rest := by
    have hn : Op.selects (.add ⟨o, s.toProvider, loc⟩) = none := by cases o <;> rfl
    rw [historySelected, List.filterMap_cons, hn]; rfl
  have hfirst := default_only hdata hpr o loc (fun p => if p = [] then some (.dict Tag.Default) else none)
  have hDef : historyView (.add ⟨o, s.toProvider, loc⟩ :: rest) Profile.Default =
      rest.foldl (Op.after Profile.Default) (Value.dict Tag.Default d).strip.view := by
    rw [historyView, List.foldl_cons, hfirst.1, view_coalesce_start o hwd0]
  have hOther : ∀ pr : Profile, pr.same Profile.Default = false →
      historyView (.add ⟨o, s.toProvider, loc⟩ :: rest) pr = historyView rest pr := by
    intro pr hpr
    rw [historyView, List.foldl_cons, hfirst.2 pr hpr,
      view_coalesce_start o (Value.wf_dict.2 ⟨Map.Sorted.nil, nofun⟩), historyView]
    congr 1
    funext p
    cases p <;> rfl
  obtain ⟨t1, d1, e1, w1, a1, v1⟩ := opDicts_fold hm hw hwd Profile.Default
  have hS' : ∃ t2 d2, (Value.dict t1 d1).mergeAll Ss = .dict t2 d2 ∧ (Value.dict t2 d2).WF ∧ (∀ v ∈ Ss, v.WF) ∧
      (Value.dict t2 d2).strip.view = if (historySelected rest).isCustom then
        View.merge (Value.dict t1 d1).strip.view (historyView rest (historySelected rest))
        else (Value.dict t1 d1).strip.view := by
    split at hS
    · rename_i hc
      rw [if_pos hc]
      exact layer_fold hS w1
    · rename_i hc
      rw [if_neg hc]
      subst hS
      exact ⟨t1, d1, rfl, w1, nofun, rfl⟩
  obtain ⟨t2, d2, e2, w2, a2, v2⟩ := hS'
  obtain ⟨t3, d3, e3, w3, a3, v3⟩ := layer_fold hG w2
  refine Fig.gives_updated hopw hopok h ht hl hx hk hser ?_ ?_
  · intro v hv
    rcases List.mem_append.1 hv with hv | hv
    · rcases List.mem_append.1 hv with hv | hv
      · exact a1 v hv
      · exact a2 v hv
    · exact a3 v hv
  · rw [Value.mergeAll_append, Value.mergeAll_append, e1, e2, e3, v3, v2, v1, historyResult, hsel, hDef,
      hOther Profile.Global (by decide)]
    have hroot : (Value.dict tg d).strip.view = (Value.dict Tag.Default d).strip.view := rfl
    rw [hroot]
    split
    · rename_i hc
      rw [hOther (historySelected rest) (by
        rw [Profile.isCustom, Bool.and_eq_true, Bool.not_eq_true'] at hc
        exact hc.1)]
    · rfl

/-- **C83**, the other way around: first any operations, in any way, and then defaults given as a value of a type, joined:
what is extracted at the type is the value changed where what there is for the default profile says so; then where what
there is for the selected profile, if it is a custom one, says so; and then where what there is for the global profile
says so. -/
theorem C83_defaults_last_partial (t : Ty) (ht : t.proper false = true) (hl : t.Layered) (x : Val) (hx : t.Has x)
    (hk : t.Kept x) (s : Serialized) (hs : s.value = t.ser x) (hkey : s.key = none)
    (hpr : s.profile.same Profile.Default = true) (hdict : ∃ tg d, (t.ser x).serialize = .ok (.dict tg d))
    (loc : Location) (ops : List Op) (hw : OpsWF ops) (hok : ∀ d ∈ opData ops, ∃ n, d = .ok n) (Ds Ss Gs : List Value)
    (hD : Layer ops Profile.Default Ds)
    (hS : if (historySelected ops).isCustom then Layer ops (historySelected ops) Ss else Ss = [])
    (hG : Layer ops Profile.Global Gs)
    (c c' : BitVec 64) (f : Fig) (h : Fig.new.run (ops ++ [.add ⟨.Join, s.toProvider, loc⟩]) c = (some f, c')) :
    f.GivesUpdated t x (Ds ++ Ss ++ Gs) := by
  obtain ⟨tg, d, hser⟩ := hdict
  have hdata : s.toProvider.data = .ok [(s.profile, d)] :=
    (C28_serialized_dict s (by rw [hkey]; nofun)).1 tg d (by rw [hs]; exact hser)
  have hwd : (Value.dict tg d).WF := (Ser.serialize_fresh _ _ hser).1
  have hwd0 : (Value.dict Tag.Default d).WF := Value.wf_dict.2 (Value.wf_dict.1 hwd)
  have hopw : OpsWF (ops ++ [.add ⟨.Join, s.toProvider, loc⟩]) := by
    intro n hn
    simp only [opData_append, opData, List.mem_append, List.mem_cons, hdata, Except.ok.injEq, List.not_mem_nil, or_false] at hn
    rcases hn with hn | rfl
    · exact hw n hn
    · refine ⟨List.pairwise_singleton _ _, fun e he => ?_⟩
      rw [List.mem_singleton] at he
      subst he
      exact hwd0
  have hopok : ∀ d ∈ opData (ops ++ [.add ⟨.Join, s.toProvider, loc⟩]), ∃ n, d = .ok n := by
    intro e he
    simp only [opData_append, opData, List.mem_append, List.mem_cons, hdata, List.not_mem_nil, or_false] at he
    rcases he with he | rfl
    · exact hok e he
    · exact ⟨_, rfl⟩
  have hsel : historySelected (ops ++ [.add ⟨.Join, s.toProvider, loc⟩]) = historySelected ops := by
    simp only [historySelected, List.filterMap_append]
    simp [Op.selects]
  have hDef : historyView (ops ++ [.add ⟨.Join, s.toProvider, loc⟩]) Profile.Default =
      View.merge (Value.dict Tag.Default d).strip.view (historyView ops Profile.Default) := by
    rw [historyView, List.foldl_append, List.foldl_cons, List.foldl_nil, (default_only hdata hpr .Join loc _).1]
    rfl
  have hOther : ∀ pr : Profile, pr.same Profile.Default = false →
      historyView (ops ++ [.add ⟨.Join, s.toProvider, loc⟩]) pr = historyView ops pr := by
    intro pr hpr'
    rw [historyView, List.foldl_append, List.foldl_cons, List.foldl_nil, (default_only hdata hpr .Join loc _).2 pr hpr']
    exact (merge_start _ (historyView_root ops pr)).2
  obtain ⟨t1, d1, e1, w1, a1, v1⟩ := layer_fold hD hwd
  have hS' : ∃ t2 d2, (Value.dict t1 d1).mergeAll Ss = .dict t2 d2 ∧ (Value.dict t2 d2).WF ∧ (∀ v ∈ Ss, v.WF) ∧
      (Value.dict t2 d2).strip.view = if (historySelected ops).isCustom then
        View.merge (Value.dict t1 d1).strip.view (historyView ops (historySelected ops))
        else (Value.dict t1 d1).strip.view := by
    split at hS
    · rename_i hc
      rw [if_pos hc]
      exact layer_fold hS w1
    · rename_i hc
      rw [if_neg hc]
      subst hS
      exact ⟨t1, d1, rfl, w1, nofun, rfl⟩
  obtain ⟨t2, d2, e2, w2, a2, v2⟩ := hS'
  obtain ⟨t3, d3, e3, w3, a3, v3⟩ := layer_fold hG w2
  refine Fig.gives_updated hopw hopok h ht hl hx hk hser ?_ ?_
  · intro v hv
    rcases List.mem_append.1 hv with hv | hv
    · rcases List.mem_append.1 hv with hv | hv
      · exact a1 v hv
      · exact a2 v hv
    · exact a3 v hv
  · rw [Value.mergeAll_append, Value.mergeAll_append, e1, e2, e3, v3, v2, v1, historyResult, hsel, hDef,
      hOther Profile.Global (by decide)]
    have hroot : (Value.dict tg d).strip.view = (Value.dict Tag.Default d).strip.view := rfl
    rw [hroot]
    split
    · rename_i hc
      rw [hOther (historySelected ops) (by
        rw [Profile.isCustom, Bool.and_eq_true, Bool.not_eq_true'] at hc
        exact hc.1)]
    · rfl

/-- **C83**, for one provider of a dictionary for the default profile, merged into defaults given as a struct: the fields
that the dictionary does not have are as in the defaults. -/
theorem C83_untouched (n name : Str) (deny : Bool) (fs : List (Str × Option Val × Ty))
    (ht : (Ty.struct n name deny fs).proper false = true) (hl : (Ty.struct n name deny fs).Layered) (l : List Val)
    (hx : (Ty.struct n name deny fs).Has (.struct l)) (hk : (Ty.struct n name deny fs).Kept (.struct l))
    (loc loc' : Location) (typeName : Str) (p : Provider) (d : Dict) (hp : p.data = .ok [(Profile.Default, d)]) (hd : d.WF)
    (hsel : p.profile = none) (c c' : BitVec 64) (f : Fig)
    (h : Fig.new.run [.add ⟨.Merge, (Serialized.defaults ((Ty.struct n name deny fs).ser (.struct l)) loc typeName).toProvider, loc⟩,
      .add ⟨.Merge, p, loc'⟩] c = (some f, c')) (m : List Val)
    (hm : f.extract (.struct n name deny fs) = .ok (.struct m)) (i : Nat) (k : Str) (dt : Option Val × Ty)
    (hi : fs[i]? = some (k, dt)) (hnot : Map.get k d = none) : m[i]? = l[i]? := by
  have hdict : ∃ tg d, ((Ty.struct n name deny fs).ser (.struct l)).serialize = .ok (.dict tg d) := by
    obtain ⟨w, h1, _⟩ := C30_kept _ (Ty.sound_of_proper _ ht) _ hx hk
    have h2 := Ty.shaped_written _ ht hl _ w hx h1
    rw [Ty.Shaped] at h2
    obtain ⟨tg, d, rfl, _⟩ := h2
    exact ⟨tg, d, h1⟩
  have hnone : historySelected [.add ⟨.Merge, p, loc'⟩] = Profile.Default := by
    simp [historySelected, Op.selects, hsel]
  have hG : Layer [.add ⟨.Merge, p, loc'⟩] Profile.Global [] := by
    intro q
    have h0 := (default_only hp (by decide) .Merge loc' (fun p => if p = [] then some (.dict Tag.Default) else none)).2
      Profile.Global (by decide)
    rw [historyView, List.foldl_cons, List.foldl_nil, h0, (view_coalesce_start .Merge (Value.wf_dict.2 ⟨Map.Sorted.nil, nofun⟩))]
    cases q <;> rfl
  have hfin := C83_defaults_first_partial (.struct n name deny fs) ht hl (.struct l) hx hk
    (Serialized.defaults ((Ty.struct n name deny fs).ser (.struct l)) loc typeName) rfl rfl (by rfl) hdict .Merge loc
    [.add ⟨.Merge, p, loc'⟩] (fun c hc => by rw [List.mem_singleton] at hc; cases hc; rfl)
    (fun e he => by
      simp only [opData, List.mem_singleton, hp, Except.ok.injEq] at he
      subst he
      exact ⟨List.pairwise_singleton _ _, fun e he => by rw [List.mem_singleton] at he; subst he; exact hd⟩)
    (fun e he => by
      simp only [opData, List.mem_singleton, hp] at he
      exact ⟨_, he⟩)
    [] [] (by rw [hnone]; rfl) hG c c' f h
  have hvs : opDicts Profile.Default [.add ⟨.Merge, p, loc'⟩] = [.dict Tag.Default d] := by
    have : Map.get Profile.Default [(Profile.Default, d)] = some d := rfl
    simp [opDicts, hp, this]
  rw [hvs] at hfin
  have h1 := ((hfin false).2 [] (.dict Tag.Default d) rfl nofun (.struct l) rfl (.struct m)).1 hm
  rw [Ty.Updates] at h1
  rcases h1 with ⟨_, _, l', m', h2, h3, h4, h5, h8⟩ | ⟨h2, _⟩
  · cases h2; cases h3; cases h4
    clear h8 hm hfin hvs hG hnone hdict h hk hx hl ht
    induction fs generalizing l m i with
    | nil => cases hi
    | cons e fs ih =>
      obtain ⟨k', dt', t'⟩ := e
      rw [Ty.UpdatesFields] at h5
      obtain ⟨x, l', y, m', rfl, rfl, h6, _, h7⟩ := h5
      cases i with
      | zero => cases hi; rw [h6 hnot]; rfl
      | succ i => exact ih l' m' i hi h7
  · exact absurd rfl (h2 _ _)

omit [FloatOps] in
/-- What merges have for a profile that one of them brings something to. -/
theorem Layer.some {ops : List Op} (hm : ∀ c, .add c ∈ ops → c.order = .Merge) (hwf : OpsWF ops) (pr : Profile) :
    Layer ops pr [((Value.dict Tag.Default []).mergeAll (opDicts pr ops)).strip] := by
  have h2 : (Value.dict Tag.Default []).WF := Value.wf_dict.2 ⟨Map.Sorted.nil, nofun⟩
  obtain ⟨tg, d, h3, h4, _, h5⟩ := opDicts_fold hm hwf h2 pr
  rw [h3]
  refine ⟨Value.wf_strip _ h4, Value.strip_strip _, fun p => ?_⟩
  have h6 : (Value.dict Tag.Default []).strip.view = fun p => if p = [] then Option.some (.dict Tag.Default) else .none := by
    funext p
    cases p <;> rfl
  rw [h5, h6]
  rfl

omit [FloatOps] in
/-- What merges have for a profile that none of them brings anything to. -/
theorem Layer.none {ops : List Op} (hm : ∀ c, .add c ∈ ops → c.order = .Merge) (hwf : OpsWF ops) {pr : Profile}
    (h : opDicts pr ops = []) : Layer ops pr [] := by
  intro p
  obtain ⟨_, _, h3⟩ := Layer.some hm hwf pr
  rw [h] at h3
  rw [← h3]
  cases p <;> rfl

/-! A configuration with a struct in a struct, a map and an option; a file with sections for three profiles and the
environment are merged into the defaults. -/

def Ex.db : Ty := .struct (str "Db") (str "Db") true [(str "host", none, .string), (str "port", none, .int .u16)]

def Ex.conf : Ty := .struct (str "Conf") (str "Conf") false
  [(str "db", none, Ex.db), (str "limits", none, .map (.int .u64)), (str "name", none, .string), (str "spare", none, .option Ex.db)]

def Ex.confDefaults : Val := .struct [.struct [.str (str "localhost"), .int 5432], .map [(str "form", .int 32)],
  .str (str "app"), .none]

def Ex.confFile : Provider := Provider.plain (Metadata.named (str "file")) (.ok [
  (Profile.Default, [(str "db", Ex.d [(str "port", Ex.n 80)]), (str "limits", Ex.d [(str "json", Ex.n 9)])]),
  (Ex.dev, [(str "name", Ex.s "dev app")])])

def Ex.confEnv : Provider := Provider.plain (Metadata.named (str "env")) (.ok [
  (Profile.Global, [(str "db", Ex.d [(str "host", Ex.s "db.local")]), (str "limits", Ex.d [(str "form", Ex.n 1)])])])

def Ex.confRest : List Op := [.add ⟨.Merge, Ex.confFile, Ex.loc⟩, .select Ex.dev, .add ⟨.Merge, Ex.confEnv, Ex.loc⟩]

def Ex.confOps : List Op :=
  .add ⟨.Merge, (Serialized.defaults (Ex.conf.ser Ex.confDefaults) Ex.loc (str "Conf")).toProvider, Ex.loc⟩ :: Ex.confRest

omit [FloatOps] in
theorem Ex.conf_layered : Ex.conf.proper false = true ∧ Ex.conf.Layered :=
  ⟨by decide, by simp [Ex.conf, Ex.db, Ty.Layered, Ty.LayeredFields]⟩

omit [FloatOps] in
theorem Ex.conf_has : Ex.conf.Has Ex.confDefaults ∧ Ex.conf.Kept Ex.confDefaults := by
  constructor
  · simp only [Ex.conf, Ex.db, Ex.confDefaults, Ty.Has, Ty.HasFields]
    refine ⟨_, rfl, ⟨_, _, rfl, ⟨_, rfl, ⟨_, _, rfl, ⟨_, rfl⟩, _, _, rfl, ⟨_, rfl, by decide, by decide⟩, rfl⟩, nofun, nofun⟩,
      _, _, rfl, ⟨_, rfl, List.pairwise_singleton _ _, fun e he => ?_⟩, _, _, rfl, ⟨_, rfl⟩, _, _, rfl, .inl rfl, rfl⟩,
      nofun, nofun⟩
    rw [List.mem_singleton] at he
    subst he
    exact ⟨_, rfl, by decide, by decide⟩
  · simp only [Ex.conf, Ex.db, Ex.confDefaults, Ty.Kept]
    rintro l h
    cases h
    refine ⟨fun l h => ?_, fun l h e he => ?_, trivial, nofun, trivial⟩
    · cases h
      exact ⟨trivial, ⟨by decide, by decide⟩, trivial⟩
    · exact ⟨by decide, by decide⟩

omit [FloatOps] in
theorem Ex.conf_rest : (∀ c, .add c ∈ Ex.confRest → c.order = .Merge) ∧ OpsWF Ex.confRest ∧
    ∀ d ∈ opData Ex.confRest, ∃ n, d = .ok n := by
  refine ⟨fun c hc => ?_, fun n hn => ?_, fun d hd => ?_⟩
  · simp only [Ex.confRest, List.mem_cons, Op.add.injEq, reduceCtorEq, List.not_mem_nil, or_false, false_or] at hc
    rcases hc with rfl | rfl <;> rfl
  · simp only [Ex.confRest, opData, Ex.confFile, Ex.confEnv, Provider.plain, List.mem_cons, Except.ok.injEq,
      List.not_mem_nil, or_false] at hn
    rcases hn with rfl | rfl <;> decide
  · simp only [Ex.confRest, opData, Ex.confFile, Ex.confEnv, Provider.plain, List.mem_cons, List.not_mem_nil, or_false] at hd
    rcases hd with rfl | rfl <;> exact ⟨_, rfl⟩

/-- `C83_defaults_first_partial` applies, and what changes the defaults is these three. -/
example (c c' : BitVec 64) (f : Fig) (h : Fig.new.run Ex.confOps c = (some f, c')) :
    f.GivesUpdated Ex.conf Ex.confDefaults
      [.dict Tag.Default [(str "db", Ex.d [(str "port", Ex.n 80)]), (str "limits", Ex.d [(str "json", Ex.n 9)])],
        .dict Tag.Default [(str "name", Ex.s "dev app")],
        .dict Tag.Default [(str "db", Ex.d [(str "host", Ex.s "db.local")]), (str "limits", Ex.d [(str "form", Ex.n 1)])]] :=
  C83_defaults_first_partial Ex.conf Ex.conf_layered.1 Ex.conf_layered.2 Ex.confDefaults Ex.conf_has.1 Ex.conf_has.2 _ rfl rfl (by rfl)
    ⟨_, _, rfl⟩ .Merge Ex.loc Ex.confRest Ex.conf_rest.1 Ex.conf_rest.2.1 Ex.conf_rest.2.2
    [((Value.dict Tag.Default []).mergeAll (opDicts Ex.dev Ex.confRest)).strip] _
    (by rw [if_pos (by decide)]; exact Layer.some Ex.conf_rest.1 Ex.conf_rest.2.1 Ex.dev)
    (Layer.some Ex.conf_rest.1 Ex.conf_rest.2.1 Profile.Global) c c' f h

/-- What comes of it. -/
example : ∃ f c', Fig.new.run Ex.confOps 1#64 = (some f, c') ∧ f.extract Ex.conf = .ok (.struct [
    .struct [.str (str "db.local"), .int 80], .map [(str "form", .int 1), (str "json", .int 9)], .str (str "dev app"), .none]) :=
  ⟨_, _, rfl, rfl⟩

/-- The first two are of the shape that a value is written as, though not all of it. -/
example : Ex.conf.Shaped (.dict Tag.Default [(str "name", Ex.s "dev app")]) ∧
    Ex.conf.Shaped (.dict Tag.Default [(str "db", Ex.d [(str "port", Ex.n 80)]), (str "limits", Ex.d [(str "json", Ex.n 9)])]) := by
  constructor
  · simp only [Ex.conf, Ex.db, Ty.Shaped, Ty.ShapedFields]
    refine ⟨_, _, rfl, fun _ => trivial, fun _ h => ?_, fun _ => trivial, fun _ h => ?_, fun _ => trivial, fun _ h => ?_,
      fun _ => trivial, fun _ h => ?_, trivial⟩ <;> cases h
    exact fun _ _ h => nomatch h
  · simp only [Ex.conf, Ex.db, Ty.Shaped, Ty.ShapedFields]
    refine ⟨_, _, rfl, fun _ => trivial, fun _ h => ?_, fun _ => trivial, fun _ h => ?_, fun _ => trivial, fun _ h => ?_,
      fun _ => trivial, fun _ h => ?_, trivial⟩ <;> cases h
    · refine ⟨_, _, rfl, fun _ => trivial, fun _ h => ?_, fun _ => trivial, fun _ h => ?_, trivial⟩ <;> cases h
      exact fun _ _ h => nomatch h
    · refine ⟨_, _, rfl, fun k w h => ?_⟩
      obtain ⟨_, h, _⟩ := Map.mem_of_get h
      rw [List.mem_singleton] at h
      cases h
      exact fun _ _ h => nomatch h

/-- A field of the defaults changed: the port, but not the host. -/
example : Ex.db.Updates false (.struct [.str (str "localhost"), .int 5432]) (Ex.d [(str "port", Ex.n 80)])
    (.struct [.str (str "localhost"), .int 80]) := by
  simp only [Ex.db, Ty.Updates, Ty.UpdatesFields]
  refine .inl ⟨_, _, _, _, rfl, rfl, rfl, ⟨_, _, _, _, rfl, rfl, fun _ => rfl, fun _ h => (by cases h), _, _, _, _, rfl, rfl,
    fun h => (by cases h), fun w h => ?_, rfl, rfl⟩, fun _ => by decide⟩
  cases h
  exact (C63_deserialize (.int .u16) rfl (Ex.n 80) (by decide) (.int 80)).1 rfl

/-- The defaults joined last. -/
example (c c' : BitVec 64) (f : Fig) (h : Fig.new.run (Ex.confRest ++ [.add ⟨.Join,
      (Serialized.defaults (Ex.conf.ser Ex.confDefaults) Ex.loc (str "Conf")).toProvider, Ex.loc⟩]) c = (some f, c')) :
    f.GivesUpdated Ex.conf Ex.confDefaults
      [.dict Tag.Default [(str "db", Ex.d [(str "port", Ex.n 80)]), (str "limits", Ex.d [(str "json", Ex.n 9)])],
        .dict Tag.Default [(str "name", Ex.s "dev app")],
        .dict Tag.Default [(str "db", Ex.d [(str "host", Ex.s "db.local")]), (str "limits", Ex.d [(str "form", Ex.n 1)])]] :=
  C83_defaults_last_partial Ex.conf Ex.conf_layered.1 Ex.conf_layered.2 Ex.confDefaults Ex.conf_has.1 Ex.conf_has.2 _ rfl rfl (by rfl)
    ⟨_, _, rfl⟩ Ex.loc Ex.confRest Ex.conf_rest.2.1 Ex.conf_rest.2.2 _
    [((Value.dict Tag.Default []).mergeAll (opDicts Ex.dev Ex.confRest)).strip] _
    (Layer.some Ex.conf_rest.1 Ex.conf_rest.2.1 Profile.Default)
    (by rw [if_pos (by decide)]; exact Layer.some Ex.conf_rest.1 Ex.conf_rest.2.1 Ex.dev)
    (Layer.some Ex.conf_rest.1 Ex.conf_rest.2.1 Profile.Global) c c' f h

/-! Keys that are unit variants, and a struct that is converted. -/

/-- The key: `Http` or `Https`. -/
def Ex.proto : Ty := .enum (str "Proto") [(str "Http", .unit), (str "Https", .unit)]

/-- The two ends of a range that is read from `{"end": …, "start": …}`, swapped. -/
def Ex.swap : Val → Val
  | .struct [a, b] => .struct [b, a]
  | x => x

def Ex.span : Ty := .via (.struct (str "S") (str "S") false [(str "end", none, .int .u8), (str "start", none, .int .u8)])
  (fun x => .ok (Ex.swap x)) Ex.swap

def Ex.ports : Ty := .struct (str "P") (str "P") false [(str "ports", none, .keyed Ex.proto (.int .u16)), (str "span", none, Ex.span)]

def Ex.portsDefaults : Val := .struct [.entries [(.variant (str "Https") .unit, .int 443)], .struct [.int 1, .int 9]]

def Ex.portsOps : List Op :=
  [.add ⟨.Merge, (Serialized.defaults (Ex.ports.ser Ex.portsDefaults) Ex.loc (str "P")).toProvider, Ex.loc⟩,
    .add ⟨.Merge, Provider.plain (Metadata.named (str "p")) (.ok [(Profile.Default,
      [(str "ports", Ex.d [(str "Http", Ex.n 80)]), (str "span", Ex.d [(str "end", Ex.n 7)])])]), Ex.loc⟩]

omit [FloatOps] in
theorem Ex.swap_swap (x : Val) : Ex.swap (Ex.swap x) = x := by
  by_cases h : ∃ a b, x = .struct [a, b]
  · obtain ⟨a, b, rfl⟩ := h
    rfl
  · have h1 : Ex.swap x = x := by
      unfold Ex.swap
      split
      · exact absurd ⟨_, _, rfl⟩ h
      · rfl
    rw [h1, h1]

omit [FloatOps] in
theorem Ex.ports_layered : Ex.ports.proper false = true ∧ Ex.ports.Layered := by
  refine ⟨by decide, ?_⟩
  simp only [Ex.ports, Ex.span, Ex.proto, Ty.Layered, Ty.LayeredFields, and_true]
  refine ⟨?_, .inr ?_⟩
  · rintro s s' a ⟨_, rfl⟩ ⟨_, h⟩
    cases h
    rfl
  · intro u x h
    cases h
    exact Ex.swap_swap u

/-- What comes of it: one entry more, and one end of the range changed. -/
example : ∃ f c', Fig.new.run Ex.portsOps 1#64 = (some f, c') ∧ f.extract Ex.ports = .ok (.struct [
    .entries [(.variant (str "Http") .unit, .int 80), (.variant (str "Https") .unit, .int 443)], .struct [.int 1, .int 7]]) :=
  ⟨_, _, rfl, rfl⟩

/-- `C83_defaults_first_partial` applies. -/
example (c c' : BitVec 64) (f : Fig) (h : Fig.new.run Ex.portsOps c = (some f, c')) :
    f.GivesUpdated Ex.ports Ex.portsDefaults
      [.dict Tag.Default [(str "ports", Ex.d [(str "Http", Ex.n 80)]), (str "span", Ex.d [(str "end", Ex.n 7)])]] := by
  have hm : ∀ c, .add c ∈ Ex.portsOps.tail → c.order = .Merge := by
    intro c hc
    cases List.mem_singleton.1 hc
    rfl
  have hw : OpsWF Ex.portsOps.tail := by
    intro n hn
    cases List.mem_singleton.1 hn
    decide
  refine C83_defaults_first_partial Ex.ports Ex.ports_layered.1 Ex.ports_layered.2 Ex.portsDefaults ?_ ?_ _ rfl rfl (by rfl)
    ⟨_, _, rfl⟩ .Merge Ex.loc Ex.portsOps.tail hm hw ?_ [] [] (by rw [if_neg (by decide)]) (Layer.none hm hw rfl) c c' f h
  · simp only [Ex.ports, Ex.span, Ex.proto, Ex.portsDefaults, Ty.Has, Ty.HasFields]
    refine ⟨_, rfl, ⟨_, _, rfl, ⟨_, rfl, List.pairwise_singleton _ _, fun e he => ?_⟩, _, _, rfl, ⟨⟨_, rfl, ⟨_, _, rfl,
      ⟨_, rfl, by decide, by decide⟩, _, _, rfl, ⟨_, rfl, by decide, by decide⟩, rfl⟩, nofun, nofun⟩, rfl⟩, rfl⟩, nofun, nofun⟩
    rw [List.mem_singleton] at he
    subst he
    exact ⟨⟨_, _, rfl, .inr ⟨by decide, .inl ⟨rfl, rfl⟩⟩⟩, ⟨_, rfl, by decide, by decide⟩, by decide⟩
  · simp only [Ex.ports, Ex.span, Ex.proto, Ex.portsDefaults, Ty.Kept]
    rintro l h
    cases h
    refine ⟨fun l h e he => ?_, fun l h => ?_, trivial⟩
    · cases h
      rw [List.mem_singleton] at he
      subst he
      refine ⟨fun s h => ?_, by decide, by decide⟩
      have hs : some (str "Https") = some s := h
      cases hs
      exact ⟨by rfl, rfl⟩
    · cases h
      exact ⟨⟨by decide, by decide⟩, ⟨by decide, by decide⟩, trivial⟩
  · intro d hd
    cases List.mem_singleton.1 hd
    exact ⟨_, rfl⟩

/-! A field, and `#[serde(flatten)]` of a map with whatever else there is. -/

/-- The field and the map. -/
def Ex.loose : Ty := .flat (str "Loose") [(str "id", none, .int .u8)] (fun xs l => .ok (.struct [.seq xs, .map l]))
  fun x => match x with
    | .struct [.seq xs, .map l] => (xs, l)
    | _ => ([], [])

def Ex.looseDefaults : Val := .struct [.seq [.int 1], .map [(str "more", .map [(str "a", .bool true), (str "b", .bool true)])]]

def Ex.looseOps : List Op :=
  [.add ⟨.Merge, (Serialized.defaults (Ex.loose.ser Ex.looseDefaults) Ex.loc (str "L")).toProvider, Ex.loc⟩,
    .add ⟨.Merge, Provider.plain (Metadata.named (str "p")) (.ok [(Profile.Default,
      [(str "id", Ex.n 2), (str "more", Ex.d [(str "b", Ex.s "no"), (str "c", Ex.s "yes")])])]), Ex.loc⟩]

/-- What comes of it: the field is changed, and what else there is, key by key. -/
example : ∃ f c', Fig.new.run Ex.looseOps 1#64 = (some f, c') ∧ f.extract Ex.loose = .ok (.struct [.seq [.int 2],
    .map [(str "more", .map [(str "a", .bool true), (str "b", .str (str "no")), (str "c", .str (str "yes"))])]]) :=
  ⟨_, _, rfl, rfl⟩

/-- `C83_defaults_first_partial` applies. -/
example (c c' : BitVec 64) (f : Fig) (h : Fig.new.run Ex.looseOps c = (some f, c')) :
    f.GivesUpdated Ex.loose Ex.looseDefaults
      [.dict Tag.Default [(str "id", Ex.n 2), (str "more", Ex.d [(str "b", Ex.s "no"), (str "c", Ex.s "yes")])]] := by
  have hm : ∀ c, .add c ∈ Ex.looseOps.tail → c.order = .Merge := by
    intro c hc
    cases List.mem_singleton.1 hc
    rfl
  have hw : OpsWF Ex.looseOps.tail := by
    intro n hn
    cases List.mem_singleton.1 hn
    decide
  refine C83_defaults_first_partial Ex.loose (by decide) ?_ Ex.looseDefaults ?_ ?_ _ rfl rfl (by rfl)
    ⟨_, _, rfl⟩ .Merge Ex.loc Ex.looseOps.tail hm hw ?_ [] [] (by rw [if_neg (by decide)]) (Layer.none hm hw rfl) c c' f h
  · simp only [Ex.loose, Ty.Layered, Ty.LayeredFields, and_true]
    intro xs l x h
    cases h
    rfl
  · rw [Ex.loose, Ty.Has]
    refine ⟨⟨_, _, rfl, ⟨_, rfl, by decide, by decide⟩, rfl⟩, List.pairwise_singleton _ _, fun e he => ?_, rfl⟩
    rw [show e = _ from List.mem_singleton.1 he]
    refine ⟨.map _ (by unfold Map.Sorted; decide) fun e he => ?_, by decide⟩
    simp only [List.mem_cons, List.not_mem_nil, or_false] at he
    rcases he with rfl | rfl <;> exact .bool _
  · rw [Ex.loose, Ty.Kept]
    exact ⟨⟨by decide, by decide⟩, trivial⟩
  · intro d hd
    cases List.mem_singleton.1 hd
    exact ⟨_, rfl⟩

/-! ## Enums with data, and what is replaced -/

/-- **C83**, what happens to enums with data: a variant that overrides another is merged with it to a dictionary with
both, and the one with the lesser name is read, whichever of the two was to override the other. -/
theorem C83_enum_exact (lossy : Bool) (file : Tag → Option Str) (n : Str) (vs : List (Str × VTy)) (tg tg' : Tag) (a b : Str)
    (u w : Value) (hne : a ≠ b) (y : Val) :
    (Ty.enum n vs).Means lossy file ((Value.dict tg [(a, u)]).coalesce (.dict tg' [(b, w)]) .Merge) y ↔
      (Ty.enum n vs).Means lossy file (if compare a b = .lt then .dict tg [(a, u)] else .dict tg' [(b, w)]) y := by
  have hcmp : compare a b ≠ .eq := fun h => hne (Std.LawfulEqOrd.eq_of_compare h)
  have hcmp' : compare b a ≠ .eq := fun h => hne (Std.LawfulEqOrd.eq_of_compare h).symm
  have hm : (Value.dict tg [(a, u)]).coalesce (.dict tg' [(b, w)]) .Merge =
      .dict tg' (if compare a b = .lt then [(a, u), (b, w)] else [(b, w), (a, u)]) := by
    rw [Value.merge_dict]
    congr 1
    simp only [Dict.coalesce, Value.coalesceD, Map.get, Map.insert, Map.extend, List.foldl_cons, List.foldl_nil, if_neg hcmp]
    cases hc : compare b a with
    | eq => exact absurd hc hcmp'
    | lt =>
      have h1 : compare a b = .gt := Std.OrientedCmp.gt_of_lt hc
      rw [if_neg (by rw [h1]; nofun)]
    | gt =>
      have h1 : compare a b = .lt := Std.OrientedCmp.lt_of_gt hc
      rw [if_pos h1]
  rw [hm, Ty.Means, Ty.Means]
  split
  · constructor <;>
    · rintro (⟨_, _, h, _⟩ | ⟨_, _, _, _, h, _⟩ | ⟨_, _, _, _, z, h, h2, h3⟩) <;> cases h
      exact .inr (.inr ⟨_, _, _, _, z, rfl, h2, h3⟩)
  · constructor <;>
    · rintro (⟨_, _, h, _⟩ | ⟨_, _, _, _, h, _⟩ | ⟨_, _, _, _, z, h, h2, h3⟩) <;> cases h
      exact .inr (.inr ⟨_, _, _, _, z, rfl, h2, h3⟩)

/-- An enum with two variants with data. -/
def Ex.either : Ty := .enum (str "E") [(str "A", .newtype (.int .u8)), (str "B", .newtype (.int .u8))]

/-- The history of `Figment::from(Serialized::defaults(E::A(1))).merge(("B", 2))`, and that with `A` and `B` swapped. -/
def Ex.overridden (a b : String) : List Op :=
  [.add ⟨.Merge, (Serialized.defaults (Ex.either.ser (.variant (str a) (.int 1))) Ex.loc (str "E")).toProvider, Ex.loc⟩,
    .add ⟨.Merge, Provider.plain (Metadata.named (str "p")) (.ok [(Profile.Default, [(str b, Ex.n 2)])]), Ex.loc⟩]

/-- What one would expect of C83 and is not so: merged over the default `E::A(1)`, the other variant `E::B(2)` is ignored,
without an error. In the other order, `E::A(2)` over `E::B(1)`, it is not. -/
theorem C83_fails :
    (∃ f c', Fig.new.run (Ex.overridden "A" "B") 1#64 = (some f, c') ∧
      f.extract Ex.either = .ok (.variant (str "A") (.int 1)) ∧
      Ex.either.Means false (fun _ => none) (.dict Tag.Default [(str "B", Ex.n 2)]) (.variant (str "B") (.int 2))) ∧
    ∃ f c', Fig.new.run (Ex.overridden "B" "A") 1#64 = (some f, c') ∧
      f.extract Ex.either = .ok (.variant (str "A") (.int 2)) :=
  ⟨⟨_, _, rfl, rfl, (C63_deserialize Ex.either (by decide) (.dict Tag.Default [(str "B", Ex.n 2)]) (by decide)
      (.variant (str "B") (.int 2))).1 rfl⟩, _, _, rfl, rfl⟩

/-- `C83_defaults_first_partial` applies to enums with data, too. -/
example (c c' : BitVec 64) (f : Fig) (h : Fig.new.run (Ex.overridden "A" "B") c = (some f, c')) :
    f.GivesUpdated Ex.either (.variant (str "A") (.int 1)) [.dict Tag.Default [(str "B", Ex.n 2)]] := by
  have hm : ∀ c, .add c ∈ (Ex.overridden "A" "B").tail → c.order = .Merge := by
    intro c hc
    cases List.mem_singleton.1 hc
    rfl
  have hw : OpsWF (Ex.overridden "A" "B").tail := by
    intro n hn
    cases List.mem_singleton.1 hn
    decide
  refine C83_defaults_first_partial Ex.either (by decide) (by simp [Ex.either, Ty.Layered, Ty.LayeredVariants, VTy.Layered, str]) (.variant (str "A") (.int 1)) ?_ ?_ _ rfl rfl (by rfl)
    ⟨_, _, rfl⟩ .Merge Ex.loc (Ex.overridden "A" "B").tail hm hw ?_ [] [] (by rw [if_neg (by decide)])
    (Layer.none hm hw rfl) c c' f h
  · rw [Ex.either, Ty.Has]
    exact ⟨_, _, rfl, .inl ⟨rfl, _, rfl, by decide, by decide⟩⟩
  · rw [Ex.either, Ty.Kept]
    intro n y h
    cases h
    exact ⟨fun _ => ⟨by decide, by decide⟩, fun h => absurd rfl h⟩
  · intro d hd
    cases List.mem_singleton.1 hd
    exact ⟨_, rfl⟩

omit [FloatOps] in
theorem unit_lookup {a : Str} {u : Val} : ∀ {vs : List (Str × VTy)}, unitVariants vs = true → Ty.HasVariant a vs u →
    vs.lookup a = some .unit
  | [], _, h => by rw [Ty.HasVariant] at h; exact h.elim
  | (n, v) :: vs, hu, h => by
    rw [Ty.HasVariant] at h
    rw [unitVariants, List.all_cons, Bool.and_eq_true] at hu
    rcases h with ⟨rfl, _⟩ | ⟨hn, h⟩
    · rw [List.lookup_cons_self]
      cases v <;> first | rfl | exact absurd hu.1 (by simp)
    · rw [List.lookup_cons, beq_eq_false_iff_ne.2 fun h => hn h.symm]
      exact unit_lookup hu.2 h

/-- **C83**, what is replaced: a value that is not written as a dictionary, such as a number, text, a sequence, or a unit
variant, is changed to what there is for it, whatever it was. -/
theorem C83_replaced (lossy : Bool) : ∀ (t : Ty), t.atom = true → ∀ (x : Val), t.Has x → ∀ (v : Value) (y : Val),
    t.Updates lossy x v y ↔ t.Means lossy (fun _ => none) v y
  | .option t, ha, x, hx, v, y => by
    rw [Ty.atom] at ha
    rw [Ty.Updates, Ty.Means]
    rw [Ty.Has] at hx
    refine or_congr Iff.rfl (and_congr_right fun _ => exists_congr fun z => and_congr_right fun _ => ?_)
    constructor
    · rintro (⟨_, h⟩ | ⟨u, rfl, h⟩)
      · exact h
      · rcases hx with hx | ⟨_, hx, hu⟩ <;> cases hx
        exact (C83_replaced lossy t ha u hu v z).1 h
    · intro h
      rcases hx with hx | ⟨u, hx, hu⟩
      · exact .inl ⟨hx, h⟩
      · exact .inr ⟨u, hx, (C83_replaced lossy t ha u hu v z).2 h⟩
  | .newtype n t, ha, x, hx, v, y => by
    rw [Ty.atom] at ha
    rw [Ty.Updates, Ty.Means]
    rw [Ty.Has] at hx
    obtain ⟨u, rfl, hu⟩ := hx
    constructor
    · rintro ⟨u', z, h1, h2, h3⟩
      cases h1
      exact ⟨z, h2, (C83_replaced lossy t ha u hu v z).1 h3⟩
    · rintro ⟨z, h2, h3⟩
      exact ⟨u, z, rfl, h2, (C83_replaced lossy t ha u hu v z).2 h3⟩
  | .enum n vs, ha, x, hx, v, y => by
    rw [Ty.atom] at ha
    rw [Ty.Updates]
    rw [Ty.Has] at hx
    obtain ⟨a, u, rfl, hv⟩ := hx
    have hl := unit_lookup ha hv
    constructor
    · rintro (⟨_, h⟩ | ⟨_, _, a', u', _, h2, h3⟩)
      · exact h
      · cases h2
        rcases h3 with ⟨_, h⟩ | ⟨h, _⟩
        · exact h
        · exact absurd hl h
    · intro h
      by_cases hd : ∃ tg d, v = .dict tg d
      · obtain ⟨tg, d, rfl⟩ := hd
        exact .inr ⟨_, _, _, _, rfl, rfl, .inl ⟨hl, h⟩⟩
      · exact .inl ⟨fun tg d h => hd ⟨tg, d, h⟩, h⟩
  | .via t conv back, ha, x, _, v, y => by
    rw [Ty.atom] at ha
    rw [Ty.Updates]
    exact ⟨fun h => h.elim (·.2) fun h => absurd ha (by rw [h.1]; nofun), fun h => .inl ⟨ha, h⟩⟩
  | .bool, _, _, _, _, _ | .int _, _, _, _, _, _ | .f32, _, _, _, _, _ | .f64, _, _, _, _, _ | .char, _, _, _, _, _
  | .string, _, _, _, _, _ | .pathBuf, _, _, _, _, _ | .unit, _, _, _, _, _ | .unitStruct _, _, _, _, _, _
  | .seq _, _, _, _, _, _ | .tuple _, _, _, _, _, _ | .tupleStruct _ _, _, _, _, _, _ | .tag, _, _, _, _, _
  | .flag, _, _, _, _, _ | .parsed _ _ _, _, _, _, _, _ => by
    rw [Ty.Updates]
    all_goals nofun
  | .map _, h, _, _, _, _ | .pairs _, h, _, _, _, _ | .keyed _ _, h, _, _, _, _ | .struct _ _ _ _, h, _, _, _, _
  | .value, h, _, _, _, _ | .any _, h, _, _, _, _ | .flat _ _ _ _, h, _, _, _, _ => nomatch h

/-- It says something of a unit variant and of an optional number. -/
example : (Ty.enum (str "Level") [(str "low", .unit), (str "high", .unit)]).atom = true ∧
    (Ty.enum (str "Level") [(str "low", .unit), (str "high", .unit)]).Has (.variant (str "low") .unit) ∧
    (Ty.option (.int .u8)).atom = true ∧ (Ty.option (.int .u8)).Has (.some (.int 7)) :=
  ⟨by decide, by rw [Ty.Has]; exact ⟨_, _, rfl, .inl ⟨rfl, rfl⟩⟩, by decide,
    by rw [Ty.Has]; exact .inr ⟨_, rfl, by rw [Ty.Has]; exact ⟨_, rfl, by decide, by decide⟩⟩⟩

end Figment
