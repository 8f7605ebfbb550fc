import Verif.Lemmas.Order
import Verif.Props.Result
/-!
# C84: when the order of the providers does not matter

The specification is `Data.Agree` (Spec/Order): where both have something, both have a dictionary or the same.
-/
namespace Figment
variable [FloatOps]

/-- **C84**: providers that agree, two by two, and name no two different profiles, may be merged in any order; likewise
joined, adjoined or admerged. Whatever was done before and is done after, every extraction says the same. -/
theorem C84_any_order (o : Order) (pre post : List Op) (l l' : List Call) (hperm : l.Perm l') (ho : ∀ x ∈ l, x.order = o)
    (hag : CallsAgree l) (hw : OpsWF (pre ++ l.map .add ++ post))
    (hok : ∀ d ∈ opData (pre ++ l.map .add ++ post), ∃ n, d = .ok n) (c c' d d' : BitVec 64) (f g : Fig)
    (hf : Fig.new.run (pre ++ l.map .add ++ post) c = (some f, c'))
    (hg : Fig.new.run (pre ++ l'.map .add ++ post) d = (some g, d')) (t : Ty) (ht : t.proper false = true) :
    f.profile = g.profile ∧
    SayTheSame (f.extract t) (g.extract t) ∧ SayTheSame (f.extractLossy t) (g.extractLossy t) ∧
    ∀ path, SayTheSame (f.extractInner path t) (g.extractInner path t) ∧
      SayTheSame (f.extractInnerLossy path t) (g.extractInnerLossy path t) := by
  have hp : (l.map Op.add).Perm (l'.map Op.add) := hperm.map _
  have hdata : ∀ d, d ∈ opData (pre ++ l'.map .add ++ post) ↔ d ∈ opData (pre ++ l.map .add ++ post) := fun d =>
    (opData_perm ((hp.append_left pre).append_right post)).symm.mem_iff
  have hsel : historySelected (pre ++ l.map .add ++ post) = historySelected (pre ++ l'.map .add ++ post) := by
    refine historySelected_perm hp ?_
    intro x hx y hy p q hxp hyq
    obtain ⟨x, hx', rfl⟩ := List.mem_map.1 hx
    obtain ⟨y, hy', rfl⟩ := List.mem_map.1 hy
    refine (hag x hx' y hy').2 p q ?_ ?_
    · simp only [Op.selects] at hxp; split at hxp <;> first | exact hxp | cases hxp
    · simp only [Op.selects] at hyq; split at hyq <;> first | exact hyq | cases hyq
  have hview : ∀ pr, historyView (pre ++ l.map .add ++ post) pr = historyView (pre ++ l'.map .add ++ post) pr := by
    intro pr
    rw [historyView_split, historyView_split]
    congr 1
    refine foldl_swap_perm hp (fun x hx y hy A => ?_) _
    obtain ⟨x, hx', rfl⟩ := List.mem_map.1 hx
    obtain ⟨y, hy', rfl⟩ := List.mem_map.1 hy
    exact Op.after_swap ((ho x hx').trans (ho y hy').symm) (hag x hx' y hy').1 pr A
  refine ⟨?_, C66_same _ _ hw ?_ hok ?_ c c' d d' f g hf hg (fun p => ?_) t ht⟩
  · rw [C13_selected _ c c' f hf, C13_selected _ d d' g hg]
    exact hsel
  · exact fun n hn => hw n ((hdata _).1 hn)
  · exact fun x hx => hok x ((hdata _).1 hx)
  · rw [historyResult, historyResult, ← hsel, hview, hview, hview]

omit [FloatOps] in
theorem opsWF_two {x y : Call} {a b : Data} (hx : x.provider.data = .ok a) (hy : y.provider.data = .ok b) (ha : a.WF)
    (hb : b.WF) : OpsWF [.add x, .add y] ∧ ∀ d ∈ opData [.add x, .add y], ∃ n, d = .ok n := by
  refine ⟨fun n hn => ?_, fun d hd => ?_⟩
  · simp only [opData, hx, hy, List.mem_cons, Except.ok.injEq, List.not_mem_nil, or_false] at hn
    rcases hn with rfl | rfl <;> assumption
  · simp only [opData, hx, hy, List.mem_cons, List.not_mem_nil, or_false] at hd
    rcases hd with rfl | rfl <;> exact ⟨_, rfl⟩

omit [FloatOps] in
/-- **C84**, exactly: two providers may be merged in either order, the data coming out the same in every profile at every
path, if and only if they agree; likewise for joins. -/
theorem C84_exact (o : Order) (ho : o = .Merge ∨ o = .Join) (p q : Provider) (a b : Data) (hp : p.data = .ok a)
    (hq : q.data = .ok b) (ha : a.WF) (hb : b.WF) (l1 l2 l3 l4 : Location) (c c' d d' : BitVec 64) (f g : Fig)
    (hf : Fig.new.run [.add ⟨o, p, l1⟩, .add ⟨o, q, l2⟩] c = (some f, c'))
    (hg : Fig.new.run [.add ⟨o, q, l3⟩, .add ⟨o, p, l4⟩] d = (some g, d')) :
    (∃ m n : Data, f.value = .ok m ∧ g.value = .ok n ∧
      ∀ pr path, (m.at pr path).map Shape.strip = (n.at pr path).map Shape.strip) ↔ a.Agree b := by
  obtain ⟨w1, k1⟩ := opsWF_two (x := ⟨o, p, l1⟩) (y := ⟨o, q, l2⟩) hp hq ha hb
  obtain ⟨w2, k2⟩ := opsWF_two (x := ⟨o, q, l3⟩) (y := ⟨o, p, l4⟩) hq hp hb ha
  obtain ⟨m, hm, _, hmv⟩ := Fig.run_historyView hf w1 k1
  obtain ⟨n, hn, _, hnv⟩ := Fig.run_historyView hg w2 k2
  have e1 : ∀ pr, historyView [.add ⟨o, p, l1⟩, .add ⟨o, q, l2⟩] pr
      = Op.after pr (Op.after pr (fun p => if p = [] then some (.dict Tag.Default) else none) (.add ⟨o, p, l1⟩))
        (.add ⟨o, q, l2⟩) := fun _ => rfl
  have e2 : ∀ pr, historyView [.add ⟨o, q, l3⟩, .add ⟨o, p, l4⟩] pr
      = Op.after pr (Op.after pr (fun p => if p = [] then some (.dict Tag.Default) else none) (.add ⟨o, q, l3⟩))
        (.add ⟨o, p, l4⟩) := fun _ => rfl
  constructor
  · rintro ⟨m', n', hm', hn', hsame⟩
    rw [hm] at hm'
    rw [hn] at hn'
    cases hm'
    cases hn'
    intro pr path s t hs ht
    have h1 := hsame pr path
    have h2 : (m.at pr).strip path = (n.at pr).strip path := h1
    rw [hmv, hnv, e1, e2, Op.after_add (x := ⟨o, p, l1⟩) hp, Op.after_add (x := ⟨o, q, l2⟩) hq,
      Op.after_add (x := ⟨o, q, l3⟩) hq, Op.after_add (x := ⟨o, p, l4⟩) hp] at h2
    have hs' : (a.at pr).strip path = some s.strip := by simp [View.strip, hs]
    have ht' : (b.at pr).strip path = some t.strip := by simp [View.strip, ht]
    rcases ho with rfl | rfl
    · simp only [View.coalesce] at h2
      rw [View.merge_some ht', View.merge_some hs'] at h2
      exact (Option.some.inj h2).symm
    · cases path with
      | nil => cases hs; cases ht; rfl
      | cons key keys =>
        have hempty : ∀ B : View, View.join (fun p => if p = [] then some (.dict Tag.Default) else none) B (key :: keys)
            = B (key :: keys) := by
          intro B
          have hnb : View.blocked (fun p => if p = [] then some (.dict Tag.Default) else none) (key :: keys) = false := by
            cases hb : View.blocked (fun p => if p = [] then some (.dict Tag.Default) else none) (key :: keys) with
            | false => rfl
            | true =>
              obtain ⟨n, hn, v, hv⟩ := View.blocked_iff.1 hb
              split at hv <;> cases hv
          rw [View.join]
          simp [hnb]
        simp only [View.coalesce] at h2
        rw [View.join_some ((hempty _).trans hs'), View.join_some ((hempty _).trans ht')] at h2
        exact Option.some.inj h2
  · intro hag
    refine ⟨m, n, hm, hn, fun pr path => ?_⟩
    have h1 : (m.at pr).strip path = (n.at pr).strip path := by
      rw [hmv, hnv, e1, e2]
      refine congrFun ?_ path
      have := Op.after_swap (x := ⟨o, p, l1⟩) (y := ⟨o, q, l2⟩) rfl
        (fun a' b' ha' hb' => by
          rw [hp] at ha'
          rw [hq] at hb'
          cases ha'
          cases hb'
          exact hag) pr (fun p => if p = [] then some (.dict Tag.Default) else none)
      rw [this]
      simp only [Op.after, hp, hq]
    exact h1

/-- **C84**, a merge and a join: they may be made in either order, agreeing or not, unless before them there is something
that is not a dictionary where both have one. Every extraction then says the same, whatever is done after. -/
theorem C84_merge_join (pre post : List Op) (p q : Provider) (a b : Data) (hp : p.data = .ok a) (hq : q.data = .ok b)
    (hno : ∀ pr path v t t', historyView pre pr path = some (.leaf v) → a.at pr path = some (.dict t) →
      b.at pr path ≠ some (.dict t')) (l1 l2 l3 l4 : Location)
    (hw : OpsWF (pre ++ [.add ⟨.Merge, p, l1⟩, .add ⟨.Join, q, l2⟩] ++ post))
    (hok : ∀ d ∈ opData (pre ++ [.add ⟨.Merge, p, l1⟩, .add ⟨.Join, q, l2⟩] ++ post), ∃ n, d = .ok n)
    (c c' d d' : BitVec 64) (f g : Fig)
    (hf : Fig.new.run (pre ++ [.add ⟨.Merge, p, l1⟩, .add ⟨.Join, q, l2⟩] ++ post) c = (some f, c'))
    (hg : Fig.new.run (pre ++ [.add ⟨.Join, q, l3⟩, .add ⟨.Merge, p, l4⟩] ++ post) d = (some g, d'))
    (t : Ty) (ht : t.proper false = true) :
    f.profile = g.profile ∧
    SayTheSame (f.extract t) (g.extract t) ∧ SayTheSame (f.extractLossy t) (g.extractLossy t) ∧
    ∀ path, SayTheSame (f.extractInner path t) (g.extractInner path t) ∧
      SayTheSame (f.extractInnerLossy path t) (g.extractInnerLossy path t) := by
  have hdata : ∀ d, d ∈ opData (pre ++ [.add ⟨.Join, q, l3⟩, .add ⟨.Merge, p, l4⟩] ++ post) ↔
      d ∈ opData (pre ++ [.add ⟨.Merge, p, l1⟩, .add ⟨.Join, q, l2⟩] ++ post) := by
    intro d
    simp only [opData_append, opData, List.mem_append, List.mem_cons, List.not_mem_nil, or_false]
    constructor
    · rintro ((h | h | h) | h) <;> simp [h]
    · rintro ((h | h | h) | h) <;> simp [h]
  have hsel : historySelected (pre ++ [.add ⟨.Merge, p, l1⟩, .add ⟨.Join, q, l2⟩] ++ post)
      = historySelected (pre ++ [.add ⟨.Join, q, l3⟩, .add ⟨.Merge, p, l4⟩] ++ post) := by
    have : [Op.add ⟨.Merge, p, l1⟩, Op.add ⟨.Join, q, l2⟩].filterMap Op.selects
        = [Op.add ⟨.Join, q, l3⟩, Op.add ⟨.Merge, p, l4⟩].filterMap Op.selects := by
      simp only [List.filterMap_cons, List.filterMap_nil, Op.selects]
    simp only [historySelected, List.filterMap_append, this]
  have hview : ∀ pr, historyView (pre ++ [.add ⟨.Merge, p, l1⟩, .add ⟨.Join, q, l2⟩] ++ post) pr
      = historyView (pre ++ [.add ⟨.Join, q, l3⟩, .add ⟨.Merge, p, l4⟩] ++ post) pr := by
    intro pr
    rw [historyView_split, historyView_split]
    congr 1
    simp only [List.foldl_cons, List.foldl_nil]
    rw [Op.after_add (x := ⟨.Merge, p, l1⟩) hp, Op.after_add (x := ⟨.Join, q, l2⟩) hq,
      Op.after_add (x := ⟨.Join, q, l3⟩) hq, Op.after_add (x := ⟨.Merge, p, l4⟩) hp]
    funext path
    refine Classical.byContradiction fun hne => ?_
    obtain ⟨_, _, hb, n, hn, v, t, hv, ht⟩ := (View.merge_join_iff (tree_historyView pre pr)
      (View.Tree.strip (Data.tree_at a pr)) path).1 hne
    have hb' : (b.at pr path).isSome := by
      cases hb' : b.at pr path with
      | none => exact absurd (by simp [View.strip, hb']) hb
      | some s => rfl
    obtain ⟨t', ht'⟩ := Data.tree_at b pr path n hn hb'
    simp only [View.strip, Option.map_eq_some_iff] at ht
    obtain ⟨s, hs, hs'⟩ := ht
    cases s with
    | dict t'' => exact hno pr _ v t'' t' hv hs ht'
    | leaf w => cases hs'
  refine ⟨?_, C66_same _ _ hw ?_ hok ?_ c c' d d' f g hf hg (fun p => ?_) t ht⟩
  · rw [C13_selected _ c c' f hf, C13_selected _ d d' g hg]
    exact hsel
  · exact fun n hn => hw n ((hdata _).1 hn)
  · exact fun x hx => hok x ((hdata _).1 hx)
  · rw [historyResult, historyResult, ← hsel, hview, hview, hview]

omit [FloatOps] in
/-- **C84**, exactly where a merge and a join do not commute: the join brings something below a dictionary by which the
merge replaces what was not one, and which itself has nothing there. -/
theorem C84_merge_join_exact (pre : List Op) (p q : Provider) (a b : Data) (hp : p.data = .ok a) (hq : q.data = .ok b)
    (l1 l2 l3 l4 : Location) (hw : OpsWF (pre ++ [.add ⟨.Merge, p, l1⟩, .add ⟨.Join, q, l2⟩]))
    (hok : ∀ d ∈ opData (pre ++ [.add ⟨.Merge, p, l1⟩, .add ⟨.Join, q, l2⟩]), ∃ n, d = .ok n)
    (c c' d d' : BitVec 64) (f g : Fig)
    (hf : Fig.new.run (pre ++ [.add ⟨.Merge, p, l1⟩, .add ⟨.Join, q, l2⟩]) c = (some f, c'))
    (hg : Fig.new.run (pre ++ [.add ⟨.Join, q, l3⟩, .add ⟨.Merge, p, l4⟩]) d = (some g, d')) :
    ∃ m n : Data, f.value = .ok m ∧ g.value = .ok n ∧ ∀ pr path,
      ((m.at pr path).map Shape.strip ≠ (n.at pr path).map Shape.strip ↔
        a.at pr path = none ∧ View.blocked (a.at pr) path = false ∧ b.at pr path ≠ none ∧
        ∃ i < path.length, ∃ v t, historyView pre pr (path.take i) = some (.leaf v) ∧
          a.at pr (path.take i) = some (.dict t)) := by
  have hdata : ∀ d, d ∈ opData (pre ++ [.add ⟨.Join, q, l3⟩, .add ⟨.Merge, p, l4⟩]) ↔
      d ∈ opData (pre ++ [.add ⟨.Merge, p, l1⟩, .add ⟨.Join, q, l2⟩]) := by
    intro d
    simp only [opData_append, opData, List.mem_append, List.mem_cons, List.not_mem_nil, or_false]
    constructor
    · rintro (h | h | h) <;> simp [h]
    · rintro (h | h | h) <;> simp [h]
  obtain ⟨m, hm, _, hmv⟩ := Fig.run_historyView hf hw hok
  obtain ⟨n, hn, _, hnv⟩ := Fig.run_historyView hg (fun n hn => hw n ((hdata _).1 hn)) fun x hx => hok x ((hdata _).1 hx)
  refine ⟨m, n, hm, hn, fun pr path => ?_⟩
  have h1 : (m.at pr path).map Shape.strip = View.join (View.merge (historyView pre pr) (a.at pr).strip) (b.at pr).strip path := by
    refine (congrFun (hmv pr) path).trans ?_
    rw [historyView, List.foldl_append]
    simp only [List.foldl_cons, List.foldl_nil]
    rw [Op.after_add (x := ⟨.Merge, p, l1⟩) hp, Op.after_add (x := ⟨.Join, q, l2⟩) hq]
    rfl
  have h2 : (n.at pr path).map Shape.strip = View.merge (View.join (historyView pre pr) (b.at pr).strip) (a.at pr).strip path := by
    refine (congrFun (hnv pr) path).trans ?_
    rw [historyView, List.foldl_append]
    simp only [List.foldl_cons, List.foldl_nil]
    rw [Op.after_add (x := ⟨.Join, q, l3⟩) hq, Op.after_add (x := ⟨.Merge, p, l4⟩) hp]
    rfl
  rw [h1, h2, View.merge_join_iff (tree_historyView pre pr) (View.Tree.strip (Data.tree_at a pr)), View.blocked_strip]
  simp only [View.strip, Option.map_eq_none_iff, ne_eq]
  refine and_congr_right fun _ => and_congr_right fun _ => and_congr_right fun _ => exists_congr fun i =>
    and_congr_right fun _ => exists_congr fun v => ?_
  constructor
  · rintro ⟨t, hv, ht⟩
    cases hs : a.at pr (path.take i) with
    | none => rw [hs] at ht; cases ht
    | some s =>
      cases s with
      | dict t' => exact ⟨t', hv, rfl⟩
      | leaf w => rw [hs] at ht; cases ht
  · rintro ⟨t, hv, ht⟩
    exact ⟨Tag.Default, hv, by rw [ht]; rfl⟩

/-! ## Cases -/

namespace Ex

/-- Two sources with a dictionary, `s`, and a value, `v`, in common. -/
def left : Data := [(Profile.Default, [(str "a", n 1), (str "s", d [(str "x", n 2)]), (str "v", n 5)])]
def right : Data := [(Profile.Default, [(str "b", a [n 3]), (str "s", d [(str "y", n 4)]), (str "v", n 5)]),
  (Profile.Global, [(str "a", n 6)])]
/-- A third one, for another profile. -/
def third : Data := [(dev, [(str "a", n 7)])]

def giving (name : String) (m : Data) : Provider := Provider.plain (Metadata.named (str name)) (.ok m)

omit [FloatOps] in
theorem left_right : left.Agree right := Data.agree_of_agrees (by decide)
omit [FloatOps] in
theorem left_third : left.Agree third := Data.agree_of_agrees (by decide)
omit [FloatOps] in
theorem right_third : right.Agree third := Data.agree_of_agrees (by decide)

def calls (o : Order) : List Call := [⟨o, giving "left" left, loc⟩, ⟨o, giving "right" right, loc⟩, ⟨o, giving "third" third, loc⟩]

omit [FloatOps] in
theorem calls_agree (o : Order) : CallsAgree (calls o) := by
  intro x hx y hy
  have hself : ∀ m : Data, m.Agree m := fun m pr p s t hs ht => by rw [hs] at ht; cases ht; rfl
  have hsymm : ∀ {m n : Data}, m.Agree n → n.Agree m := fun h pr p s t hs ht => (h pr p t s ht hs).symm
  simp only [calls, List.mem_cons, List.not_mem_nil, or_false] at hx hy
  rcases hx with rfl | rfl | rfl <;> rcases hy with rfl | rfl | rfl <;>
    refine ⟨fun a b ha hb => ?_, nofun⟩ <;> cases ha <;> cases hb
  · exact hself _
  · exact left_right
  · exact left_third
  · exact hsymm left_right
  · exact hself _
  · exact right_third
  · exact hsymm left_third
  · exact hsymm right_third
  · exact hself _

/-- Before: some data, and a selection; after: a join. -/
def before : List Op := [.add ⟨.Merge, prov1, loc⟩, .select dev]
def after : List Op := [.add ⟨.Join, prov2, loc⟩]

omit [FloatOps] in
theorem calls_wf (o : Order) : OpsWF (before ++ (calls o).map .add ++ after) ∧
    ∀ d ∈ opData (before ++ (calls o).map .add ++ after), ∃ n, d = .ok n := by
  have h : opData (before ++ (calls o).map .add ++ after) = [.ok data1, .ok left, .ok right, .ok third, .ok data2] := rfl
  rw [OpsWF, h]
  constructor
  · intro n hn
    simp only [List.mem_cons, Except.ok.injEq, List.not_mem_nil, or_false] at hn
    rcases hn with rfl | rfl | rfl | rfl | rfl <;> decide
  · intro d hd
    simp only [List.mem_cons, List.not_mem_nil, or_false] at hd
    rcases hd with rfl | rfl | rfl | rfl | rfl <;> exact ⟨_, rfl⟩

end Ex

-- the three in another order, between other calls, however they are all added
example (o : Order) (t : Ty) (ht : t.proper false = true) (f g : Fig) (c' d' : BitVec 64)
    (hf : Fig.new.run (Ex.before ++ (Ex.calls o).map .add ++ Ex.after) 1#64 = (some f, c'))
    (hg : Fig.new.run (Ex.before ++ (Ex.calls o).reverse.map .add ++ Ex.after) 9#64 = (some g, d')) :
    SayTheSame (f.extract t) (g.extract t) :=
  (C84_any_order o Ex.before Ex.after (Ex.calls o) (Ex.calls o).reverse (List.reverse_perm _).symm
    (by intro x hx; simp only [Ex.calls, List.mem_cons, List.not_mem_nil, or_false] at hx; rcases hx with rfl | rfl | rfl <;> rfl)
    (Ex.calls_agree o) (Ex.calls_wf o).1 (Ex.calls_wf o).2 _ _ _ _ f g hf hg t ht).2.1

example (o : Order) : (∃ f c', Fig.new.run (Ex.before ++ (Ex.calls o).map .add ++ Ex.after) 1#64 = (some f, c')) ∧
    ∃ g d', Fig.new.run (Ex.before ++ (Ex.calls o).reverse.map .add ++ Ex.after) 9#64 = (some g, d') :=
  ⟨⟨_, _, rfl⟩, _, _, rfl⟩

-- what the two find
example : ∃ f c', Fig.new.run (Ex.before ++ (Ex.calls .Merge).map .add ++ Ex.after) 1#64 = (some f, c') ∧
    f.extractInner (str "s") (.map (.int .u8)) = .ok (.map [(str "x", .int 2), (str "y", .int 4)]) :=
  ⟨_, _, rfl, rfl⟩

-- data1 and data2 do not agree: they have different values at `b.x`; merging them in the two orders differs there
example : ¬ Ex.data1.Agree Ex.data2 := fun h => nomatch h Profile.Default [str "b", str "x"] _ _ rfl rfl

/-- Arrays: they agree only if they are the same, for admerging puts one after the other. -/
example : ∃ f g c' d', Fig.new.run [.add ⟨.Admerge, Ex.prov1, Ex.loc⟩, .add ⟨.Admerge, Ex.prov2, Ex.loc⟩] 1#64 = (some f, c') ∧
    Fig.new.run [.add ⟨.Admerge, Ex.prov2, Ex.loc⟩, .add ⟨.Admerge, Ex.prov1, Ex.loc⟩] 1#64 = (some g, d') ∧
    f.extractInner (str "b.y") (.seq (.int .u8)) = .ok (.seq [.int 3, .int 4, .int 9]) ∧
    g.extractInner (str "b.y") (.seq (.int .u8)) = .ok (.seq [.int 9, .int 3, .int 4]) :=
  ⟨_, _, _, _, rfl, rfl, rfl, rfl⟩

namespace Ex
/-- What is at `s` is a number at first. -/
def base : Data := [(Profile.Default, [(str "s", n 1)])]
def start : List Op := [.add ⟨.Merge, giving "base" base, loc⟩]
end Ex

-- data1 and data2, which do not agree, one merged, the other joined: nothing before is in the way
example (t : Ty) (ht : t.proper false = true) (f g : Fig) (c' d' : BitVec 64)
    (hf : Fig.new.run (Ex.start ++ [.add ⟨.Merge, Ex.prov1, Ex.loc⟩, .add ⟨.Join, Ex.prov2, Ex.loc⟩] ++ []) 1#64 = (some f, c'))
    (hg : Fig.new.run (Ex.start ++ [.add ⟨.Join, Ex.prov2, Ex.loc⟩, .add ⟨.Merge, Ex.prov1, Ex.loc⟩] ++ []) 1#64 = (some g, d')) :
    SayTheSame (f.extract t) (g.extract t) := by
  refine (C84_merge_join Ex.start [] Ex.prov1 Ex.prov2 Ex.data1 Ex.data2 rfl rfl ?_ Ex.loc Ex.loc Ex.loc Ex.loc ?_ ?_ _ _ _ _
    f g hf hg t ht).2.1
  · intro pr path v t t' hv ha hb
    have hb' : ∃ s, Ex.base.at pr path = some s ∧ path ≠ [] := by
      have hv' : View.merge (fun p => if p = [] then some (.dict Tag.Default) else none) (Ex.base.at pr).strip path
          = some (.leaf v) := hv
      rw [View.merge] at hv'
      cases hs : Ex.base.at pr path with
      | some s =>
        refine ⟨s, rfl, ?_⟩
        rintro rfl
        cases hs
        cases hv'
      | none =>
        simp only [View.strip, hs, Option.map_none] at hv'
        split at hv'
        · cases hv'
        · split at hv' <;> cases hv'
    obtain ⟨s, hs, hne⟩ := hb'
    cases path with
    | nil => exact hne rfl
    | cons k ks =>
      simp only [Data.at, Value.view, Data.dictOf] at hs ha
      cases hd : Map.get pr Ex.base with
      | none => simp [hd] at hs
      | some e =>
        obtain ⟨pr', hmem, hc⟩ := Map.mem_of_get hd
        simp only [Ex.base, List.mem_cons, List.not_mem_nil, or_false, Prod.mk.injEq] at hmem
        obtain ⟨rfl, rfl⟩ := hmem
        cases hk : Map.get k [(str "s", Ex.n 1)] with
        | none => simp [hd, hk] at hs
        | some u =>
          obtain ⟨k', hmem, hc'⟩ := Map.mem_of_get hk
          simp only [List.mem_cons, List.not_mem_nil, or_false, Prod.mk.injEq] at hmem
          obtain ⟨rfl, rfl⟩ := hmem
          rw [Map.get_congr hc, Map.get_congr hc'] at ha
          cases ha
  · intro n hn
    simp only [Ex.start, opData, opData_append, List.mem_append, List.mem_cons, List.not_mem_nil, or_false, Ex.prov1, Ex.prov2, Ex.giving, Provider.plain, Except.ok.injEq] at hn
    rcases hn with rfl | rfl | rfl <;> decide
  · intro d hd
    simp only [Ex.start, opData, opData_append, List.mem_append, List.mem_cons, List.not_mem_nil, or_false, Ex.prov1, Ex.prov2, Ex.giving, Provider.plain] at hd
    rcases hd with rfl | rfl | rfl <;> exact ⟨_, rfl⟩

-- left and right, which both have a dictionary at `s`, where there was a number: here the order matters
example : ∃ f g c' d',
    Fig.new.run (Ex.start ++ [.add ⟨.Merge, Ex.giving "left" Ex.left, Ex.loc⟩, .add ⟨.Join, Ex.giving "right" Ex.right, Ex.loc⟩]) 1#64
      = (some f, c') ∧
    Fig.new.run (Ex.start ++ [.add ⟨.Join, Ex.giving "right" Ex.right, Ex.loc⟩, .add ⟨.Merge, Ex.giving "left" Ex.left, Ex.loc⟩]) 1#64
      = (some g, d') ∧
    f.extractInner (str "s") (.map (.int .u8)) = .ok (.map [(str "x", .int 2), (str "y", .int 4)]) ∧
    g.extractInner (str "s") (.map (.int .u8)) = .ok (.map [(str "x", .int 2)]) :=
  ⟨_, _, _, _, rfl, rfl, rfl, rfl⟩

end Figment
