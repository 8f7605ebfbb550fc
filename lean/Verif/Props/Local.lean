import Verif.Lemmas.Local
import Verif.Props.Order
/-!
# C85: an extraction at a path looks only along the path

The specification is `Along` and `OpsAlong` (Spec/Local): histories that differ only off the path.
-/
namespace Figment
variable [FloatOps]

/-- **C85**: if two histories have the same result along the path (on the way to it, at it and below it), extracting at the
path says the same, whatever else either has. -/
theorem C85_along (ops ops' : List Op) (hw : OpsWF ops) (hw' : OpsWF ops') (hok : ∀ d ∈ opData ops, ∃ n, d = .ok n)
    (hok' : ∀ d ∈ opData ops', ∃ n, d = .ok n) (c c' d d' : BitVec 64) (f g : Fig)
    (hf : Fig.new.run ops c = (some f, c')) (hg : Fig.new.run ops' d = (some g, d')) (path : Str)
    (hsame : ∀ p, Along (pathKeys path) p → historyResult ops p = historyResult ops' p) (t : Ty)
    (ht : t.proper false = true) :
    SayTheSame (f.extractInner path t) (g.extractInner path t) ∧
      SayTheSame (f.extractInnerLossy path t) (g.extractInnerLossy path t) := by
  obtain ⟨v, v1, _, v3, v4⟩ := C66_history ops hw hok c c' f hf
  obtain ⟨w, w1, _, w3, w4⟩ := C66_history ops' hw' hok' d d' g hg
  have hvw : v.getKeys (pathKeys path) = w.getKeys (pathKeys path) :=
    Value.getKeys_along v1 w1 fun p hp => by rw [v3, w3, hsame p hp]
  have hv := C66_faults ops hw hok c c' f hf v v1 v3 t ht
  have hw := C66_faults ops' hw' hok' d d' g hg w w1 w3 t ht
  refine ⟨⟨fun x => ((v4 t ht x).2.2 path).1.trans ?_, fun p k => ((hv p k).2.2 path).1.trans ?_⟩,
    ⟨fun x => ((v4 t ht x).2.2 path).2.trans ?_, fun p k => ((hv p k).2.2 path).2.trans ?_⟩⟩
  · rw [((w4 t ht x).2.2 path).1, hvw]
  · rw [((hw p k).2.2 path).1, hvw]
  · rw [((w4 t ht x).2.2 path).2, hvw]
  · rw [((hw p k).2.2 path).2, hvw]

/-- **C85**: histories that differ only in what providers have off the path, and in calls of providers that have nothing
along it and name no profile, select the same profile and say the same when extracting at the path. -/
theorem C85_elsewhere (ops ops' : List Op) (hw : OpsWF ops) (hw' : OpsWF ops') (hok : ∀ d ∈ opData ops, ∃ n, d = .ok n)
    (hok' : ∀ d ∈ opData ops', ∃ n, d = .ok n) (c c' d d' : BitVec 64) (f g : Fig)
    (hf : Fig.new.run ops c = (some f, c')) (hg : Fig.new.run ops' d = (some g, d')) (path : Str)
    (hops : OpsAlong (pathKeys path) ops ops') (t : Ty) (ht : t.proper false = true) :
    f.profile = g.profile ∧ SayTheSame (f.extractInner path t) (g.extractInner path t) ∧
      SayTheSame (f.extractInnerLossy path t) (g.extractInnerLossy path t) := by
  refine ⟨?_, C85_along ops ops' hw hw' hok hok' c c' d d' f g hf hg path hops.result t ht⟩
  rw [C13_selected _ c c' f hf, C13_selected _ d d' g hg, hops.selected]

omit [FloatOps] in
theorem OpsAlong.refl (keys : List Str) : ∀ ops : List Op, (∀ d ∈ opData ops, ∃ n, d = .ok n) → OpsAlong keys ops ops
  | [], _ => .nil
  | .select p :: r, h => .select p (OpsAlong.refl keys r h)
  | .add x :: r, h => by
    obtain ⟨n, hn⟩ := h x.provider.data (by simp [opData])
    exact .add rfl rfl hn hn (fun _ _ _ => rfl)
      (OpsAlong.refl keys r fun d hd => h d (by simp only [opData, List.mem_cons]; exact .inr hd))

omit [FloatOps] in
theorem OpsAlong.append {keys : List Str} {a a' b b' : List Op} (h : OpsAlong keys a a') (h' : OpsAlong keys b b') :
    OpsAlong keys (a ++ b) (a' ++ b') := by
  induction h with
  | nil => exact h'
  | select p _ ih => exact .select p ih
  | add ho hp hx hy hab _ ih => exact .add ho hp hx hy hab ih
  | left hx hp hn _ ih => exact .left hx hp hn ih
  | right hx hp hn _ ih => exact .right hx hp hn ih

/-- **C85**, for one call: a provider that names no profile and has nothing along the path may be added, at any point of a
history and in any of the four ways, without changing what is extracted at the path. -/
theorem C85_one_more (pre post : List Op) (x : Call) (a : Data) (ha : x.provider.data = .ok a)
    (hp : x.provider.profile = none) (path : Str) (hn : a.NothingAlong (pathKeys path))
    (hw : OpsWF (pre ++ .add x :: post)) (hok : ∀ d ∈ opData (pre ++ .add x :: post), ∃ n, d = .ok n)
    (c c' d d' : BitVec 64) (f g : Fig) (hf : Fig.new.run (pre ++ post) c = (some f, c'))
    (hg : Fig.new.run (pre ++ .add x :: post) d = (some g, d')) (t : Ty) (ht : t.proper false = true) :
    f.profile = g.profile ∧ SayTheSame (f.extractInner path t) (g.extractInner path t) ∧
      SayTheSame (f.extractInnerLossy path t) (g.extractInnerLossy path t) := by
  have sub : ∀ (l : List Op) {e}, e ∈ opData (l ++ post) → e ∈ opData (l ++ .add x :: post) := by
    intro l e
    induction l with
    | nil => intro he; simp only [List.nil_append, opData, List.mem_cons] at he ⊢; exact .inr he
    | cons o r ih =>
      cases o with
      | select p => exact fun he => ih he
      | add y =>
        intro he
        simp only [List.cons_append, opData, List.mem_cons] at he ⊢
        exact he.imp_right ih
  have hok' : ∀ d ∈ opData (pre ++ post), ∃ n, d = .ok n := fun d hd => hok d (sub pre hd)
  have part : ∀ (l : List Op) {e}, e ∈ opData l → ∀ r, e ∈ opData (l ++ r) ∧ e ∈ opData (r ++ l) := by
    intro l e he r
    constructor
    · induction l with
      | nil => cases he
      | cons o r' ih =>
        cases o with
        | select p => exact ih he
        | add y =>
          simp only [List.cons_append, opData, List.mem_cons] at he ⊢
          exact he.imp_right ih
    · induction r with
      | nil => exact he
      | cons o r' ih =>
        cases o with
        | select p => exact ih
        | add y => simp only [List.cons_append, opData, List.mem_cons]; exact .inr ih
  refine C85_elsewhere (pre ++ post) (pre ++ .add x :: post) (fun n hn => hw n (sub pre hn)) hw hok' hok c c' d d' f g hf hg
    path ?_ t ht
  exact (OpsAlong.refl _ pre fun d hd => hok' d (part pre hd post).1).append
    (.right ha hp hn (OpsAlong.refl _ post fun d hd => hok' d (part post hd pre).2))

omit [FloatOps] in
/-- A provider without the first key of the path, in any profile, has nothing along the path. -/
theorem Data.nothing_first {m : Data} {k : Str} (ks : List Str) (h : ∀ e ∈ m, Map.get k e.2 = none) :
    m.NothingAlong (k :: ks) := by
  intro pr p hne hp
  have hd : Map.get k (m.dictOf pr) = none := by
    unfold Data.dictOf
    cases hg : Map.get pr m with
    | none => rfl
    | some d =>
      obtain ⟨_, hm, _⟩ := Map.mem_of_get hg
      exact h _ hm
  cases p with
  | nil => exact absurd rfl hne
  | cons k' r =>
    obtain rfl : k' = k := by
      rcases hp with hp | hp
      · exact (List.cons_prefix_cons.1 hp).1
      · exact (List.cons_prefix_cons.1 hp).1.symm
    show Value.view (.dict Tag.Default (m.dictOf pr)) (k' :: r) = none
    rw [Value.view, hd]

/-! ## Cases -/

namespace Ex
/-- A source with nothing at `s`; one with something at `s`, but not along `s.x`; one with something that is in the way. -/
def off : Data := third
def beside : Data := [(Profile.Default, [(str "s", d [(str "y", n 8)])])]
def across : Data := [(Profile.Default, [(str "s", n 8)])]

def addings (l : List (Order × Data)) : List Op := l.map fun x => .add ⟨x.1, giving "some" x.2, loc⟩
end Ex

-- `third` has nothing along `s.x`: it may be added, somehow, between `left` and the selection of a profile
example (o : Order) (t : Ty) (ht : t.proper false = true) (f g : Fig) (c' d' : BitVec 64)
    (hf : Fig.new.run (Ex.addings [(.Merge, Ex.left)] ++ [.select Ex.dev]) 1#64 = (some f, c'))
    (hg : Fig.new.run (Ex.addings [(.Merge, Ex.left)] ++ .add ⟨o, Ex.giving "third" Ex.third, Ex.loc⟩ :: [.select Ex.dev]) 1#64
      = (some g, d')) : SayTheSame (f.extractInner (str "s.x") t) (g.extractInner (str "s.x") t) := by
  have hw := opsWF_two (x := ⟨.Merge, Ex.giving "some" Ex.left, Ex.loc⟩) (y := ⟨o, Ex.giving "third" Ex.third, Ex.loc⟩) rfl rfl
    (a := Ex.left) (b := Ex.third) (by decide) (by decide)
  exact (C85_one_more (Ex.addings [(.Merge, Ex.left)]) [.select Ex.dev] ⟨o, Ex.giving "third" Ex.third, Ex.loc⟩ Ex.third rfl rfl
    (str "s.x") (Data.nothing_first _ (by decide)) hw.1 hw.2 _ _ _ _ f g hf hg t ht).2.1

example (o : Order) : (∃ f c', Fig.new.run (Ex.addings [(.Merge, Ex.left)] ++ [.select Ex.dev]) 1#64 = (some f, c') ∧
      f.extractInner (str "s.x") (.int .u8) = .ok (.int 2)) ∧
    ∃ g d', Fig.new.run (Ex.addings [(.Merge, Ex.left)] ++ .add ⟨o, Ex.giving "third" Ex.third, Ex.loc⟩ :: [.select Ex.dev]) 1#64
      = (some g, d') := ⟨⟨_, _, rfl, rfl⟩, _, _, rfl⟩

-- what is beside the path does not matter, but what is on the way to it does
example : ∃ f g c' d', Fig.new.run (Ex.addings [(.Merge, Ex.left), (.Merge, Ex.beside)]) 1#64 = (some f, c') ∧
    Fig.new.run (Ex.addings [(.Merge, Ex.left), (.Merge, Ex.across)]) 1#64 = (some g, d') ∧
    f.extractInner (str "s.x") (.int .u8) = .ok (.int 2) ∧
    FailsAt (g.extractInner (str "s.x") (.int .u8)) [] (.missingField (str "s.x")) :=
  ⟨_, _, _, _, rfl, rfl, rfl, _, rfl, rfl, rfl⟩

omit [FloatOps] in
example : ¬ Ex.across.NothingAlong (pathKeys (str "s.x")) := fun h =>
  nomatch h Profile.Default [str "s"] (by decide) (.inl ⟨[str "x"], rfl⟩)

end Figment
