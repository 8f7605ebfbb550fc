import Verif.Spec.Stack
import Verif.Props.ByField
import Verif.Props.LastWord
/-!
# C90: sources merged one over the other, read as a struct

The specification is `FieldsFromLast` (Spec/Stack).
-/
namespace Figment

theorem Stacked.data {calls : List Call} (h : Stacked calls) :
    OpsWF (calls.map Op.add) ∧ ∀ d ∈ opData (calls.map Op.add), ∃ n, d = .ok n := by
  have mem : ∀ d ∈ opData (calls.map Op.add), ∃ x ∈ calls, x.provider.data = d := by
    intro d hd
    clear h
    induction calls with
    | nil => cases hd
    | cons x r ih =>
      simp only [List.map_cons, opData, List.mem_cons] at hd
      rcases hd with rfl | hd
      · exact ⟨x, by simp, rfl⟩
      · obtain ⟨y, hy, e⟩ := ih hd
        exact ⟨y, by simp [hy], e⟩
  constructor
  · intro n hn
    obtain ⟨x, hx, e⟩ := mem _ hn
    obtain ⟨_, n', h1, h2, _⟩ := h x hx
    rw [e] at h1
    cases h1
    exact h2
  · intro d hd
    obtain ⟨x, hx, rfl⟩ := mem d hd
    obtain ⟨_, n, h1, _⟩ := h x hx
    exact ⟨n, h1⟩

/-- At a key, in the default profile, there is what was said last. -/
theorem historyView_stack {calls : List Call} (h : Stacked calls) (k : Str) :
    historyView (calls.map Op.add) Profile.Default [k] = (saidLast calls k).map fun w => w.strip.shape := by
  have gen : ∀ (calls : List Call), Stacked calls → ∀ A : View,
      (calls.map Op.add).foldl (Op.after Profile.Default) A [k] =
        ((saidLast calls k).map fun w => w.strip.shape).or (A [k]) := by
    intro calls
    induction calls with
    | nil => intro _ A; rfl
    | cons x r ih =>
      intro h A
      obtain ⟨ho, n, hn, _, _⟩ := h x (by simp)
      rw [List.map_cons, List.foldl_cons, ih (fun y hy => h y (by simp [hy]))]
      have hA : Op.after Profile.Default A (.add x) [k] =
          ((Map.get k (n.dictOf Profile.Default)).map fun w => w.strip.shape).or (A [k]) := by
        simp only [Op.after, hn, ho, View.coalesce, View.merge]
        have hb : View.blocked (fun p => (n.at Profile.Default p).map Shape.strip) [k] = false := rfl
        rw [hb, Data.at]
        simp only [Value.view]
        cases hg : Map.get k (n.dictOf Profile.Default) with
        | none => rfl
        | some w => simp [Value.view_nil, Value.shape_strip]
      have hs : saidLast (x :: r) k = (saidLast r k).or (Map.get k (n.dictOf Profile.Default)) := by
        rw [saidLast, List.reverse_cons, List.findSome?_append, saidLast]
        congr 1
        simp [hn]
      rw [hA, hs]
      cases saidLast r k <;> simp
  rw [historyView, gen calls h]
  simp

theorem historyView_other {calls : List Call} (h : Stacked calls) {q : Profile} (hq : q.same Profile.Default ≠ true)
    (k : Str) (ks : List Str) : View.Quiet (historyView (calls.map Op.add) q) (k :: ks) := by
  refine historyView_quiet (by simp) fun n hn => ?_
  have : ∃ x ∈ calls, x.provider.data = .ok n := by
    clear h
    induction calls with
    | nil => cases hn
    | cons x r ih =>
      simp only [List.map_cons, opData, List.mem_cons] at hn
      rcases hn with hn | hn
      · exact ⟨x, by simp, hn.symm⟩
      · obtain ⟨y, hy, e⟩ := ih hn
        exact ⟨y, by simp [hy], e⟩
  obtain ⟨x, hx, e⟩ := this
  obtain ⟨_, n', h1, _, hd⟩ := h x hx
  rw [e] at h1
  cases h1
  have hg : Map.get q n = none := by
    cases hg : Map.get q n with
    | none => rfl
    | some d =>
      obtain ⟨k', hmem, hc⟩ := Map.mem_of_get hg
      exact absurd (Profile.same_iff.2 (Std.TransCmp.eq_trans hc (Profile.same_iff.1 (hd _ hmem)))) hq
  have hat : ∀ k ks, n.at q (k :: ks) = none := by
    intro k ks
    rw [Data.at, Data.dictOf, hg]
    rfl
  refine ⟨hat k ks, fun i hi w hw => ?_⟩
  cases i with
  | zero => cases hw
  | succ i => rw [List.take_succ_cons, hat] at hw; cases hw

theorem historyResult_stack {calls : List Call} (h : Stacked calls) (k : Str) :
    historyResult (calls.map Op.add) [k] = (saidLast calls k).map fun w => w.strip.shape := by
  have quiet : ∀ q : Profile, q.same Profile.Default ≠ true → ∀ A : View,
      View.merge A (historyView (calls.map Op.add) q) [k] = A [k] := by
    intro q hq A
    obtain ⟨h1, h2⟩ := historyView_other h hq k []
    exact View.merge_quiet h1 (View.blocked_false.2 h2)
  rw [historyResult]
  split
  · next hc =>
    rw [quiet _ (by decide), quiet _ (by intro hs; simp [Profile.isCustom, hs] at hc), historyView_stack h]
  · rw [quiet _ (by decide), historyView_stack h]

theorem historyView_root (ops : List Op) (pr : Profile) : historyView ops pr [] = some (.dict Tag.Default) := by
  have gen : ∀ (ops : List Op) (A : View), A [] = some (.dict Tag.Default) →
      ops.foldl (Op.after pr) A [] = some (.dict Tag.Default) := by
    intro ops
    induction ops with
    | nil => exact fun A h => h
    | cons o r ih =>
      intro A hA
      rw [List.foldl_cons]
      refine ih _ ?_
      cases o with
      | select p => exact hA
      | add x =>
        cases hn : x.provider.data with
        | error e => simp only [Op.after, hn]; exact hA
        | ok n =>
          simp only [Op.after, hn]
          cases x.order <;>
            simp [View.coalesce, View.merge, View.join, View.adjoin, View.admerge, hA, Data.at_nil, Shape.strip]
  exact gen ops _ rfl

theorem historyResult_root (ops : List Op) : historyResult ops [] = some (.dict Tag.Default) := by
  rw [historyResult]
  split <;> rw [View.merge, historyView_root]

variable [FloatOps]

/-- **C90**: sources are merged one over the other and everything is extracted as a struct. The result is the struct of,
for each field, what the value of the last source that has it means, read as the field's type; if no source has it, its
default, or `None` if it is an `Option`. There is a result exactly if there is one for all fields, and, if unknown fields
are denied, no source has another key. (Fields for which the last source has a dictionary are left out: dictionaries are
united, see C83.) The same with `extract_lossy`. -/
theorem C90_struct (calls : List Call) (h : Stacked calls) (c c' : BitVec 64) (f : Fig)
    (hf : Fig.new.run (calls.map Op.add) c = (some f, c')) (text name : Str) (hname : magicNames.contains name = false)
    (deny : Bool) (fs : List (Str × Option Val × Ty)) (ht : (Ty.struct text name deny fs).proper false = true)
    (hd : ∀ e ∈ fs, ∀ w, saidLast calls e.1 = some w → w.asDict? = none) (z : Val) :
    (f.extract (.struct text name deny fs) = .ok z ↔ ∃ xs, z = .struct xs ∧ FieldsFromLast false calls fs xs ∧
      (deny = true → ∀ k, (saidLast calls k).isSome → k ∈ fs.map (·.1))) ∧
    (f.extractLossy (.struct text name deny fs) = .ok z ↔ ∃ xs, z = .struct xs ∧ FieldsFromLast true calls fs xs ∧
      (deny = true → ∀ k, (saidLast calls k).isSome → k ∈ fs.map (·.1))) := by
  obtain ⟨hw, hok⟩ := h.data
  obtain ⟨v, hv, _, hview, hm⟩ := C66_history _ hw hok c c' f hf
  have hT : name ≠ Tagged.NAME := by rintro rfl; revert hname; decide
  have hR : name ≠ RelPath.NAME := by rintro rfl; revert hname; decide
  obtain ⟨tag, d, rfl⟩ : ∃ tag d, v = .dict tag d := by
    have := hview []
    rw [historyResult_root, Value.view_nil] at this
    cases v <;> first | exact ⟨_, _, rfl⟩ | cases this
  have hget : ∀ k, (Map.get k d).map Value.shape = (saidLast calls k).map fun w => w.strip.shape := by
    intro k
    rw [← historyResult_stack h, ← hview]
    simp only [Value.view]
    cases Map.get k d <;> simp [Value.view_nil]
  have hfield : ∀ e ∈ fs, Map.get e.1 d = (saidLast calls e.1).map Value.strip := by
    intro e he
    have h1 := hget e.1
    cases hs : saidLast calls e.1 with
    | none => rw [hs] at h1; cases hg : Map.get e.1 d <;> simp [hg] at h1 ⊢
    | some w =>
      rw [hs] at h1
      cases hg : Map.get e.1 d with
      | none => simp [hg] at h1
      | some u =>
        rw [hg] at h1
        have hwd : w.strip.asDict? = none := by
          have := hd e he w hs
          cases w <;> first | rfl | cases this
        simp only [Option.map_some, Option.some.injEq] at h1 ⊢
        rw [Value.shape_leaf hwd] at h1
        cases u <;> first | (cases h1; done) | (simp only [Value.shape, Shape.leaf.injEq] at h1; exact h1)
  have gen : ∀ l : Bool, (Ty.struct text name deny fs).Means l (fun _ => none) (.dict tag d) z ↔
      ∃ xs, z = .struct xs ∧ FieldsFromLast l calls fs xs ∧
        (deny = true → ∀ k, (saidLast calls k).isSome → k ∈ fs.map (·.1)) := by
    intro l
    rw [Ty.Means, if_neg hT, if_neg hR]
    have hfs : ∀ xs, Ty.MeansFields l (fun _ => none) fs d xs ↔ FieldsFromLast l calls fs xs := by
      intro xs
      rw [Ty.meansFields_iff, FieldsFromLast]
      refine and_congr_right fun _ => forall_congr' fun i => forall_congr' fun n => forall_congr' fun dflt =>
        forall_congr' fun t => forall_congr' fun y => forall_congr' fun hi => forall_congr' fun _ => ?_
      have hg : Map.get n d = _ := hfield _ (List.mem_of_getElem? hi)
      rw [hg]
      cases saidLast calls n <;> simp
    have hkeys : (∀ e ∈ d, e.1 ∈ fs.map (·.1)) ↔ ∀ k, (saidLast calls k).isSome → k ∈ fs.map (·.1) := by
      have hsome : ∀ k, (Map.get k d).isSome = (saidLast calls k).isSome := by
        intro k
        have := congrArg Option.isSome (hget k)
        simpa using this
      constructor
      · intro hall k hk
        rw [← hsome] at hk
        obtain ⟨w, hw⟩ := Option.isSome_iff_exists.1 hk
        obtain ⟨k', hmem, hk'⟩ := Map.mem_of_get hw
        rw [Std.LawfulEqOrd.compare_eq_iff_eq] at hk'
        subst hk'
        exact hall _ hmem
      · intro hall e he
        exact hall e.1 (by rw [← hsome]; exact Map.get_isSome_of_mem (v := e.2) he)
    constructor
    · rintro ⟨xs, rfl, ⟨tag', d', hd', h1, h2⟩ | ⟨_, _, hd', _⟩⟩
      · cases hd'
        exact ⟨xs, rfl, (hfs xs).1 h1, fun hdeny => hkeys.1 (h2 hdeny)⟩
      · cases hd'
    · rintro ⟨xs, rfl, h1, h2⟩
      exact ⟨xs, rfl, .inl ⟨tag, d, rfl, (hfs xs).2 h1, fun hdeny => hkeys.2 (h2 hdeny)⟩⟩
  exact ⟨(hm _ ht z).1.trans (gen false), (hm _ ht z).2.1.trans (gen true)⟩

/-- Defaults, a file and the environment. -/
def Ex.stack : List Call :=
  [⟨.Merge, Provider.plain (Metadata.named (str "defaults"))
      (.ok [(Profile.Default, [(str "host", Ex.s "localhost"), (str "port", Ex.n 80), (str "tls", .bool Tag.Default false)])]),
      Ex.loc⟩,
   ⟨.Merge, Provider.plain (Metadata.named (str "file"))
      (.ok [(Profile.Default, [(str "other", Ex.n 1), (str "port", Ex.s "no")])]), Ex.loc⟩,
   ⟨.Merge, Provider.plain (Metadata.named (str "environment")) (.ok [(Profile.Default, [(str "port", Ex.n 99)])]), Ex.loc⟩]

/-- The struct they are read as. -/
def Ex.server (deny : Bool) : Ty :=
  .struct (str "struct Server") (str "Server") deny
    [(str "port", none, .int .u16), (str "host", none, .string), (str "name", none, .option .string)]

omit [FloatOps] in
theorem Ex.stack_ok : Stacked Ex.stack := by
  intro x hx
  simp only [Ex.stack, List.mem_cons, List.not_mem_nil, or_false] at hx
  rcases hx with rfl | rfl | rfl <;> exact ⟨rfl, _, rfl, by decide, by decide⟩

/-- The hypotheses are met, and the result is as it should be: the port of the environment, the host of the defaults, no
name. If unknown fields are denied there is none, as there is `tls`. -/
example : (Ex.server true).proper false = true ∧ magicNames.contains (str "Server") = false ∧
    (∃ w, saidLast Ex.stack (str "port") = some w ∧ w = Ex.n 99) ∧ saidLast Ex.stack (str "name") = none ∧
    ∃ f c', Fig.new.run (Ex.stack.map Op.add) 1#64 = (some f, c') ∧
      f.extract (Ex.server false) = .ok (.struct [.int 99, .str (str "localhost"), .none]) ∧
      ∃ e, f.extract (Ex.server true) = .error e :=
  ⟨rfl, rfl, ⟨_, rfl, rfl⟩, rfl, _, _, rfl, rfl, _, rfl⟩

end Figment
