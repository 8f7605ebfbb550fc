import Verif.Spec.Outcome
import Verif.Props.Result
/-!
# Lemmas: the outcome of a history
-/
namespace Figment

theorem Tag.next_tag {c c' : BitVec 64} {tag : Tag} (h : Tag.next c = (some tag, c')) :
    tag = Tag.new c .Default ∧ c' = c + 1#64 := by
  unfold Tag.next at h
  simp only [Prod.mk.injEq] at h
  obtain ⟨h1, h2⟩ := h
  split at h1
  · cases h1
  · exact ⟨(Option.some.inj h1).symm, h2.symm⟩

/-- The data and the metadata of a figment after operations. -/
theorem Fig.run_outcome : ∀ (ops : List Op) (f g : Fig) (c c' : BitVec 64) (m : Data),
    f.run ops c = (some g, c') → OpsWF ops → (∀ d ∈ opData ops, ∃ n, d = .ok n) → MapsWF ops →
    f.value = .ok m → m.WF →
    (∃ m' : Data, g.value = .ok m' ∧ m'.WF ∧ ∀ pr, m'.at pr = (numbered c ops).foldl (Op.outcome pr) (m.at pr)) ∧
    ∀ t, g.getMetadata t = (numbered c ops).foldl Op.knows f.getMetadata t
  | [], f, g, c, c', m, h, _, _, _, hf, hm => by
    cases h
    exact ⟨⟨m, hf, hm, fun _ => rfl⟩, fun _ => rfl⟩
  | .select p :: r, f, g, c, c', m, h, hw, hok, hM, hf, hm =>
    Fig.run_outcome r (f.select p) g c c' m h hw hok (fun x M hx => hM x M (List.mem_cons_of_mem _ hx)) hf hm
  | .add x :: r, f, g, c, c', m, h, hw, hok, hM, hf, hm => by
    rw [Fig.run] at h
    obtain ⟨n, hn⟩ := hok x.provider.data (List.mem_cons_self ..)
    have hnw : n.WF := hw n (by rw [← hn]; exact List.mem_cons_self ..)
    cases hp : f.provide x.provider x.order x.loc c with
    | mk o c1 =>
    rw [hp] at h
    cases o with
    | none => cases h
    | some f' =>
    obtain ⟨tag, m', ht, hv, hmw', _, hat⟩ := Fig.provide_ok hf hn hm hnw hp
    obtain ⟨tag', ht', hg⟩ := Fig.provide_eq_some hp
    obtain rfl : tag = tag' := by rw [ht] at ht'; cases ht'; rfl
    obtain ⟨rfl, rfl⟩ := Tag.next_tag ht
    obtain ⟨⟨m'', h1, h2, h3⟩, h4⟩ := Fig.run_outcome r f' g (c + 1#64) c' m' h (fun n hn => hw n (List.mem_cons_of_mem _ hn))
      (fun d hd => hok d (List.mem_cons_of_mem _ hd)) (fun x M hx => hM x M (List.mem_cons_of_mem _ hx)) hv hmw'
    refine ⟨⟨m'', h1, h2, fun pr => ?_⟩, fun t => ?_⟩
    · rw [h3, hat, numbered, List.foldl_cons, Op.outcome, hn]
    · rw [h4, numbered, List.foldl_cons]
      suffices hk : f'.getMetadata = Op.knows f.getMetadata (Tag.new c .Default, .add x) by rw [hk]
      funext t
      subst hg
      rw [Op.knows, Fig.getMetadata, Fig.provideWith]
      dsimp only
      rw [Map.get_insert]
      by_cases hs : t.same (Tag.new c .Default) = true
      · rw [if_pos (Tag.compare_eq_iff_same.2 hs), if_pos hs]
      · rw [if_neg (fun h => hs (Tag.compare_eq_iff_same.1 h)), if_neg hs]
        cases hmm : x.provider.metadataMap with
        | none => rfl
        | some M =>
          dsimp only [Option.bind]
          rw [Map.get_extend_sorted t f.metadata (hM x M (List.mem_cons_self ..) hmm)]
          rfl

theorem numbered_add (x : Call) : ∀ (ops : List Op) (c : BitVec 64),
    ∃ tag, numbered c (ops ++ [.add x]) = numbered c ops ++ [(tag, .add x)]
  | [], c => ⟨_, rfl⟩
  | .add y :: r, c => by
    obtain ⟨tag, h⟩ := numbered_add x r (c + 1#64)
    exact ⟨tag, by rw [List.cons_append, numbered, h]; rfl⟩
  | .select p :: r, c => by
    obtain ⟨tag, h⟩ := numbered_add x r c
    exact ⟨tag, by rw [List.cons_append, numbered, h]; rfl⟩

/-- What a profile without data looks like. -/
def noView : View := fun p => if p = [] then some (.dict Tag.Default) else none

theorem noView_blocked (p : List Str) : View.blocked noView p = false := by
  rw [Bool.eq_false_iff]
  intro h
  obtain ⟨n, _, w, h⟩ := View.blocked_iff.1 h
  unfold noView at h
  split at h <;> cases h

theorem View.merge_noView (A : View) (p : List Str) (hp : p ≠ []) : View.merge A noView p = A p := by
  have : noView p = none := by unfold noView; rw [if_neg hp]
  rw [View.merge, this]
  dsimp only
  rw [noView_blocked]
  rfl

theorem View.coalesce_noView (o : Order) : View.coalesce o noView noView = noView := by
  funext p
  by_cases hp : p = []
  · subst hp; cases o <;> rfl
  · have h : noView p = none := by unfold noView; rw [if_neg hp]
    cases o <;> simp only [View.coalesce, View.merge, View.join, View.adjoin, View.admerge, h, noView_blocked] <;> rfl

theorem Data.given_empty {n : Data} {pr : Profile} (h : n.dictOf pr = []) (tag : Tag) : n.given tag pr = noView := by
  funext p
  cases p with
  | nil => rfl
  | cons k ks => unfold Data.given Data.at; rw [h]; rfl

theorem numbered_data {c : BitVec 64} {ops : List Op} {tag : Tag} {x : Call} (h : (tag, Op.add x) ∈ numbered c ops) :
    x.provider.data ∈ opData ops := by
  induction ops generalizing c with
  | nil => cases h
  | cons y r ih =>
    cases y with
    | add y =>
      rcases List.mem_cons.1 h with h | h
      · cases h; exact List.mem_cons_self ..
      · exact List.mem_cons_of_mem _ (ih h)
    | select p =>
      rcases List.mem_cons.1 h with h | h
      · cases h
      · exact ih (c := c) h

/-- A profile no provider has data for. -/
theorem outcomeView_none {c : BitVec 64} {ops : List Op} {pr : Profile}
    (h : ∀ n : Data, Except.ok n ∈ opData ops → n.dictOf pr = []) : outcomeView c ops pr = noView := by
  have key : ∀ l : List (Tag × Op), (∀ e ∈ l, ∀ x, e.2 = .add x → x.provider.data ∈ opData ops) →
      l.foldl (Op.outcome pr) noView = noView := by
    intro l
    induction l with
    | nil => intro _; rfl
    | cons e l ih =>
      intro hl
      have : Op.outcome pr noView e = noView := by
        obtain ⟨tag, op⟩ := e
        cases op with
        | select p => rfl
        | add x =>
          rw [Op.outcome]
          cases hd : x.provider.data with
          | error e => rfl
          | ok n =>
            have := hl (tag, .add x) (List.mem_cons_self ..) x rfl
            rw [hd] at this
            dsimp only
            rw [Data.given_empty (h n this), View.coalesce_noView]
      rw [List.foldl_cons, this]
      exact ih fun e he => hl e (List.mem_cons_of_mem _ he)
  exact key _ fun e he x hx => by
    obtain ⟨tag, op⟩ := e
    cases hx
    exact numbered_data he

end Figment
