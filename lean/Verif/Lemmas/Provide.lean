import Verif.Lemmas.View
/-! # Lemmas about providing -/
namespace Figment

/-- A view without provenance. -/
def View.strip (A : View) : View := fun p => (A p).map Shape.strip

namespace View

theorem blocked_strip (A : View) (p : List Str) : View.blocked A.strip p = View.blocked A p := by
  unfold View.blocked View.strip
  congr 1
  funext n
  cases A (p.take n) with
  | none => rfl
  | some s => cases s <;> rfl

theorem strip_merge (A B : View) : (View.merge A B).strip = View.merge A.strip B.strip := by
  funext p
  simp only [View.merge, blocked_strip]
  simp only [View.strip, View.merge]
  cases B p with
  | none =>
    simp only [Option.map_none]
    split <;> simp
  | some s => rfl

theorem strip_join (A B : View) : (View.join A B).strip = View.join A.strip B.strip := by
  funext p
  simp only [View.join, blocked_strip]
  simp only [View.strip, View.join]
  cases A p with
  | none =>
    simp only [Option.map_none]
    split <;> simp
  | some s => rfl

theorem strip_match (x y z : Option Shape) :
    (match x, y with
      | some (.leaf (.array t a)), some (.leaf (.array _ b)) => some (Shape.leaf (.array t (a ++ b)))
      | _, _ => z).map Shape.strip
    = match x.map Shape.strip, y.map Shape.strip with
      | some (.leaf (.array t a)), some (.leaf (.array _ b)) => some (Shape.leaf (.array t (a ++ b)))
      | _, _ => z.map Shape.strip := by
  cases x with
  | none => rfl
  | some s =>
    cases y with
    | none => cases s with
      | dict t => rfl
      | leaf v => cases v <;> rfl
    | some s' =>
      cases s with
      | dict t => rfl
      | leaf v =>
        cases s' with
        | dict t => cases v <;> rfl
        | leaf w =>
          cases v <;> try rfl
          cases w <;> try rfl
          simp [Shape.strip, Value.strip, Value.stripA_eq]

theorem strip_adjoin (A B : View) : (View.adjoin A B).strip = View.adjoin A.strip B.strip := by
  funext p
  have h := congrFun (strip_join A B) p
  unfold View.adjoin
  rw [← h]
  exact strip_match _ _ _

theorem strip_admerge (A B : View) : (View.admerge A B).strip = View.admerge A.strip B.strip := by
  funext p
  have h := congrFun (strip_merge A B) p
  unfold View.admerge
  rw [← h]
  exact strip_match _ _ _

theorem strip_coalesce (o : Order) (A B : View) :
    (View.coalesce o A B).strip = View.coalesce o A.strip B.strip := by
  cases o
  · exact strip_merge A B
  · exact strip_join A B
  · exact strip_adjoin A B
  · exact strip_admerge A B

theorem tree_strip {A : View} (h : Tree A) : Tree A.strip := by
  intro p n hn hs
  obtain ⟨t, ht⟩ := h p n hn (by simpa [View.strip] using hs)
  exact ⟨Tag.Default, by simp [View.strip, ht, Shape.strip]⟩

end View

theorem Shape.strip_retag (t : Tag) (s : Shape) : (s.retag t).strip = s.strip := by
  cases s with
  | dict t' => rfl
  | leaf v => simp [Shape.retag, Shape.strip, Value.strip_mapTag]

theorem Data.at_nil (m : Data) (pr : Profile) : m.at pr [] = some (.dict Tag.Default) := by
  simp [Data.at, Value.shape]

theorem Data.strip_given (m : Data) (tag : Tag) (pr : Profile) :
    (m.given tag pr).strip = (m.at pr).strip := by
  funext p
  cases p with
  | nil => simp [View.strip, Data.given, Data.at_nil]
  | cons k ks =>
    simp only [View.strip, Data.given, Option.map_map]
    congr 1
    funext s
    exact Shape.strip_retag _ s

theorem Data.tree_at (m : Data) (pr : Profile) : View.Tree (m.at pr) := Value.tree_view _

theorem Data.blocked_given (m : Data) (tag : Tag) (pr : Profile) (p : List Str) :
    View.blocked (m.given tag pr) p = View.blocked (m.at pr) p := by
  rw [← View.blocked_strip, Data.strip_given, View.blocked_strip]

namespace Fig

theorem combine_ok {tag : Tag} {o : Order} {n m : Data} :
    combine tag o (.ok n) (.ok m) = .ok (coalesceProfiles m (retagData tag n) o) := rfl

theorem provide_eq_some {f g : Fig} {p : Provider} {o : Order} {loc : Location} {c c' : BitVec 64}
    (h : provide f p o loc c = (some g, c')) :
    ∃ tag, Tag.next c = (some tag, c') ∧ g = provideWith f p o loc tag := by
  unfold provide at h
  cases hn : Tag.next c with
  | mk t d =>
    rw [hn] at h
    cases t with
    | none => simp at h
    | some tag =>
      simp only [Option.map_some, Prod.mk.injEq, Option.some.injEq] at h
      exact ⟨tag, by rw [h.2], h.1.symm⟩

/-- Providing readable data to a figment with readable data. -/
theorem provide_ok {f g : Fig} {p : Provider} {o : Order} {loc : Location} {c c' : BitVec 64}
    {m n : Data} (hf : f.value = .ok m) (hp : p.data = .ok n) (hm : m.WF) (hn : n.WF)
    (h : provide f p o loc c = (some g, c')) :
    ∃ (tag : Tag) (m' : Data), Tag.next c = (some tag, c') ∧ g.value = .ok m' ∧ m'.WF ∧
      (∀ pr, m'.dictOf pr = Dict.coalesce (m.dictOf pr) (Data.dictOf (retagData tag n) pr) o) ∧
      ∀ pr, m'.at pr = View.coalesce o (m.at pr) (n.given tag pr) := by
  obtain ⟨tag, ht, hg⟩ := provide_eq_some h
  refine ⟨tag, coalesceProfiles m (retagData tag n) o, ht, ?_, Data.wf_coalesce hm (wf_retagData tag hn) o,
    fun pr => Data.dictOf_coalesce hm (wf_retagData tag hn) o pr, fun pr => ?_⟩
  · rw [hg]
    simp only [provideWith, hf, hp, combine_ok]
  · funext path
    rw [Data.at_coalesce hm (wf_retagData tag hn)]
    congr 1
    funext q
    exact at_retagData tag n pr q

end Fig
end Figment
