import Verif.Spec.Vars
import Verif.Lemmas.Order
import Verif.Props.Env
/-!
# C87: which variables matter, and when their order does

The specification is `Taken` and `SameTaken` (Spec/Vars) and `Overlap` (Spec/Env).
-/
namespace Figment

theorem Env.iter_not_taken {start : EnvStart} {calls : List EnvStep} {name : Str} (h : ¬ Taken start calls name) (v : Str) :
    (start.thenCalls calls).iter [(name, v)] = [] := by
  cases hi : (start.thenCalls calls).iter [(name, v)] with
  | nil => rfl
  | cons e r =>
    obtain ⟨k, w⟩ := e
    obtain ⟨n, k1, k2, h1, h2, h3, h4, h5, _⟩ := ((C36_emitted start calls [(name, v)]).1 k w).1 (by rw [hi]; exact List.mem_cons_self ..)
    cases List.mem_singleton.1 h1
    exact absurd ⟨h2, k1, k2, h3, h4, h5⟩ h

theorem Env.iter_cons (e : Env) (x : Str × Str) (r : List (Str × Str)) : e.iter (x :: r) = e.iter [x] ++ e.iter r := by
  show e.iter ([x] ++ r) = _
  simp only [Env.iter, List.filter_append, List.filterMap_append]

theorem List.pairwise_two {α : Type} {R : α → α → Prop} (hs : ∀ x y, R x y → R y x) {l : List α} (h : l.Pairwise R) {x y : α}
    (hx : x ∈ l) (hy : y ∈ l) (hne : x ≠ y) : R x y := by
  induction h with
  | nil => cases hx
  | cons hz _ ih =>
    rcases List.mem_cons.1 hx with hx' | hx' <;> rcases List.mem_cons.1 hy with hy' | hy'
    · exact absurd (hx'.trans hy'.symm) hne
    · rw [hx']; exact hz _ hy'
    · rw [hy']; exact hs _ _ (hz _ hx')
    · exact ih hx' hy'

variable [FloatOps]

/-- **C87**: only the variables that are taken matter. Environments with the same variables taken give the same data, or
neither gives data; the values of other variables are not even parsed. -/
theorem C87_taken (start : EnvStart) (calls : List EnvStep) (vars vars' : List (Str × Str))
    (h : SameTaken start calls vars vars') :
    (start.thenCalls calls).iter vars = (start.thenCalls calls).iter vars' ∧
    (start.thenCalls calls).data vars = (start.thenCalls calls).data vars' := by
  have hi : (start.thenCalls calls).iter vars = (start.thenCalls calls).iter vars' := by
    induction h with
    | nil => rfl
    | both name v _ ih => rw [Env.iter_cons, ih, ← Env.iter_cons]
    | left v hn _ ih => rw [Env.iter_cons, Env.iter_not_taken hn v, ih]; rfl
    | right v hn _ ih => rw [Env.iter_cons _ (_, v), Env.iter_not_taken hn v, ih]; rfl
  exact ⟨hi, by rw [Env.data, Env.data, hi]⟩

omit [FloatOps] in
theorem View.under_agree {a b : Str} (h : ¬ Overlap a b) (A B : View) :
    View.Agree (View.under (Str.splitOn '.' a) A) (View.under (Str.splitOn '.' b) B) := by
  intro p s t hs ht
  unfold Overlap at h
  rw [not_or] at h
  unfold View.under at hs ht
  by_cases ha : (Str.splitOn '.' a).isPrefixOf p = true
  · rw [List.isPrefixOf_iff_prefix] at ha
    exfalso
    by_cases hb : (Str.splitOn '.' b).isPrefixOf p = true
    · rw [List.isPrefixOf_iff_prefix] at hb
      rcases List.prefix_or_prefix_of_prefix ha hb with h' | h'
      · exact h.1 h'
      · exact h.2 h'
    · rw [if_neg hb] at ht
      split at ht
      · next hp => exact h.1 (ha.trans (List.isPrefixOf_iff_prefix.1 hp))
      · cases ht
  · rw [if_neg ha] at hs
    by_cases hb : (Str.splitOn '.' b).isPrefixOf p = true
    · rw [List.isPrefixOf_iff_prefix] at hb
      split at hs
      · next hp => exact absurd (hb.trans (List.isPrefixOf_iff_prefix.1 hp)) h.2
      · cases hs
    · rw [if_neg hb] at ht
      split at hs
      · split at ht
        · cases hs; cases ht; rfl
        · cases ht
      · cases hs

theorem Env.dataLoop_bad {es : List (Str × Str)} (h : ∃ x ∈ es, ∀ w, Value.parse x.2 ≠ .ok w)
    (hp : ∀ e ∈ es, plainPath e.1) (acc : Dict) : Env.dataLoop es acc = .panic := by
  induction es generalizing acc with
  | nil => obtain ⟨_, hx, _⟩ := h; cases hx
  | cons e r ih =>
    obtain ⟨k, v⟩ := e
    rw [Env.dataLoop]
    cases hv : Value.parse v with
    | ok w =>
      obtain ⟨x, hx, hw⟩ := h
      rcases List.mem_cons.1 hx with rfl | hx
      · exact absurd hv (hw w)
      · simp only [Out.bind]
        split
        · rfl
        · exact ih ⟨x, hx, hw⟩ (fun e he => hp e (List.mem_cons_of_mem _ he)) _
    | err e => cases e
    | panic => rfl
    | loop => exact absurd hv (Value.parse_no_loop v)

/-- **C87**: the order of the variables in the environment, which is the system's, does not matter if the keys of no two
that are taken overlap (one being the other, or a beginning of it). -/
theorem C87_order (e : Env) (vars vars' : List (Str × Str)) (hperm : vars.Perm vars')
    (hno : (e.iter vars).Pairwise fun x y => ¬ Overlap x.1 y.1) : e.data vars = e.data vars' := by
  have hp : (e.iter vars).Perm (e.iter vars') := by
    unfold Env.iter
    exact (hperm.filter _).filterMap _
  by_cases hall : ∀ x ∈ e.iter vars, ∃ w, Value.parse x.2 = .ok w
  · have h1 : ∀ x ∈ e.iter vars, Value.parse x.2 = .ok (Value.parsed x.2) := fun x hx => by
      obtain ⟨w, hw⟩ := hall x hx
      exact Value.parse_parsed hw
    obtain ⟨d, hd, hdw, hdv⟩ := C37_data e vars Value.parsed h1
    obtain ⟨d', hd', hdw', hdv'⟩ := C37_data e vars' Value.parsed fun x hx => h1 x (hp.mem_iff.2 hx)
    have hv : (Value.ofDict d).view = (Value.ofDict d').view := by
      rw [hdv, hdv', List.foldl_map, List.foldl_map]
      refine foldl_swap_perm hp (fun x hx y hy z => ?_) _
      by_cases hxy : x = y
      · rw [hxy]
      · have hov : ¬ Overlap x.1 y.1 :=
          List.pairwise_two (fun _ _ h h' => h (Or.symm h')) hno hx hy hxy
        have tree : ∀ x : Str × Str, View.Tree (View.under (Str.splitOn '.' x.1) (Value.parsed x.2).view) := fun x => by
          rw [← Value.view_nestKeys]
          exact Value.tree_view _
        exact View.coalesce_swap .Merge (tree x) (tree y) (View.under_agree hov _ _)
    have := Value.ext_view (Value.ofDict d) (Value.ofDict d') (Value.wf_dict'.2 hdw) (Value.wf_dict'.2 hdw')
      (fun p => congrFun hv p)
    cases this
    rw [hd, hd']
  · have bad : ∀ vs, (e.iter vars).Perm (e.iter vs) → e.data vs = .panic := by
      intro vs hvs
      rw [Env.data, Env.dataLoop_bad ?_ (fun x hx => (C37_keys e vs x.1 x.2 hx).1)]
      · rfl
      · refine Classical.byContradiction fun hn => hall fun x hx => ?_
        refine Classical.byContradiction fun hx' => hn ⟨x, hvs.mem_iff.1 hx, fun w hw => hx' ⟨w, hw⟩⟩
    rw [bad vars (.refl _), bad vars' hp]

/-! ## Cases -/

namespace Ex
def takenEnv : Env := (EnvStart.prefixed (str "APP_")).thenCalls [.ignore [str "home"], .split (str "__")]
def takenVars : List (Str × Str) := [(str "APP_DB__HOST", str "h"), (str "PATH", str "\"é\\n\""), (str "app_db__port", str "1"),
  (str "APP_HOME", str "x")]
end Ex

-- `PATH` is not taken, nor is `APP_HOME`: without them the data is the same, although the text of `PATH` would panic
example : Ex.takenEnv.data Ex.takenVars = Ex.takenEnv.data [(str "APP_DB__HOST", str "h"), (str "app_db__port", str "1")] := by
  have ht : ∀ name, Ex.takenEnv.iter [(name, [])] = [] → ¬ Taken (.prefixed (str "APP_")) [.ignore [str "home"], .split (str "__")] name := by
    rintro name h ⟨h1, k1, k2, h2, h3, h4⟩
    have := ((C36_emitted (.prefixed (str "APP_")) [.ignore [str "home"], .split (str "__")] [(name, [])]).1 _ []).2
      ⟨name, k1, k2, List.mem_cons_self .., h1, h2, h3, h4, rfl⟩
    exact absurd this (by rw [show (EnvStart.prefixed (str "APP_")).thenCalls _ = Ex.takenEnv from rfl, h]; exact List.not_mem_nil)
  exact (C87_taken _ _ _ _ (.both _ _ (.left _ (ht (str "PATH") (by decide)) (.both _ _ (.left _ (ht (str "APP_HOME") (by decide)) .nil))))).2

example : Value.parse (str "\"é\\n\"") = .panic := rfl

-- the two that are taken do not overlap: their order does not matter
example : (Ex.takenEnv.iter Ex.takenVars) = [(str "db.host", str "h"), (str "db.port", str "1")] ∧
    ((Ex.takenEnv.iter Ex.takenVars).Pairwise fun x y => ¬ Overlap x.1 y.1) ∧
    Ex.takenEnv.data Ex.takenVars = Ex.takenEnv.data Ex.takenVars.reverse :=
  ⟨by decide, by decide, C87_order _ _ _ (List.reverse_perm _).symm (by decide)⟩

-- those of names that differ in case overlap: then it does
example : Overlap (str "a") (str "a") ∧
    Env.raw.data [(str "A", str "1"), (str "a", str "x")] ≠ Env.raw.data [(str "a", str "x"), (str "A", str "1")] :=
  ⟨by decide, fun h => nomatch h⟩

end Figment
