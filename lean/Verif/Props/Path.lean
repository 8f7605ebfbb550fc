import Verif.Lemmas.Find
import Verif.Spec.Examples
/-!
# C23, C24: path lookup and nesting
-/
namespace Figment

/-! ## C23 -/

/-- **C23**: `find` follows the path's keys through dictionaries, and `find_ref` gives the same. -/
theorem C23_find (v : Value) (path : Str) :
    v.find path = v.getKeys (pathKeys path) ∧ v.findRef path = v.find path :=
  ⟨Value.find_eq v path, Value.findRef_eq v path⟩

/-- **C23**: looking up `a.b` is looking up `b` in what is found at `a`, for any `a` without an empty
component and any `b`. -/
theorem C23_find_composes (v : Value) (a b : Str) (ha : plainPath a) :
    v.find (a ++ str "." ++ b) = (v.find a).bind fun w => w.find b := by
  have h : a ++ str "." ++ b = a ++ '.' :: b := by simp [str]
  rw [h, Value.find_eq, Value.find_eq, pathKeys_append ha, Value.getKeys_append]
  congr 1
  funext w
  rw [Value.find_eq]

/-- **C23**: the empty path is the value itself; one key is one step; through anything that is not a
dictionary nothing is found. -/
theorem C23_find_cases (v : Value) :
    v.find [] = some v ∧
    (∀ k : Str, k ≠ [] → '.' ∉ k → v.find k = v.asDict?.bind (Map.get k)) ∧
    (∀ path, pathKeys path ≠ [] → v.asDict? = none → v.find path = none) := by
  refine ⟨rfl, ?_, ?_⟩
  · intro k hk hd
    have h1 : pathKeys k = [k] := by
      cases k with
      | nil => exact absurd rfl hk
      | cons c cs => simp [pathKeys, Str.splitOn_of_not_mem hd]
    rw [Value.find_eq, h1]
    by_cases h : v.asDict? = none
    · rw [Value.getKeys_leaf_cons h, h]; rfl
    · cases v <;> simp [Value.asDict?] at h
      rw [Value.getKeys_dict_cons]
      simp only [Value.asDict?, Option.bind_some]
      rename_i d
      cases Map.get k d with
      | none => rfl
      | some w => simp [Value.getKeys_nil]
  · intro path hp h
    rw [Value.find_eq]
    cases hk : pathKeys path with
    | nil => exact absurd hk hp
    | cons k ks => exact Value.getKeys_leaf_cons h _ _

/-- **C23**, what is not obvious: a path stops at its first empty component, so `a.` and `a..b` find
what `a` finds. -/
theorem C23_find_stops_at_empty (v : Value) (a b : Str) (ha : plainPath a) :
    v.find (a ++ str "." ++ (str "." ++ b)) = v.find a := by
  rw [C23_find_composes v a _ ha]
  have : ∀ w : Value, w.find (str "." ++ b) = some w := by
    intro w
    rw [Value.find_eq]
    have : pathKeys (str "." ++ b) = [] := by simp [pathKeys, str, Str.splitOn]
    rw [this, Value.getKeys_nil]
  simp [this]

example : plainPath (str "b.y") := by decide
example : (Ex.d [(str "b", Ex.d [(str "y", Ex.n 3)])]).find (str "b.y") = some (Ex.n 3) := by decide

/-! ## C24 -/

/-- **C24**: what is found in a nested value, for every path: along the whole key, what is found in the
value; along a part of the key, the rest of the nesting, a dictionary with one key; nothing elsewhere. -/
theorem C24_nest_find (key : Str) (v : Value) :
    (nest key v).find key = some v ∧
    (∀ q r, pathKeys q = pathKeys key ++ r → (nest key v).find q = v.getKeys r) ∧
    (∀ q k r, pathKeys key = pathKeys q ++ k :: r →
      ∃ w, (nest key v).find q = some (.dict Tag.Default [(k, w)])) ∧
    (∀ q, ¬ pathKeys key <+: pathKeys q → ¬ pathKeys q <+: pathKeys key → (nest key v).find q = none) := by
  have h2 : ∀ q r, pathKeys q = pathKeys key ++ r → (nest key v).find q = v.getKeys r := by
    intro q r hq
    rw [Value.find_eq, nest_eq, hq, Value.getKeys_nestKeys_self]
  refine ⟨?_, h2, ?_, ?_⟩
  · rw [h2 key [] (by simp), Value.getKeys_nil]
  · intro q k r hq
    refine ⟨Value.nestKeys r v, ?_⟩
    rw [Value.find_eq, nest_eq, hq, Value.getKeys_nestKeys_prefix]
    rfl
  · intro q hq1 hq2
    rw [Value.find_eq, nest_eq, Value.getKeys_nestKeys_none _ _ _ hq1 hq2]

/-- **C24**: with an empty key nothing is added, and a nested value is well-formed if the value is. -/
theorem C24_nest_cases (key : Str) (v : Value) :
    nest [] v = v ∧ (v.WF → (nest key v).WF) ∧ (pathKeys key ≠ [] → ((nest key v).asDict?).isSome) := by
  refine ⟨rfl, fun h => ?_, fun h => ?_⟩
  · rw [nest_eq]; exact Value.wf_nestKeys _ h
  · rw [nest_eq]
    cases hk : pathKeys key with
    | nil => exact absurd hk h
    | cons k ks => rfl

example : nest (str "tea.leaf") (Ex.n 1) = Ex.d [(str "tea", Ex.d [(str "leaf", Ex.n 1)])] := rfl
example : ¬ pathKeys (str "tea.leaf") <+: pathKeys (str "tea.cup")
    ∧ ¬ pathKeys (str "tea.cup") <+: pathKeys (str "tea.leaf") := by decide

end Figment
