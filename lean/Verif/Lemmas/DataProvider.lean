import Verif.Spec.DataProvider
import Verif.Lemmas.Path
/-! # Lemmas about file and string providers -/
namespace Figment
open Path

theorem dirPath_eq (names : List Str) (h : ∀ s ∈ names, IsName s) :
    dirPath names = collect (.rootDir :: names.map .normal) := by
  rw [collect_root (by
    intro x hx
    obtain ⟨s, hs, rfl⟩ := List.mem_map.1 hx
    exact h s hs), dirPath, List.map_map]
  congr 2
  exact (List.map_id names).symm

theorem components_dirPath (names : List Str) (h : ∀ s ∈ names, IsName s) :
    components (dirPath names) = .rootDir :: names.map .normal := by
  rw [dirPath_eq names h, components_collect]
  refine ⟨.inl rfl, ?_⟩
  intro x hx
  obtain ⟨s, hs, rfl⟩ := List.mem_map.1 hx
  exact h s hs

theorem parent_dirPath_nil : parent (dirPath []) = none := by decide

theorem parent_dirPath_concat (names : List Str) (x : Str) (h : ∀ s ∈ names ++ [x], IsName s) :
    parent (dirPath (names ++ [x])) = some (dirPath names) := by
  have h1 : ∀ s ∈ names, IsName s := fun s hs => h s (List.mem_append_left _ hs)
  rw [parent, components_dirPath _ h, List.map_append]
  have e : Comp.rootDir :: (names.map Comp.normal ++ [x].map Comp.normal) =
      (Comp.rootDir :: names.map Comp.normal) ++ [Comp.normal x] := rfl
  rw [e, List.getLast?_concat, List.dropLast_concat]
  simp only
  rw [dirPath_eq names h1]

theorem count_parent {p q : Str} (h : parent p = some q) : count q + 1 = count p := by
  unfold parent at h
  have hd := components_collect (Canon.dropLast (canon_components p))
  cases hl : (components p).getLast? with
  | none => rw [hl] at h; cases h
  | some c =>
    have hne : components p ≠ [] := by intro e; rw [e] at hl; cases hl
    have hpos := List.length_pos_iff.2 hne
    rw [hl] at h
    cases c <;> first
      | (cases h; done)
      | (cases h; rw [count, count, hd, List.length_dropLast]; omega)

namespace DataProvider

/-- The loop always ends within one round per component of the directory it begins at, and one. -/
theorem resolveLoop_ends (fs : FileSystem) (path : Str) :
    ∀ n cwd, count cwd < n → ∃ r, resolveLoop fs path n cwd = .ok r
  | 0, _, h => absurd h (Nat.not_lt_zero _)
  | n + 1, cwd, h => by
    rw [resolveLoop]
    split
    · exact ⟨_, rfl⟩
    · cases hp : parent cwd with
      | none => exact ⟨_, rfl⟩
      | some q =>
        have := count_parent hp
        exact resolveLoop_ends fs path n q (by omega)

/-- The loop ends, and finds the file nearest to where it begins. -/
theorem resolveLoop_spec (fs : FileSystem) (path : Str) (names : List Str) (h : ∀ s ∈ names, IsName s) :
    ∃ r, resolveLoop fs path (names.length + 2) (dirPath names) = .ok r ∧
      (∀ t, r = some t ↔ ∃ n, n ≤ names.length ∧ t = Path.join (dirPath (names.take n)) path ∧ fs.isFile t = true ∧
        ∀ m, n < m → m ≤ names.length → fs.isFile (Path.join (dirPath (names.take m)) path) = false) := by
  induction hl : names.length generalizing names with
  | zero =>
    have hn : names = [] := List.length_eq_zero_iff.1 hl
    subst hn
    rw [resolveLoop]
    split
    · rename_i hf
      refine ⟨_, rfl, fun t => ?_⟩
      constructor
      · rintro ⟨⟩
        exact ⟨0, Nat.le_refl _, rfl, hf, fun m h1 h2 => by omega⟩
      · rintro ⟨n, hn, rfl, _⟩
        simp
    · rename_i hf
      rw [parent_dirPath_nil]
      refine ⟨_, rfl, fun t => ?_⟩
      constructor
      · rintro ⟨⟩
      · rintro ⟨n, hn, rfl, h', _⟩
        rw [List.take_nil] at h'
        exact absurd h' hf
  | succ k ih =>
    rcases List.eq_nil_or_concat names with hn | ⟨l, x, hn⟩
    · subst hn; simp at hl
    · rw [List.concat_eq_append] at hn
      subst hn
      have hl' : l.length = k := by simpa using hl
      rw [resolveLoop]
      split
      · rename_i hf
        refine ⟨_, rfl, fun t => ?_⟩
        constructor
        · rintro ⟨⟩
          refine ⟨k + 1, Nat.le_refl _, ?_, hf, fun m h1 h2 => by omega⟩
          rw [List.take_of_length_le (by simp [hl'])]
        · rintro ⟨n, hn, rfl, _, h'⟩
          by_cases hnk : n = k + 1
          · subst hnk
            rw [List.take_of_length_le (by simp [hl'])]
          · have := h' (k + 1) (by omega) (Nat.le_refl _)
            rw [List.take_of_length_le (by simp [hl']), hf] at this
            cases this
      · rename_i hf
        rw [parent_dirPath_concat l x h]
        obtain ⟨r, hr, hspec⟩ := ih l (fun s hs => h s (List.mem_append_left _ hs)) hl'
        refine ⟨r, hr, fun t => ?_⟩
        rw [hspec]
        have htake : ∀ n, n ≤ k → (l ++ [x]).take n = l.take n := by
          intro n hn
          rw [List.take_append_of_le_length (by omega)]
        constructor
        · rintro ⟨n, hn, rfl, h1, h2⟩
          refine ⟨n, by omega, by rw [htake n hn], h1, ?_⟩
          intro m hm hm'
          by_cases hmk : m = k + 1
          · subst hmk
            rw [List.take_of_length_le (by simp [hl'])]
            simpa using hf
          · rw [htake m (by omega)]
            exact h2 m hm (by omega)
        · rintro ⟨n, hn, rfl, h1, h2⟩
          have hnk : n ≠ k + 1 := by
            rintro rfl
            rw [List.take_of_length_le (by simp [hl'])] at h1
            exact hf h1
          refine ⟨n, by omega, by rw [htake n (by omega)], h1, ?_⟩
          intro m hm hm'
          have := h2 m hm (by omega)
          rwa [htake m hm'] at this

end DataProvider
end Figment
