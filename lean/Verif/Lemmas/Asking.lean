import Verif.Spec.Asking
import Verif.Lemmas.DataProvider
/-! # Lemmas about providers that look outside -/
namespace Figment
open DataProvider

namespace Ask

/-- Only the answers to the questions asked matter. -/
def Local {α : Type} (x : Ask α) : Prop :=
  ∀ ans t, t ≤ (x ans t).2 ∧ ∀ ans', (∀ n, t ≤ n → n < (x ans t).2 → ans' n = ans n) → x ans' t = x ans t

theorem local_pure {α : Type} (a : α) : Local (pure a) := fun _ t => ⟨Nat.le_refl t, fun _ _ => rfl⟩

theorem local_ask {α : Type} (q : Outside → α) : Local (ask q) := fun ans t =>
  ⟨Nat.le_succ t, fun ans' h => by rw [ask, ask, h t (Nat.le_refl t) (Nat.lt_succ_self t)]⟩

theorem local_bind {α β : Type} {x : Ask α} {f : α → Ask β} (hx : Local x) (hf : ∀ a, Local (f a)) : Local (x.bind f) := by
  intro ans t
  obtain ⟨h1, h2⟩ := hx ans t
  obtain ⟨h3, h4⟩ := hf (x ans t).1 ans (x ans t).2
  refine ⟨Nat.le_trans h1 h3, fun ans' h => ?_⟩
  have e := h2 ans' fun n a b => h n a (Nat.lt_of_lt_of_le b h3)
  rw [bind, bind, e]
  exact h4 ans' fun n a b => h n (Nat.le_trans h1 a) b

end Ask

open Ask

theorem resolveLoopAsking_local (path : Str) : ∀ n cwd, Local (resolveLoopAsking path n cwd)
  | 0, _ => local_pure _
  | n + 1, cwd => by
    refine local_bind (local_ask _) fun b => ?_
    split
    · exact local_pure _
    · cases Path.parent cwd with
      | none => exact local_pure _
      | some q => exact resolveLoopAsking_local path n q

theorem resolveAsking_local (path : Str) (search : Bool) : Local (resolveAsking path search) := by
  unfold resolveAsking
  split
  · exact local_bind (local_ask _) fun _ => local_pure _
  · refine local_bind (local_ask _) fun c => ?_
    cases c with
    | none => exact local_pure _
    | some cwd =>
      refine local_bind (resolveLoopAsking_local _ _ _) fun r => ?_
      cases r <;> exact local_pure _

theorem resolveAsking_asks (path : Str) (search : Bool) (ans : Nat → Outside) (t : Nat) :
    t < (resolveAsking path search ans t).2 := by
  unfold resolveAsking
  split
  · exact Nat.lt_succ_self t
  · rw [Ask.bind, ask]
    cases (ans t).cwd with
    | none => exact Nat.lt_succ_self t
    | some cwd =>
      refine Nat.lt_of_lt_of_le (Nat.lt_succ_self t) (local_bind (resolveLoopAsking_local _ _ _) (fun r => ?_) ans (t + 1)).1
      cases r <;> exact local_pure _

theorem fromPathAsking_local {α : Type} (f : Format) (parse : Str → Except Str α) (path : Str) :
    Local (fromPathAsking f parse path) :=
  local_bind (local_ask _) fun r => by cases r <;> exact local_pure _

theorem dataAsking_local (d : DataProvider) (f : Format) : Local (d.dataAsking f) := by
  refine local_bind ?_ fun r => ?_
  · rcases d with ⟨⟨path, required, search⟩ | s, profile⟩
    · refine local_bind (resolveAsking_local _ _) fun r => ?_
      cases r with
      | none => cases required <;> exact local_pure _
      | some c => cases profile <;> exact local_bind (fromPathAsking_local _ _ _) fun _ => local_pure _
    · cases profile <;> exact local_pure _
  · rcases r with e | e | m <;> exact local_pure _

theorem metadataAsking_local (d : DataProvider) (f : Format) : Local (d.metadataAsking f) := by
  rcases d with ⟨⟨path, required, search⟩ | s, profile⟩
  · exact local_bind (resolveAsking_local _ _) fun r => local_pure _
  · exact local_pure _

theorem Fig.provideAsking_local (f : Fig) (p : Asking) (o : Order) (loc : Location) (c : BitVec 64)
    (h1 : Local p.metadata) (h2 : Local p.data) (h3 : Local p.profile) (h4 : Local p.metadataMap) :
    Local (f.provideAsking p o loc c) := by
  refine local_bind h4 fun _ => local_bind h3 fun _ => local_bind h1 fun _ => ?_
  rcases Tag.next c with ⟨tag, c'⟩
  cases tag with
  | none => exact local_pure _
  | some tag =>
    refine local_bind h2 fun d => ?_
    cases d <;> exact local_pure _

theorem Fig.build_local [FloatOps] : ∀ (l : List (Looking × Order × Location)) (f : Fig) (c : BitVec 64),
    Local (f.build c l)
  | [], _, _ => local_pure _
  | (p, o, loc) :: rest, f, c => by
    refine local_bind (Fig.provideAsking_local f _ o loc c ?_ ?_ ?_ ?_) fun r => ?_
    · cases p with
      | data calls d fmt => exact metadataAsking_local _ _
      | env e => exact local_pure _
    · cases p with
      | data calls d fmt => exact local_bind (dataAsking_local _ _) fun _ => local_pure _
      | env e =>
        refine local_bind (local_ask _) fun vars => ?_
        cases e.data vars <;> exact local_pure _
    · cases p <;> exact local_pure _
    · cases p <;> exact local_pure _
    · rcases r with ⟨g, c'⟩
      cases g with
      | none => exact local_pure _
      | some g => exact Fig.build_local rest g c'

/-! ## The search -/

/-- If the answers about files stay as they are, the search finds what it finds in one look. -/
theorem resolveLoopAsking_same {ans : Nat → Outside} {fs : FileSystem} {path : Str}
    (h : ∀ n, (ans n).isFile = fs.isFile) : ∀ n t cwd, (resolveLoopAsking path n cwd ans t).1 = resolveLoop fs path n cwd
  | 0, _, _ => rfl
  | n + 1, t, cwd => by
    rw [resolveLoopAsking, resolveLoop, Ask.bind, ask]
    dsimp only
    rw [h t]
    cases fs.isFile (Path.join cwd path) with
    | true => rfl
    | false =>
      cases hp : Path.parent cwd with
      | none => rfl
      | some q => exact resolveLoopAsking_same h n (t + 1) q

theorem resolveAsking_same {ans : Nat → Outside} {fs : FileSystem} (h : ∀ n, (ans n).isFile = fs.isFile)
    (hc : ∀ n, (ans n).cwd = fs.cwd) (path : Str) (search : Bool) (t : Nat) :
    (resolveAsking path search ans t).1 = resolve fs path search := by
  unfold resolveAsking resolve
  split
  · rw [Ask.bind, ask, h]; rfl
  · rw [Ask.bind, ask, hc]
    dsimp only
    cases fs.cwd with
    | none => rfl
    | some cwd =>
      dsimp only
      rw [Ask.bind, resolveLoopAsking_same h]
      cases resolveLoop fs path (Path.count cwd + 1) cwd <;> rfl

/-- The search, exactly: the question about the directory `n` names below the root is number `names.length - n`. -/
theorem resolveLoopAsking_spec (ans : Nat → Outside) (path : Str) (names : List Str) (h : ∀ s ∈ names, IsName s) (t : Nat) :
    ∃ r, (resolveLoopAsking path (names.length + 2) (dirPath names) ans t).1 = .ok r ∧
      (r = none → (resolveLoopAsking path (names.length + 2) (dirPath names) ans t).2 = t + names.length + 1 ∧
        ∀ n, n ≤ names.length → (ans (t + (names.length - n))).isFile (placeAt names path n) = false) ∧
      (∀ c, r = some c → ∃ n, n ≤ names.length ∧ c = placeAt names path n ∧
        (resolveLoopAsking path (names.length + 2) (dirPath names) ans t).2 = t + (names.length - n) + 1 ∧
        (ans (t + (names.length - n))).isFile c = true ∧
        ∀ m, n < m → m ≤ names.length → (ans (t + (names.length - m))).isFile (placeAt names path m) = false) := by
  induction hl : names.length generalizing names t with
  | zero =>
    have hn : names = [] := List.length_eq_zero_iff.1 hl
    subst hn
    rw [resolveLoopAsking, parent_dirPath_nil, Ask.bind, ask]
    dsimp only
    cases hf : (ans t).isFile (Path.join (dirPath []) path) with
    | true =>
      refine ⟨_, rfl, nofun, fun c hc => ⟨0, Nat.le_refl _, ?_, rfl, ?_, fun m h1 h2 => by omega⟩⟩
      · cases hc; rfl
      · cases hc; exact hf
    | false =>
      refine ⟨none, rfl, fun _ => ⟨rfl, fun n hn => ?_⟩, nofun⟩
      obtain rfl : n = 0 := by omega
      exact hf
  | succ k ih =>
    rcases List.eq_nil_or_concat names with hn | ⟨l, x, hn⟩
    · subst hn; simp at hl
    · rw [List.concat_eq_append] at hn
      subst hn
      have hl' : l.length = k := by simpa using hl
      have hwhole : placeAt (l ++ [x]) path (k + 1) = Path.join (dirPath (l ++ [x])) path := by
        rw [placeAt, List.take_of_length_le (by simp [hl'])]
      have htake : ∀ n, n ≤ k → placeAt (l ++ [x]) path n = placeAt l path n := by
        intro n hn
        rw [placeAt, placeAt, List.take_append_of_le_length (by omega)]
      rw [resolveLoopAsking, parent_dirPath_concat l x h, Ask.bind, ask]
      dsimp only
      cases hf : (ans t).isFile (Path.join (dirPath (l ++ [x])) path) with
      | true =>
        refine ⟨_, rfl, nofun, fun c hc => ⟨k + 1, Nat.le_refl _, ?_, ?_, ?_, fun m h1 h2 => by omega⟩⟩
        · cases hc; exact hwhole.symm
        · rw [Nat.sub_self]; rfl
        · cases hc
          rw [Nat.sub_self]
          exact hf
      | false =>
        obtain ⟨r, hr, h1, h2⟩ := ih l (fun s hs => h s (List.mem_append_left _ hs)) (t + 1) hl'
        have hlast : ∀ m, k < m → m ≤ k + 1 → (ans (t + (k + 1 - m))).isFile (placeAt (l ++ [x]) path m) = false := by
          intro m a b
          obtain rfl : m = k + 1 := by omega
          rw [hwhole, Nat.sub_self]
          exact hf
        have harith : ∀ n, n ≤ k → t + (k + 1 - n) = t + 1 + (k - n) := by intro n hn; omega
        refine ⟨r, hr, fun e => ?_, fun c e => ?_⟩
        · obtain ⟨a, b⟩ := h1 e
          refine ⟨by rw [if_neg nofun, a]; omega, fun n hn => ?_⟩
          by_cases hnk : n ≤ k
          · rw [htake n hnk, harith n hnk]; exact b n hnk
          · exact hlast n (by omega) hn
        · obtain ⟨n, a, b, d, f, g⟩ := h2 c e
          refine ⟨n, by omega, by rw [htake n a, b], by rw [if_neg nofun, d]; omega, by rw [harith n a]; exact f, ?_⟩
          intro m hm hm'
          by_cases hmk : m ≤ k
          · rw [htake m hmk, harith m hmk]; exact g m hm hmk
          · exact hlast m (by omega) hm'

theorem resolveAsking_search (ans : Nat → Outside) (path : Str) (names : List Str) (h : ∀ s ∈ names, IsName s) (t : Nat)
    (hc : (ans t).cwd = some (dirPath names)) (hp : Path.hasRoot path = false) :
    resolveAsking path true ans t =
      (match (resolveLoopAsking path (names.length + 2) (dirPath names) ans (t + 1)).1 with
        | .ok r => r
        | .error _ => none,
        (resolveLoopAsking path (names.length + 2) (dirPath names) ans (t + 1)).2) := by
  have hcount : Path.count (dirPath names) + 1 = names.length + 2 := by
    rw [Path.count, components_dirPath names h]; simp
  unfold resolveAsking
  rw [hp]
  simp only [Bool.not_true, Bool.or_self, Bool.false_eq_true, if_false]
  rw [Ask.bind, ask, hc]
  dsimp only
  rw [hcount, Ask.bind]
  cases (resolveLoopAsking path (names.length + 2) (dirPath names) ans (t + 1)).1 <;> rfl

end Figment
