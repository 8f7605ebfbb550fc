import Verif.Spec.Jail
import Verif.Lemmas.Walk
import Verif.Lemmas.DataProvider
/-! # Lemmas about jails -/
namespace Figment
namespace Jail
open Path

/-! ## Variables -/

/-- What a jail has saved, against the environment `e` it began with. -/
structure Keeps (e : Map Str Str) (j : Jail) (p : Sys) : Prop where
  sorted : Map.Sorted p.env
  nodup : (j.saved.map (·.1)).Nodup
  saved : ∀ x ∈ j.saved, x.2 = Map.get x.1 e
  other : ∀ k, k ∉ j.saved.map (·.1) → Map.get k p.env = Map.get k e

theorem any_iff (l : List (Str × Option Str)) (k : Str) : l.any (·.1 == k) = true ↔ k ∈ l.map (·.1) := by
  induction l with
  | nil => simp
  | cons a l ih =>
    rw [List.any_cons, Bool.or_eq_true, ih, List.map_cons, List.mem_cons]
    constructor
    · rintro (h | h)
      · exact .inl (eq_of_beq h).symm
      · exact .inr h
    · rintro (h | h)
      · exact .inl (by rw [h]; exact beq_self_eq_true _)
      · exact .inr h

theorem get_insert_ne {k k' : Str} (v : Str) (m : Map Str Str) (h : k' ≠ k) :
    Map.get k' (Map.insert k v m) = Map.get k' m := by
  rw [Map.get_insert, if_neg]
  intro h'
  exact h (Std.LawfulEqOrd.eq_of_compare h')

theorem get_insert_self (k v : Str) (m : Map Str Str) : Map.get k (Map.insert k v m) = some v := by
  rw [Map.get_insert, if_pos]
  exact Std.ReflOrd.compare_self

theorem get_erase_ne {k k' : Str} (m : Map Str Str) (h : k' ≠ k) : Map.get k' (Map.erase k m) = Map.get k' m := by
  rw [Map.get_erase, if_neg]
  intro h'
  exact h (Std.LawfulEqOrd.eq_of_compare h')

theorem get_erase_self (k : Str) (m : Map Str Str) : Map.get k (Map.erase k m) = none := by
  rw [Map.get_erase, if_pos]
  exact Std.ReflOrd.compare_self

theorem saved_any_iff_saveNew (j : Jail) (k : Str) (v : Option Str) (x : Str) :
    x ∈ (j.saveNew k v).saved.map (·.1) ↔ x = k ∨ x ∈ j.saved.map (·.1) := by
  unfold saveNew
  split
  · rename_i h
    rw [any_iff] at h
    constructor
    · exact .inr
    · rintro (rfl | h')
      · exact h
      · exact h'
  · simp [or_comm]

/-- Saving a variable as it is, before any change to it. -/
theorem Keeps.saveNew {e : Map Str Str} {j : Jail} {p : Sys} (h : Keeps e j p) (k : Str) :
    Keeps e (j.saveNew k (Map.get k p.env)) p := by
  unfold Jail.saveNew
  split
  · exact h
  · rename_i hk
    rw [any_iff] at hk
    refine ⟨h.sorted, ?_, ?_, ?_⟩
    · simp only [List.map_append, List.map_cons, List.map_nil]
      rw [List.nodup_append]
      refine ⟨h.nodup, by simp, ?_⟩
      intro a ha b hb
      rw [List.mem_singleton] at hb
      subst hb
      intro e'
      exact hk (e' ▸ ha)
    · intro x hx
      rcases List.mem_append.1 hx with hx | hx
      · exact h.saved x hx
      · rw [List.mem_singleton] at hx
        subst hx
        exact h.other k hk
    · intro k' hk'
      simp only [List.map_append, List.mem_append, not_or] at hk'
      exact h.other k' hk'.1

/-- A saved variable may change. -/
theorem Keeps.change {e : Map Str Str} {j : Jail} {p p' : Sys} (h : Keeps e j p) (k : Str)
    (hk : k ∈ j.saved.map (·.1)) (hs : Map.Sorted p'.env) (hp : ∀ k', k' ≠ k → Map.get k' p'.env = Map.get k' p.env) :
    Keeps e j p' := by
  refine ⟨hs, h.nodup, h.saved, ?_⟩
  intro k' hk'
  rw [hp k' (fun e' => hk' (e' ▸ hk)), h.other k' hk']

theorem Keeps.env_eq {e : Map Str Str} {j : Jail} {p p' : Sys} (h : Keeps e j p) (he : p'.env = p.env) :
    Keeps e j p' :=
  ⟨he ▸ h.sorted, h.nodup, h.saved, fun k hk => he ▸ h.other k hk⟩

theorem setEnv_eq (j : Jail) (p : Sys) (k v : Str) :
    j.setEnv p k v = match p.setVar k v with
      | none => (j.saveNew k (Map.get k p.env), p, .panic)
      | some p' => (j.saveNew k (Map.get k p.env), p', .unit) := rfl

theorem Keeps.setEnv {e : Map Str Str} {j : Jail} {p : Sys} (h : Keeps e j p) (k v : Str) :
    Keeps e (j.setEnv p k v).1 (j.setEnv p k v).2.1 := by
  rw [setEnv_eq]
  unfold Sys.setVar
  by_cases hv : (Sys.validName k && Sys.validValue v) = true
  · simp only [hv, if_true]
    refine (h.saveNew k).change k ?_ (h.sorted.insert k v) fun k' hk' => get_insert_ne v _ hk'
    rw [saved_any_iff_saveNew]; exact .inl rfl
  · simp only [hv]
    exact h.saveNew k

theorem Keeps.clearLoop {e : Map Str Str} : ∀ (l : List (Str × Str)) {j : Jail} {p : Sys}, Keeps e j p →
    (l.map (·.1)).Nodup → (∀ x ∈ l, Map.get x.1 p.env = some x.2) →
    Keeps e (clearLoop l j p).1 (clearLoop l j p).2.1
  | [], j, p, h, _, _ => h
  | (k, v) :: l, j, p, h, hn, hl => by
    rw [Jail.clearLoop]
    unfold Sys.removeVar
    by_cases hv : Sys.validName k = true
    · simp only [hv, if_true]
      rw [List.map_cons, List.nodup_cons] at hn
      have hk := hl (k, v) (List.mem_cons_self ..)
      simp only at hk
      have h' := h.saveNew k
      rw [hk] at h'
      refine Keeps.clearLoop l (h'.change k ?_ (h.sorted.erase k) fun k' hk' => get_erase_ne _ hk') hn.2 ?_
      · rw [saved_any_iff_saveNew]; exact .inl rfl
      · intro x hx
        have hne : x.1 ≠ k := by
          intro e'
          exact hn.1 (List.mem_map.2 ⟨x, hx, e'⟩)
        simp only
        rw [get_erase_ne _ hne]
        exact hl x (List.mem_cons_of_mem _ hx)
    · simp only [hv]
      exact h

theorem sorted_nodup {m : Map Str Str} (h : Map.Sorted m) : (m.map (·.1)).Nodup := by
  rw [List.Nodup, List.pairwise_map]
  refine List.Pairwise.imp ?_ h
  intro a b hab e
  rw [e, Std.ReflOrd.compare_self] at hab
  cases hab

theorem Keeps.clearEnv {e : Map Str Str} {j : Jail} {p : Sys} (h : Keeps e j p) :
    Keeps e (j.clearEnv p).1 (j.clearEnv p).2.1 :=
  h.clearLoop p.env (sorted_nodup h.sorted) fun _ hx => Map.get_eq_some_of_mem h.sorted hx

theorem changeDir_env (j : Jail) (p : Sys) (path : Str) (ok : Option Str) : (j.changeDir p path ok).1.env = p.env := by
  unfold changeDir
  cases j.safeJailedPath path with
  | error e => rfl
  | ok q => cases ok <;> rfl

theorem createFile_env (j : Jail) (p : Sys) (path c : Str) (ok : Option (Str × Option Str)) :
    (j.createFile p path c ok).1.env = p.env := by
  unfold createFile
  cases j.safeJailedPath path with
  | error e => rfl
  | ok q => rcases ok with _ | ⟨e, _ | w⟩ <;> rfl

theorem createDir_env (j : Jail) (p : Sys) (path : Str) (ok : Option Str) : (j.createDir p path ok).1.env = p.env := by
  unfold createDir
  cases j.safeJailedPath path with
  | error e => rfl
  | ok q => cases ok <;> rfl

theorem Keeps.step {e : Map Str Str} {j : Jail} {p : Sys} (h : Keeps e j p) (op : Op) :
    Keeps e (j.step p op).1 (j.step p op).2.1 := by
  cases op with
  | setEnv k v => exact h.setEnv k v
  | clearEnv => exact h.clearEnv
  | changeDir path ok => exact h.env_eq (changeDir_env j p path ok)
  | createFile path c ok => exact h.env_eq (createFile_env j p path c ok)
  | createDir path ok => exact h.env_eq (createDir_env j p path ok)

theorem run_cons (j : Jail) (p : Sys) (op : Op) (ops : List Op) :
    j.run p (op :: ops) = (j.step p op).1.run (j.step p op).2.1 ops := rfl

theorem run_append (j : Jail) (p : Sys) (a b : List Op) :
    j.run p (a ++ b) = (j.run p a).1.run (j.run p a).2 b := by
  induction a generalizing j p with
  | nil => rfl
  | cons op a ih => rw [List.cons_append, run_cons, ih]; rfl

theorem Keeps.run {e : Map Str Str} (ops : List Op) {j : Jail} {p : Sys} (h : Keeps e j p) :
    Keeps e (j.run p ops).1 (j.run p ops).2 := by
  induction ops generalizing j p with
  | nil => exact h
  | cons op ops ih => rw [run_cons]; exact ih (h.step op)

/-! ## What an operation keeps of the jail -/

theorem clearLoop_jail : ∀ (l : List (Str × Str)) (j : Jail) (p : Sys),
    (clearLoop l j p).1.dir = j.dir ∧ (clearLoop l j p).1.savedCwd = j.savedCwd ∧
    (clearLoop l j p).2.1.cwd = p.cwd ∧ (clearLoop l j p).2.1.touched = p.touched ∧
    (clearLoop l j p).2.1.files = p.files
  | [], _, _ => ⟨rfl, rfl, rfl, rfl, rfl⟩
  | (k, v) :: l, j, p => by
    rw [clearLoop]
    unfold Sys.removeVar
    by_cases hv : Sys.validName k = true
    · simp only [hv, if_true]
      obtain ⟨h1, h2, h3, h4, h5⟩ := clearLoop_jail l (j.saveNew k (some v)) { p with env := Map.erase k p.env }
      refine ⟨h1.trans ?_, h2.trans ?_, h3, h4, h5⟩ <;> · unfold saveNew; split <;> rfl
    · simp only [hv]
      exact ⟨rfl, rfl, rfl, rfl, rfl⟩

theorem setEnv_jail (j : Jail) (p : Sys) (k v : Str) :
    (j.setEnv p k v).1.dir = j.dir ∧ (j.setEnv p k v).1.savedCwd = j.savedCwd ∧
    (j.setEnv p k v).2.1.cwd = p.cwd ∧ (j.setEnv p k v).2.1.touched = p.touched ∧
    (j.setEnv p k v).2.1.files = p.files := by
  rw [setEnv_eq]
  unfold Sys.setVar saveNew
  split <;> rename_i h <;> refine ⟨?_, ?_, ?_, ?_, ?_⟩ <;> (try split) <;> (try rfl) <;>
    (split at h <;> cases h <;> rfl)

theorem step_jail (j : Jail) (p : Sys) (op : Op) :
    (j.step p op).1.dir = j.dir ∧ (j.step p op).1.savedCwd = j.savedCwd := by
  cases op with
  | setEnv k v => exact ⟨(setEnv_jail j p k v).1, (setEnv_jail j p k v).2.1⟩
  | clearEnv => exact ⟨(clearLoop_jail p.env j p).1, (clearLoop_jail p.env j p).2.1⟩
  | changeDir path ok => exact ⟨rfl, rfl⟩
  | createFile path c ok => exact ⟨rfl, rfl⟩
  | createDir path ok => exact ⟨rfl, rfl⟩

theorem run_jail (ops : List Op) (j : Jail) (p : Sys) :
    (j.run p ops).1.dir = j.dir ∧ (j.run p ops).1.savedCwd = j.savedCwd := by
  induction ops generalizing j p with
  | nil => exact ⟨rfl, rfl⟩
  | cons op ops ih =>
    rw [run_cons]
    obtain ⟨h1, h2⟩ := ih (j.step p op).1 (j.step p op).2.1
    obtain ⟨h3, h4⟩ := step_jail j p op
    exact ⟨h1.trans h3, h2.trans h4⟩

/-! ## Names -/

/-- The names a sequence of operations may save: those set, and those of the variables there. -/
def Names (j : Jail) (p : Sys) : Prop :=
  (∀ x ∈ j.saved, Sys.validName x.1 = true) ∧ ∀ x ∈ p.env, Sys.validName x.1 = true

theorem saveNew_names {j : Jail} (h : ∀ x ∈ j.saved, Sys.validName x.1 = true) (k : Str) (v : Option Str)
    (hk : Sys.validName k = true) : ∀ x ∈ (j.saveNew k v).saved, Sys.validName x.1 = true := by
  unfold saveNew
  split
  · exact h
  · intro x hx
    rcases List.mem_append.1 hx with hx | hx
    · exact h x hx
    · rw [List.mem_singleton] at hx; subst hx; exact hk

theorem Names.clearLoop : ∀ (l : List (Str × Str)) {j : Jail} {p : Sys}, Names j p →
    Names (Jail.clearLoop l j p).1 (Jail.clearLoop l j p).2.1
  | [], _, _, h => h
  | (k, v) :: l, j, p, h => by
    rw [Jail.clearLoop]
    unfold Sys.removeVar
    by_cases hv : Sys.validName k = true
    · simp only [hv, if_true]
      exact Names.clearLoop l ⟨saveNew_names h.1 k _ hv, fun x hx => h.2 x (Map.mem_erase hx)⟩
    · simp only [hv]
      exact h

theorem Names.setEnv {j : Jail} {p : Sys} (h : Names j p) (k v : Str) (hk : Sys.validName k = true) :
    Names (j.setEnv p k v).1 (j.setEnv p k v).2.1 := by
  rw [setEnv_eq]
  unfold Sys.setVar
  by_cases hv : (Sys.validName k && Sys.validValue v) = true
  · simp only [hv, if_true]
    refine ⟨saveNew_names h.1 k _ hk, fun x hx => ?_⟩
    rcases Map.mem_insert hx with hx | hx
    · rw [← Std.LawfulEqOrd.eq_of_compare hx.2]; exact hk
    · exact h.2 x hx
  · simp only [hv]
    exact ⟨saveNew_names h.1 k _ hk, h.2⟩

theorem Names.step {j : Jail} {p : Sys} (h : Names j p) (op : Op)
    (hop : ∀ k v, op = .setEnv k v → Sys.validName k = true) : Names (j.step p op).1 (j.step p op).2.1 := by
  cases op with
  | setEnv k v => exact h.setEnv k v (hop k v rfl)
  | clearEnv => exact h.clearLoop p.env
  | changeDir path ok => exact ⟨h.1, by rw [show (j.step p (.changeDir path ok)).2.1.env = p.env from changeDir_env j p path ok]; exact h.2⟩
  | createFile path c ok =>
    exact ⟨h.1, by rw [show (j.step p (.createFile path c ok)).2.1.env = p.env from createFile_env j p path c ok]; exact h.2⟩
  | createDir path ok => exact ⟨h.1, by rw [show (j.step p (.createDir path ok)).2.1.env = p.env from createDir_env j p path ok]; exact h.2⟩

theorem Names.run (ops : List Op) {j : Jail} {p : Sys} (h : Names j p)
    (hop : ∀ k v, Op.setEnv k v ∈ ops → Sys.validName k = true) : Names (j.run p ops).1 (j.run p ops).2 := by
  induction ops generalizing j p with
  | nil => exact h
  | cons op ops ih =>
    rw [run_cons]
    exact ih (h.step op fun k v e => hop k v (e ▸ List.mem_cons_self ..)) fun k v hk => hop k v (List.mem_cons_of_mem _ hk)

/-! ## Dropping -/

/-- Restoring: every variable listed is as listed, every other as it was. -/
theorem restoreLoop_spec : ∀ (l : List (Str × Option Str)) (p : Sys), Map.Sorted p.env → (l.map (·.1)).Nodup →
    (∀ x ∈ l, Sys.validName x.1 = true ∧ ∀ v, x.2 = some v → Sys.validValue v = true) →
    ∃ p', restoreLoop l p = (p', false) ∧ p'.cwd = p.cwd ∧ p'.touched = p.touched ∧ Map.Sorted p'.env ∧
      (∀ x ∈ l, Map.get x.1 p'.env = x.2) ∧ ∀ k, k ∉ l.map (·.1) → Map.get k p'.env = Map.get k p.env
  | [], p, hs, _, _ => ⟨p, rfl, rfl, rfl, hs, by simp, fun _ _ => rfl⟩
  | (k, o) :: l, p, hs, hn, hv => by
    rw [List.map_cons, List.nodup_cons] at hn
    have hk := (hv (k, o) (List.mem_cons_self ..)).1
    have hrest : ∀ p1 : Sys, Map.Sorted p1.env → Map.get k p1.env = o →
        (∀ k', k' ≠ k → Map.get k' p1.env = Map.get k' p.env) → p1.cwd = p.cwd → p1.touched = p.touched →
        ∃ p', restoreLoop l p1 = (p', false) ∧ p'.cwd = p.cwd ∧ p'.touched = p.touched ∧ Map.Sorted p'.env ∧
          (∀ x ∈ (k, o) :: l, Map.get x.1 p'.env = x.2) ∧
          ∀ k', k' ∉ ((k, o) :: l).map (·.1) → Map.get k' p'.env = Map.get k' p.env := by
      intro p1 hs1 hg hne hc ht
      obtain ⟨p', h1, h2, h3, h4, h5, h6⟩ := restoreLoop_spec l p1 hs1 hn.2 fun x hx => hv x (List.mem_cons_of_mem _ hx)
      refine ⟨p', h1, h2.trans hc, h3.trans ht, h4, ?_, ?_⟩
      · intro x hx
        rcases List.mem_cons.1 hx with rfl | hx
        · exact (h6 k hn.1).trans hg
        · exact h5 x hx
      · intro k' hk'
        rw [List.map_cons, List.mem_cons, not_or] at hk'
        rw [h6 k' hk'.2, hne k' hk'.1]
    cases o with
    | some v =>
      have hvv := (hv (k, some v) (List.mem_cons_self ..)).2 v rfl
      rw [restoreLoop, Sys.setVar, if_pos (by simp only at hk; rw [hk, hvv]; rfl)]
      exact hrest _ (hs.insert k v) (get_insert_self k v _) (fun k' hk' => get_insert_ne v _ hk') rfl rfl
    | none =>
      rw [restoreLoop, Sys.removeVar, if_pos hk]
      exact hrest _ (hs.erase k) (get_erase_self k _) (fun k' hk' => get_erase_ne _ hk') rfl rfl

theorem restoreLoop_panics : ∀ (l : List (Str × Option Str)) (p : Sys),
    (∃ x ∈ l, Sys.validName x.1 = false) → (restoreLoop l p).2 = true
  | [], _, h => by obtain ⟨x, hx, _⟩ := h; cases hx
  | (k, o) :: l, p, h => by
    obtain ⟨x, hx, hv⟩ := h
    cases o with
    | some v =>
      rw [restoreLoop, Sys.setVar]
      split
      · rfl
      · rename_i hk
        split at hk
        · rename_i hk'
          rcases List.mem_cons.1 hx with rfl | hx
          · rw [hv] at hk'; cases hk'
          · exact restoreLoop_panics l _ ⟨x, hx, hv⟩
        · cases hk
    | none =>
      rw [restoreLoop, Sys.removeVar]
      split
      · rfl
      · rename_i hk
        split at hk
        · rename_i hk'
          rcases List.mem_cons.1 hx with rfl | hx
          · rw [hv] at hk'; cases hk'
          · exact restoreLoop_panics l _ ⟨x, hx, hv⟩
        · cases hk

theorem setCwd_env (p : Sys) (path : Str) (ok : Bool) : (p.setCwd path ok).env = p.env := by
  unfold Sys.setCwd; split <;> rfl

theorem setCwd_touched (p : Sys) (path : Str) (ok : Bool) : (p.setCwd path ok).touched = p.touched := by
  unfold Sys.setCwd; split <;> rfl

theorem setCwd_files (p : Sys) (path : Str) (ok : Bool) : (p.setCwd path ok).files = p.files := by
  unfold Sys.setCwd; split <;> rfl

theorem removeTree_eq (p : Sys) (dir : Str) (ok : Bool) : (p.removeTree dir ok).env = p.env ∧
    (p.removeTree dir ok).cwd = p.cwd ∧ (p.removeTree dir ok).touched = p.touched := by
  unfold Sys.removeTree; split <;> exact ⟨rfl, rfl, rfl⟩

/-- Restoring variables leaves the rest, also where it panics. -/
theorem restoreLoop_keeps : ∀ (l : List (Str × Option Str)) (p : Sys),
    (restoreLoop l p).1.touched = p.touched ∧ (restoreLoop l p).1.files = p.files ∧ (restoreLoop l p).1.cwd = p.cwd := by
  intro l
  induction l with
  | nil => intro p; exact ⟨rfl, rfl, rfl⟩
  | cons x l ih =>
    intro p
    obtain ⟨k, o⟩ := x
    cases o with
    | some v =>
      rw [restoreLoop, Sys.setVar]
      split <;> rename_i h
      · exact ⟨rfl, rfl, rfl⟩
      · split at h
        · cases h; exact ih _
        · cases h
    | none =>
      rw [restoreLoop, Sys.removeVar]
      split <;> rename_i h
      · exact ⟨rfl, rfl, rfl⟩
      · split at h
        · cases h; exact ih _
        · cases h

/-- What dropping a jail does to files. -/
theorem drop_files (j : Jail) (p : Sys) (o : List (Str × Option Str) → List (Str × Option Str)) (b r u : Bool) :
    (j.drop p o b r u).1.touched = p.touched ∧
      ((j.drop p o b r u).2 ≠ .aborts → (j.drop p o b r u).1.files =
        if r then p.files.filter (fun x => !Sys.below (Place.of j.dir) x.1) else p.files) ∧
      ((j.drop p o b r u).2 ≠ .fine → (j.drop p o b r u).1.cwd = p.cwd) := by
  rw [Jail.drop]
  obtain ⟨h1, h2, h3⟩ := restoreLoop_keeps (o j.saved) p
  generalize restoreLoop (o j.saved) p = q at h1 h2 h3 ⊢
  obtain ⟨q, c⟩ := q
  have key : ∀ q' : Sys, q'.files = p.files → (q'.removeTree j.dir r).files =
      if r then p.files.filter (fun x => !Sys.below (Place.of j.dir) x.1) else p.files := by
    intro q' hq
    unfold Sys.removeTree
    cases r
    · exact hq
    · simp only [if_true, hq]
  cases c with
  | false =>
    exact ⟨by rw [(removeTree_eq ..).2.2, setCwd_touched]; exact h1, fun _ => key _ ((setCwd_files ..).trans h2),
      fun h => absurd rfl h⟩
  | true =>
    cases u with
    | true => exact ⟨h1, fun h => absurd rfl h, fun _ => h3⟩
    | false =>
      simp only [Bool.false_eq_true, if_false]
      exact ⟨by rw [(removeTree_eq ..).2.2]; exact h1, fun _ => key _ h2,
        fun _ => by rw [(removeTree_eq ..).2.1]; exact h3⟩

/-- Dropping a jail that has kept what it changed. -/
theorem drop_spec {e : Map Str Str} {j : Jail} {p : Sys} (he : Map.Sorted e)
    (hval : ∀ x ∈ e, Sys.validValue x.2 = true) (h : Keeps e j p) (hn : Names j p)
    (order : List (Str × Option Str) → List (Str × Option Str)) (ho : (order j.saved).Perm j.saved) (ok r u : Bool)
    (hc : Path.hasRoot j.savedCwd = true) :
    ∃ p', j.drop p order ok r u = (p', .fine) ∧ p'.env = e ∧ p'.touched = p.touched ∧ (ok = true → p'.cwd = j.savedCwd) := by
  have hmem : ∀ x, x ∈ order j.saved ↔ x ∈ j.saved := fun x => ho.mem_iff
  obtain ⟨p', h1, h2, h3, h4, h5, h6⟩ := restoreLoop_spec (order j.saved) p h.sorted
    ((ho.map _).nodup_iff.2 h.nodup) (by
      intro x hx
      rw [hmem] at hx
      refine ⟨hn.1 x hx, fun v hv => ?_⟩
      have := h.saved x hx
      rw [hv] at this
      obtain ⟨k', hk', _⟩ := Map.mem_of_get this.symm
      exact hval _ hk')
  obtain ⟨r1, r2, r3⟩ := removeTree_eq (p'.setCwd j.savedCwd ok) j.dir r
  refine ⟨(p'.setCwd j.savedCwd ok).removeTree j.dir r, by rw [drop, h1], ?_, ?_, ?_⟩
  · rw [r1, setCwd_env]
    refine Map.ext_of_sorted h4 he fun k => ?_
    by_cases hk : k ∈ j.saved.map (·.1)
    · obtain ⟨x, hx, rfl⟩ := List.mem_map.1 hk
      rw [h5 x ((hmem x).2 hx), h.saved x hx]
    · rw [h6 k (by rw [(ho.map _).mem_iff]; exact hk), h.other k hk]
  · rw [r3, setCwd_touched, h3]
  · rintro rfl
    rw [r2]
    show Path.join p'.cwd j.savedCwd = _
    rw [Path.join, if_pos hc]

/-! ## Paths -/

/-- A place as components, without the levels up. -/
def placeComps (p : Place) : List Comp := (if p.rooted then [Comp.rootDir] else []) ++ p.names.map .normal

theorem dedotLoop_eq : ∀ (cs : List Comp) (p : Place), dedotLoop cs (placeComps p) = placeComps (cs.foldl Place.step p)
  | [], p => rfl
  | .rootDir :: cs, p => by
    rw [dedotLoop, List.foldl_cons, ← dedotLoop_eq cs]
    have h1 : placeComps (p.step .rootDir) = [Comp.rootDir] := rfl
    rw [h1]
    split
    · rename_i h
      rw [List.isEmpty_iff.1 h]; rfl
    · rfl
  | .curDir :: cs, p => by
    rw [dedotLoop, List.foldl_cons, ← dedotLoop_eq cs]; rfl
  | .normal s :: cs, p => by
    rw [dedotLoop, List.foldl_cons, ← dedotLoop_eq cs]
    congr 1
    simp only [placeComps, Place.step, List.map_append, List.append_assoc]
    rfl
  | .parentDir :: cs, p => by
    rw [dedotLoop, List.foldl_cons, ← dedotLoop_eq cs]
    obtain ⟨r, u, n⟩ := p
    rcases List.eq_nil_or_concat n with hn | ⟨l, x, hn⟩
    · subst hn
      cases r <;> rfl
    · rw [List.concat_eq_append] at hn
      subst hn
      have h1 : (placeComps ⟨r, u, l ++ [x]⟩).all (· == .rootDir) = false := by
        simp only [placeComps, List.map_append, List.all_append, List.map_cons, List.all_cons]
        have : (Comp.normal x == Comp.rootDir) = false := beq_eq_false_iff_ne.2 (by simp)
        rw [this]; simp
      rw [h1, if_neg (by simp)]
      congr 1
      have h2 : Place.step ⟨r, u, l ++ [x]⟩ .parentDir = ⟨r, u, l⟩ := by
        simp only [Place.step]
        rw [if_neg (by simp), List.dropLast_concat]
      rw [h2]
      simp only [placeComps, List.map_append, ← List.append_assoc]
      exact List.dropLast_concat

theorem walk_isName : ∀ (cs : List Comp), (∀ c ∈ cs, c = .rootDir ∨ c = .curDir ∨ c.Inner) → ∀ (p : Place),
    (∀ s ∈ p.names, IsName s) → ∀ s ∈ (cs.foldl Place.step p).names, IsName s
  | [], _, p, hp => hp
  | c :: cs, hc, p, hp => by
    rw [List.foldl_cons]
    refine walk_isName cs (fun c hc' => hc c (List.mem_cons_of_mem _ hc')) _ ?_
    have := hc c (List.mem_cons_self ..)
    cases c with
    | rootDir => simp [Place.step]
    | curDir => exact hp
    | parentDir =>
      simp only [Place.step]
      split
      · split
        · exact hp
        · simp
      · intro s hs
        exact hp s (List.dropLast_subset _ hs)
    | normal x =>
      intro s hs
      simp only [Place.step, List.mem_append, List.mem_singleton] at hs
      rcases hs with hs | rfl
      · exact hp s hs
      · rcases this with h | h | h
        · cases h
        · cases h
        · exact h

theorem components_ok (path : Str) : ∀ c ∈ components path, c = .rootDir ∨ c = .curDir ∨ c.Inner := by
  have h := canon_components path
  intro c hc
  cases hcs : components path with
  | nil => rw [hcs] at hc; cases hc
  | cons z zs =>
    rw [hcs] at h hc
    rcases List.mem_cons.1 hc with rfl | hc
    · exact h.1
    · exact .inr (.inr (h.2 c hc))

theorem of_isName (path : Str) : ∀ s ∈ (Place.of path).names, IsName s :=
  walk_isName _ (components_ok path) _ (by simp [Place.start])

theorem components_dedot (path : Str) : components (dedot path) = placeComps (Place.of path) := by
  have h : dedotLoop (components path) [] = placeComps (Place.of path) := dedotLoop_eq (components path) Place.start
  rw [dedot, h, components_collect]
  have hn := of_isName path
  unfold placeComps
  cases (Place.of path).rooted with
  | true =>
    refine ⟨.inl rfl, ?_⟩
    intro c hc
    obtain ⟨s, hs, rfl⟩ := List.mem_map.1 hc
    exact hn s hs
  | false =>
    simp only [Bool.false_eq_true, if_false, List.nil_append]
    cases hl : (Place.of path).names with
    | nil => trivial
    | cons a l =>
      rw [hl] at hn
      refine ⟨.inr (.inr (hn a (List.mem_cons_self ..))), ?_⟩
      intro c hc
      obtain ⟨s, hs, rfl⟩ := List.mem_map.1 hc
      exact hn s (List.mem_cons_of_mem _ hs)

theorem foldl_names (l : List Str) (p : Place) : (l.map Comp.normal).foldl Place.step p = { p with names := p.names ++ l } := by
  induction l generalizing p with
  | nil => simp
  | cons s l ih => rw [List.map_cons, List.foldl_cons, ih]; simp [Place.step]

/-- Where the path kept leads, from any place. -/
theorem walk_dedot (p : Place) (path : Str) : p.walk (dedot path) =
    if (Place.of path).rooted then ⟨true, 0, (Place.of path).names⟩ else { p with names := p.names ++ (Place.of path).names } := by
  rw [Place.walk, components_dedot, placeComps]
  cases (Place.of path).rooted with
  | true =>
    rw [if_pos rfl, if_pos rfl, List.foldl_append, foldl_names]
    rfl
  | false =>
    simp only [Bool.false_eq_true, if_false, List.nil_append]
    rw [foldl_names]

theorem hasRoot_dedot (path : Str) : hasRoot (dedot path) = (Place.of path).rooted := by
  have h := hasRoot_iff (dedot path)
  rw [components_dedot, placeComps] at h
  cases hr : (Place.of path).rooted with
  | true => rw [h, hr]; exact ⟨_, rfl⟩
  | false =>
    rw [← Bool.not_eq_true, h, hr]
    rintro ⟨cs, hcs⟩
    simp only [Bool.false_eq_true, if_false, List.nil_append] at hcs
    cases hl : (Place.of path).names with
    | nil => rw [hl] at hcs; cases hcs
    | cons a l => rw [hl] at hcs; cases hcs

theorem foldl_rooted : ∀ (cs : List Comp), (∀ c ∈ cs, c.Inner) → ∀ p : Place, (cs.foldl Place.step p).rooted = p.rooted
  | [], _, _ => rfl
  | c :: cs, h, p => by
    rw [List.foldl_cons, foldl_rooted cs fun c hc => h c (List.mem_cons_of_mem _ hc)]
    have := h c (List.mem_cons_self ..)
    cases c with
    | rootDir => exact absurd this id
    | curDir => rfl
    | parentDir =>
      simp only [Place.step]
      split
      · split
        · rfl
        · rename_i hr; simpa using hr
      · rfl
    | normal s => rfl

theorem foldl_rooted_ups : ∀ (cs : List Comp), ∀ p : Place, p.rooted = true → p.ups = 0 →
    (cs.foldl Place.step p).rooted = true ∧ (cs.foldl Place.step p).ups = 0
  | [], _, h1, h2 => ⟨h1, h2⟩
  | c :: cs, p, h1, h2 => by
    rw [List.foldl_cons]
    refine foldl_rooted_ups cs _ ?_ ?_
    · cases c <;> simp only [Place.step, h1, if_true] <;> (try rfl) <;> (try exact h1)
      split
      · exact h1
      · rfl
    · cases c <;> simp only [Place.step, h1, if_true] <;> (try rfl) <;> (try exact h2)
      split
      · exact h2
      · exact h2

theorem of_rooted (path : Str) : (Place.of path).rooted = hasRoot path := by
  have hc := canon_components path
  cases hr : hasRoot path with
  | true =>
    obtain ⟨cs, h⟩ := (hasRoot_iff path).1 hr
    rw [Place.of, Place.walk, h, List.foldl_cons]
    exact (foldl_rooted_ups cs _ rfl rfl).1
  | false =>
    cases hcs : components path with
    | nil => rw [Place.of, Place.walk, hcs]; rfl
    | cons c cs =>
      rw [hcs] at hc
      rw [Place.of, Place.walk, hcs, List.foldl_cons, foldl_rooted cs hc.2]
      rcases hc.1 with rfl | rfl | h
      · exfalso
        have := (hasRoot_iff path).2 ⟨cs, hcs⟩
        rw [hr] at this; cases this
      · rfl
      · exact foldl_rooted [c] (by simpa using h) Place.start

theorem of_rooted_ups (path : Str) (h : hasRoot path = true) : (Place.of path).ups = 0 := by
  obtain ⟨cs, h⟩ := (hasRoot_iff path).1 h
  rw [Place.of, Place.walk, h, List.foldl_cons]
  exact (foldl_rooted_ups cs _ rfl rfl).2

theorem of_dirPath (names : List Str) (h : ∀ s ∈ names, IsName s) : Place.of (dirPath names) = ⟨true, 0, names⟩ := by
  rw [Place.of, Place.walk, components_dirPath names h, List.foldl_cons, foldl_names]
  rfl

theorem isPrefixOf_map (a b : List Str) : (a.map Comp.normal).isPrefixOf (b.map Comp.normal) = true ↔ ∃ m, b = a ++ m := by
  rw [List.isPrefixOf_iff_prefix]
  induction a generalizing b with
  | nil => simp
  | cons x a ih =>
    cases b with
    | nil => simp
    | cons y b =>
      rw [List.map_cons, List.map_cons, List.cons_prefix_cons, ih]
      simp only [Comp.normal.injEq, List.cons_append, List.cons.injEq]
      constructor
      · rintro ⟨rfl, m, rfl⟩; exact ⟨m, rfl, rfl⟩
      · rintro ⟨m, rfl, rfl⟩; exact ⟨rfl, m, rfl⟩

theorem startsWith_dedot (path : Str) (names : List Str) (h : ∀ s ∈ names, IsName s) (hr : hasRoot path = true) :
    startsWith (dedot path) (dirPath names) = true ↔ ∃ m, (Place.of path).names = names ++ m := by
  rw [startsWith, components_dirPath names h, components_dedot, placeComps, of_rooted, hr]
  simp only [if_true, List.singleton_append, List.isPrefixOf_cons_cons]
  rw [show (Comp.rootDir == Comp.rootDir) = true from rfl, Bool.true_and, isPrefixOf_map]

/-- An accepted path, from a place inside, leads inside. -/
theorem safe_inside {j : Jail} {names : List Str} (hn : ∀ s ∈ names, IsName s) (hd : j.dir = dirPath names)
    {path q cwd : Str} (h : j.safeJailedPath path = .ok q) (hc : Inside cwd j.dir) : Inside (join cwd q) j.dir := by
  have hof := of_dirPath names hn
  obtain ⟨n, m, h1, h2⟩ := hc
  have hn' : n = names := by
    rw [hd, hof] at h1
    exact (Place.mk.inj h1).2.2.symm
  subst hn'
  have hq : q = dedot path ∧ (hasRoot path = true → ∃ m, (Place.of path).names = n ++ m) := by
    unfold safeJailedPath at h
    simp only [hasRoot_dedot, of_rooted] at h
    split at h
    · rename_i hx
      rw [Bool.and_eq_true] at hx
      cases h
      refine ⟨rfl, fun hr => ?_⟩
      rw [directory, hd] at hx
      exact (startsWith_dedot path n hn hr).1 hx.2
    · split at h
      · cases h
      · rename_i hx
        cases h
        exact ⟨rfl, fun hr => absurd hr hx⟩
  obtain ⟨rfl, hm⟩ := hq
  have hw : Place.of (join cwd (dedot path)) = _ := (Place.walk_join Place.start cwd (dedot path)).trans (walk_dedot _ path)
  rw [Inside, hw, of_rooted]
  cases hr : hasRoot path with
  | true =>
    obtain ⟨m', hm'⟩ := hm hr
    exact ⟨n, m', h1, by rw [if_pos rfl, hm']⟩
  | false =>
    refine ⟨n, m ++ (Place.of path).names, h1, ?_⟩
    rw [if_neg (by simp), show Place.start.walk cwd = _ from h2, List.append_assoc]

end Jail
end Figment
