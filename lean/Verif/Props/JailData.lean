import Verif.Lemmas.JailData
/-!
# C67: what a jail is given, providers in it see; and nothing of it stays

`Sys.fileSystem` is the file system a provider sees in the process, `Sys.Vars` its variables in any order.
-/
namespace Figment
open Jail

theorem createFile_path {j : Jail} {p : Sys} {path c q : Str} (h : (j.step p (.createFile path c none)).2.2 = .path q) :
    j.safeJailedPath path = .ok q ∧ (j.step p (.createFile path c none)).2.1 = (p.touch q).write q c := by
  have h' : (j.createFile p path c none).2 = .path q := h
  unfold Jail.createFile at h'
  cases hq : j.safeJailedPath path with
  | error e => rw [hq] at h'; cases h'
  | ok q' =>
    rw [hq] at h'
    cases h'
    refine ⟨rfl, ?_⟩
    show (j.createFile p path c none).1 = _
    unfold Jail.createFile
    rw [hq]

/-- **C67** (where): a file made in a jail, from a working directory that is not the root, is where its path leads,
exactly if the path is absolute or does not lead above the working directory. -/
theorem C67_place (j : Jail) (p : Sys) (names : List Str) (h : j.Begun p names) (path c q : Str)
    (hr : (Place.of p.cwd).names ≠ []) (hq : (j.step p (.createFile path c none)).2.2 = .path q) :
    Place.of (Path.join p.cwd q) = Place.of (Path.join p.cwd path) ↔
      Path.hasRoot path = true ∨ (Place.of path).ups = 0 := by
  have hsafe := (createFile_path hq).1
  obtain ⟨n, more, _, h2⟩ := h.cwd
  cases hroot : Path.hasRoot path with
  | true =>
    have hq2 := (C53_absolute j names h.isName h.dir path hroot).2 q hsafe
    have hqr : Path.hasRoot q = true := by rw [← of_rooted, hq2, of_rooted, hroot]
    rw [Place.of_join_rooted _ hroot, Place.of_join_rooted _ hqr, hq2]
    simp
  | false =>
    obtain ⟨q', h3, h4⟩ := C53_relative j path hroot
    rw [hsafe] at h3
    cases h3
    have h5 := Place.of_join_relative h2 hroot
    rw [h4, h5, h2]
    simp only [Place.mk.injEq, true_and, Bool.false_eq_true, false_or]
    rw [h2] at hr
    simp only at hr
    generalize n ++ more = ps at hr
    rw [List.append_left_inj]
    constructor
    · intro he
      have hl := congrArg List.length he
      rw [List.length_take] at hl
      have : 0 < ps.length := List.length_pos_iff.2 hr
      omega
    · intro he
      rw [he, Nat.sub_zero, List.take_length]

/-- **C67** (files): a provider for a path at which a file has just been made in a jail, whatever is called on it, gives
what the contents of the file give; the file is also the source it names. -/
theorem C67_file (j : Jail) (p : Sys) (names : List Str) (h : j.Begun p names) (path c q : Str)
    (hq : (j.step p (.createFile path c none)).2.2 = .path q) (hp : Path.hasRoot path = true ∨ (Place.of path).ups = 0)
    (f : Format) (calls : List DataCall) :
    (calls.foldl DataCall.call (DataProvider.file path)).data f (j.step p (.createFile path c none)).2.1.fileSystem =
      parsedData f (targetSaid calls) c := by
  obtain ⟨hsafe, hstep⟩ := createFile_path hq
  rw [hstep]
  have hcwd : Path.hasRoot p.cwd = true := by
    obtain ⟨n, more, _, h2⟩ := h.cwd
    rw [← of_rooted, h2]
  -- the place is the same
  have hplace : Place.of (Path.join p.cwd q) = Place.of (Path.join p.cwd path) := by
    by_cases hr : (Place.of p.cwd).names = []
    · -- the working directory is the root
      obtain ⟨n, more, _, h2⟩ := h.cwd
      rw [h2] at hr
      cases hroot : Path.hasRoot path with
      | true =>
        have hq2 := (C53_absolute j names h.isName h.dir path hroot).2 q hsafe
        have hqr : Path.hasRoot q = true := by rw [← of_rooted, hq2, of_rooted, hroot]
        rw [Place.of_join_rooted _ hroot, Place.of_join_rooted _ hqr, hq2]
      | false =>
        obtain ⟨q', h3, h4⟩ := C53_relative j path hroot
        rw [hsafe] at h3
        cases h3
        have h5 := Place.of_join_relative h2 hroot
        simp only at hr
        rw [h4, h5, h2, hr]
        simp
    · exact (C67_place j p names h path c q hr hq).2 hp
  have hat : ∀ path', Path.join p.cwd path' = Path.join p.cwd path → ((p.touch q).write q c).fileAt path' = some c := by
    intro path' he
    show List.lookup (Place.of (Path.join p.cwd path')) ((Place.of (Path.join p.cwd q), c) :: p.files) = some c
    rw [he, hplace, List.lookup_cons, beq_self_eq_true]
  have hjj : Path.join p.cwd (Path.join p.cwd path) = Path.join p.cwd path :=
    Place.of_join_rooted _ (Path.hasRoot_join hcwd path)
  have hfound : ∃ t, DataProvider.resolve ((p.touch q).write q c).fileSystem path (searchSaid calls) = some t ∧
      ((p.touch q).write q c).fileSystem.read t = .ok c := by
    by_cases hd : Path.hasRoot path = true ∨ searchSaid calls = false
    · refine ⟨path, ?_, ?_⟩
      · rw [C40_exact _ _ _ hd]
        show (if (((p.touch q).write q c).fileAt path).isSome then _ else _) = _
        rw [hat path rfl]; rfl
      · show (match ((p.touch q).write q c).fileAt path with | some c => _ | none => _) = _
        rw [hat path rfl]
    · rw [not_or] at hd
      refine ⟨Path.join p.cwd path, ?_, ?_⟩
      · unfold DataProvider.resolve
        rw [if_neg (by simp only [Bool.or_eq_true, Bool.not_eq_true', not_or]; exact ⟨hd.1, hd.2⟩)]
        show (match DataProvider.resolveLoop _ path (Path.count p.cwd + 1) p.cwd with | .ok r => r | .error _ => none) = _
        rw [DataProvider.resolveLoop]
        rw [if_pos]
        show (((p.touch q).write q c).fileAt (Path.join p.cwd path)).isSome = true
        rw [hat _ hjj]; rfl
      · show (match ((p.touch q).write q c).fileAt (Path.join p.cwd path) with | some c => _ | none => _) = _
        rw [hat _ hjj]
  obtain ⟨t, ht, hr⟩ := hfound
  rw [C41_file f _ calls path t ht, hr]

/-- **C67** (files, later): whatever is done in the jail after a file was made there, as long as no later operation is
given a path to the same place, a provider for an absolute path to that place gives what the contents of the file give. -/
theorem C67_later (j : Jail) (p : Sys) (path c q : Str) (hq : (j.step p (.createFile path c none)).2.2 = .path q)
    (ops : List Jail.Op) (new : List Str)
    (hnew : (j.run p (.createFile path c none :: ops)).2.touched = new ++ Path.join p.cwd q :: p.touched)
    (hne : ∀ t ∈ new, Place.of t ≠ Place.of (Path.join p.cwd q))
    (full : Str) (hf : Path.hasRoot full = true) (hpl : Place.of full = Place.of (Path.join p.cwd q))
    (f : Format) (calls : List DataCall) :
    (calls.foldl DataCall.call (DataProvider.file full)).data f
      (j.run p (.createFile path c none :: ops)).2.fileSystem = parsedData f (targetSaid calls) c := by
  obtain ⟨_, hstep⟩ := createFile_path hq
  rw [run_cons] at hnew ⊢
  rw [hstep] at hnew ⊢
  obtain ⟨new', h1, h2⟩ := run_lookup ops (j.step p (.createFile path c none)).1 ((p.touch q).write q c)
    (Place.of (Path.join p.cwd q))
  rw [h1] at hnew
  have hn : new' = new := List.append_cancel_right hnew
  have h3 := h2 (by rw [hn]; exact hne)
  generalize ((j.step p (.createFile path c none)).1.run ((p.touch q).write q c) ops).2 = p2 at h3 ⊢
  have hat : p2.fileAt full = some c := by
    unfold Sys.fileAt
    rw [Place.of_join_rooted _ hf, hpl, h3]
    show List.lookup _ ((Place.of (Path.join p.cwd q), c) :: p.files) = some c
    rw [List.lookup_cons, beq_self_eq_true]
  have hres : DataProvider.resolve p2.fileSystem full (searchSaid calls) = some full := by
    rw [C40_exact _ _ _ (.inl hf)]
    show (if (p2.fileAt full).isSome then _ else _) = _
    rw [hat]; rfl
  rw [C41_file f _ calls full full hres]
  have hr : p2.fileSystem.read full = .ok c := by
    show (match p2.fileAt full with | some c => _ | none => _) = _
    rw [hat]
  rw [hr]

/-- **C67** (nothing stays): if there was no file below the new directory and the directory can be removed, then after
`try_with` the files are those from before, whatever the closure did and wherever and however it stopped, unless the
process was aborted. Without the removal, all that is new is below that directory. -/
theorem C67_gone (a : Answers) (ops : List Jail.Op) (e : Ending) (p : Sys) (names : List Str) (hn : ∀ s ∈ names, IsName s)
    (ht : a.tempDir = .ok (dirPath names))
    (hfresh : ∀ x ∈ p.files, ¬ ∃ more, x.1 = ⟨true, 0, names ++ more⟩) :
    (a.removed = true → (tryWith a ops e p).2 ≠ .abort → (tryWith a ops e p).1.files = p.files) ∧
    ∃ new, (tryWith a ops e p).1.files = new ++ p.files ∧ ∀ x ∈ new, ∃ more, x.1 = ⟨true, 0, names ++ more⟩ := by
  have hbelow : ∀ x : Place, Sys.below ⟨true, 0, names⟩ x = true ↔ ∃ more, x = ⟨true, 0, names ++ more⟩ := by
    rintro ⟨r, u, n⟩
    unfold Sys.below
    simp only [Bool.and_eq_true, beq_iff_eq, List.isPrefixOf_iff_prefix, Place.mk.injEq]
    constructor
    · rintro ⟨⟨rfl, rfl⟩, m, rfl⟩; exact ⟨m, rfl, rfl, rfl⟩
    · rintro ⟨m, rfl, rfl, rfl⟩; exact ⟨⟨rfl, rfl⟩, m, rfl⟩
  have hold : p.files.filter (fun x => !Sys.below ⟨true, 0, names⟩ x.1) = p.files := by
    rw [List.filter_eq_self]
    intro x hx
    rw [Bool.not_eq_true', ← Bool.not_eq_true, hbelow]
    exact hfresh x hx
  have key : ∀ (j : Jail) (q : Sys) (new : List (Place × Str)) (u : Bool), j.dir = dirPath names →
      q.files = new ++ p.files → (∀ x ∈ new, ∃ more, x.1 = ⟨true, 0, names ++ more⟩) →
      (a.removed = true → (j.drop q a.order a.back a.removed u).2 ≠ .aborts →
        (j.drop q a.order a.back a.removed u).1.files = p.files) ∧
      ∃ new, (j.drop q a.order a.back a.removed u).1.files = new ++ p.files ∧
        ∀ x ∈ new, ∃ more, x.1 = ⟨true, 0, names ++ more⟩ := by
    intro j q new u hd hq hin
    obtain ⟨_, hf, _⟩ := drop_files j q a.order a.back a.removed u
    have hnew : new.filter (fun x => !Sys.below ⟨true, 0, names⟩ x.1) = [] := by
      rw [List.filter_eq_nil_iff]
      intro x hx
      rw [Bool.not_eq_true', Bool.not_eq_false, hbelow]
      exact hin x hx
    by_cases hab : (j.drop q a.order a.back a.removed u).2 = .aborts
    · refine ⟨fun _ h => absurd hab h, new, ?_, hin⟩
      have := restoreLoop_keeps (a.order j.saved) q
      unfold Jail.drop at hab ⊢
      generalize restoreLoop (a.order j.saved) q = r at this hab ⊢
      obtain ⟨r, c⟩ := r
      cases c
      · cases hab
      · cases u
        · cases hab
        · exact this.2.1.trans hq
    · have hf := hf hab
      rw [hd, of_dirPath names hn, hq] at hf
      cases hr : a.removed with
      | true =>
        rw [hr] at hf
        rw [if_pos rfl, List.filter_append, hnew, hold] at hf
        exact ⟨fun _ _ => hf, [], hf, by simp⟩
      | false =>
        rw [hr] at hf
        rw [if_neg (by simp)] at hf
        exact ⟨fun h => (by cases h), new, hf, hin⟩
  have hafter : ∀ (e : Ending) (d : DropEnd), e.after d ≠ .abort → d ≠ .aborts := by
    intro e d h hd
    subst hd
    exact h rfl
  unfold tryWith
  cases hm : make a p with
  | error e => exact ⟨fun _ _ => rfl, [], rfl, by simp⟩
  | ok j =>
    have hb := C53_begins a p j names hn ht hm
    cases he' : a.enter with
    | some m =>
      obtain ⟨h1, h2⟩ := key j (p.setCwd j.directory false) [] false hb.2.dir (setCwd_files ..) (by simp)
      exact ⟨fun hr h => h1 hr (hafter _ _ h), h2⟩
    | none =>
      obtain ⟨new, h1, h2⟩ := run_files ops j _ names hb.2
      rw [setCwd_files] at h1
      obtain ⟨h3, h4⟩ := key _ _ new (e == .panic) ((run_jail ops j _).1.trans hb.2.dir) h1 h2
      exact ⟨fun hr h => h3 hr (hafter _ _ h), h4⟩

/-! ## Variables -/

/-- The variables after `set_env`: the one set, and the others from before. -/
theorem setEnv_vars {j : Jail} {p : Sys} {k v : Str} (hp : p.Proper) (hk : Sys.validName k = true)
    (hv : Sys.validValue v = true) {vars : List (Str × Str)} (hvars : (j.step p (.setEnv k v)).2.1.Vars vars) :
    ∃ a b, vars = a ++ (k, v) :: b ∧ ∀ x, x ∈ a ∨ x ∈ b → x ∈ p.env ∧ x.1 ≠ k := by
  have he : (j.step p (.setEnv k v)).2.1.env = Map.insert k v p.env := by
    rw [step, setEnv_eq, Sys.setVar, if_pos (by rw [hk, hv]; rfl)]
  rw [Sys.Vars, he] at hvars
  have hs : Map.Sorted (Map.insert k v p.env) := hp.1.insert k v
  have hmem : (k, v) ∈ vars := by
    rw [hvars.mem_iff]
    obtain ⟨k', h1, h2⟩ := Map.mem_of_get (get_insert_self k v p.env)
    rwa [← Std.LawfulEqOrd.eq_of_compare h2] at h1
  obtain ⟨a, b, rfl⟩ := List.append_of_mem hmem
  refine ⟨a, b, rfl, fun x hx => ?_⟩
  have hnd : ((a ++ (k, v) :: b).map (·.1)).Nodup := (hvars.map _).nodup_iff.2 (sorted_nodup hs)
  have hne : x.1 ≠ k := by
    rw [List.map_append, List.map_cons, List.nodup_append] at hnd
    rcases hx with hx | hx
    · exact hnd.2.2 x.1 (List.mem_map_of_mem hx) k (List.mem_cons_self ..)
    · intro hxk
      have : x.1 ∈ b.map (·.1) := List.mem_map_of_mem hx
      rw [hxk] at this
      exact (List.nodup_cons.1 hnd.2.1).1 this
  refine ⟨?_, hne⟩
  have hx' : x ∈ Map.insert k v p.env := by
    rw [← hvars.mem_iff]
    rcases hx with hx | hx
    · exact List.mem_append_left _ hx
    · exact List.mem_append_right _ (List.mem_cons_of_mem _ hx)
  rcases Map.mem_insert hx' with ⟨_, h2⟩ | h2
  · exact absurd (Std.LawfulEqOrd.eq_of_compare h2).symm hne
  · exact h2

/-- **C67** (`Env::var`): a variable set in a jail is found by its name up to case, in whatever order the operating
system lists the variables, if no other has that name up to case. -/
theorem C67_var (j : Jail) (p : Sys) (hp : p.Proper) (k v name : Str) (hk : Sys.validName k = true)
    (hv : Sys.validValue v = true) (hn : SameUncased (Str.trim k) name)
    (hother : ∀ x ∈ p.env, x.1 ≠ k → ¬ SameUncased (Str.trim x.1) name) (vars : List (Str × Str))
    (hvars : (j.step p (.setEnv k v)).2.1.Vars vars) :
    Env.var vars name = some (Str.trim v) ∧ Profile.fromEnv vars name = some ⟨v⟩ := by
  obtain ⟨a, b, rfl, h⟩ := setEnv_vars hp hk hv hvars
  have ha : ∀ x ∈ a, ¬ SameUncased (Str.trim x.1) name := fun x hx => hother x (h x (.inl hx)).1 (h x (.inl hx)).2
  exact ⟨((C39_first _ name).1 _).2 ⟨a, k, v, b, rfl, hn, ha, rfl⟩,
    ((C39_first _ name).2 _).2 ⟨a, k, v, b, rfl, hn, ha, rfl⟩⟩

section
variable [FloatOps]

/-- **C67** (`Env`): a variable set in a jail is in the data of an environment provider, under the key the provider
makes of its name, as what its text reads as, in whatever order the operating system lists the variables, if no other
variable has a key on the same path. -/
theorem C67_env (j : Jail) (p : Sys) (hp : p.Proper) (k v key : Str) (w : Value) (hk : Sys.validName k = true)
    (hv : Sys.validValue v = true) (e : Env) (hkey : e.iter [(k, v)] = [(key, v)]) (hw : Value.parse v = .ok w)
    (hother : ∀ x ∈ p.env, x.1 ≠ k → ∀ y ∈ e.iter [x], ¬ Overlap y.1 key) (vars : List (Str × Str))
    (hvars : (j.step p (.setEnv k v)).2.1.Vars vars) (data : Data) (hd : e.data vars = .ok data) :
    ∃ d, Map.get e.profile data = some d ∧ (Value.ofDict d).find key = some w := by
  obtain ⟨a, b, rfl, h⟩ := setEnv_vars hp hk hv hvars
  have happ : ∀ l m : List (Str × Str), e.iter (l ++ m) = e.iter l ++ e.iter m := by
    intro l m
    unfold Env.iter
    rw [List.filter_append, List.filterMap_append]
  have hone : ∀ (l : List (Str × Str)) y, y ∈ e.iter l → ∃ x ∈ l, y ∈ e.iter [x] := by
    intro l
    induction l with
    | nil => intro y hy; cases hy
    | cons x l ih =>
      intro y hy
      rw [show x :: l = [x] ++ l from rfl, happ, List.mem_append] at hy
      rcases hy with hy | hy
      · exact ⟨x, List.mem_cons_self .., hy⟩
      · obtain ⟨x', h1, h2⟩ := ih y hy
        exact ⟨x', List.mem_cons_of_mem _ h1, h2⟩
  have hi : e.iter (a ++ (k, v) :: b) = e.iter a ++ (key, v) :: e.iter b := by
    rw [happ, show (k, v) :: b = [(k, v)] ++ b from rfl, happ, hkey]; rfl
  refine C37_last_wins e _ data hd (e.iter a) (e.iter b) key v w hi hw ?_ (.inr ?_)
  · intro y hy
    obtain ⟨x, h1, h2⟩ := hone b y hy
    exact hother x (h x (.inr h1)).1 (h x (.inr h1)).2 y h2
  · intro y hy
    obtain ⟨x, h1, h2⟩ := hone a y hy
    exact hother x (h x (.inl h1)).1 (h x (.inl h1)).2 y h2

/-- **C67** (`clear_env`): afterwards an environment provider has no data and no variable is found. -/
theorem C67_cleared (j : Jail) (p : Sys) (hp : p.Proper) (vars : List (Str × Str))
    (hvars : (j.step p .clearEnv).2.1.Vars vars) (e : Env) (name : Str) :
    e.data vars = .ok [(e.profile, [])] ∧ Env.var vars name = none := by
  rw [Sys.Vars, (C52_inside j p hp).2.2] at hvars
  rw [hvars.eq_nil]
  exact ⟨rfl, rfl⟩

end

/-! ## Cases -/

/-- In a jail at `/tmp/j`, with the working directory `/tmp/j/a`. -/
def C67_jail : Jail := ⟨str "/tmp/j", [], str "/home"⟩
def C67_sys : Sys := ⟨[(str "HOME", str "/home")], str "/tmp/j/a", [], []⟩

theorem C67_begun : C67_jail.Begun C67_sys [str "tmp", str "j"] := by
  refine ⟨?_, rfl, [str "tmp", str "j"], [str "a"], rfl, rfl⟩
  intro s hs
  simp only [List.mem_cons, List.not_mem_nil, or_false] at hs
  rcases hs with rfl | rfl <;> exact ⟨by decide, by decide, by decide, by decide⟩

-- what C67_file, C67_place and C67_later ask for: a path made and read back, one that leads up and is not where it leads
example : (C67_jail.step C67_sys (.createFile (str "b/../c.toml") (str "x = 1") none)).2.2 = .path (str "c.toml") ∧
    (Place.of (str "b/../c.toml")).ups = 0 ∧
    (C67_jail.step C67_sys (.createFile (str "b/../c.toml") (str "x = 1") none)).2.1.fileSystem.read (str "c.toml") =
      .ok (str "x = 1") ∧
    (C67_jail.step C67_sys (.createFile (str "../c.toml") (str "x = 1") none)).2.2 = .path (str "c.toml") ∧
    (Place.of (str "../c.toml")).ups = 1 ∧
    (C67_jail.step C67_sys (.createFile (str "../c.toml") (str "x = 1") none)).2.1.fileSystem.isFile (str "../c.toml") =
      false := ⟨rfl, rfl, rfl, rfl, rfl, rfl⟩

example : (C67_jail.run C67_sys [.createFile (str "c.toml") (str "x") none, .changeDir (str "d") none,
      .createFile (str "c.toml") (str "y") none]).2.touched =
      [str "/tmp/j/a/d/c.toml", str "/tmp/j/a/d"] ++ [str "/tmp/j/a/c.toml"] ∧
    (C67_jail.run C67_sys [.createFile (str "c.toml") (str "x") none, .changeDir (str "d") none,
      .createFile (str "c.toml") (str "y") none]).2.fileAt (str "/tmp/j/a/c.toml") = some (str "x") ∧
    Place.of (str "/tmp/j/a/d/c.toml") ≠ Place.of (str "/tmp/j/a/c.toml") := ⟨rfl, rfl, by decide⟩

-- what C67_gone asks for: a file from before stays, the one made in the jail does not
example : (tryWith ⟨.ok (str "/tmp/j"), none, none, id, true, true⟩ [.createFile (str "c.toml") (str "x") none]
      .panic ⟨[], str "/home", [], [(⟨true, 0, [str "home", str "c.toml"]⟩, str "y")]⟩).1.files =
    [(⟨true, 0, [str "home", str "c.toml"]⟩, str "y")] := rfl

-- if the process is aborted, the file made in the jail stays
example : tryWith ⟨.ok (str "/tmp/j"), none, none, id, true, true⟩
      [.createFile (str "c.toml") (str "x") none, .setEnv [] []] .panic ⟨[], str "/home", [], []⟩ =
    (⟨[], str "/tmp/j", [str "/tmp/j/c.toml"], [(⟨true, 0, [str "tmp", str "j", str "c.toml"]⟩, str "x")]⟩, .abort) := rfl

-- what C67_var and C67_env ask for
example : C67_sys.Proper ∧ Sys.validName (str "APP_PORT") = true ∧ Sys.validValue (str "80") = true ∧
    (Env.prefixed (str "app_")).iter [(str "APP_PORT", str "80")] = [(str "port", str "80")] ∧
    (Env.prefixed (str "app_")).iter [(str "HOME", str "/home")] = [] :=
  ⟨⟨by decide, by decide⟩, by decide, by decide, by decide, by decide⟩

end Figment
