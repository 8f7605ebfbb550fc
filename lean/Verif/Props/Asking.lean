import Verif.Lemmas.Asking
import Verif.Props.Data
/-!
# C78: figments built while files, variables and the working directory change

`ans n` is what a thread is answered to its question number `n`; the answers are arbitrary, as other threads and
processes may change everything between any two questions. `ComesUpon` and `ComesUponNothing` say what a search sees.
-/
namespace Figment
open DataProvider

/-! ## A figment is made of what was seen while it was built -/

/-- **C78** (snapshot): building a figment from any file, string and environment providers, in any order, depends on
nothing but what was answered between its beginning and its end: whatever changes before or after, the figment is the
same. -/
theorem C78_snapshot [FloatOps] (steps : List (Looking × Order × Location)) (f : Fig) (c : BitVec 64)
    (ans : Nat → Outside) (t : Nat) :
    t ≤ (f.build c steps ans t).2 ∧
    ∀ ans', (∀ n, t ≤ n → n < (f.build c steps ans t).2 → ans' n = ans n) → f.build c steps ans' t = f.build c steps ans t :=
  Fig.build_local steps f c ans t

/-- **C78** (still): while nothing changes, a file or string provider is the provider of C40 and C41. -/
theorem C78_still (f : Fig) (calls : List DataCall) (d : DataProvider) (fmt : Format) (o : Order) (loc : Location)
    (c : BitVec 64) (ans : Nat → Outside) (w : Outside) (hw : ∀ n, ans n = w) (t : Nat) :
    (f.provideAsking ((calls.foldl DataCall.call d).asking fmt) o loc c ans t).1 =
      f.provide ((calls.foldl DataCall.call d).provider fmt w.toFileSystem) o loc c := by
  have hr : ∀ t path search, (resolveAsking path search ans t).1 = resolve w.toFileSystem path search := fun t path search =>
    resolveAsking_same (fun n => by rw [hw n]) (fun n => by rw [hw n]) path search t
  generalize calls.foldl DataCall.call d = d
  have hp : ∀ {α : Type} (parse : Str → Except Str α) (path : Str) t,
      (fromPathAsking fmt parse path ans t).1 = fromPath fmt parse w.toFileSystem path := by
    intro α parse path t
    rw [fromPathAsking, fromPath, Ask.bind, Ask.ask, hw]
    dsimp only
    cases w.read path <;> rfl
  have hm : ∀ t, (d.metadataAsking fmt ans t).1 = d.metadata fmt w.toFileSystem := by
    intro t
    rcases d with ⟨⟨path, required, search⟩ | s, profile⟩
    · show Metadata.from _ (.file ((resolveAsking path search ans t).1.getD path)) = _
      rw [hr]; rfl
    · rfl
  have hd : ∀ t, (d.dataAsking fmt ans t).1 = d.data fmt w.toFileSystem := by
    intro t
    have hread : (d.readAsking fmt ans t).1 = d.read fmt w.toFileSystem := by
      rcases d with ⟨⟨path, required, search⟩ | s, profile⟩
      · simp only [readAsking, DataProvider.read]
        rw [Ask.bind, hr]
        cases resolve w.toFileSystem path search with
        | none => cases required <;> rfl
        | some q =>
          cases profile with
          | none => simp only [Ask.bind, hp, Ask.pure]
          | some prof => simp only [Ask.bind, hp, Ask.pure]
      · cases profile <;> rfl
    rw [dataAsking, Ask.bind, hread, DataProvider.data]
    rcases d.read fmt w.toFileSystem with e | e | m <;> rfl
  unfold Fig.provideAsking Fig.provide
  simp only [asking, Ask.bind, Ask.pure]
  rcases Tag.next c with ⟨tag, c'⟩
  cases tag with
  | none => rfl
  | some tag =>
    simp only [Option.map_some, hm]
    rw [Ask.bind, Ask.bind, hd]
    rfl

/-- **C78** (variables): the environment provider sees the variables of one moment, that of the call; if reading these
panics (C37), so does the call. -/
theorem C78_env [FloatOps] (f : Fig) (e : Env) (o : Order) (loc : Location) (c : BitVec 64) (ans : Nat → Outside) (t : Nat) :
    (∀ data, e.data (ans t).vars = .ok data →
      (f.provideAsking e.asking o loc c ans t).1 = f.provide (Provider.plain e.metadata (.ok data)) o loc c) ∧
    (e.data (ans t).vars = .panic → (f.provideAsking e.asking o loc c ans t).1.1 = none) := by
  unfold Fig.provideAsking Fig.provide
  simp only [Env.asking, Ask.bind, Ask.pure]
  rcases Tag.next c with ⟨tag, c'⟩
  cases tag with
  | none => exact ⟨fun _ _ => rfl, fun _ => rfl⟩
  | some tag =>
    refine ⟨fun data h => ?_, fun h => ?_⟩
    · simp only [Option.map_some, Ask.bind, Ask.ask, h]
      rfl
    · simp only [Ask.bind, Ask.ask, h]
      rfl

/-! ## What a file provider reads -/

/-- **C78**: a search comes upon exactly one file, or upon nothing. -/
theorem C78_cases (ans : Nat → Outside) (t : Nat) (names : List Str) (path : Str) :
    ((∃ n, ComesUpon ans t names path n) ↔ ¬ ComesUponNothing ans t names path) ∧
    ∀ n n', ComesUpon ans t names path n → ComesUpon ans t names path n' → n = n' := by
  refine ⟨⟨?_, fun h => ?_⟩, ?_⟩
  · rintro ⟨n, h1, h2, _⟩ h
    rw [h n h1] at h2; cases h2
  · -- the greatest of those
    have hmax : ∀ k, k ≤ names.length →
        (∀ m, k < m → m ≤ names.length → (ans (t + 1 + (names.length - m))).isFile (placeAt names path m) = false) →
        (∃ n, ComesUpon ans t names path n) ∨
        ∀ m, m ≤ names.length → (ans (t + 1 + (names.length - m))).isFile (placeAt names path m) = false := by
      intro k
      induction k with
      | zero =>
        intro hk hall
        cases hf : (ans (t + 1 + (names.length - 0))).isFile (placeAt names path 0) with
        | true => exact .inl ⟨0, hk, hf, hall⟩
        | false =>
          refine .inr fun m hm => ?_
          by_cases hz : m = 0
          · subst hz; exact hf
          · exact hall m (by omega) hm
      | succ k ih =>
        intro hk hall
        cases hf : (ans (t + 1 + (names.length - (k + 1)))).isFile (placeAt names path (k + 1)) with
        | true => exact .inl ⟨k + 1, hk, hf, hall⟩
        | false =>
          refine ih (by omega) fun m hm hm' => ?_
          by_cases hz : m = k + 1
          · subst hz; exact hf
          · exact hall m (by omega) hm'
    exact (hmax names.length (Nat.le_refl _) (fun m a b => by omega)).resolve_right h
  · rintro n n' ⟨h1, h2, h3⟩ ⟨h1', h2', h3'⟩
    rcases Nat.lt_trichotomy n n' with hlt | he | hgt
    · rw [h3 n' hlt h1'] at h2'; cases h2'
    · exact he
    · rw [h3' n hgt h1] at h2; cases h2

theorem ComesUpon.resolve {ans : Nat → Outside} {t : Nat} {names : List Str} {path : Str} {n : Nat}
    (h : ComesUpon ans t names path n) (hn : ∀ s ∈ names, IsName s) (hc : (ans t).cwd = some (dirPath names))
    (hp : Path.hasRoot path = false) :
    resolveAsking path true ans t = (some (placeAt names path n), t + 1 + (names.length - n) + 1) := by
  rw [resolveAsking_search ans path names hn t hc hp]
  obtain ⟨r, hr, h1, h2⟩ := resolveLoopAsking_spec ans path names hn (t + 1)
  rw [hr]
  cases r with
  | none =>
    have := (h1 rfl).2 n h.1
    rw [h.2.1] at this; cases this
  | some q =>
    obtain ⟨n', a, b, d, e, g⟩ := h2 q rfl
    obtain rfl := (C78_cases ans t names path).2 n n' h ⟨a, b ▸ e, g⟩
    rw [d, b]

theorem ComesUponNothing.resolve {ans : Nat → Outside} {t : Nat} {names : List Str} {path : Str}
    (h : ComesUponNothing ans t names path) (hn : ∀ s ∈ names, IsName s) (hc : (ans t).cwd = some (dirPath names))
    (hp : Path.hasRoot path = false) :
    resolveAsking path true ans t = (none, t + 1 + names.length + 1) := by
  rw [resolveAsking_search ans path names hn t hc hp]
  obtain ⟨r, hr, h1, h2⟩ := resolveLoopAsking_spec ans path names hn (t + 1)
  rw [hr]
  cases r with
  | none => rw [(h1 rfl).1]
  | some q =>
    obtain ⟨n', a, b, d, e, g⟩ := h2 q rfl
    rw [b, h n' a] at e; cases e

theorem dataAsking_some {ans : Nat → Outside} {t t' : Nat} {path q : Str} {required search : Bool} {profile : Option Profile}
    (h : resolveAsking path search ans t = (some q, t')) (fmt : Format) :
    (DataProvider.mk (.file path required search) profile).dataAsking fmt ans t =
      (match (ans t').read q with
      | .ok text => parsedData fmt profile text
      | .error e => .error (Error.ofKind (.message (fmt.custom e))), t' + 1) := by
  unfold dataAsking readAsking parsedData
  simp only [Ask.bind, h]
  cases profile with
  | none =>
    simp only [fromPathAsking, Ask.bind, Ask.ask]
    cases (ans t').read q with
    | error e => rfl
    | ok text => simp only [Ask.pure]; cases fmt.profiles text <;> rfl
  | some p =>
    simp only [fromPathAsking, Ask.bind, Ask.ask]
    cases (ans t').read q with
    | error e => rfl
    | ok text => simp only [Ask.pure]; cases fmt.dict text <;> rfl

theorem dataAsking_none {ans : Nat → Outside} {t t' : Nat} {path : Str} {required search : Bool} {profile : Option Profile}
    (h : resolveAsking path search ans t = (none, t')) (fmt : Format) :
    (DataProvider.mk (.file path required search) profile).dataAsking fmt ans t =
      (if required then .error (Error.ofKind (.message (str "required file `" ++ path ++ str "` not found")))
      else .ok [], t') := by
  unfold dataAsking readAsking
  simp only [Ask.bind, h]
  cases required <;> rfl

/-- **C78** (reading): the data of a file provider that searches are those of the text read from the file come upon, as
it is when it is read, after the search; if reading fails then, they are that error, required or not. -/
theorem C78_read (ans : Nat → Outside) (t : Nat) (names : List Str) (hn : ∀ s ∈ names, IsName s)
    (hc : (ans t).cwd = some (dirPath names)) (path : Str) (hp : Path.hasRoot path = false)
    (calls : List DataCall) (hs : searchSaid calls = true) (fmt : Format) (n : Nat) (h : ComesUpon ans t names path n) :
    ((calls.foldl DataCall.call (DataProvider.file path)).dataAsking fmt ans t).1 =
      (match (ans (t + 1 + (names.length - n) + 1)).read (placeAt names path n) with
      | .ok text => parsedData fmt (targetSaid calls) text
      | .error e => .error (Error.ofKind (.message (fmt.custom e)))) ∧
    ((calls.foldl DataCall.call (DataProvider.file path)).metadataAsking fmt ans t).1.source =
      some (.file (placeAt names path n)) := by
  have hr := h.resolve hn hc hp
  rw [(C41_calls calls path []).1, hs]
  refine ⟨by rw [dataAsking_some hr fmt], ?_⟩
  unfold metadataAsking
  simp only [Ask.bind, hr]
  rfl

/-- **C78** (reading): and if it comes upon nothing. -/
theorem C78_read_none (ans : Nat → Outside) (t : Nat) (names : List Str) (hn : ∀ s ∈ names, IsName s)
    (hc : (ans t).cwd = some (dirPath names)) (path : Str) (hp : Path.hasRoot path = false)
    (calls : List DataCall) (hs : searchSaid calls = true) (fmt : Format) (h : ComesUponNothing ans t names path) :
    ((calls.foldl DataCall.call (DataProvider.file path)).dataAsking fmt ans t).1 =
      (if requiredSaid calls then .error (Error.ofKind (.message (str "required file `" ++ path ++ str "` not found")))
      else .ok []) ∧
    ((calls.foldl DataCall.call (DataProvider.file path)).metadataAsking fmt ans t).1.source = some (.file path) := by
  have hr := h.resolve hn hc hp
  rw [(C41_calls calls path []).1, hs]
  refine ⟨by rw [dataAsking_none hr fmt], ?_⟩
  unfold metadataAsking
  simp only [Ask.bind, hr]
  rfl

/-- **C78** (reading, without a search): one question whether the file is there, and if so one for its text. -/
theorem C78_read_exact (ans : Nat → Outside) (t : Nat) (path : Str) (calls : List DataCall)
    (h : Path.hasRoot path = true ∨ searchSaid calls = false) (fmt : Format) :
    ((calls.foldl DataCall.call (DataProvider.file path)).dataAsking fmt ans t).1 =
      if (ans t).isFile path then
        match (ans (t + 1)).read path with
        | .ok text => parsedData fmt (targetSaid calls) text
        | .error e => .error (Error.ofKind (.message (fmt.custom e)))
      else if requiredSaid calls then .error (Error.ofKind (.message (str "required file `" ++ path ++ str "` not found")))
      else .ok [] := by
  have hr : resolveAsking path (searchSaid calls) ans t = (if (ans t).isFile path then some path else none, t + 1) := by
    unfold resolveAsking
    rw [if_pos (by rcases h with h | h <;> simp [h])]
    rfl
  rw [(C41_calls calls path []).1]
  cases hf : (ans t).isFile path with
  | true => rw [hf] at hr; rw [dataAsking_some hr fmt]; rfl
  | false => rw [hf] at hr; rw [dataAsking_none hr fmt]; rfl

/-- **C78** (a file that stays): while a file stays where it is, in the working directory or above it, a search that
begins there comes upon it or upon one nearer to the working directory, whatever else comes and goes; so a required file
is never said not to be there. -/
theorem C78_stays (ans : Nat → Outside) (t : Nat) (names : List Str) (path : Str) (n : Nat) (hle : n ≤ names.length)
    (h : ∀ k, (ans k).isFile (placeAt names path n) = true) :
    ∃ m, n ≤ m ∧ ComesUpon ans t names path m := by
  obtain ⟨m, hm⟩ := (C78_cases ans t names path).1.2 fun hno => by
    have := hno n hle
    rw [h] at this; cases this
  refine ⟨m, Nat.le_of_not_lt fun hlt => ?_, hm⟩
  have := hm.2.2 n hlt hle
  rw [h] at this; cases this

/-! ## The source a value is said to be from -/

/-- `C78_source_partial`, with answers that stay before and after the call too. -/
theorem source_always (f : Fig) (calls : List DataCall) (path : Str) (fmt : Format) (o : Order) (loc : Location)
    (c : BitVec 64) (ans : Nat → Outside) (t : Nat) (fs : FileSystem) (h1 : ∀ n, (ans n).isFile = fs.isFile)
    (h2 : ∀ n, (ans n).cwd = fs.cwd) :
    ∃ t', t ≤ t' ∧ t' < (f.provideAsking ((calls.foldl DataCall.call (DataProvider.file path)).asking fmt) o loc c ans t).2 ∧
      (f.provideAsking ((calls.foldl DataCall.call (DataProvider.file path)).asking fmt) o loc c ans t).1 =
        f.provide ((calls.foldl DataCall.call (DataProvider.file path)).provider fmt { fs with read := (ans t').read }) o loc c := by
  have hr : ∀ t, (resolveAsking path (searchSaid calls) ans t).1 = resolve fs path (searchSaid calls) := fun t =>
    resolveAsking_same h1 h2 path _ t
  have hr' : ∀ rd, resolve { fs with read := rd } path (searchSaid calls) = resolve fs path (searchSaid calls) := fun rd => by
    rw [← hr t]
    exact (resolveAsking_same (fs := { fs with read := rd }) h1 h2 path _ t).symm
  have hlt : ∀ t, t < (resolveAsking path (searchSaid calls) ans t).2 := fun t => resolveAsking_asks path _ ans t
  rw [(C41_calls calls path []).1]
  generalize hd : DataProvider.mk (.file path (requiredSaid calls) (searchSaid calls)) (targetSaid calls) = d
  have hm : ∀ rd t, d.metadataAsking fmt ans t =
      (d.metadata fmt { fs with read := rd }, (resolveAsking path (searchSaid calls) ans t).2) := by
    intro rd t
    subst hd
    show (Metadata.from _ (.file ((resolveAsking path _ ans t).1.getD path)), _) = _
    simp only [hr, DataProvider.metadata, hr']
  have key : ∀ t, ∃ t', t ≤ t' ∧ t' < (d.dataAsking fmt ans t).2 ∧
      (d.dataAsking fmt ans t).1 = d.data fmt { fs with read := (ans t').read } := by
    intro t
    rcases hres : resolveAsking path (searchSaid calls) ans t with ⟨r, t'⟩
    have e := hr t
    have l := hlt t
    rw [hres] at e l
    subst hd
    cases r with
    | none =>
      refine ⟨t, Nat.le_refl _, ?_⟩
      rw [dataAsking_none hres fmt, C40_absent _ fmt path _ _ _ ((hr' _).trans e.symm)]
      exact ⟨l, rfl⟩
    | some q =>
      refine ⟨t', Nat.le_of_lt l, ?_⟩
      rw [dataAsking_some hres fmt, ← (C41_calls calls path []).1, C41_file fmt _ calls path q ((hr' _).trans e.symm)]
      exact ⟨Nat.lt_succ_self _, rfl⟩
  obtain ⟨t', h3, h4, h5⟩ := key (resolveAsking path (searchSaid calls) ans t).2
  have hmt := hm (ans t').read t
  unfold Fig.provideAsking Fig.provide
  simp only [asking, Ask.bind, Ask.pure, hmt]
  rcases Tag.next c with ⟨tag, c'⟩
  cases tag with
  | none =>
    refine ⟨t, Nat.le_refl _, hlt t, ?_⟩
    rfl
  | some tag =>
    refine ⟨t', Nat.le_trans (Nat.le_of_lt (hlt t)) h3, h4, ?_⟩
    simp only [Option.map_some]
    rw [Ask.bind, Ask.bind, h5]
    rfl

/-- **C78** (source), the part that holds: if during the call files change only in what they contain, and the working
directory stays, the figment is the one of a single moment: with the files there are, and what they contain at some
moment of the call. So the source named is the file read (C40). Missing: files come and go (`C78_source_fails`). -/
theorem C78_source_partial (f : Fig) (calls : List DataCall) (path : Str) (fmt : Format) (o : Order) (loc : Location)
    (c : BitVec 64) (ans : Nat → Outside) (t t1 : Nat) (r : Option Fig × BitVec 64) (fs : FileSystem)
    (hcall : f.provideAsking ((calls.foldl DataCall.call (DataProvider.file path)).asking fmt) o loc c ans t = (r, t1))
    (h1 : ∀ n, t ≤ n → n < t1 → (ans n).isFile = fs.isFile) (h2 : ∀ n, t ≤ n → n < t1 → (ans n).cwd = fs.cwd) :
    ∃ t', t ≤ t' ∧ t' < t1 ∧
      r = f.provide ((calls.foldl DataCall.call (DataProvider.file path)).provider fmt { fs with read := (ans t').read }) o loc c := by
  -- answers that stay outside of the call as well give the same
  let ans' : Nat → Outside := fun n => if t ≤ n ∧ n < t1 then ans n else { fs with vars := [] }
  have hin : ∀ n, t ≤ n → n < t1 → ans' n = ans n := fun n a b => if_pos ⟨a, b⟩
  have hsame := (Fig.provideAsking_local f ((calls.foldl DataCall.call (DataProvider.file path)).asking fmt) o loc c
    (metadataAsking_local _ _) (Ask.local_bind (dataAsking_local _ _) fun _ => Ask.local_pure _) (Ask.local_pure _)
    (Ask.local_pure _) ans t).2 ans' (by rw [hcall]; exact hin)
  obtain ⟨t', a, b, e⟩ := source_always f calls path fmt o loc c ans' t fs
    (fun n => by
      by_cases h : t ≤ n ∧ n < t1
      · rw [hin n h.1 h.2]; exact h1 n h.1 h.2
      · show (if t ≤ n ∧ n < t1 then ans n else _).isFile = _
        rw [if_neg h])
    (fun n => by
      by_cases h : t ≤ n ∧ n < t1
      · rw [hin n h.1 h.2]; exact h2 n h.1 h.2
      · show (if t ≤ n ∧ n < t1 then ans n else _).cwd = _
        rw [if_neg h])
  rw [hsame, hcall] at b e
  exact ⟨t', a, b, by rw [← hin t' a b]; exact e⟩

/-- A format whose text is the value of the key `k`. -/
def Ex.plainFormat : Format where
  name := str "Plain"
  dict t := .ok [(str "k", .string Tag.Default t)]
  profiles _ := .error (str "not profiles")
  custom e := e

/-- `c.txt` is in `/a` and at first in `/a/b`, the working directory; the latter is removed after two questions. -/
def Ex.removed (n : Nat) : Outside where
  isFile p := p == str "/a/c.txt" || (n < 2 && p == str "/a/b/c.txt")
  read p := if p == str "/a/c.txt" then .ok (str "outer") else if n < 2 && p == str "/a/b/c.txt" then .ok (str "inner") else .error (str "gone")
  cwd := some (str "/a/b")
  vars := []

/-- C78 (source) fails in general: the file is looked for once to be named and again to be read, so a value read from one
file is said to be from another that was there a moment before. -/
theorem C78_source_fails : ∃ (ans : Nat → Outside) (g : Fig),
    (Fig.new.provideAsking ((DataProvider.file (str "c.txt")).asking Ex.plainFormat) .Merge Ex.loc 1#64 ans 0).1 = (some g, 2#64) ∧
    g.findValue (str "k") = .ok (.string ⟨1#64⟩ (str "outer")) ∧
    (g.findMetadata (str "k")).bind (·.source) = some (.file (str "/a/b/c.txt")) :=
  ⟨Ex.removed, _, rfl, rfl, rfl⟩

/-- C78 (an optional file may be absent) fails in general: one that is removed after it was seen and before it is read is
an error, though it is not required. -/
theorem C78_optional_fails (path : Str) (hp : Path.hasRoot path = true) (fmt : Format) (calls : List DataCall) (e : Str) :
    ∃ ans : Nat → Outside, (∀ n, 0 < n → (ans n).isFile path = false) ∧
      ((calls.foldl DataCall.call (DataProvider.file path)).dataAsking fmt ans 0).1 =
        .error (Error.ofKind (.message (fmt.custom e))) := by
  refine ⟨fun n => { isFile := fun _ => n == 0, read := fun _ => .error e, cwd := none, vars := [] }, fun n hn => ?_, ?_⟩
  · show (n == 0) = false
    simp; omega
  · rw [C78_read_exact _ 0 path calls (.inl hp) fmt]
    rfl

/-! ## Examples -/

/-- The search of `C78_source_fails` for the name, and for the text. -/
example : ComesUpon Ex.removed 0 [str "a", str "b"] (str "c.txt") 2 ∧ ComesUpon Ex.removed 2 [str "a", str "b"] (str "c.txt") 1 := by
  refine ⟨⟨by decide, by decide, fun m h1 h2 => ?_⟩, ⟨by decide, by decide, fun m h1 h2 => ?_⟩⟩
  · simp at h2; omega
  · have : m = 2 := by simp at h2; omega
    subst this; decide

/-- The hypothesis of `C78_stays` holds for the file in `/a`. -/
example : ∀ k, (Ex.removed k).isFile (placeAt [str "a", str "b"] (str "c.txt") 1) = true := by
  intro k
  have e : placeAt [str "a", str "b"] (str "c.txt") 1 = str "/a/c.txt" := by decide
  rw [e]
  simp [Ex.removed]

/-- Only what the file contains changes. -/
def Ex.rewritten (n : Nat) : Outside where
  isFile p := p == str "/a/c.txt"
  read _ := .ok (if n < 3 then str "early" else str "later")
  cwd := some (str "/a/b")
  vars := []

/-- The hypotheses of `C78_source_partial` hold where only contents change; the text is the one it has when it is read. -/
example : ∃ g, Fig.new.provideAsking ((DataProvider.file (str "c.txt")).asking Ex.plainFormat) .Merge Ex.loc 1#64 Ex.rewritten 0 =
      ((some g, 2#64), 7) ∧
    g.findValue (str "k") = .ok (.string ⟨1#64⟩ (str "later")) ∧
    (∀ n, (Ex.rewritten n).isFile = (Ex.rewritten 0).isFile) ∧ (∀ n, (Ex.rewritten n).cwd = (Ex.rewritten 0).cwd) :=
  ⟨_, rfl, rfl, fun _ => rfl, fun _ => rfl⟩

/-- A variable that is there at the time of the call is in the figment, though it is gone right after. -/
example [FloatOps] : ∃ data, Env.raw.data [(str "HOST", str "here")] = .ok data ∧
    Map.get Profile.Default data = some [(str "host", .string Tag.Default (str "here"))] := ⟨_, rfl, rfl⟩

/-- Something is asked: the variables are looked at when the provider is merged, after the file. -/
example [FloatOps] : (Fig.new.build 1#64 [(.data [] (DataProvider.file (str "c.txt")) Ex.plainFormat, .Merge, Ex.loc),
    (.env Env.raw, .Join, Ex.loc)] Ex.removed 0).2 = 7 := rfl

end Figment
