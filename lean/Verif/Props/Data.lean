import Verif.Lemmas.DataProvider
import Verif.Props.Combine
/-!
# C40, C41: file and string providers

The file system, the working directory and the parser of the format are arbitrary.
-/
namespace Figment
open DataProvider

/-! ## C40 -/

/-- **C40** (search): a relative path is looked for in the working directory (any depth), then in each directory above
it; the result is the file in the nearest directory that has one, and nothing if none has. -/
theorem C40_search (fs : FileSystem) (names : List Str) (hn : ∀ s ∈ names, IsName s)
    (hc : fs.cwd = some (dirPath names)) (path : Str) (hp : Path.hasRoot path = false) :
    (∀ t, resolve fs path true = some t ↔ ∃ n, n ≤ names.length ∧ t = Path.join (dirPath (names.take n)) path ∧
      fs.isFile t = true ∧
      ∀ m, n < m → m ≤ names.length → fs.isFile (Path.join (dirPath (names.take m)) path) = false) ∧
    (resolve fs path true = none ↔
      ∀ n, n ≤ names.length → fs.isFile (Path.join (dirPath (names.take n)) path) = false) := by
  obtain ⟨r, hr, hspec⟩ := resolveLoop_spec fs path names hn
  have hcount : Path.count (dirPath names) + 1 = names.length + 2 := by
    rw [Path.count, components_dirPath names hn]; simp
  have hres : resolve fs path true = r := by
    unfold resolve
    rw [hp, hc]
    simp only [Bool.not_true, Bool.or_self, Bool.false_eq_true, if_false]
    rw [hcount, hr]
  rw [hres]
  refine ⟨hspec, ?_⟩
  constructor
  · rintro rfl n hn
    -- the nearest one would have been found
    by_cases hall : ∀ m, m ≤ names.length → fs.isFile (Path.join (dirPath (names.take m)) path) = false
    · exact hall n hn
    · exfalso
      have : ∃ m, m ≤ names.length ∧ fs.isFile (Path.join (dirPath (names.take m)) path) = true := by
        apply Classical.byContradiction
        intro hno
        apply hall
        intro m hm
        cases hf : fs.isFile (Path.join (dirPath (names.take m)) path) with
        | false => rfl
        | true => exact absurd ⟨m, hm, hf⟩ hno
      obtain ⟨m, hm, hf⟩ := this
      -- take the largest
      have hmax : ∀ d m, names.length - m = d → m ≤ names.length →
          fs.isFile (Path.join (dirPath (names.take m)) path) = true →
          ∃ n, n ≤ names.length ∧ fs.isFile (Path.join (dirPath (names.take n)) path) = true ∧
            ∀ m, n < m → m ≤ names.length → fs.isFile (Path.join (dirPath (names.take m)) path) = false := by
        intro d
        induction d using Nat.strongRecOn with
        | _ d ih =>
          intro m hd hm hf
          by_cases hb : ∃ m', m < m' ∧ m' ≤ names.length ∧ fs.isFile (Path.join (dirPath (names.take m')) path) = true
          · obtain ⟨m', h1, h2, h3⟩ := hb
            exact ih (names.length - m') (by omega) m' rfl h2 h3
          · refine ⟨m, hm, hf, fun m' h1 h2 => ?_⟩
            cases hf' : fs.isFile (Path.join (dirPath (names.take m')) path) with
            | false => rfl
            | true => exact absurd ⟨m', h1, h2, hf'⟩ hb
      obtain ⟨n, h1, h2, h3⟩ := hmax _ m rfl hm hf
      have := (hspec _).2 ⟨n, h1, rfl, h2, h3⟩
      cases this
  · intro hall
    cases r with
    | none => rfl
    | some t =>
      obtain ⟨n, h1, rfl, h2, _⟩ := (hspec t).1 rfl
      rw [hall n h1] at h2; cases h2

/-- **C40** (exact): an absolute path, and any path without search, is looked at only as given. -/
theorem C40_exact (fs : FileSystem) (path : Str) (search : Bool) (h : Path.hasRoot path = true ∨ search = false) :
    resolve fs path search = if fs.isFile path then some path else none := by
  unfold resolve
  rcases h with h | h <;> rw [h] <;> simp

/-- **C40** (absence): a file that is not found gives no data if it is not required, and an error naming it if it is;
nothing is read. -/
theorem C40_absent (fs : FileSystem) (f : Format) (path : Str) (required search : Bool) (profile : Option Profile)
    (h : resolve fs path search = none) :
    (DataProvider.mk (.file path required search) profile).data f fs =
      if required then .error (Error.ofKind (.message (str "required file `" ++ path ++ str "` not found")))
      else .ok [] := by
  unfold DataProvider.data DataProvider.read
  simp only [h]
  cases required <;> rfl

/-- **C40** (absence): a figment given a file that is not there and not required has the same data as before. -/
theorem C40_neutral {f g : Fig} {o : Order} {loc : Location} {c c' : BitVec 64} {m : Data} (fs : FileSystem) (fmt : Format)
    (path : Str) (search : Bool) (profile : Option Profile) (h : resolve fs path search = none)
    (hf : f.value = .ok m) (hm : m.WF)
    (hg : f.provide ((DataProvider.mk (.file path false search) profile).provider fmt fs) o loc c = (some g, c')) :
    g.value = .ok m := by
  have hd := C40_absent fs fmt path false search profile h
  obtain ⟨m', h1, _, h3⟩ := C07_empty (n := []) hf hd hm ⟨by trivial, by simp⟩ (by simp) hg
  rw [h1, h3 rfl]

/-- **C40** (search): the search ends for every working directory, in at most as many steps as it has components. -/
theorem C40_ends (fs : FileSystem) (path cwd : Str) :
    ∃ r, resolveLoop fs path (Path.count cwd + 1) cwd = .ok r :=
  resolveLoop_ends fs path _ cwd (Nat.lt_succ_self _)

/-- **C40**: whatever is read is read from the file found, and that file is the source the provider names; a file that is
not found is named by its path as given. -/
theorem C40_found (fs fs' : FileSystem) (f : Format) (path : Str) (required search : Bool) (profile : Option Profile) :
    (∀ t, resolve fs path search = some t →
      fs.isFile t = true ∧
      ((DataProvider.mk (.file path required search) profile).metadata f fs).source = some (.file t) ∧
      (resolve fs' path search = some t → fs'.read t = fs.read t →
        (DataProvider.mk (.file path required search) profile).data f fs =
        (DataProvider.mk (.file path required search) profile).data f fs')) ∧
    (resolve fs path search = none →
      ((DataProvider.mk (.file path required search) profile).metadata f fs).source = some (.file path)) := by
  refine ⟨fun t ht => ⟨?_, ?_, ?_⟩, fun h => ?_⟩
  · have hloop : ∀ n cwd, resolveLoop fs path n cwd = .ok (some t) → fs.isFile t = true := by
      intro n
      induction n with
      | zero => intro cwd h; cases h
      | succ n ih =>
        intro cwd h
        rw [resolveLoop] at h
        split at h
        · cases h; assumption
        · cases hp : Path.parent cwd with
          | none => rw [hp] at h; cases h
          | some cwd' => rw [hp] at h; exact ih cwd' h
    unfold resolve at ht
    split at ht
    · split at ht
      · cases ht; assumption
      · cases ht
    · cases hc : fs.cwd with
      | none => rw [hc] at ht; cases ht
      | some cwd =>
        rw [hc] at ht
        dsimp only at ht
        cases hl : resolveLoop fs path (Path.count cwd + 1) cwd with
        | error e => rw [hl] at ht; cases ht
        | ok r => rw [hl] at ht; dsimp only at ht; subst ht; exact hloop _ _ hl
  · unfold DataProvider.metadata
    simp only [ht]; rfl
  · intro ht' hread
    unfold DataProvider.data DataProvider.read fromPath
    simp only [ht, ht', hread]
  · unfold DataProvider.metadata
    simp only [h]; rfl

/-- A file system with one file, seen from two levels below. -/
def C40_example : FileSystem :=
  { isFile := fun p => p = str "/app/Config.toml", read := fun _ => .ok (str "text"), cwd := some (str "/app/src/x") }

example : C40_example.cwd = some (dirPath [str "app", str "src", str "x"]) ∧
    (∀ s ∈ [str "app", str "src", str "x"], IsName s) ∧
    resolve C40_example (str "Config.toml") true = some (str "/app/Config.toml") ∧
    resolve C40_example (str "Config.toml") false = none ∧
    resolve C40_example (str "Other.toml") true = none := by decide

/-! ## C41 -/

/-- **C41** (calls): the last of `nested()` and `profile(..)` decides where the data goes, the last `required(..)` and
`search(..)` decide about the file; nothing else changes. -/
theorem C41_calls (calls : List DataCall) (path text : Str) :
    calls.foldl DataCall.call (DataProvider.file path) =
      ⟨.file path (requiredSaid calls) (searchSaid calls), targetSaid calls⟩ ∧
    calls.foldl DataCall.call (DataProvider.string text) = ⟨.string text, targetSaid calls⟩ := by
  have hlast : ∀ (f : DataCall → Option (Option Profile)) (calls : List DataCall) (c : DataCall) (d : Option Profile),
      ((c :: calls).reverse.findSome? f).getD d = (calls.reverse.findSome? f).getD ((f c).getD d) := by
    intro f calls c d
    rw [List.reverse_cons, List.findSome?_append]
    cases List.findSome? f calls.reverse with
    | some x => rfl
    | none => simp only [List.findSome?_cons, List.findSome?_nil]; cases f c <;> rfl
  have hlastb : ∀ (f : DataCall → Option Bool) (calls : List DataCall) (c : DataCall) (d : Bool),
      ((c :: calls).reverse.findSome? f).getD d = (calls.reverse.findSome? f).getD ((f c).getD d) := by
    intro f calls c d
    rw [List.reverse_cons, List.findSome?_append]
    cases List.findSome? f calls.reverse with
    | some x => rfl
    | none => simp only [List.findSome?_cons, List.findSome?_nil]; cases f c <;> rfl
  constructor
  · have h : ∀ (calls : List DataCall) (r s : Bool) (p : Option Profile),
        calls.foldl DataCall.call ⟨.file path r s, p⟩ =
        ⟨.file path ((calls.reverse.findSome? fun | .required b => some b | _ => none).getD r)
          ((calls.reverse.findSome? fun | .search b => some b | _ => none).getD s),
         (calls.reverse.findSome? fun | .nested => some none | .profile p => some (some p) | _ => none).getD p⟩ := by
      intro calls
      induction calls with
      | nil => intro r s p; rfl
      | cons c calls ih =>
        intro r s p
        rw [List.foldl_cons, hlast, hlastb, hlastb]
        cases c <;> exact ih ..
    exact h calls false true (some Profile.Default)
  · have h : ∀ (calls : List DataCall) (p : Option Profile), calls.foldl DataCall.call ⟨.string text, p⟩ =
        ⟨.string text, (calls.reverse.findSome? fun | .nested => some none | .profile p => some (some p) | _ => none).getD p⟩ := by
      intro calls
      induction calls with
      | nil => intro p; rfl
      | cons c calls ih =>
        intro p
        rw [List.foldl_cons, hlast]
        cases c <;> exact ih ..
    exact h calls (some Profile.Default)

/-- What a provider with the text `t` must give: the parsed dictionary under the target profile only, or the parsed
profiles; the parser's message as an error if it fails. -/
def parsedData (f : Format) (target : Option Profile) (t : Str) : Except Error Data :=
  match target with
  | some p =>
    match f.dict t with
    | .ok d => .ok [(p, d)]
    | .error e => .error (Error.ofKind (.message e))
  | none =>
    match f.profiles t with
    | .ok m => .ok m
    | .error e => .error (Error.ofKind (.message e))

/-- **C41** (strings): the data of a string provider after any calls. -/
theorem C41_string (f : Format) (fs : FileSystem) (calls : List DataCall) (text : Str) :
    (calls.foldl DataCall.call (DataProvider.string text)).data f fs = parsedData f (targetSaid calls) text := by
  rw [(C41_calls calls [] text).2]
  unfold DataProvider.data DataProvider.read parsedData
  cases targetSaid calls with
  | none =>
    simp only
    cases f.profiles text <;> rfl
  | some p =>
    simp only
    cases f.dict text <;> rfl

/-- **C41** (files): the data of a file provider after any calls, if the file is found: that of its text, or an error with
the format's message if it cannot be read. -/
theorem C41_file (f : Format) (fs : FileSystem) (calls : List DataCall) (path t : Str)
    (h : resolve fs path (searchSaid calls) = some t) :
    (calls.foldl DataCall.call (DataProvider.file path)).data f fs =
      match fs.read t with
      | .ok text => parsedData f (targetSaid calls) text
      | .error e => .error (Error.ofKind (.message (f.custom e))) := by
  rw [(C41_calls calls path []).1]
  unfold DataProvider.data DataProvider.read parsedData fromPath
  simp only [h]
  cases targetSaid calls with
  | none =>
    simp only
    cases fs.read t with
    | error e => rfl
    | ok text => simp only; cases f.profiles text <;> rfl
  | some p =>
    simp only
    cases fs.read t with
    | error e => rfl
    | ok text => simp only; cases f.dict text <;> rfl

/-- **C41** (files): and if it is not found. -/
theorem C41_file_absent (f : Format) (fs : FileSystem) (calls : List DataCall) (path : Str)
    (h : resolve fs path (searchSaid calls) = none) :
    (calls.foldl DataCall.call (DataProvider.file path)).data f fs =
      if requiredSaid calls then .error (Error.ofKind (.message (str "required file `" ++ path ++ str "` not found")))
      else .ok [] := by
  rw [(C41_calls calls path []).1]
  exact C40_absent fs f path _ _ _ h

/-- **C41**: `file_exact(path)` is `file(path).search(false)`. -/
theorem C41_file_exact (path : Str) : fileExact path = ⟨.file path false false, some Profile.Default⟩ := rfl

example : targetSaid [.profile ⟨str "dev"⟩, .nested, .search false] = none ∧
    targetSaid [.nested, .profile ⟨str "dev"⟩, .required true] = some ⟨str "dev"⟩ ∧
    searchSaid [.search false, .nested] = false := by decide

end Figment
