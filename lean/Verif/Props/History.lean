import Verif.Lemmas.History
import Verif.Lemmas.Error
import Verif.Spec.Examples
/-!
# C13 – C15, C60: what any history of operations leads to
-/
namespace Figment

/-! ## C13 -/

/-- **C13**: after any history the selected profile is that of the last operation which selects one
(`select`, or merging or admerging a provider that names a profile), else `default`. -/
theorem C13_selected (ops : List Op) (c c' : BitVec 64) (g : Fig) (h : Fig.new.run ops c = (some g, c')) :
    g.profile = ((ops.filterMap Op.selects).getLast?).getD Profile.Default := by
  refine Fig.run_induct (P := fun ops g =>
    g.profile = ((ops.filterMap Op.selects).getLast?).getD Profile.Default) rfl ?_ ?_ h
  · intro ops g c tag _ _ ih _
    simp only [Fig.provideWith, List.filterMap_append, List.filterMap_cons, List.filterMap_nil, Op.selects]
    cases ho : c.order <;> cases hp : c.provider.profile <;> simp [Profile.coalesce, ih]
  · intro ops g p ih
    simp [Fig.select, Op.selects]

/-- **C13**: each operation by itself. -/
theorem C13_each (f : Fig) (p : Provider) (loc : Location) (t : Tag) :
    (∀ q, p.profile = some q → (f.provideWith p .Merge loc t).profile = q ∧
      (f.provideWith p .Admerge loc t).profile = q) ∧
    (f.provideWith p .Join loc t).profile = f.profile ∧
    (f.provideWith p .Adjoin loc t).profile = f.profile ∧
    (p.profile = none → ∀ o, (f.provideWith p o loc t).profile = f.profile) := by
  refine ⟨fun q hq => ?_, ?_, ?_, fun hq o => ?_⟩
  · simp [Fig.provideWith, hq, Profile.coalesce]
  · cases hq : p.profile <;> simp [Fig.provideWith, hq, Profile.coalesce]
  · cases hq : p.profile <;> simp [Fig.provideWith, hq, Profile.coalesce]
  · simp [Fig.provideWith, hq]

example : ∃ g c', Fig.new.run [.select Ex.dev, .add ⟨.Join, (Ex.fig1.select Profile.Global).toProvider, Ex.loc⟩,
    .add ⟨.Merge, Ex.prov2, Ex.loc⟩] 1#64 = (some g, c') ∧ g.profile = Ex.dev := ⟨_, _, rfl, rfl⟩

/-! ## C14 -/

/-- **C14**: after any history the data is available if and only if every provider gave data; if one did
not, every lookup and every extraction (all of which start from `merged`) fails, also after focusing. -/
theorem C14_failure (ops : List Op) (c c' : BitVec 64) (g : Fig) (h : Fig.new.run ops c = (some g, c')) :
    ((∃ m, g.value = .ok m) ↔ ∀ d ∈ opData ops, ∃ n, d = .ok n) ∧
    ((∃ e, Except.error e ∈ opData ops) →
      (∃ e, g.merged = .error e) ∧ (∀ path, ∃ e, g.findValue path = .error e) ∧
      (∀ path, g.contains path = false) ∧ (∀ path, g.findMetadata path = none) ∧
      (∀ key, ∃ e, (g.focus key).merged = .error e) ∧ g.profiles = []) := by
  have key : (∃ m, g.value = .ok m) ↔ ∀ d ∈ opData ops, ∃ n, d = .ok n := by
    refine Fig.run_induct (P := fun ops g => (∃ m, g.value = .ok m) ↔ ∀ d ∈ opData ops, ∃ n, d = .ok n)
      ?_ ?_ ?_ h
    · simp [Fig.new, opData]
    · intro ops g c tag _ _ ih _
      simp only [Fig.provideWith, opData_append, List.mem_append]
      constructor
      · rintro ⟨m, hm⟩ d hd
        cases hv : g.value with
        | error e => cases hp : c.provider.data <;> rw [hv, hp] at hm <;> cases hm
        | ok old =>
          cases hp : c.provider.data with
          | error e => rw [hv, hp] at hm; cases hm
          | ok n =>
            rcases hd with hd | hd
            · exact (ih.1 ⟨_, hv⟩) d hd
            · simp only [opData, List.mem_cons, List.not_mem_nil, or_false] at hd
              exact ⟨n, hd.trans hp⟩
      · intro hall
        obtain ⟨old, hv⟩ := ih.2 fun d hd => hall d (.inl hd)
        obtain ⟨n, hn⟩ := hall c.provider.data (.inr (by simp [opData]))
        exact ⟨_, by rw [hv, hn]; rfl⟩
    · intro ops g p ih
      simpa [Fig.select, opData_append, opData] using ih
  refine ⟨key, ?_⟩
  rintro ⟨e, he⟩
  have hv : ∃ e, g.value = .error e := by
    cases hv : g.value with
    | error e => exact ⟨e, rfl⟩
    | ok m => obtain ⟨n, hn⟩ := key.1 ⟨m, hv⟩ _ he; cases hn
  obtain ⟨e', hv⟩ := hv
  have hmerged : g.merged = .error (e'.resolved g.metadata g.profile) := by
    simp [Fig.merged, Fig.resolvedValue, hv]
  refine ⟨⟨_, hmerged⟩, fun path => ?_, fun path => ?_, fun path => ?_, fun key => ?_, ?_⟩
  · exact ⟨_, by rw [Fig.findValue, hmerged]⟩
  · rw [Fig.contains, hmerged]
  · rw [Fig.findMetadata, Fig.findValue, hmerged]
  · simp [Fig.focus, Fig.merged, Fig.resolvedValue, hv]
  · rw [Fig.profiles, hv]

example : ∃ g c', Fig.new.run [.add ⟨.Merge, Ex.prov1, Ex.loc⟩, .add ⟨.Join, Ex.provErr, Ex.loc⟩,
    .add ⟨.Merge, Ex.prov2, Ex.loc⟩] 1#64 = (some g, c') ∧ ∃ e, g.value = .error e := ⟨_, _, rfl, _, rfl⟩

/-! ## C15 -/

/-- **C15, refuted**: with three failing providers the second failure is lost: the error iterates over the
first and the last one, and `count()` is 2. -/
theorem C15_middle_errors_lost :
    ∃ ops g c', Fig.new.run ops 1#64 = (some g, c') ∧ (opErrors ops).length = 3 ∧
      ∃ e, g.merged = .error e ∧ e.count = 2 ∧
        ∀ l, Error.Yields (some e) l → l.map Error.what = [(.message (str "1"), []), (.message (str "3"), [])] := by
  let bad (x : String) : Op :=
    .add ⟨.Merge, Provider.plain Metadata.Default (.error (Error.ofKind (.message (str x)))), Ex.loc⟩
  refine ⟨[bad "1", bad "2", bad "3"], _, _, rfl, rfl, _, rfl, rfl, fun l hl => ?_⟩
  rw [Error.yields_iff.1 hl]
  rfl

/-- **C15, the part that holds** (missing: more than two failures, see `C15_middle_errors_lost`): if at
most two providers failed, with errors that are not chained themselves, the error of any extraction
iterates over exactly their errors, in the order added, and `count()` is their number. -/
theorem C15_errors_partial (ops : List Op) (c c' : BitVec 64) (g : Fig) (h : Fig.new.run ops c = (some g, c'))
    (h2 : (opErrors ops).length ≤ 2) (hp : ∀ e ∈ opErrors ops, e.prev = none)
    (e : Error) (he : g.merged = .error e) (l : List Error) (hl : Error.Yields (some e) l) :
    l.map Error.what = (opErrors ops).map Error.what ∧ e.count = (opErrors ops).length := by
  have hit := Error.yields_iff.1 hl
  have hv : ∃ e', g.value = .error e' ∧ e = e'.resolved g.metadata g.profile := by
    cases hv : g.value with
    | ok m => simp [Fig.merged, Fig.resolvedValue, hv] at he
    | error e' => simp [Fig.merged, Fig.resolvedValue, hv] at he; exact ⟨e', rfl, he.symm⟩
  obtain ⟨e', hv, rfl⟩ := hv
  have hw : ∀ x, (Error.resolved g.metadata g.profile x).what = x.what := by intro x; cases x <;> rfl
  have hmap : l.map Error.what = (Error.items e').map Error.what := by
    rw [hit, Error.items_resolved, List.map_map]; congr 1; funext x; exact hw x
  have key : (Error.items e').map Error.what = (opErrors ops).map Error.what := by
    obtain ⟨first, rest, h1, t, hs, hm⟩ := Fig.run_errors h e' hv
    rw [h1] at h2 hp ⊢
    match rest, h2, hp, hs, hm with
    | [], _, hp, hs, _ =>
      rw [hs rfl, Error.items_of_prev_none (by rw [Error.prev_retagged]; exact hp first (by simp))]
      simp [Error.what_retagged]
    | [b], _, hp, _, hm =>
      obtain ⟨t', ht'⟩ := hm b rfl
      rw [ht', Error.items_setPrev_some,
        Error.items_of_prev_none (e := b.retagged t') (by rw [Error.prev_retagged]; exact hp b (by simp))]
      simp [Error.what_retagged, Error.what_last_head]
    | _ :: _ :: _, h2, _, _, _ => simp at h2
  refine ⟨hmap.trans key, ?_⟩
  rw [Error.count_eq, ← hit, ← List.length_map (f := Error.what), hmap, key, List.length_map]

/-- **C15, what is reported of any number of failures**: the first item is the first failing provider's
error, and if there are at least two, all the following items are those of the last failing provider's
error. -/
theorem C15_first_and_last (ops : List Op) (c c' : BitVec 64) (g : Fig) (h : Fig.new.run ops c = (some g, c'))
    (e : Error) (he : g.merged = .error e) (l : List Error) (hl : Error.Yields (some e) l) :
    ∃ first rest, opErrors ops = first :: rest ∧ (l.head?.map Error.what = some first.what) ∧
      ∀ b l', rest.getLast? = some b → Error.Yields (some b) l' →
        l.map Error.what = first.what :: l'.map Error.what := by
  have hit := Error.yields_iff.1 hl
  have hv : ∃ e', g.value = .error e' ∧ e = e'.resolved g.metadata g.profile := by
    cases hv : g.value with
    | ok m => simp [Fig.merged, Fig.resolvedValue, hv] at he
    | error e' => simp [Fig.merged, Fig.resolvedValue, hv] at he; exact ⟨e', rfl, he.symm⟩
  obtain ⟨e', hv, rfl⟩ := hv
  have hw : ∀ x, (Error.resolved g.metadata g.profile x).what = x.what := by intro x; cases x <;> rfl
  have hmap : l.map Error.what = (Error.items e').map Error.what := by
    rw [hit, Error.items_resolved, List.map_map]; congr 1; funext x; exact hw x
  obtain ⟨first, rest, h1, t, hs, hm⟩ := Fig.run_errors h e' hv
  refine ⟨first, rest, h1, ?_, ?_⟩
  · have hh : ∀ x : Error, (Error.items x).head?.map Error.what = some x.what := by intro x; cases x <;> rfl
    rw [← List.head?_map, hmap, List.head?_map, hh]
    cases hr : rest.getLast? with
    | none => rw [hs (by simpa using hr), Error.what_retagged]
    | some b =>
      obtain ⟨t', ht'⟩ := hm b hr
      rw [ht', Error.what_setPrev, Error.what_retagged]
  · intro b l' hb hl'
    obtain ⟨t', ht'⟩ := hm b hb
    rw [hmap, ht', Error.items_setPrev_some, List.map_cons, Error.what_last_head, Error.what_retagged,
      Error.yields_iff.1 hl']
    congr 1
    rw [Error.retagged]
    split
    · cases b <;> rfl
    · rfl

example : ∃ g c', Fig.new.run [.add ⟨.Merge, Ex.provErr, Ex.loc⟩, .add ⟨.Join, Ex.prov1, Ex.loc⟩,
    .add ⟨.Merge, Ex.provErr, Ex.loc⟩] 1#64 = (some g, c') ∧ ∃ e, g.merged = .error e ∧ e.count = 2 :=
  ⟨_, _, rfl, _, rfl, rfl⟩

/-! ## C60 -/

/-- **C60**: after any history, `profiles()` is in strictly increasing case-insensitive order (so each
profile appears once), it has exactly the profiles under which some provider gave data, and it is empty if
some provider failed. -/
theorem C60_profiles (ops : List Op) (c c' : BitVec 64) (g : Fig) (h : Fig.new.run ops c = (some g, c'))
    (hw : OpsWF ops) :
    g.profiles.Pairwise (fun p q => compare (Str.lower p.name) (Str.lower q.name) = .lt) ∧
    (opErrors ops = [] → ∀ pr : Profile, (∃ q ∈ g.profiles, q.same pr = true) ↔
      ∃ n, Except.ok n ∈ opData ops ∧ ∃ q ∈ Map.keys n, q.same pr = true) ∧
    (opErrors ops ≠ [] → g.profiles = []) := by
  refine ⟨?_, ?_, ?_⟩
  · rw [Fig.profiles]
    cases hv : g.value with
    | error e => exact List.Pairwise.nil
    | ok m =>
      show List.Pairwise _ (m.map (·.1))
      rw [List.pairwise_map]
      exact (Fig.run_wf h hw m hv).1
  · intro he pr
    obtain ⟨m, hm⟩ := (C14_failure ops c c' g h).1.2 (opErrors_eq_nil.1 he)
    rw [Fig.profiles, hm]
    exact (Map.mem_keys_same pr m).trans (Fig.run_profiles h hw m hm pr)
  · intro he
    cases hv : g.value with
    | error e => rw [Fig.profiles, hv]
    | ok m => exact absurd (opErrors_eq_nil.2 ((C14_failure ops c c' g h).1.1 ⟨m, hv⟩)) he

example : ∃ g c', Fig.new.run [.add ⟨.Merge, Ex.prov1, Ex.loc⟩, .add ⟨.Join, Ex.prov2, Ex.loc⟩] 1#64 = (some g, c')
    ∧ g.profiles = [Profile.Default, Ex.dev, Profile.Global] := ⟨_, _, rfl, rfl⟩

end Figment
