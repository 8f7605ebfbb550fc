import Verif.Lemmas.Forged
import Verif.Props.Outcome
/-!
# C71: what a document becomes

A `Doc` (Model/Document) is what a format's parser hands over. The specification is `Doc.Is` (Spec/Document): which value a
document is.
-/
namespace Figment

/-- **C71**: reading a document as a `Value` gives a value if and only if all its keys are text and it has no byte strings
or newtypes, and then gives the value the document is; for documents without the crate's two reserved keys. -/
theorem C71_value (d : Doc) (hf : d.free = true) (v : Value) : d.value = some v ↔ d.readable = true ∧ d.Is v :=
  Doc.value_iff d hf v

/-- **C71**: a readable document is one value, which is well-formed and in which nothing is tagged. -/
theorem C71_unique (d : Doc) (hf : d.free = true) (hr : d.readable = true) :
    ∃ v, d.Is v ∧ v.WF ∧ v.tagsAll (fun t => t.same Tag.Default) = true ∧ ∀ u, d.Is u → u = v := by
  obtain ⟨v, _, hv⟩ := Doc.value_is d hf hr
  exact ⟨v, hv, hv.fine.1, hv.fine.2, fun u hu => hu.unique hv⟩

/-- **C71**, paths: if a path leads to a part of the document, `find` finds at that path the value that part is. -/
theorem C71_path (d e : Doc) (hf : d.free = true) (v : Value) (hv : d.value = some v) (path : Str)
    (h : d.Leads (pathKeys path) e) : ∃ u, v.find path = some u ∧ e.Is u := by
  obtain ⟨u, hu, hi⟩ := ((C71_value d hf v).1 hv).2.leads h
  exact ⟨u, by rw [Value.find_eq]; exact hu, hi⟩

/-- **C71**, order: the order of entries with different keys does not matter. -/
theorem C71_order (l l' : List (Option Str × Doc)) (hp : l.Perm l') (hn : (l.map (·.1)).Nodup)
    (hf : (Doc.map l).free = true) : (Doc.map l).value = (Doc.map l').value := by
  have hf' : (Doc.map l').free = true := Doc.checkMap_iff.2 fun e he => Doc.checkMap_iff.1 hf e (hp.mem_iff.2 he)
  have hrr : (Doc.map l).readable = true ↔ (Doc.map l').readable = true :=
    ⟨fun h => Doc.checkMap_iff.2 fun e he => Doc.checkMap_iff.1 h e (hp.mem_iff.2 he),
      fun h => Doc.checkMap_iff.2 fun e he => Doc.checkMap_iff.1 h e (hp.mem_iff.1 he)⟩
  have mem : ∀ (l : List (Option Str × Doc)), (l.map (·.1)).Nodup → ∀ k d, Doc.last k l = some d ↔ (some k, d) ∈ l := by
    intro l hn k d
    refine ⟨Doc.last_mem, fun h => ?_⟩
    induction l with
    | nil => cases h
    | cons e r ih =>
      rw [List.map_cons, List.nodup_cons] at hn
      rw [Doc.last_cons]
      rcases List.mem_cons.1 h with rfl | h
      · have : Doc.last k r = none := by
          cases hl : Doc.last k r with
          | none => rfl
          | some x => exact absurd (List.mem_map_of_mem (f := (·.1)) (Doc.last_mem hl)) hn.1
        rw [this, Option.none_or, if_pos rfl]
      · rw [ih hn.2 h]
        rfl
  have hlast : ∀ k, Doc.last k l = Doc.last k l' := by
    intro k
    apply Option.ext
    intro d
    rw [mem l hn, mem l' ((hp.map _).nodup_iff.1 hn), hp.mem_iff]
  have his : ∀ v, (Doc.map l).Is v ↔ (Doc.map l').Is v := by
    intro v
    constructor
    · intro h
      cases h with
      | map h1 h2 h3 => exact .map h1 (fun k => hlast k ▸ h2 k) fun k d v hk => h3 k d v (hlast k ▸ hk)
    · intro h
      cases h with
      | map h1 h2 h3 => exact .map h1 (fun k => hlast k ▸ h2 k) fun k d v hk => h3 k d v (hlast k ▸ hk)
  apply Option.ext
  intro v
  rw [C71_value _ hf, C71_value _ hf', hrr, his]

/-- The data of a provider with this text, after these calls: a string, or a file that is found and has it. -/
def TextData (fmt : Format) (fs : FileSystem) (calls : List DataCall) (text : Str) (r : Except Error Data) : Prop :=
  r = (calls.foldl DataCall.call (DataProvider.string text)).data fmt fs ∨
  ∃ path t, DataProvider.resolve fs path (searchSaid calls) = some t ∧ fs.read t = .ok text ∧
    r = (calls.foldl DataCall.call (DataProvider.file path)).data fmt fs

theorem TextData.parsed {fmt : Format} {fs : FileSystem} {calls : List DataCall} {text : Str} {r : Except Error Data}
    (h : TextData fmt fs calls text r) : r = parsedData fmt (targetSaid calls) text := by
  rcases h with rfl | ⟨path, t, h1, h2, rfl⟩
  · exact C41_string ..
  · rw [C41_file fmt fs calls path t h1, h2]

/-- **C71**, providers with a profile: the data is the dictionary the document is, in that profile; if the document is not
one, the format's refusal is the error. -/
theorem C71_profile (name : Str) (parse : Str → Except Str Doc) (refuse custom : Str → Str) (fs : FileSystem)
    (calls : List DataCall) (text : Str) (p : Profile) (ht : targetSaid calls = some p) (d : Doc)
    (hd : parse text = .ok d) (hf : d.free = true) (r : Except Error Data)
    (h : TextData (Format.ofDocs name parse refuse custom) fs calls text r) :
    (∀ m, r = .ok m ↔ ∃ x, m = [(p, x)] ∧ d.readable = true ∧ d.IsDict x) ∧
    ((¬ ∃ x, d.readable = true ∧ d.IsDict x) → r = .error (Error.ofKind (.message (refuse text)))) := by
  rw [h.parsed, ht]
  simp only [parsedData, Format.ofDocs, hd]
  cases hx : d.dict with
  | none =>
    refine ⟨fun m => ⟨nofun, ?_⟩, fun _ => rfl⟩
    rintro ⟨x, _, h1, h2⟩
    rw [(Doc.dict_iff d hf x).2 ⟨h1, h2⟩] at hx
    cases hx
  | some x =>
    have hx' := (Doc.dict_iff d hf x).1 hx
    refine ⟨fun m => ⟨?_, ?_⟩, fun hn => absurd ⟨x, hx'⟩ hn⟩
    · intro h; cases h; exact ⟨x, rfl, hx'⟩
    · rintro ⟨y, rfl, h1, h2⟩
      rw [(Doc.dict_iff d hf y).2 ⟨h1, h2⟩] at hx
      cases hx
      rfl

/-- **C71**, nested providers: if every entry of the document is a section that can be read, the data has each profile
exactly as the last section named so, up to case; otherwise the format's refusal is the error. -/
theorem C71_nested (name : Str) (parse : Str → Except Str Doc) (refuse custom : Str → Str) (fs : FileSystem)
    (calls : List DataCall) (text : Str) (ht : targetSaid calls = none) (d : Doc)
    (hd : parse text = .ok d) (hf : d.free = true) (r : Except Error Data)
    (h : TextData (Format.ofDocs name parse refuse custom) fs calls text r) :
    (∀ l, d = .map l → (∀ e ∈ l, ∃ k x, e.1 = some k ∧ e.2.readable = true ∧ e.2.IsDict x) →
      ∃ m, r = .ok m ∧ Map.Sorted m ∧
        ∀ p x, Map.get p m = some x ↔ ∃ s, Doc.lastSection p l = some s ∧ s.IsDict x) ∧
    ((¬ ∃ l, d = .map l ∧ ∀ e ∈ l, ∃ k x, e.1 = some k ∧ e.2.readable = true ∧ e.2.IsDict x) →
      r = .error (Error.ofKind (.message (refuse text)))) := by
  rw [h.parsed, ht]
  simp only [parsedData, Format.ofDocs, hd]
  constructor
  · rintro l rfl hl
    have hfe : ∀ e ∈ l, e.2.free = true := fun e he => (Doc.checkMap_iff.1 hf e he).2
    have hle : ∀ e ∈ l, ∃ k x, e.1 = some k ∧ e.2.dict = some x := by
      intro e he
      obtain ⟨k, x, h1, h2, h3⟩ := hl e he
      exact ⟨k, x, h1, (Doc.dict_iff _ (hfe e he) x).2 ⟨h2, h3⟩⟩
    obtain ⟨m, hm⟩ := Doc.sectionLoop_total hle []
    obtain ⟨_, h2, h3⟩ := Doc.sectionLoop_some hm
    refine ⟨m, ?_, h2 List.Pairwise.nil, fun p x => ?_⟩
    · rw [show (Doc.map l).sections = some m from hm]
    · rw [h3]
      cases hs : Doc.lastSection p l with
      | none => exact ⟨nofun, fun ⟨_, h, _⟩ => by cases h⟩
      | some s =>
        obtain ⟨k, hk, _⟩ := Doc.lastSection_mem hs
        obtain ⟨_, _, _, hr, _⟩ := hl _ hk
        dsimp only at hr ⊢
        rw [Doc.dict_iff s (hfe _ hk) x]
        exact ⟨fun h => ⟨s, rfl, h.2⟩, fun ⟨_, h, h'⟩ => by cases h; exact ⟨hr, h'⟩⟩
  · intro hn
    have : d.sections = none := by
      cases hs : d.sections with
      | none => rfl
      | some m =>
        refine absurd ?_ hn
        cases d with
        | map l =>
          refine ⟨l, rfl, fun e he => ?_⟩
          obtain ⟨k, x, h1, h2⟩ := (Doc.sectionLoop_some hs).1 e he
          obtain ⟨h3, h4⟩ := (Doc.dict_iff e.2 (Doc.checkMap_iff.1 hf e he).2 x).1 h2
          exact ⟨k, x, h1, h3, h4⟩
        | _ => cases hs
    rw [this]

/-- **C71**, end to end: after any calls and then merging a provider with a document, in the global profile (or for
`C70_latest`'s other profiles), a path that leads to something in the document that is not a dictionary finds that, and
`find_metadata` names the provider. -/
theorem C71_merged (name : Str) (parse : Str → Except Str Doc) (refuse custom : Str → Str) (fs : FileSystem)
    (calls : List DataCall) (text : Str) (pr : Profile) (ht : targetSaid calls = some pr) (d : Doc)
    (hd : parse text = .ok d) (hf : d.free = true) (x : Call) (hx : x.order = .Merge)
    (hdata : TextData (Format.ofDocs name parse refuse custom) fs calls text x.provider.data)
    (ops : List Op) (hw : OpsWF (ops ++ [.add x])) (hM : MapsWF (ops ++ [.add x]))
    (hok : ∀ d ∈ opData (ops ++ [.add x]), ∃ n, d = .ok n)
    (c c' : BitVec 64) (f : Fig) (h : Fig.new.run (ops ++ [.add x]) c = (some f, c'))
    (hpr : pr = Profile.Global ∨
      ((∀ m : Data, Except.ok m ∈ opData (ops ++ [.add x]) → m.dictOf Profile.Global = []) ∧
        ((pr = f.profile ∧ pr.isCustom = true) ∨
          (pr = Profile.Default ∧ (f.profile.isCustom = true →
            ∀ m : Data, Except.ok m ∈ opData (ops ++ [.add x]) → m.dictOf f.profile = [])))))
    (path : Str) (e : Doc) (he : d.Leads (pathKeys path) e) (w : Value) (hew : e.Is w) (hwd : w.asDict? = none) :
    (∃ tag, f.findValue path = .ok (w.mapTag fun _ => tag)) ∧
    f.findMetadata path = some { x.provider.metadata with provideLocation := some x.loc } := by
  have hmem : x.provider.data ∈ opData (ops ++ [.add x]) := by
    obtain ⟨tag, hnum⟩ := numbered_add x ops c
    exact numbered_data (c := c) (tag := tag) (by rw [hnum]; exact List.mem_append_right _ (List.mem_singleton.2 rfl))
  obtain ⟨n, hn⟩ := hok _ hmem
  obtain ⟨y, rfl, hr, l, rfl, hi⟩ :=
    ((C71_profile name parse refuse custom fs calls text pr ht d hd hf _ hdata).1 n).1 hn
  obtain ⟨u, hu, heu⟩ := hi.leads he
  cases hew.unique heu
  refine C70_latest ops x hx hw hM hok c c' f h [(pr, y)] hn pr path w ?_ ?_ hpr
  · rw [Data.at]
    have : Data.dictOf [(pr, y)] pr = y := by
      rw [Data.dictOf, Map.get, if_pos (Std.ReflCmp.compare_self ..)]
      rfl
    rw [this]
    exact (Value.getKeys_eq_some_iff_view hwd).1 hu
  · have := hew.fine.2
    cases w <;> simp only [Value.tagsAll, Bool.and_eq_true] at this <;> first | exact this | exact this.1

/-- The reserved keys: a document can say which tag its values have, whatever the tag. It says so with an unsigned number
of at most 64 bits, in any width; with anything else, also a signed number, the document is refused. -/
theorem C71_reserved (d : Doc) (v : Value) (h : d.value = some v) (id : Doc) (w : Value) :
    (Doc.map [(some (str "___figment_value_id"), id), (some (str "___figment_value_value"), d)]).value = some w ↔
      ∃ t : BitVec 64, w = (v.mapTag fun _ => ⟨t⟩) ∧
        ((∃ x, id = .num (.u8 x) ∧ x.toNat = t.toNat) ∨ (∃ x, id = .num (.u16 x) ∧ x.toNat = t.toNat) ∨
          (∃ x, id = .num (.u32 x) ∧ x.toNat = t.toNat) ∨ id = .num (.u64 t)) := by
  have htag : ∀ t : BitVec 64, id.tag = some ⟨t⟩ ↔
      ((∃ x, id = .num (.u8 x) ∧ x.toNat = t.toNat) ∨ (∃ x, id = .num (.u16 x) ∧ x.toNat = t.toNat) ∨
          (∃ x, id = .num (.u32 x) ∧ x.toNat = t.toNat) ∨ id = .num (.u64 t)) := by
    intro t
    have widen : ∀ {n : Nat} (x : BitVec n), n ≤ 64 → (x.setWidth 64 = t ↔ x.toNat = t.toNat) := by
      intro n x hn
      rw [← BitVec.toNat_inj, BitVec.toNat_setWidth,
        Nat.mod_eq_of_lt (Nat.lt_of_lt_of_le x.isLt (Nat.pow_le_pow_right (by decide) hn))]
    unfold Doc.tag
    split
    · rename_i x; simp [widen x]
    · rename_i x; simp [widen x]
    · rename_i x; simp [widen x]
    · rename_i x; simp
    · rename_i h1 h2 h3 h4
      refine ⟨nofun, ?_⟩
      rintro (⟨x, rfl, _⟩ | ⟨x, rfl, _⟩ | ⟨x, rfl, _⟩ | rfl)
      · exact absurd rfl (h1 x)
      · exact absurd rfl (h2 x)
      · exact absurd rfl (h3 x)
      · exact absurd rfl (h4 t)
  have hval : (Doc.map [(some (str "___figment_value_id"), id), (some (str "___figment_value_value"), d)]).value =
      id.tag.map fun t => v.mapTag fun _ => t := by
    show Option.map Value.MapState.finish (Doc.entries _ _) = _
    rw [Doc.entries, if_pos (show str "___figment_value_id" = Value.FIELD0 from rfl)]
    cases id.tag with
    | none => rfl
    | some t =>
      show Option.map Value.MapState.finish (Doc.entries _ _) = _
      rw [Doc.entries, if_neg (by decide), if_pos (show str "___figment_value_value" = Value.FIELD1 from rfl), h]
      rfl
  rw [hval]
  constructor
  · intro e
    cases ht : id.tag with
    | none => rw [ht] at e; cases e
    | some t =>
      rw [ht] at e
      cases e
      exact ⟨t.raw, rfl, (htag t.raw).1 ht⟩
  · rintro ⟨t, rfl, ht⟩
    rw [(htag t).2 ht]
    rfl

/-- **C71**, for every document, with the reserved keys anywhere in it too: reading it as a `Value` gives a value if and
only if it is accepted (`Doc.accepted`), and then what it says (`Doc.Says`). -/
theorem C71_exact (d : Doc) (v : Value) : d.value = some v ↔ d.accepted = true ∧ d.Says v := Doc.value_iff_says d v

/-- **C71**, for every document: what it says is one value. -/
theorem C71_exact_unique (d : Doc) (h : d.accepted = true) : ∃ v, d.Says v ∧ ∀ u, d.Says u → u = v := by
  obtain ⟨v, _, hv⟩ := Doc.value_says d h
  exact ⟨v, hv, fun u hu => hu.unique hv⟩

/-- **C71**: text that the parser refuses gives the parser's message, whichever profile is asked for. -/
theorem C71_refused (name : Str) (parse : Str → Except Str Doc) (refuse custom : Str → Str) (fs : FileSystem)
    (calls : List DataCall) (text e : Str) (he : parse text = .error e) (r : Except Error Data)
    (h : TextData (Format.ofDocs name parse refuse custom) fs calls text r) : r = .error (Error.ofKind (.message e)) := by
  rw [h.parsed]
  cases ht : targetSaid calls <;> simp only [parsedData, Format.ofDocs, he]

/-- **C71**, providers with a profile, for every document: at the top of the document the reserved keys are keys like all
others. -/
theorem C71_profile_exact (name : Str) (parse : Str → Except Str Doc) (refuse custom : Str → Str) (fs : FileSystem)
    (calls : List DataCall) (text : Str) (p : Profile) (ht : targetSaid calls = some p) (d : Doc)
    (hd : parse text = .ok d) (r : Except Error Data)
    (h : TextData (Format.ofDocs name parse refuse custom) fs calls text r) :
    (∀ m, r = .ok m ↔ ∃ x, m = [(p, x)] ∧ d.SaysDict x) ∧
    ((¬ ∃ x, d.SaysDict x) → r = .error (Error.ofKind (.message (refuse text)))) := by
  rw [h.parsed, ht]
  simp only [parsedData, Format.ofDocs, hd]
  cases hx : d.dict with
  | none =>
    refine ⟨fun m => ⟨nofun, ?_⟩, fun _ => rfl⟩
    rintro ⟨x, _, h1⟩
    rw [(Doc.dict_iff_says d x).2 h1] at hx
    cases hx
  | some x =>
    have hx' := (Doc.dict_iff_says d x).1 hx
    refine ⟨fun m => ⟨?_, ?_⟩, fun hn => absurd ⟨x, hx'⟩ hn⟩
    · intro h; cases h; exact ⟨x, rfl, hx'⟩
    · rintro ⟨y, rfl, h1⟩
      rw [(Doc.dict_iff_says d y).2 h1] at hx
      cases hx
      rfl

/-- **C71**, nested providers, for every document: at the top of each section the reserved keys are keys like all
others. -/
theorem C71_nested_exact (name : Str) (parse : Str → Except Str Doc) (refuse custom : Str → Str) (fs : FileSystem)
    (calls : List DataCall) (text : Str) (ht : targetSaid calls = none) (d : Doc)
    (hd : parse text = .ok d) (r : Except Error Data)
    (h : TextData (Format.ofDocs name parse refuse custom) fs calls text r) :
    (∀ l, d = .map l → (∀ e ∈ l, ∃ k x, e.1 = some k ∧ e.2.SaysDict x) →
      ∃ m, r = .ok m ∧ Map.Sorted m ∧
        ∀ p x, Map.get p m = some x ↔ ∃ s, Doc.lastSection p l = some s ∧ s.SaysDict x) ∧
    ((¬ ∃ l, d = .map l ∧ ∀ e ∈ l, ∃ k x, e.1 = some k ∧ e.2.SaysDict x) →
      r = .error (Error.ofKind (.message (refuse text)))) := by
  rw [h.parsed, ht]
  simp only [parsedData, Format.ofDocs, hd]
  constructor
  · rintro l rfl hl
    have hle : ∀ e ∈ l, ∃ k x, e.1 = some k ∧ e.2.dict = some x := by
      intro e he
      obtain ⟨k, x, h1, h2⟩ := hl e he
      exact ⟨k, x, h1, (Doc.dict_iff_says _ x).2 h2⟩
    obtain ⟨m, hm⟩ := Doc.sectionLoop_total hle []
    obtain ⟨_, h2, h3⟩ := Doc.sectionLoop_some hm
    refine ⟨m, ?_, h2 List.Pairwise.nil, fun p x => ?_⟩
    · rw [show (Doc.map l).sections = some m from hm]
    · rw [h3]
      cases hs : Doc.lastSection p l with
      | none => exact ⟨nofun, fun ⟨_, h, _⟩ => by cases h⟩
      | some s =>
        dsimp only
        rw [Doc.dict_iff_says s x]
        exact ⟨fun h => ⟨s, rfl, h⟩, fun ⟨_, h, h'⟩ => by cases h; exact h'⟩
  · intro hn
    have : d.sections = none := by
      cases hs : d.sections with
      | none => rfl
      | some m =>
        refine absurd ?_ hn
        cases d with
        | map l =>
          refine ⟨l, rfl, fun e he => ?_⟩
          obtain ⟨k, x, h1, h2⟩ := (Doc.sectionLoop_some hs).1 e he
          exact ⟨k, x, h1, (Doc.dict_iff_says e.2 x).1 h2⟩
        | _ => cases hs
    rw [this]

/-- A document with the reserved keys inside: the value is the one under the key for values, everything in it has the
tag, and the entry `c` is lost. Its tag without a value counts for nothing. -/
def Ex.forged : Doc :=
  .map [(some (str "a"), .map [(some (str "___figment_value_value"), .seq [.bool true]), (some (str "c"), .unit),
      (some (str "___figment_value_id"), .num (.u8 7#8))]),
    (some (str "b"), .map [(some (str "___figment_value_id"), .num (.u8 7#8))])]

example : Ex.forged.accepted = true ∧ Ex.forged.free = false ∧
    Ex.forged.value = some (.dict Tag.Default [(str "a", .array ⟨7⟩ [.bool ⟨7⟩ true]), (str "b", .dict Tag.Default [])]) :=
  ⟨by decide, by decide, rfl⟩

/-- At the top they are keys like others. -/
example : (Doc.map [(some (str "___figment_value_value"), .bool true)]).dict =
    some [(str "___figment_value_value", .bool Tag.Default true)] := rfl

/-- A document with the tag given as a signed number, as TOML does, is refused. -/
example : (Doc.map [(some (str "___figment_value_id"), .num (.i64 1#64)), (some (str "___figment_value_value"), .bool true)]).value =
    none := rfl

/-- A format with documents for texts, for the examples: the text `1` and so on. -/
def Ex.docs (text : Str) : Except Str Doc :=
  if text = str "1" then
    .ok (.map [(some (str "a"), .num (.i64 1#64)), (some (str "b"), .map [(some (str "c"), .seq [.str (str "x"), .bool true])]),
      (some (str "a"), .num (.i64 2#64)), (some (str "v"), .variant (str "p.q") .unit)])
  else if text = str "2" then
    .ok (.map [(some (str "dev"), .map [(some (str "a"), .bool true)]), (some (str "DEV"), .map [(some (str "b"), .bool true)])])
  else if text = str "3" then
    .ok (.map [(some (str "a"), .map [(some (str "___figment_value_id"), .num (.u64 1#64)),
      (some (str "___figment_value_value"), .bool true)])])
  else if text = str "4" then .ok (.map [(none, .unit)])
  else .error (str "no document")

/-- A format for the examples. -/
def Ex.format : Format := Format.ofDocs (str "X") Ex.docs (fun _ => str "refused") id

/-- A file system without files, for the examples. -/
def Ex.noFiles : FileSystem := ⟨fun _ => false, fun _ => .error [], none⟩

example : (DataProvider.string (str "9")).nested.data Ex.format Ex.noFiles =
    .error (Error.ofKind (.message (str "no document"))) := rfl

/-- C71 cannot say that a nested provider keeps every section: of sections whose names differ in case only, all but the last
are lost, though they are of one profile. -/
theorem C71_nested_fails :
    ((DataProvider.string (str "2")).nested.data Ex.format Ex.noFiles) =
      .ok [(Profile.new (str "dev"), [(str "b", .bool Tag.Default true)])] := rfl

/-- C71 fails for documents with the reserved keys: their values can be attributed to another provider. Here the document
of the second provider is said to be from the first. -/
theorem C71_reserved_fails :
    ∃ f c', Fig.new.run [.add ⟨.Merge, Ex.prov1, Ex.loc⟩,
      .add ⟨.Merge, (DataProvider.string (str "3")).provider Ex.format Ex.noFiles, Ex.loc⟩] 1#64 = (some f, c') ∧
    f.findValue (str "a") = .ok (.bool ⟨1#64⟩ true) ∧ (f.findMetadata (str "a")).map (·.name) = some (str "one") :=
  ⟨_, _, rfl, rfl, rfl⟩

/-! Cases that meet the hypotheses. -/

/-- The document `1` is free and readable, and leads to its parts; the later of two entries counts. -/
example : ∃ d, Ex.docs (str "1") = .ok d ∧ d.free = true ∧ d.readable = true ∧
    d.value = some (Ex.d [(str "a", .num Tag.Default (.i64 2#64)),
      (str "b", Ex.d [(str "c", Ex.a [Ex.s "x", .bool Tag.Default true])]),
      (str "v", Ex.d [(str "p", Ex.d [(str "q", .empty Tag.Default .unit)])])]) ∧
    d.Leads (pathKeys (str "b.c")) (.seq [.str (str "x"), .bool true]) ∧
    d.Leads (pathKeys (str "v.p.q")) .unit :=
  ⟨_, rfl, rfl, rfl, rfl, .key rfl (.key rfl (.here _)), .key rfl (.variant (name := str "p.q") (.here _))⟩

/-- A document that cannot be read. -/
example : ∃ d, Ex.docs (str "4") = .ok d ∧ d.free = true ∧ d.readable = false ∧ d.value = none := ⟨_, rfl, rfl, rfl, rfl⟩

/-- The providers of `C71_profile` and `C71_nested`. -/
example : TextData Ex.format Ex.noFiles [] (str "1") ((DataProvider.string (str "1")).data Ex.format Ex.noFiles) ∧
    targetSaid [] = some Profile.Default ∧
    TextData Ex.format Ex.noFiles [.nested] (str "2") ((DataProvider.string (str "2")).nested.data Ex.format Ex.noFiles) ∧
    targetSaid [.nested] = none := ⟨.inl rfl, rfl, .inl rfl, rfl⟩

/-- `C71_merged`: a document of the default profile, merged after a provider of no data. -/
example : ∃ f c', Fig.new.run ([.add ⟨.Join, Provider.plain (Metadata.named (str "none")) (.ok []), Ex.loc⟩] ++
      [.add ⟨.Merge, (DataProvider.string (str "1")).provider Ex.format Ex.noFiles, Ex.loc⟩]) 1#64 = (some f, c') ∧
    f.findValue (str "a") = .ok (.num (Tag.new 2#64 .Default) (.i64 2#64)) ∧
    (f.findMetadata (str "a")).map (·.name) = some (str "X source string") := ⟨_, _, rfl, rfl, rfl⟩

end Figment
