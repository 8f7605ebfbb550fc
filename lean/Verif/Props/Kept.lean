import Verif.Lemmas.Either
import Verif.Lemmas.Kept
import Verif.Props.Extract
/-!
# C30, value by value: which values come back from what they are written as
-/
namespace Figment
variable [FloatOps]

/-- **C30** for the values rather than the types: a value in which there is no 128-bit integer, and no `Some` of what is
written as nothing, comes back, whatever other values its type has. -/
theorem C30_kept (t : Ty) (ht : t.sound = true) (x : Val) (hx : t.Has x) (hk : t.Kept x) :
    ∃ w, (t.ser x).serialize = .ok w ∧ ∀ w' : Value, w'.strip = w.strip →
      w'.deserialize t = .ok x ∧ ∀ f, t.de (De.strict f) w' = .ok x ∧ t.de (De.lossyOf f) w' = .ok x := by
  obtain ⟨w, h1, _, h2⟩ := Ty.kept_back t ht x hx
  have h2 := h2 hk
  exact ⟨w, h1, fun w' h => ⟨h2 none w' h, fun f => ⟨h2 (some f) w' h, Ty.de_mono t f w' x (h2 (some f) w' h)⟩⟩⟩

/-- **C30**, exactly: a value is always written, and what it is written as, whoever supplied it, is read as the value if
and only if there is no 128-bit integer in it and no `Some` of what is written as nothing. The types are all but those
with the crate's own inside, and those that convert, or flatten, what does not come back. -/
theorem C30_exact (t : Ty) (ht : t.proper false = true) (hd : t.direct = true) (x : Val) (hx : t.Has x) :
    ∃ w, (t.ser x).serialize = .ok w ∧ ∀ w' : Value, w'.strip = w.strip →
      (w'.deserialize t = .ok x ↔ t.Kept x) ∧
      ∀ f, (t.de (De.strict f) w' = .ok x ↔ t.Kept x) ∧ (t.de (De.lossyOf f) w' = .ok x ↔ t.Kept x) := by
  obtain ⟨w, h1, _, h2⟩ := Ty.kept_back t (Ty.sound_of_proper t ht) x hx
  refine ⟨w, h1, fun w' h => ?_⟩
  have hw := Value.wf_of_strip h.symm (Ser.serialize_fresh _ _ h1).1
  refine ⟨⟨fun h3 => ?_, fun hk => h2 hk none w' h⟩, fun f => ⟨⟨fun h3 => ?_, fun hk => h2 hk (some f) w' h⟩,
    ⟨fun h3 => ?_, fun hk => Ty.de_mono t f w' x (h2 hk (some f) w' h)⟩⟩⟩
  · have h4 := (Ty.means none false false (fun _ => ⟨rfl, rfl⟩) t ht w' ⟨hw, nofun⟩ x).1 h3
    exact Ty.kept_of_means t ht hd x hx w h1 ((Ty.means_strip t ht h x).1 h4 : t.Means false (fun _ => none) w x)
  · have h4 := (Ty.means (some f) false false nofun t ht w' ⟨hw, nofun⟩ x).1 h3
    exact Ty.kept_of_means t ht hd x hx w h1 ((Ty.means_strip t ht h x).1 h4 : t.Means false (fun _ => none) w x)
  · have h4 := (Ty.means (some f) true false nofun t ht w' ⟨hw, nofun⟩ x).1 h3
    exact Ty.kept_of_means t ht hd x hx w h1 ((Ty.means_strip t ht h x).1 h4 : t.Means true (fun _ => none) w x)

/-- **C30**, exactly, for what is provided by `Serialized` as a whole: extraction, strict or lossy, gives the value if
and only if there is no 128-bit integer in it and no `Some` of what is written as nothing. -/
theorem C30_extract_exact (t : Ty) (ht : t.proper false = true) (hd : t.direct = true) (x : Val) (hx : t.Has x)
    (s : Serialized) (hs : s.value = t.ser x) (hkey : s.key = none)
    (hdict : ∃ tg d, (t.ser x).serialize = .ok (.dict tg d))
    (o : Order) (loc : Location) (c c' : BitVec 64) (f : Fig) (hf : Fig.new.provide s.toProvider o loc c = (some f, c'))
    (p : Profile)
    (hpr : s.profile.same Profile.Default = true ∨ s.profile.same Profile.Global = true ∨ s.profile.same p = true) :
    ((f.select p).extract t = .ok x ↔ t.Kept x) ∧ ((f.select p).extractLossy t = .ok x ↔ t.Kept x) := by
  obtain ⟨tg, d, h1⟩ := hdict
  obtain ⟨w', h2, h3⟩ := Serialized.merged_whole (by rw [hs]; exact h1) hkey ⟨_, _, rfl⟩ hf hpr
  obtain ⟨w, h4, h5⟩ := C30_exact t ht hd x hx
  rw [h1] at h4
  cases h4
  have h6 := (h5 w' h3).2 (f.select p)
  constructor
  · rw [Fig.extract, Fig.extractWith, h2]; exact h6.1
  · rw [Fig.extractLossy, Fig.extractWith, h2]; exact h6.2

/-- **C30**, exactly, for what is provided by `Serialized` at a key. -/
theorem C30_extract_inner_exact (t : Ty) (ht : t.proper false = true) (hd : t.direct = true) (x : Val) (hx : t.Has x)
    (s : Serialized) (hs : s.value = t.ser x) (key : Str) (hkey : s.key = some key) (hk : pathKeys key ≠ [])
    (o : Order) (loc : Location) (c c' : BitVec 64) (f : Fig) (hf : Fig.new.provide s.toProvider o loc c = (some f, c'))
    (p : Profile)
    (hpr : s.profile.same Profile.Default = true ∨ s.profile.same Profile.Global = true ∨ s.profile.same p = true) :
    ((f.select p).extractInner key t = .ok x ↔ t.Kept x) ∧ ((f.select p).extractInnerLossy key t = .ok x ↔ t.Kept x) := by
  obtain ⟨w, h1, h5⟩ := C30_exact t ht hd x hx
  obtain ⟨w', h2, h3⟩ := Serialized.find_inner (by rw [hs]; exact h1) hkey hk hf hpr
  have h6 := (h5 w' h3).2 (f.select p)
  constructor
  · rw [Fig.extractInner, Fig.extractInnerWith, h2, ← h6.1]
    dsimp only
    cases t.de (De.strict (f.select p)) w' with
    | ok y => exact Iff.rfl
    | error e => exact ⟨nofun, nofun⟩
  · rw [Fig.extractInnerLossy, Fig.extractInnerWith, h2, ← h6.2]
    dsimp only
    cases t.de (De.lossyOf (f.select p)) w' with
    | ok y => exact Iff.rfl
    | error e => exact ⟨nofun, nofun⟩

/-! An `Option<Option<u8>>` is not of a type that always comes back; `Some(Some(3))` comes back, and `Some(None)` does
not. The same inside a struct, and with an enum that has a variant of 128 bits. -/

def Ex.nested : Ty := .option (.option (.int .u8))

def Ex.keeps : Ty := .struct (str "S") (str "S") false [(str "a", none, Ex.nested),
  (str "b", none, .enum (str "E") [(str "Wide", .newtype (.int .u128)), (str "Small", .newtype (.int .u16))])]

example : Ex.keeps.faithful = false ∧ Ex.keeps.proper false = true ∧ Ex.keeps.direct = true := by decide

example : Ex.keeps.Has (.struct [.some (.some (.int 3)), .variant (str "Small") (.int 7)]) ∧
    Ex.keeps.Kept (.struct [.some (.some (.int 3)), .variant (str "Small") (.int 7)]) := by
  constructor
  · simp only [Ex.keeps, Ex.nested, Ty.Has, Ty.HasFields, Ty.HasVariant, VTy.Has]
    refine ⟨_, rfl, ⟨_, _, rfl, .inr ⟨_, rfl, .inr ⟨_, rfl, _, rfl, by decide, by decide⟩⟩, _, _, rfl,
      ⟨_, _, rfl, .inr ⟨by decide, .inl ⟨rfl, _, rfl, by decide, by decide⟩⟩⟩, rfl⟩, nofun, nofun⟩
  · simp only [Ex.keeps, Ex.nested, Ty.Kept]
    rintro l h
    cases h
    refine ⟨fun y h => ?_, fun n y h => ?_, trivial⟩
    · cases h
      exact ⟨rfl, fun y h => by cases h; exact ⟨rfl, by decide, by decide⟩⟩
    · cases h
      exact ⟨fun h => absurd h (by decide), fun _ => ⟨fun _ => ⟨by decide, by decide⟩, fun h => absurd rfl h⟩⟩

example : ¬ Ex.keeps.Kept (.struct [.some .none, .variant (str "Small") (.int 7)]) ∧
    ¬ Ex.keeps.Kept (.struct [.none, .variant (str "Wide") (.int 7)]) := by
  simp only [Ex.keeps, Ex.nested, Ty.Kept]
  constructor
  · intro h
    exact nomatch ((h _ rfl).1 _ rfl).1
  · intro h
    exact (((h _ rfl).2.1 _ _ rfl).1 rfl).1 rfl

end Figment
