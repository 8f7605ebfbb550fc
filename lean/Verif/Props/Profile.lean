import Verif.Model.ProfileSerde
import Verif.Props.Extract
import Verif.Props.Means
import Verif.Props.Layer
/-!
# C65: profiles in configuration
-/
namespace Figment
variable [FloatOps]

/-- Reading a `Profile` is reading a `String`: the same errors, and the profile with that name. -/
theorem Profile.de_eq (de : De) (v : Value) : Profile.de de v
    = match Ty.string.de de v with
      | .ok (.str s) => .ok (Profile.ofText s)
      | .ok _ => .ok Profile.Default
      | .error e => .error e := by
  show De.deserializeAny de Profile.visitor v = match De.deserializeAny de stringVisitor v with
      | .ok (.str s) => .ok (Profile.ofText s)
      | .ok _ => .ok Profile.Default
      | .error e => .error e
  rw [De.deserializeAny.eq_def, De.deserializeAny.eq_def]
  cases v with
  | empty t e => cases e <;> rfl
  | num t n => dsimp only; rw [Num.deserializeAny_visited, Num.deserializeAny_visited]; rfl
  | _ => rfl

/-- **C65**: the profile at a path can be read exactly if the value there is text, and is the one with that name; as
`extract_inner_lossy` does. Otherwise the error is the one of reading a `String`. -/
theorem C65_extract (f : Fig) (path : Str) (v : Value) (hv : f.findValue path = .ok v) (p : Profile) :
    (f.extractInnerProfile path = .ok p ↔ v.text? = some p.toText) ∧
    (f.extractInnerLossyProfile path = .ok p ↔ v.text? = some p.toText) ∧
    (∀ e, f.extractInnerProfile path = .error e ↔ f.extractInner path .string = .error e) := by
  have key : ∀ de : De, Profile.de de v = .ok p ↔ v.text? = some p.toText := by
    intro de
    rw [Profile.de_eq]
    cases h : Ty.string.de de v with
    | error e =>
      refine ⟨nofun, fun ht => ?_⟩
      have := (string_iff (de := de) (x := .str p.toText)).2 ⟨_, rfl, ht⟩
      rw [show Ty.string.de de v = de.deserializeAny stringVisitor v from rfl, this] at h
      cases h
    | ok x =>
      obtain ⟨s, rfl, hs⟩ := string_iff.1 (show de.deserializeAny stringVisitor v = .ok x from h)
      rw [hs]
      cases p
      exact ⟨fun h => by cases h; rfl, fun h => by cases h; rfl⟩
  have hok : ∀ {α : Type} (de : Fig → Value → R α) (x : α), f.extractInnerWith de path = .ok x ↔ de f v = .ok x := by
    intro α de x
    rw [Fig.extractInnerWith, hv]
    cases h : de f v <;> simp [h]
  refine ⟨(hok _ _).trans (key _), (hok _ _).trans (key _), fun e => ?_⟩
  rw [Fig.extractInnerProfile, Fig.extractInner, Fig.extractInnerWith, Fig.extractInnerWith, hv]
  dsimp only
  rw [Profile.de_eq]
  cases h : Ty.string.de (De.strict f) v with
  | error e' =>
    show Except.error (Error.withPath path e') = Except.error e ↔ Except.error (Error.withPath path e') = Except.error e
    rw [Except.error.injEq, Except.error.injEq]
  | ok x =>
    obtain ⟨s, rfl, hs⟩ := string_iff.1 (show (De.strict f).deserializeAny stringVisitor v = .ok x from h)
    exact ⟨nofun, nofun⟩

/-- **C65**: a profile that is serialised under a key in a profile that applies, and extracted there, is the same profile,
with its name as it was written. -/
theorem C65_round (q : Profile) (s : Serialized) (hs : s.value = q.ser) (key : Str) (hkey : s.key = some key)
    (hk : pathKeys key ≠ []) (o : Order) (loc : Location) (c c' : BitVec 64) (f : Fig)
    (hf : Fig.new.provide s.toProvider o loc c = (some f, c')) (p : Profile)
    (hpr : s.profile.same Profile.Default = true ∨ s.profile.same Profile.Global = true ∨ s.profile.same p = true) :
    (f.select p).extractInnerProfile key = .ok q ∧ (f.select p).extractInnerLossyProfile key = .ok q := by
  have h := C30_extract_inner_partial .string rfl (.str q.toText) ⟨_, rfl⟩ s hs key hkey hk o loc c c' f hf p hpr
  cases hv : (f.select p).findValue key with
  | error e => rw [Fig.extractInner, Fig.extractInnerWith, hv] at h; cases h.1
  | ok v =>
    have h1 : v.text? = some q.toText := by
      have := h.1
      rw [Fig.extractInner, Fig.extractInnerWith, hv] at this
      dsimp only at this
      cases hd : Ty.string.de (De.strict (f.select p)) v with
      | error e => rw [hd] at this; cases this
      | ok x =>
        rw [hd] at this
        cases this
        obtain ⟨s, h1, h2⟩ := string_iff.1
          (show (De.strict (f.select p)).deserializeAny stringVisitor v = .ok _ from hd)
        cases h1; exact h2
    have h2 := C65_extract (f.select p) key v hv q
    exact ⟨h2.1.2 h1, h2.2.1.2 h1⟩

/-- **C65**: a figment that selects the profile it reads from itself selects what the text there names, in any case: as
selecting any other spelling does. -/
theorem C65_select (f : Fig) (m : Data) (hf : f.value = .ok m) (path : Str) (v : Value) (hv : f.findValue path = .ok v)
    (p : Profile) (hp : f.extractInnerProfile path = .ok p) (s : Str) (hs : v.text? = some s) (q : Profile)
    (hq : Str.lower q.name = Str.lower s) :
    p.sameText s = true ∧ q.sameText s = true ∧ p.same q = true ∧ (f.select p).merged = (f.select q).merged := by
  have h := (C65_extract f path v hv p).1.1 hp
  rw [hs] at h
  have hn : s = p.name := Option.some.inj h
  subst hn
  have hu : ∀ a b : Str, Str.lower a = Str.lower b → Str.uncasedEq a b = true := by
    intro a b h; rw [Str.uncasedEq, h]; exact beq_self_eq_true _
  exact ⟨hu _ _ rfl, hu _ _ hq, hu _ _ hq.symm, (C10_select f m hf p q hq.symm).1⟩

/-- A figment whose data name a profile. -/
def Ex.profFig : Fig := { Fig.new with value := .ok [(Profile.Default, [(str "env", .string ⟨5⟩ (str "Staging"))])] }

example : Ex.profFig.findValue (str "env") = .ok (.string ⟨5⟩ (str "Staging")) ∧
    Ex.profFig.extractInnerProfile (str "env") = .ok ⟨str "Staging"⟩ ∧
    Str.lower (Profile.new (str "STAGING")).name = Str.lower (str "Staging") := ⟨rfl, rfl, by decide⟩

end Figment
