import Verif.Lemmas.Same
import Verif.Lemmas.Find
import Verif.Spec.Examples
/-!
# C28, C29: serialisation
-/
namespace Figment

/-! ## C29 -/

/-- **C29**: serialising a value succeeds; the result is the value with tags reset and `usize`/`isize` as
`u64`/`i64`; it compares to every value as the given one does, and equals it if there is no NaN inside. -/
theorem C29_serialize_value (v : Value) (hv : v.WF) :
    ∃ r, v.ser.serialize = .ok r ∧ r = v.norm ∧ (∀ w, r.same w = v.same w) ∧ (v.noNan = true → r.same v = true) ∧
      r.WF ∧ r.strip = r := by
  refine ⟨v.norm, Value.serialize_ser v hv, rfl, Value.same_norm v, fun h => ?_, ?_, Value.strip_norm v⟩
  · rw [Value.same_norm, Value.same_refl, h]
  · exact (Ser.serialize_fresh _ _ (Value.serialize_ser v hv)).1

example : (Value.dict ⟨7⟩ [(str "a", .num ⟨9⟩ (.usize 1#64)), (str "b", .array ⟨9⟩ [.bool ⟨8⟩ true])]).WF := by
  decide

/-! ## C28 -/

/-- **C28**: `Serialized` without a key, or with one that has no first component, emits the serialised
dictionary under its profile and nothing else; anything that is not a dictionary is an error naming what it
is and that a map is needed. -/
theorem C28_serialized_dict (s : Serialized) (hk : ∀ key, s.key = some key → pathKeys key = []) :
    (∀ t d, s.value.serialize = .ok (.dict t d) → s.data = .ok [(s.profile, d)]) ∧
    (∀ w, s.value.serialize = .ok w → (∀ t d, w ≠ .dict t d) →
      s.data = .error (Error.ofKind (.invalidType w.toActual (str "map")))) := by
  have hdata : ∀ w, s.value.serialize = .ok w → s.data = match w.asDict? with
      | some d => .ok [(s.profile, d)]
      | none => .error (Error.ofKind (.invalidType w.toActual (str "map"))) := by
    intro w h
    rw [Serialized.data, h]
    cases hkey : s.key with
    | none => simp only [Profile.collect, Map.insert]; cases w.asDict? <;> rfl
    | some key =>
      have : nest key w = w := by rw [nest_eq, hk key hkey]; rfl
      simp only [this, Profile.collect, Map.insert]; cases w.asDict? <;> rfl
  constructor
  · intro t d h
    rw [hdata _ h]; rfl
  · intro w h hw
    rw [hdata _ h]
    cases w with
    | dict t d => exact absurd rfl (hw t d)
    | _ => rfl

/-- **C28**: `Serialized` with a key emits, under its profile only, a dictionary in which the whole key leads
to the serialised value, each part of the key to a dictionary with just the next component in it, and
everything else to nothing. -/
theorem C28_serialized_key (s : Serialized) (key : Str) (w : Value) (hs : s.value.serialize = .ok w)
    (hkey : s.key = some key) (hk : pathKeys key ≠ []) :
    ∃ d : Dict, s.data = .ok [(s.profile, d)] ∧
      (∀ r, (Value.dict Tag.Default d).getKeys (pathKeys key ++ r) = w.getKeys r) ∧
      (∀ q k r, pathKeys key = q ++ k :: r →
        ∃ u, (Value.dict Tag.Default d).getKeys q = some (.dict Tag.Default [(k, u)])) ∧
      (∀ q, ¬ pathKeys key <+: q → ¬ q <+: pathKeys key → (Value.dict Tag.Default d).getKeys q = none) := by
  cases hks : pathKeys key with
  | nil => exact absurd hks hk
  | cons k ks =>
    have hn : nest key w = .dict Tag.Default [(k, Value.nestKeys ks w)] := by rw [nest_eq, hks]; rfl
    have hn' : Value.dict Tag.Default [(k, Value.nestKeys ks w)] = Value.nestKeys (k :: ks) w := rfl
    refine ⟨[(k, Value.nestKeys ks w)], ?_, fun r => ?_, fun q j r hq => ?_, fun q h1 h2 => ?_⟩
    · rw [Serialized.data, hs]
      simp only [hkey, hn, Value.asDict?, Profile.collect, Map.insert]
    · rw [hn']; exact Value.getKeys_nestKeys_self (k :: ks) r w
    · rw [hn', hq]
      exact ⟨Value.nestKeys r w, Value.getKeys_nestKeys_prefix q (j :: r) w⟩
    · rw [hn']; exact Value.getKeys_nestKeys_none _ q w h1 h2

/-- **C28**: a value that cannot be serialised is an error, that of the serialiser; and every serialised
value is fresh: keys sorted at every depth, no tag set, so that the figment given it tags all of it. -/
theorem C28_serialized_value (s : Serialized) :
    (∀ e, s.value.serialize = .error e → s.data = .error e) ∧
    (∀ w, s.value.serialize = .ok w → w.WF ∧ w.strip = w) := by
  refine ⟨fun e h => by rw [Serialized.data, h], fun w h => ?_⟩
  have := Ser.serialize_fresh _ _ h
  exact ⟨this.1, Value.strip_eq_of_fresh this⟩

example : let s := (Serialized.defaults (.num (.u8 7#8)) ⟨str "f.rs", 1, 1⟩ (str "u8")).withKey (str "a.b")
    s.value.serialize = .ok (.num Tag.Default (.u8 7#8)) ∧ s.key = some (str "a.b") ∧ pathKeys (str "a.b") ≠ []
    ∧ s.data = .ok [(Profile.Default, [(str "a", Ex.d [(str "b", .num Tag.Default (.u8 7#8))])])] :=
  ⟨rfl, rfl, by decide, rfl⟩

end Figment
