import Verif.Model.Figment
/-!
# Extraction (src/figment.rs:483-607), for any type

`de` stands for `T::deserialize` run on a `ConfiguredValueDe` (value/de.rs:43-181) that holds the figment
and a value; `extract` and `extract_lossy` differ in the interpreter only, which is part of `de`. The types
of `Verif.Model.De` give concrete `de`s.
-/
namespace Figment.Fig

/-- `Figment::extract` (figment.rs:483-486), `Figment::extract_lossy` (figment.rs:539-542). -/
def extractWith {α : Type _} (de : Fig → Value → Except Error α) (f : Fig) : Except Error α :=
  match f.merged with
  | .error e => .error e
  | .ok v => de f v

/-- `Figment::extract_inner` (figment.rs:569-573), `Figment::extract_inner_lossy` (figment.rs:603-607). -/
def extractInnerWith {α : Type _} (de : Fig → Value → Except Error α) (f : Fig) (path : Str) : Except Error α :=
  match f.findValue path with
  | .error e => .error e
  | .ok v =>
    match de f v with
    | .ok x => .ok x
    | .error e => .error (e.withPath path)

end Figment.Fig
