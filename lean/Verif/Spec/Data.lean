import Verif.Model.Figment
import Verif.Spec.View
/-!
# Specification: data by profile, seen path by path
-/
namespace Figment

/-- The data is made of well-formed maps (as every `BTreeMap` is): sorted, no duplicate keys. -/
def Data.WF (m : Data) : Prop := Map.Sorted m ∧ ∀ e ∈ m, Dict.WF e.2

instance (m : Data) : Decidable m.WF := inferInstanceAs (Decidable (_ ∧ _))


/-- The dictionary of a profile; a profile without data is an empty dictionary. -/
def Data.dictOf (m : Data) (pr : Profile) : Dict := (Map.get pr m).getD []

/-- What is at a path in a profile. The root is a dictionary of no origin. -/
def Data.at (m : Data) (pr : Profile) : View := (Value.dict Tag.Default (m.dictOf pr)).view

/-- What is seen of a provider's value once it has been provided: a value without provenance gets the
given tag. -/
def Shape.retag (t : Tag) : Shape → Shape
  | .dict s => .dict (if s.same Tag.Default then t else s)
  | .leaf v => .leaf (v.mapTag fun _ => t)

/-- What a provider contributes at a path of a profile when it is provided with the given tag. -/
def Data.given (m : Data) (tag : Tag) (pr : Profile) : View := fun p =>
  match p with
  | [] => some (.dict Tag.Default)
  | _ => (m.at pr p).map (Shape.retag (tag.forProfile pr))

mutual
/-- Every tag in the value, at any depth, satisfies `P`. -/
def Value.tagsAll (P : Tag → Bool) : Value → Bool
  | .string t _ => P t
  | .char t _ => P t
  | .bool t _ => P t
  | .num t _ => P t
  | .empty t _ => P t
  | .dict t d => P t && Value.tagsAllD P d
  | .array t a => P t && Value.tagsAllA P a
/-- `tagsAll` for all entries of a dictionary. -/
def Value.tagsAllD (P : Tag → Bool) : List (Str × Value) → Bool
  | [] => true
  | (_, v) :: r => v.tagsAll P && tagsAllD P r
/-- `tagsAll` for all elements of an array. -/
def Value.tagsAllA (P : Tag → Bool) : List Value → Bool
  | [] => true
  | v :: r => v.tagsAll P && tagsAllA P r
end

/-- A tag that identifies a provider: not equal to the default tag. -/
def Tag.named (t : Tag) : Bool := !t.same Tag.Default

/-- Every value in the data has the given property of its tag. -/
def Data.tagsAll (P : Tag → Bool) (m : Data) : Prop := ∀ e ∈ m, Value.tagsAllD P e.2 = true

instance (P : Tag → Bool) (m : Data) : Decidable (m.tagsAll P) :=
  inferInstanceAs (Decidable (∀ e ∈ m, _))

mutual
/-- A value without its provenance: every tag reset. -/
def Value.strip : Value → Value
  | .string _ v => .string Tag.Default v
  | .char _ v => .char Tag.Default v
  | .bool _ v => .bool Tag.Default v
  | .num _ v => .num Tag.Default v
  | .empty _ v => .empty Tag.Default v
  | .dict _ d => .dict Tag.Default (Value.stripD d)
  | .array _ a => .array Tag.Default (Value.stripA a)
/-- All entries of a dictionary without provenance. -/
def Value.stripD : List (Str × Value) → List (Str × Value)
  | [] => []
  | (k, v) :: r => (k, v.strip) :: stripD r
/-- All elements of an array without provenance. -/
def Value.stripA : List Value → List Value
  | [] => []
  | v :: r => v.strip :: stripA r
end

/-- What is seen without provenance. -/
def Shape.strip : Shape → Shape
  | .dict _ => .dict Tag.Default
  | .leaf v => .leaf v.strip

end Figment
