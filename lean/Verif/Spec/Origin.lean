import Verif.Model.Process
import Verif.Spec.Data
/-!
# Specification: where a value comes from
-/
namespace Figment

/-- The providers that are not figments behave as providers do that do not make tags themselves: their
data is made of well-formed maps without tags, an error is a single one without a tag. (The method
`__metadata_map` is hidden and implemented by figments only.) -/
def Step.Plain : Step → Prop
  | .provide _ _ p _ _ =>
    p.metadataMap = none ∧
    (∀ n, p.data = .ok n → n.WF ∧ n.tagsAll fun t => t.same Tag.Default) ∧
    (∀ e, p.data = .error e → e.prev = none ∧ e.head.tag = Tag.Default)
  | _ => True

/-- The provider of the entry supplied `v` at the path: its data has at that path (below the focus) under
that profile something which is not a dictionary, and `v` is that with the tag of the `provide` call put on
what had no tag. -/
def Entry.supplied (e : Entry) (pr : Profile) (path : List Str) (v : Value) : Prop :=
  e.own = true ∧ ∃ (n : Data) (w : Value), e.data = .ok n ∧ n.at pr (e.root ++ path) = some (.leaf w) ∧
    v = w.mapTag fun _ => e.tag.forProfile pr

/-- Where a value that is not a dictionary comes from: a provider supplied it whole (`first` is that
provider), or it is an array and the concatenation of arrays which came from providers (`first` supplied
the first). -/
inductive Origin (added : List Entry) (pr : Profile) (path : List Str) : (first : Entry) → Value → Prop
  | whole {e : Entry} {v : Value} (he : e ∈ added) (hs : e.supplied pr path v) : Origin added pr path e v
  | concat {e e' : Entry} {t t' : Tag} {a b : List Value} (h : Origin added pr path e (.array t a))
      (h' : Origin added pr path e' (.array t' b)) : Origin added pr path e (.array t (a ++ b))

end Figment
