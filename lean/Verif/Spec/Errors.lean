import Verif.Model.Error
/-!
# Specification: what iterating over an error yields
-/
namespace Figment

/-- `s` is an iterator over errors, and calling `next` until it gives nothing yields `l`. -/
inductive Error.Yields : Option Error → List Error → Prop
  | done {s s' : Option Error} (h : Error.iterNext s = (none, s')) : Yields s []
  | more {s s' : Option Error} {e : Error} {l : List Error} (h : Error.iterNext s = (some e, s'))
      (r : Yields s' l) : Yields s (e :: l)

/-- What of an error does not depend on who provided it. -/
def Error.what (e : Error) : Kind × List Str := (e.head.kind, e.head.path)

end Figment
