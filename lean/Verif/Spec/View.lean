import Verif.Model.Coalesce
/-!
# Specification of combining: views

A configuration value is looked at from outside, path by path: at each path there is nothing, a
dictionary, or something that is not a dictionary (with its full contents). The four ways of
combining are specified on such views, without any recursion over values.
-/
namespace Figment

/-- What can be seen at a path: a dictionary (only its tag) or any other value. -/
inductive Shape where
  | dict (t : Tag)
  | leaf (v : Value)
deriving DecidableEq

/-- A way to see a configuration: what is at each path. -/
abbrev View := List Str → Option Shape

/-- What is seen of a value at the root. -/
def Value.shape : Value → Shape
  | .dict t _ => .dict t
  | v => .leaf v

/-- What is seen of a value at a path. -/
def Value.view : Value → View
  | v, [] => some v.shape
  | .dict _ d, k :: ks =>
    match Map.get k d with
    | some v => view v ks
    | none => none
  | _, _ :: _ => none

/-- Some proper prefix of the path holds a value that is not a dictionary, so that nothing can be
below it. -/
def View.blocked (A : View) (p : List Str) : Bool :=
  (List.range p.length).any fun n =>
    match A (p.take n) with
    | some (.leaf _) => true
    | _ => false

/-- merge: what the incoming side has is what is there; where it has nothing, the existing side
shows, unless the incoming side put a non-dictionary above. -/
def View.merge (A B : View) : View := fun p =>
  match B p with
  | some s => some s
  | none => if View.blocked B p then none else A p

/-- join: what the existing side has stays; the incoming side only fills holes. -/
def View.join (A B : View) : View := fun p =>
  match A p with
  | some s => some s
  | none => if View.blocked A p then none else B p

/-- adjoin: as join, but two arrays at the same path are concatenated, existing elements first. -/
def View.adjoin (A B : View) : View := fun p =>
  match A p, B p with
  | some (.leaf (.array t a)), some (.leaf (.array _ b)) => some (.leaf (.array t (a ++ b)))
  | _, _ => View.join A B p

/-- admerge: as merge, but two arrays at the same path are concatenated, existing elements first. -/
def View.admerge (A B : View) : View := fun p =>
  match A p, B p with
  | some (.leaf (.array t a)), some (.leaf (.array _ b)) => some (.leaf (.array t (a ++ b)))
  | _, _ => View.merge A B p

/-- The view that results from combining, by strategy. -/
def View.coalesce (o : Order) (A B : View) : View :=
  match o with
  | .Merge => View.merge A B
  | .Join => View.join A B
  | .Adjoin => View.adjoin A B
  | .Admerge => View.admerge A B

end Figment
