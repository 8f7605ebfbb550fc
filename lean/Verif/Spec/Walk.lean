import Verif.Base.Path
/-!
# Specification: where a path leads

A path is walked component by component, without looking at a file system (no links): the place reached is a number of
levels up from where one starts (or the root) and then names down.
-/
namespace Figment

/-- A place: `rooted` if counted from the root; else `ups` levels up from the start. Then `names` down. -/
structure Place where
  rooted : Bool
  ups : Nat
  names : List Str
deriving DecidableEq, Repr

namespace Place

/-- Where one starts. -/
def start : Place := ⟨false, 0, []⟩

/-- One component further. Up from the root is the root. -/
def step (p : Place) : Comp → Place
  | .rootDir => ⟨true, 0, []⟩
  | .curDir => p
  | .parentDir =>
    if p.names = [] then (if p.rooted then p else ⟨false, p.ups + 1, []⟩) else { p with names := p.names.dropLast }
  | .normal s => { p with names := p.names ++ [s] }

/-- The place after walking a path from a place. -/
def walk (p : Place) (path : Str) : Place := (Path.components path).foldl step p

/-- The place a path leads to. -/
def of (path : Str) : Place := start.walk path

end Place
end Figment
