import Verif.Model.Asking
import Verif.Spec.DataProvider
/-!
# Specification: figments built while files and variables change
-/
namespace Figment

/-- A provider that looks outside. -/
inductive Looking where
  | data (calls : List DataCall) (d : DataProvider) (f : Format)
  | env (e : Env)

/-- The provider, after the calls on it. -/
def Looking.asking [FloatOps] : Looking → Asking
  | .data calls d f => (calls.foldl DataCall.call d).asking f
  | .env e => e.asking

/-- A figment built from providers one after the other, by `join`, `adjoin`, `merge` and `admerge` in any order; `none`
as soon as one of the calls panics. -/
def Fig.build [FloatOps] (f : Fig) (counter : BitVec 64) : List (Looking × Order × Location) → Ask (Option Fig × BitVec 64)
  | [] => .pure (some f, counter)
  | (p, o, loc) :: rest => (f.provideAsking p.asking o loc counter).bind fun
    | (none, counter) => .pure (none, counter)
    | (some f, counter) => f.build counter rest

/-- The place at which a relative path is looked for in the directory `n` names below the root, on the way to `names`. -/
def placeAt (names : List Str) (path : Str) (n : Nat) : Str := Path.join (dirPath (names.take n)) path

/-- A search whose first question is number `t` (for the working directory, which is `names` below the root) comes upon
the file `n` names below the root: it was there when asked for, and nothing was at the places nearer to the working
directory, each when it was asked for. -/
def ComesUpon (ans : Nat → Outside) (t : Nat) (names : List Str) (path : Str) (n : Nat) : Prop :=
  n ≤ names.length ∧ (ans (t + 1 + (names.length - n))).isFile (placeAt names path n) = true ∧
  ∀ m, n < m → m ≤ names.length → (ans (t + 1 + (names.length - m))).isFile (placeAt names path m) = false

/-- Such a search comes upon nothing. -/
def ComesUponNothing (ans : Nat → Outside) (t : Nat) (names : List Str) (path : Str) : Prop :=
  ∀ n, n ≤ names.length → (ans (t + 1 + (names.length - n))).isFile (placeAt names path n) = false

end Figment
