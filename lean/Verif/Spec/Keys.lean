import Verif.Model.Types
/-!
# Specification: keys of maps, as text and as values of a type

`t.KeyIs s x`: as a key of the type `t`, the text `s` is `x`. `t.KeyFault s k`: as a key of the type `t`, the text `s` has
the fault `k`. `t.KeyText x`: the text that `x`, of the type `t`, is written as where it is a key, if it is text.
-/
namespace Figment

/-- As a key of the type, the text is `x`. No text is a key of the types that are not listed: numbers, `bool`, units,
`Option`, newtypes, sequences, maps and structs. -/
def Ty.KeyIs : Ty → Str → Val → Prop
  | .string, s, x => x = .str s
  | .pathBuf, s, x => x = .str s
  | .char, s, x => ∃ c, s = [c] ∧ x = .char c
  | .enum _ vs, s, x => vs.lookup s = some .unit ∧ x = .variant s .unit
  | .flag, s, x => (s.lower = str "true" ∧ x = .bool true) ∨ (s.lower = str "false" ∧ x = .bool false)
  | .parsed _ parse _, s, x => parse s = .ok x
  | .via t conv _, s, x => ∃ y, t.KeyIs s y ∧ conv y = .ok x
  | .any _, s, x => x = .str s
  | .value, s, x => x = .value (.string Tag.Default s)
  | _, _, _ => False

/-- What is said to be expected where no text is a key of the type. -/
def Ty.wants : Ty → Option Str
  | .bool => some (str "a boolean")
  | .int t => some t.name
  | .f32 => some (str "f32")
  | .f64 => some (str "f64")
  | .unit => some (str "unit")
  | .unitStruct n => some (str "unit struct " ++ n)
  | .option _ => some (str "option")
  | .newtype n _ => some (str "tuple struct " ++ n)
  | .seq _ => some (str "a sequence")
  | .tuple ts => some (str "a tuple of size " ++ Dec.ofNat ts.length)
  | .tupleStruct n _ => some (str "tuple struct " ++ n)
  | .map _ => some (str "a map")
  | .pairs _ => some (str "a map")
  | .keyed _ _ => some (str "a map")
  | .struct n _ _ _ => some (str "struct " ++ n)
  | .flat n _ _ _ => some (str "struct " ++ n)
  | .tag => some (str "a 64-bit metadata id integer")
  | _ => none

/-- What is expected when only the name or index of a variant is given that has content. -/
def VTy.needs : VTy → Option Str
  | .unit => none
  | .newtype _ => some (str "newtype variant")
  | .tuple _ => some (str "tuple variant")
  | .struct _ _ => some (str "struct variant")

/-- As a key of the type, the text has the fault. -/
def Ty.KeyFault : Ty → Str → Kind → Prop
  | .string, _, _ => False
  | .pathBuf, _, _ => False
  | .any _, _, _ => False
  | .value, _, _ => False
  | .char, s, k => s.length ≠ 1 ∧ k = .invalidValue (.str s) (str "a character")
  | .enum _ vs, s, k => (s ∉ vs.map (·.1) ∧ k = .unknownVariant s (vs.map (·.1))) ∨
    ∃ t text, vs.lookup s = some t ∧ t.needs = some text ∧ k = .invalidType .unitVariant text
  | .flag, s, k => s.lower ≠ str "true" ∧ s.lower ≠ str "false" ∧ k = .invalidValue (.str s) (str "true or false")
  | .parsed _ parse _, s, k => ∃ m, parse s = .error m ∧ k = .message m
  | .via t conv _, s, k => t.KeyFault s k ∨ ∃ y m, t.KeyIs s y ∧ conv y = .error m ∧ k = .message m
  | t, s, k => ∃ text, t.wants = some text ∧ k = .invalidType (.str s) text

/-- The text that a value of the type is written as where it is a key, if it is: that of strings and paths, of what is
parsed, the names of variants without content, and the text in newtypes, in `Some` and in what is converted. -/
def Ty.KeyText : Ty → Val → Option Str
  | .string, .str s => some s
  | .pathBuf, .str s => some s
  | .option t, .some x => t.KeyText x
  | .newtype _ t, .newtype x => t.KeyText x
  | .enum _ vs, .variant n _ =>
    match vs.lookup n with
    | some .unit => some n
    | _ => none
  | .value, .value (.string _ s) => some s
  | .any _, .str s => some s
  | .parsed _ _ text, x => some (text x)
  | .via t _ back, x => t.KeyText (back x)
  | _, _ => none

/-- The entries `l` are in the order of the texts of their keys. -/
def KeySorted (kt : Ty) (l : List (Val × Val)) : Prop :=
  l.Pairwise fun a b => compare ((kt.KeyText a.1).getD []) ((kt.KeyText b.1).getD []) = .lt

/-- Keys of the type come back from the text they are written as: those of any type but options and newtypes, which no
text is, and `Value`s, which have tags. -/
def Ty.returns : Ty → Bool
  | .option _ => false
  | .newtype _ _ => false
  | .value => false
  | .via t _ _ => t.returns
  | _ => true

end Figment
