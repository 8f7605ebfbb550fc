import Verif.Spec.Types
/-!
# Specification: the part of a value that a type reads
-/
namespace Figment

/-- The entries of `d` that are kept, with what is kept of them. -/
def Dict.part (keep : Str → Value → Option Value) (d : Dict) : Dict :=
  d.filterMap fun e => (keep e.1 e.2).map fun v => (e.1, v)

mutual
/-- The part of a value that the type reads: of a dictionary read as a struct, the entries whose keys are fields; of
one read as an enum, the first entry; of an array read as a tuple, as many elements as the tuple has; and of all
these, as of the elements of sequences and maps, again the part that their types read. Structs that deny unknown
fields, and the crate's own magic structs, read everything; structs with flattened fields read all entries. -/
def Ty.part : Ty → Value → Value
  | .option _, .empty tag e => .empty tag e
  | .option t, v => t.part v
  | .newtype _ t, v => t.part v
  | .via t _ _, v => t.part v
  | .seq t, .array tag a => .array tag (a.map t.part)
  | .tuple ts, .array tag a => .array tag (Ty.partEach ts a)
  | .tupleStruct _ ts, .array tag a => .array tag (Ty.partEach ts a)
  | .map t, .dict tag d => .dict tag (Dict.part (fun _ v => some (t.part v)) d)
  | .pairs t, .dict tag d => .dict tag (Dict.part (fun _ v => some (t.part v)) d)
  | .keyed _ t, .dict tag d => .dict tag (Dict.part (fun _ v => some (t.part v)) d)
  | .struct _ name deny fs, .dict tag d =>
    if deny || magicNames.contains name then .dict tag d else .dict tag (Dict.part (Ty.partFields fs) d)
  | .flat _ fs _ _, .dict tag d =>
    .dict tag (Dict.part (fun k v => some ((Ty.partFields fs k v).getD v)) d)
  | .enum _ vs, .dict tag d => .dict tag (Dict.part (Ty.partVariants vs) (d.take 1))
  | _, v => v
/-- The elements of a tuple. -/
def Ty.partEach : List Ty → List Value → List Value
  | t :: ts, v :: r => t.part v :: Ty.partEach ts r
  | _, _ => []
/-- What a struct with these fields keeps of the value at the key. -/
def Ty.partFields : List (Str × Option Val × Ty) → Str → Value → Option Value
  | [], _, _ => none
  | (name, _, t) :: fs, k, v => if name = k then some (t.part v) else Ty.partFields fs k v
/-- What an enum with these variants keeps of the value at the key. -/
def Ty.partVariants : List (Str × VTy) → Str → Value → Option Value
  | [], _, v => some v
  | (name, t) :: vs, k, v => if name = k then some (t.part v) else Ty.partVariants vs k v
/-- The part of the value that the variant reads as its content. -/
def VTy.part : VTy → Value → Value
  | .newtype t, v => t.part v
  | .tuple ts, .array tag a => .array tag (Ty.partEach ts a)
  | .struct deny fs, .dict tag d => if deny then .dict tag d else .dict tag (Dict.part (Ty.partFields fs) d)
  | _, v => v
end
end Figment
