import Verif.Spec.Types
/-!
# Specification: what an extraction error says about the data
-/
namespace Figment

/-- The path leads from the first value to the last, one key or index after the other. If `magic`, components that are
reserved for the fields of the crate's magic structs are skipped. -/
inductive Value.Leads (magic : Bool) : Value → List Str → Value → Prop
  | here (v : Value) : Leads magic v [] v
  | key {t : Tag} {d : List (Str × Value)} {k : Str} {w : Value} {p : List Str} {u : Value} :
    Map.get k d = some w → Leads magic w p u → Leads magic (.dict t d) (k :: p) u
  | index {t : Tag} {a : List Value} {i : Nat} {w : Value} {p : List Str} {u : Value} :
    a[i]? = some w → Leads magic w p u → Leads magic (.array t a) (Dec.ofNat i :: p) u
  | skip {v : Value} {k : Str} {p : List Str} {u : Value} :
    magic = true → k ∈ reservedFields → Leads magic v p u → Leads magic v (k :: p) u

/-- The path leads to an array with the tag, and from there, by one index, to its element `w`. -/
def Value.LeadsInto (magic : Bool) (v : Value) (p : List Str) (t : Tag) (w : Value) : Prop :=
  ∃ q i a, p = q ++ [Dec.ofNat i] ∧ v.Leads magic q (.array t a) ∧ a[i]? = some w

/-- What a value is said to be when it is of the wrong type: its kind and, for a scalar, its content. 128-bit integers
are given as text, a character as a string. -/
def Value.shown : Value → Actual
  | .string _ s => .str s
  | .char _ c => .str [c]
  | .bool _ b => .bool b
  | .num _ (.u128 v) => .other (str "integer `" ++ Dec.ofNat v.toNat ++ str "` as u128")
  | .num _ (.i128 v) => .other (str "integer `" ++ Dec.ofInt v.toInt ++ str "` as i128")
  | .num _ n => n.toActual
  | .empty _ .unit => .unit
  | .empty _ .none => .option
  | .dict _ _ => .map
  | .array _ _ => .seq

/-- The value may be reported as `a`: it is what it is shown as; or, in a lossy extraction, it is text that reads as
the number shown; or it is the name or the index of an enum's variant without the variant's content. -/
def Value.Reported [FloatOps] (lossy : Bool) (w : Value) (a : Actual) : Prop :=
  a = w.shown ∨
  (lossy = true ∧ ∃ t s n, w = .string t s ∧ Num.parse s = some n ∧ a = (Value.num t n).shown) ∨
  (a = .unitVariant ∧ ((∃ t s, w = .string t s) ∨ ∃ t n i, w = .num t n ∧ n.toU32 = some i))

/-- The last component of the path may be reported as `a`: as a key it is text, or the name of an enum's variant without
the variant's content. -/
def KeyReported (key : Option Str) (a : Actual) : Prop := ∃ s, key = some s ∧ (a = .str s ∨ a = .unitVariant)

/-- The error kind fits the value `w` with the last component `key` of the path to it, or that component. (Messages are those of the type's
conversions; `Ty.Complains` says which.) -/
def Value.Fits [FloatOps] (lossy : Bool) (w : Value) (key : Option Str) : Kind → Prop
  | .invalidType a _ => w.Reported lossy a ∨ KeyReported key a
  | .invalidValue a _ => w.Reported lossy a ∨ KeyReported key a
  | .invalidLength n _ => ∃ t a, w = .array t a ∧ a.length ≤ n
  | .missingField k => ∃ t d, w = .dict t d ∧ Map.get k d = none
  | .unknownField k names => key = some k ∧ k ∉ names
  | .unknownVariant s names => s ∉ names ∧ ((∃ t, w = .string t s) ∨ key = some s)
  | .message _ => True
  | _ => False

/-- The error's path leads into `v`, to a value its kind fits. -/
def Error.PointsInto [FloatOps] (magic lossy : Bool) (v : Value) (e : Error) : Prop :=
  ∃ w, v.Leads magic e.head.path w ∧ w.Fits lossy e.head.path.getLast? e.head.kind

/-- The error is a message: that 128-bit integers are not supported, or that of a conversion. -/
def Kind.isMessage : Kind → Bool
  | .message _ => true
  | _ => false

mutual
/-- Every element of an array has the array's own tag: no array has elements of several providers, as `adjoin` and
`admerge` may make. -/
def Value.uniform : Value → Bool
  | .dict _ d => Value.uniformD d
  | .array t a => Value.uniformA t a
  | _ => true
/-- See `uniform`. -/
def Value.uniformD : List (Str × Value) → Bool
  | [] => true
  | (_, v) :: d => v.uniform && Value.uniformD d
/-- See `uniform`. -/
def Value.uniformA (t : Tag) : List Value → Bool
  | [] => true
  | v :: a => v.tag == t && v.uniform && Value.uniformA t a
end

/-- Values of the type are converted, or refused, outside of the deserialiser of the value: those with a conversion from
another type, 128-bit integers, and the newtypes of these. -/
def Ty.loose : Ty → Bool
  | .int .u128 => true
  | .int .i128 => true
  | .via _ _ _ => true
  | .newtype _ t => t.loose
  | _ => false

mutual
/-- No struct of the type has one of the names the crate reserves for its magic structs, but for the magic structs
themselves; these, and `Value`, occur only if `b`. -/
def Ty.ordinary (b : Bool) : Ty → Bool
  | .option t => t.ordinary b
  | .newtype _ t => t.ordinary b
  | .seq t => t.ordinary b
  | .map t => t.ordinary b
  | .pairs t => t.ordinary b
  | .keyed _ t => t.ordinary b
  | .via t _ _ => !t.isOption && t.ordinary b
  | .tuple ts => Ty.ordinaryEach b ts
  | .tupleStruct _ ts => Ty.ordinaryEach b ts
  | .struct _ name _ fs => (!magicNames.contains name || (b && Ty.magicShape name fs)) && Ty.ordinaryFields b fs
  | .flat _ _ _ _ => false
  | .enum _ vs => Ty.ordinaryVariants b vs
  | .value => b
  | _ => true
/-- See `ordinary`. -/
def Ty.ordinaryEach (b : Bool) : List Ty → Bool
  | [] => true
  | t :: ts => t.ordinary b && Ty.ordinaryEach b ts
/-- See `ordinary`. -/
def Ty.ordinaryFields (b : Bool) : List (Str × Option Val × Ty) → Bool
  | [] => true
  | (_, _, t) :: fs => t.ordinary b && Ty.ordinaryFields b fs
/-- See `ordinary`. -/
def Ty.ordinaryVariants (b : Bool) : List (Str × VTy) → Bool
  | [] => true
  | (_, v) :: vs => v.ordinary b && Ty.ordinaryVariants b vs
/-- See `ordinary`. -/
def VTy.ordinary (b : Bool) : VTy → Bool
  | .unit => true
  | .newtype t => t.ordinary b
  | .tuple ts => Ty.ordinaryEach b ts
  | .struct _ fs => Ty.ordinaryFields b fs
end

end Figment
