import Verif.Model.Display
import Verif.Model.Extract
import Verif.Model.Types
/-!
# `Either` (src/value/magic.rs)
-/
namespace Figment
variable [FloatOps] [TextOps]

/-- `Either<A, B>` (value/magic.rs:484-489). -/
inductive Either (α β : Type) where
  | left (a : α)
  | right (b : β)
deriving DecidableEq, Repr

/-- The types that implement `Magic` (value/magic.rs:12-30): `RelativePathBuf` (value/magic.rs:172-210) and `Tagged<T>`
(value/magic.rs:569-600). -/
inductive MagicTy where
  | relPath
  | tagged (t : Ty)

namespace MagicTy

/-- The type itself. As the type parameter `A` of value/magic.rs:484-514. -/
def ty : MagicTy → Ty
  | .relPath => .relPath
  | .tagged t => .tagged t

/-- `Magic::NAME` (value/magic.rs:173, 570). -/
def name : MagicTy → Str
  | .relPath => RelPath.NAME
  | .tagged _ => Tagged.NAME

/-- `Magic::FIELDS` (value/magic.rs:175-178, 572-574). -/
def fields : MagicTy → List Str
  | .relPath => [RelPath.FIELD0, RelPath.FIELD1]
  | .tagged _ => [Tagged.FIELD0, Tagged.FIELD1]

/-- `FIELDS[FIELDS.len() - 1]` (value/magic.rs:505). `FIELDS` is not empty, so that the default is not used. -/
def last (a : MagicTy) : Str := a.fields.getLastD []

end MagicTy

/-- `Deserialize for Either<A, B>` (value/magic.rs:491-514). `cwd` is the current directory, which `Display for Error`
uses. -/
def Either.de (cwd : Option Str) (a : MagicTy) (b : Ty) (de : De) (v : Value) : R (Either Val Val) :=
  match de.deserializeStruct a.name Value.visitor v with
  | .error e => .error e
  | .ok value =>
    match a.ty.de De.plain value with
    | .ok x => .ok (.left x)
    | .error ea =>
      let value := ((value.asDict?).bind fun d => Map.get a.last d).getD value
      match b.de De.plain value with
      | .ok y => .ok (.right y)
      | .error eb => .error (Error.ofKind (.message (ea.display cwd ++ str "; " ++ eb.display cwd)))

/-- `Serialize for Either<A, B>` (value/magic.rs:1030-1052): as what is in it. -/
def Either.ser (a : MagicTy) (b : Ty) : Either Val Val → Ser
  | .left x => a.ty.ser x
  | .right y => b.ser y

/-- `Figment::extract::<Either<A, B>>` (figment.rs:483-486). -/
def Fig.extractEither (f : Fig) (cwd : Option Str) (a : MagicTy) (b : Ty) : R (Either Val Val) :=
  f.extractWith fun f v => Either.de cwd a b (De.strict f) v

/-- `Figment::extract_lossy::<Either<A, B>>` (figment.rs:539-542). -/
def Fig.extractLossyEither (f : Fig) (cwd : Option Str) (a : MagicTy) (b : Ty) : R (Either Val Val) :=
  f.extractWith fun f v => Either.de cwd a b (De.lossyOf f) v

/-- `Figment::extract_inner::<Either<A, B>>` (figment.rs:569-573). -/
def Fig.extractInnerEither (f : Fig) (cwd : Option Str) (path : Str) (a : MagicTy) (b : Ty) : R (Either Val Val) :=
  f.extractInnerWith (fun f v => Either.de cwd a b (De.strict f) v) path

/-- `Figment::extract_inner_lossy::<Either<A, B>>` (figment.rs:603-607). -/
def Fig.extractInnerLossyEither (f : Fig) (cwd : Option Str) (path : Str) (a : MagicTy) (b : Ty) :
    R (Either Val Val) :=
  f.extractInnerWith (fun f v => Either.de cwd a b (De.lossyOf f) v) path

end Figment
