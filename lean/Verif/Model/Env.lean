import Verif.Model.Parse
import Verif.Model.Figment
/-!
# The environment provider (src/providers/env.rs)

The environment is a list of names and values, as `std::env::vars_os()` gives them after `to_string_lossy`
(simplification: OS strings are taken as their lossy text).
-/
namespace Figment

namespace Str

/-- `UncasedStr::starts_with` (crate `uncased`): the bytes up to the length of the prefix are a string equal to it up
to ASCII case. Called at providers/env.rs:200. -/
def uncasedStartsWith (s pre : Str) : Bool :=
  match sliceTo s (byteLen pre) with
  | some q => uncasedEq q pre
  | none => false

/-- `&s[n..]` (std) for a byte offset `n`: `none` stands for the panic. Used at providers/env.rs:201. -/
def sliceFrom : Str → Nat → Option Str
  | s, 0 => some s
  | [], _ + 1 => none
  | c :: cs, n + 1 => if utf8Len c ≤ n + 1 then sliceFrom cs (n + 1 - utf8Len c) else none

/-- The loop of `str::replace` (std) for a pattern that is not empty: occurrences are looked for from left to right,
after the end of the last one. The second argument is how many characters of an occurrence are left to skip.
Part of `replace`, called at providers/env.rs:430. -/
def replaceLoop (pattern to : Str) : Str → Nat → Str
  | [], _ => []
  | _ :: r, skip + 1 => replaceLoop pattern to r skip
  | c :: r, 0 =>
    if pattern.isPrefixOf (c :: r) then to ++ replaceLoop pattern to r (pattern.length - 1)
    else c :: replaceLoop pattern to r 0

/-- `str::replace` (std). The empty pattern is found before every character and at the end.
Called at providers/env.rs:430. -/
def replace (pattern to s : Str) : Str :=
  if pattern.isEmpty then to ++ s.flatMap (fun c => c :: to) else replaceLoop pattern to s 0

end Str

/-- `Env` (providers/env.rs:104-113). The boxed closures are functions; their `Uncased` strings are their text. -/
structure Env where
  filterMap : Str → Option Str
  profile : Profile
  «prefix» : Option Str
  lowercase : Bool

namespace Env

/-- `Env::new` (providers/env.rs:122-129). -/
def new : Env := { filterMap := some, profile := Profile.Default, «prefix» := none, lowercase := true }

/-- `Env::chain` (providers/env.rs:131-141). -/
def chain (e : Env) (f : Option Str → Option Str) : Env :=
  { filterMap := fun key => f (e.filterMap key), profile := e.profile, «prefix» := e.prefix, lowercase := true }

/-- `Env::raw` (providers/env.rs:169-172). -/
def raw : Env := new

/-- `Env::filter` (providers/env.rs:231-235). -/
def filter (e : Env) (p : Str → Bool) : Env := e.chain fun prev => prev.filter p

/-- `Env::map` (providers/env.rs:288-292). -/
def map (e : Env) (f : Str → Str) : Env := e.chain fun prev => prev.map f

/-- `Env::filter_map` (providers/env.rs:333-337). -/
def filterMapWith (e : Env) (f : Str → Option Str) : Env := e.chain fun prev => prev.bind f

/-- `Env::prefixed` (providers/env.rs:197-207). The slice cannot panic: `starts_with` has checked the boundary
(`Str.sliceFrom_startsWith`); the model's `none` for it is the same as for another name. -/
def prefixed (pre : Str) : Env :=
  { new.filterMapWith (fun key =>
      if Str.uncasedStartsWith key pre then Str.sliceFrom key (Str.byteLen pre) else none) with
    «prefix» := some pre }

/-- `Env::lowercase` (providers/env.rs:370-373). -/
def withLowercase (e : Env) (b : Bool) : Env := { e with lowercase := b }

/-- `Env::split` (providers/env.rs:428-431). -/
def split (e : Env) (pattern : Str) : Env := e.map fun key => Str.replace pattern (str ".") key

/-- `Env::ignore` (providers/env.rs:453-456). -/
def ignore (e : Env) (keys : List Str) : Env := e.filter fun key => !keys.any (Str.uncasedEq · key)

/-- `Env::only` (providers/env.rs:482-485). -/
def only (e : Env) (keys : List Str) : Env := e.filter fun key => keys.any (Str.uncasedEq · key)

/-- `Env::iter` (providers/env.rs:523-539). -/
def iter (e : Env) (vars : List (Str × Str)) : List (Str × Str) :=
  (vars.filter fun (k, _) => !k.isEmpty).filterMap fun (k, v) =>
    match e.filterMap (Str.trim k) with
    | none => none
    | some key =>
      let key := Str.trim key
      if (Str.splitOn '.' key).any (·.isEmpty) then none
      else some (if e.lowercase then Str.lower key else key, v)

/-- `Env::profile` (providers/env.rs:552-555). -/
def withProfile (e : Env) (p : Profile) : Env := { e with profile := p }

/-- `Env::global` (providers/env.rs:568-571). -/
def global (e : Env) : Env := { e with profile := Profile.Global }

/-- `Env::var` (providers/env.rs:585-594). -/
def var (vars : List (Str × Str)) (name : Str) : Option Str :=
  match vars with
  | [] => none
  | (k, v) :: r => if Str.uncasedEq (Str.trim k) name then some (Str.trim v) else var r name

/-- `Env::var_or` (providers/env.rs:610-612). -/
def varOr (vars : List (Str × Str)) (name default : Str) : Str := (var vars name).getD default

/-- `Provider::metadata for Env` (providers/env.rs:616-631). -/
def metadata (e : Env) : Metadata :=
  let md := (Metadata.named (str "environment variable(s)")).withInterpolater fun _ k =>
    Str.join (str ".") (k.map Str.upper)
  match e.prefix with
  | some pre => { md with name := str "`" ++ Str.upper pre ++ str "` " ++ md.name }
  | none => md

/-- The loop of `Provider::data for Env` (providers/env.rs:635-641). -/
def dataLoop [FloatOps] : List (Str × Str) → Dict → Out _root_.Empty Dict
  | [], dict => .ok dict
  | (k, v) :: r, dict =>
    (Value.parse v).bind fun value =>
      match (nest k value).asDict? with
      | none => .panic
      | some nested => dataLoop r (Dict.merge dict nested)

/-- `Provider::data for Env` (providers/env.rs:633-644). -/
def data [FloatOps] (e : Env) (vars : List (Str × Str)) : Out _root_.Empty Data :=
  (dataLoop (e.iter vars) []).bind fun dict => .ok (e.profile.collect dict)

/-- `impl Provider for Env` (providers/env.rs:615-645): `read` is what reading the environment with `data` gave. The other
methods are the trait's default ones (provider.rs:93-101). -/
def giving (e : Env) (read : Data) : Provider := Provider.plain e.metadata (.ok read)

end Env
end Figment
