import Verif.Model.Value
/-!
# Path lookup and nesting (src/value/value.rs, src/util.rs)
-/
namespace Figment
namespace Value

/-- The inner function of `Value::find` (value/value.rs:140-145), on the list of pieces the `Split`
iterator yields. `remove(k)?` gives the removed value. -/
def findLoop : List Str → Value → Option Value
  | k :: keys, value =>
    if !k.isEmpty then
      match value.asDict? with
      | none => none
      | some d =>
        match Map.get k d with
        | none => none
        | some v => findLoop keys v
    else some value
  | [], value => some value

/-- `Value::find` (value/value.rs:139-148). -/
def find (self : Value) (path : Str) : Option Value := findLoop (Str.splitOn '.' path) self

/-- The inner function of `Value::find_ref` (value/value.rs:180-185); a reference is the value. -/
def findRefLoop : List Str → Value → Option Value
  | [], value => some value
  | k :: keys, value =>
    if !k.isEmpty then value.asDict?.bind fun d => (Map.get k d).bind (findRefLoop keys)
    else some value

/-- `Value::find_ref` (value/value.rs:179-188). -/
def findRef (self : Value) (path : Str) : Option Value := findRefLoop (Str.splitOn '.' path) self

/-- The inner function of `nest` (util.rs:272-281), on the list of pieces. -/
def nestLoop : List Str → Value → Value
  | k :: keys, value =>
    if !k.isEmpty then ofDict (Map.insert k (nestLoop keys value) []) else value
  | [], value => value

end Value

/-- `nest` (util.rs:271-284). -/
def nest (key : Str) (value : Value) : Value := Value.nestLoop (Str.splitOn '.' key) value

end Figment
