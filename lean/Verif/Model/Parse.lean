import Verif.Base.Dec
import Verif.Model.Value
/-!
# Parsing values from text (src/value/parse.rs, src/value/escape.rs)
-/
namespace Figment

/-- How a computation can end: with a result, with an error, with a panic, or (`loop`) not within the given
number of rounds. The `Result` of value/parse.rs:11-19, with the panics of value/escape.rs:28. -/
inductive Out (ε α : Type _) where
  | ok (a : α)
  | err (e : ε)
  | panic
  | loop
deriving DecidableEq, Repr

namespace Out
/-- The `?` operator. Used throughout value/parse.rs:76-182. -/
def bind {ε α β : Type _} : Out ε α → (α → Out ε β) → Out ε β
  | ok a, f => f a
  | err e, _ => err e
  | panic, _ => panic
  | loop, _ => loop

/-- `Result::map_err`. Called in value/parse.rs:76-182. -/
def mapErr {ε ε' α : Type _} (f : ε → ε') : Out ε α → Out ε' α
  | ok a => ok a
  | err e => err (f e)
  | panic => panic
  | loop => loop
end Out

/-- `escape::Error` (value/escape.rs:12-19), without the positions, which nothing uses. -/
inductive EscapeError where
  | invalidCharInString (c : Char)
  | invalidEscape (c : Char)
  | invalidHexEscape (c : Char)
  | invalidEscapeValue (n : Nat)
  | unterminatedString
deriving DecidableEq, Repr

/-- The loop of `hex` (value/escape.rs:64-71): the digits read and the rest of the iterator. -/
def hexDigits : Nat → Str → Out EscapeError (Str × Str)
  | 0, chars => .ok ([], chars)
  | _ + 1, [] => .err .unterminatedString
  | len + 1, ch :: chars =>
    if ch.toNat ≤ 0x7f && Hex.isDigit ch then
      (hexDigits len chars).bind fun (buf, rest) => .ok (ch :: buf, rest)
    else .err (.invalidHexEscape ch)

/-- `hex` (value/escape.rs:61-78): the character and the rest of the iterator. -/
def hex (chars : Str) (len : Nat) : Out EscapeError (Char × Str) :=
  (hexDigits len chars).bind fun (buf, rest) =>
    match charOfNat (Hex.val 0 buf) with
    | some ch => .ok (ch, rest)
    | none => .err (.invalidEscapeValue (Hex.val 0 buf))

/-- The characters that need no escape (value/escape.rs:48). -/
def escapePlain (ch : Char) : Bool :=
  ch.toNat = 0x09 || (0x20 ≤ ch.toNat && ch.toNat ≤ 0x10ffff && ch.toNat ≠ 0x7f)

/-- The loop of `escape` (value/escape.rs:24-56). `i` is the number of characters read so far; `output` is
`none` while it is `Cow::Borrowed(string)`. The first argument bounds the number of rounds. -/
def escapeLoop (string : Str) : Nat → Nat → Str → Option Str → Out EscapeError Str
  | _, _, [], output => .ok (output.getD string)
  | 0, _, _ :: _, _ => .loop
  | n + 1, i, ch :: chars, output =>
    if ch = '\\' then
      -- value/escape.rs:27-29: the slice is up to *byte* `i`
      match (match output with | some val => some val | none => Str.sliceTo string i) with
      | none => .panic
      | some val =>
        match chars with
        | '"' :: chars => escapeLoop string n (i + 2) chars (some (val ++ ['"']))
        | '\\' :: chars => escapeLoop string n (i + 2) chars (some (val ++ ['\\']))
        | 'b' :: chars => escapeLoop string n (i + 2) chars (some (val ++ [Char.ofNat 0x8]))
        | 'f' :: chars => escapeLoop string n (i + 2) chars (some (val ++ [Char.ofNat 0xc]))
        | 'n' :: chars => escapeLoop string n (i + 2) chars (some (val ++ ['\n']))
        | 'r' :: chars => escapeLoop string n (i + 2) chars (some (val ++ ['\r']))
        | 't' :: chars => escapeLoop string n (i + 2) chars (some (val ++ ['\t']))
        | 'u' :: chars => (hex chars 4).bind fun (c, chars) => escapeLoop string n (i + 6) chars (some (val ++ [c]))
        | 'U' :: chars => (hex chars 8).bind fun (c, chars) => escapeLoop string n (i + 10) chars (some (val ++ [c]))
        | c :: _ => .err (.invalidEscape c)
        | [] => .err .unterminatedString
    else if escapePlain ch then escapeLoop string n (i + 1) chars (output.map (· ++ [ch]))
    else .err (.invalidCharInString ch)

/-- `escape` (value/escape.rs:21-59). Every round reads a character, so the length is bound enough
(`escape_total`, Lemmas/Escape.lean). -/
def escape (string : Str) : Out EscapeError Str := escapeLoop string string.length 0 string none

namespace Parser

/-- `parse::Error` (value/parse.rs:13-17). -/
inductive ParseError where
  | expected (c : Char)
  | escape (e : EscapeError)
  | eof
deriving DecidableEq, Repr

/-- A parser's outcome: the value and the new cursor (value/parse.rs:7-9, 19). -/
abbrev P (α : Type _) := Out ParseError (α × Str)

/-- `peek` (value/parse.rs:26-28), with `peek_next` (value/parse.rs:34-36); the cursor is the text left
(value/parse.rs:22-24), `eof` (value/parse.rs:30-32) that there is none. -/
def peek (c : Char) (cursor : Str) : Bool := cursor.head? = some c

/-- `eat` (value/parse.rs:39-54). -/
def eat (c : Char) : Str → P Char
  | ch :: r => if ch = c then .ok (ch, r) else .err (.expected c)
  | [] => .err (.expected c)

/-- `eat_any` (value/parse.rs:56-58). -/
def eatAny : Str → P Char
  | ch :: r => .ok (ch, r)
  | [] => .err .eof

/-- `substr` (value/parse.rs:64-75) with a predicate without state. -/
def substr (f : Char → Bool) (cursor : Str) : Str × Str := (cursor.takeWhile f, cursor.dropWhile f)

/-- `quoted_char` (value/parse.rs:77-82). -/
def quotedChar (cursor : Str) : P Char :=
  (eat '\'' cursor).bind fun (_, cursor) =>
  (eatAny cursor).bind fun (ch, cursor) =>
  (eat '\'' cursor).bind fun (_, cursor) => .ok (ch, cursor)

/-- `substr` with the closure of `quoted_str` (value/parse.rs:87-92); the first argument is
`is_escaped`. -/
def quotedInner : Bool → Str → Str × Str
  | _, [] => ([], [])
  | true, c :: r => let (a, b) := quotedInner false r; (c :: a, b)
  | false, c :: r =>
    if c = '\\' then let (a, b) := quotedInner true r; (c :: a, b)
    else if c ≠ '"' then let (a, b) := quotedInner false r; (c :: a, b)
    else ([], c :: r)

/-- `quoted_str` (value/parse.rs:84-96). -/
def quotedStr (cursor : Str) : P Str :=
  (eat '"' cursor).bind fun (_, cursor) =>
  let (inner, cursor) := quotedInner false cursor
  (eat '"' cursor).bind fun (_, cursor) =>
  ((escape inner).mapErr ParseError.escape).bind fun s => .ok (s, cursor)

/-- `is_ident_char` (value/parse.rs:100-102). -/
def isIdentChar (c : Char) : Bool :=
  ('a' ≤ c && c ≤ 'z') || ('A' ≤ c && c ≤ 'Z') || ('0' ≤ c && c ≤ '9') || c = '_' || c = '-'

/-- `key` (value/parse.rs:98-109). -/
def key (cursor : Str) : P Str :=
  if peek '"' cursor then quotedStr cursor else .ok (substr isIdentChar cursor)

/-- The loop of `delimited` and what follows it (value/parse.rs:118-130); `extend` is
`collection.extend(Some(..))`. The first argument bounds the number of rounds. -/
def delimitedLoop {τ ν : Type _} (extend : τ → ν → τ) (stop : Char) (value : Str → P ν) :
    Nat → Str → τ → P τ
  | 0, _, _ => .loop
  | n + 1, cursor, collection =>
    if peek stop cursor then (eat stop cursor).bind fun (_, cursor) => .ok (collection, cursor)
    else
      (value cursor).bind fun (v, cursor) =>
        match eat ',' (Str.trimStart cursor) with
        | .ok (_, cursor) => delimitedLoop extend stop value n (Str.trimStart cursor) (extend collection v)
        | _ => (eat stop (Str.trimStart cursor)).bind fun (_, cursor) => .ok (extend collection v, cursor)

/-- `delimited` (value/parse.rs:111-131). Every round but the last reads a comma, so the length is bound
enough (`Parser.valueP_no_loop`). -/
def delimited {τ ν : Type _} (empty : τ) (extend : τ → ν → τ) (start stop : Char) (value : Str → P ν)
    (cursor : Str) : P τ :=
  (eat start cursor).bind fun (_, cursor) =>
    delimitedLoop extend stop value ((Str.trimStart cursor).length + 1) (Str.trimStart cursor) empty

/-- The closure in `dict` (value/parse.rs:134-139). -/
def dictItem (value : Str → P Value) (cursor : Str) : P (Str × Value) :=
  (key cursor).bind fun (k, cursor) =>
  (eat '=' (Str.trimStart cursor)).bind fun (_, cursor) =>
  (value (Str.trimStart cursor)).bind fun (v, cursor) => .ok ((k, v), cursor)

/-- `is_not_separator` (value/parse.rs:148-150). -/
def isNotSeparator (c : Char) : Bool := !(c = ',' || c = '{' || c = '}' || c = '[' || c = ']')

section
variable [FloatOps]

/-- What trimmed text without separators stands for (value/parse.rs:158-176). -/
def bare (value : Str) : Value :=
  if value = str "true" then .ofBool true
  else if value = str "false" then .ofBool false
  else if value.contains '.' then
    match FloatOps.parse64 value with
    | some float => .ofNum (.f64 float)
    | none => .ofStr value
  else match Dec.parseUnsigned 64 value with
    | some int => .ofNum (.usize int)
    | none =>
      match Dec.parseSigned 64 value with
      | some int => .ofNum (.isize int)
      | none => .ofStr value

/-- `value` (value/parse.rs:146-182), with `array` (value/parse.rs:142-144) and `dict`
(value/parse.rs:133-140). The first argument bounds the depth of nesting. -/
def valueP : Nat → Str → P Value
  | 0, _ => .loop
  | n + 1, cursor =>
    let cursor := Str.trimStart cursor
    let value : P Value :=
      match cursor.head? with
      | some '"' => (quotedStr cursor).bind fun (s, cursor) => .ok (.ofStr s, cursor)
      | some '\'' => (quotedChar cursor).bind fun (c, cursor) => .ok (.ofChar c, cursor)
      | some '[' =>
        (delimited [] (fun a v => a ++ [v]) '[' ']' (valueP n) cursor).bind fun (a, cursor) =>
          .ok (.ofArray a, cursor)
      | some '{' =>
        (delimited [] (fun d e => Map.insert e.1 e.2 d) '{' '}' (dictItem (valueP n)) cursor).bind
          fun (d, cursor) => .ok (.ofDict d, cursor)
      | some _ =>
        let (s, cursor) := substr isNotSeparator cursor
        .ok (bare (Str.trim s), cursor)
      | none => .ok (.ofEmpty .unit, cursor)
    value.bind fun (v, cursor) => .ok (v, Str.trimStart cursor)

end
end Parser

/-- `FromStr for Value` (value/parse.rs:185-196). It has no error outcome. Nesting is at most as deep as the
text is long, so the bound is enough (`Value.parse_no_loop`). -/
def Value.parse [FloatOps] (string : Str) : Out _root_.Empty Value :=
  let string := Str.trim string
  match Parser.valueP (string.length + 1) string with
  | .ok (value, cursor) => if cursor.isEmpty then .ok value else .ok (.ofStr string)
  | .err _ => .ok (.ofStr string)
  | .panic => .panic
  | .loop => .loop

end Figment
