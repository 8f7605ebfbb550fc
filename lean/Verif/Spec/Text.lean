import Verif.Model.Value
import Verif.Base.Dec
/-!
# Specification: configuration values as text

A grammar, as a relation between a text and the value it stands for.
-/
namespace Figment

/-- All white space. -/
def Ws (s : Str) : Prop := ∀ c ∈ s, Str.isWs c = true

instance (s : Str) : Decidable (Ws s) := inferInstanceAs (Decidable (∀ c ∈ s, Str.isWs c = true))

/-- The escapes of one letter, and what they stand for. -/
def namedEscapes : List (Char × Char) :=
  [('"', '"'), ('\\', '\\'), ('b', Char.ofNat 8), ('f', Char.ofNat 12), ('n', Char.ofNat 10),
   ('r', Char.ofNat 13), ('t', Char.ofNat 9)]

/-- A control character other than the tab. -/
def isControl (c : Char) : Prop := (c.toNat < 32 ∧ c.toNat ≠ 9) ∨ c.toNat = 127

instance (c : Char) : Decidable (isControl c) := inferInstanceAs (Decidable (_ ∨ _))

/-- The text with escapes `s` stands for `t`. `q` says whether a double quote may stand for itself. -/
inductive Unescapes (q : Bool) : (s t : Str) → Prop
  | nil : Unescapes q [] []
  | plain {c : Char} {s t : Str} (h : c ≠ '\\') (hc : ¬ isControl c) (hq : c = '"' → q = true)
      (r : Unescapes q s t) : Unescapes q (c :: s) (c :: t)
  | named {c m : Char} {s t : Str} (h : (c, m) ∈ namedEscapes) (r : Unescapes q s t) :
      Unescapes q ('\\' :: c :: s) (m :: t)
  | hex4 {ds : Str} {m : Char} {s t : Str} (hl : ds.length = 4) (hd : ∀ c ∈ ds, Hex.isDigit c = true)
      (hv : Hex.val 0 ds = m.toNat) (r : Unescapes q s t) : Unescapes q ('\\' :: 'u' :: (ds ++ s)) (m :: t)
  | hex8 {ds : Str} {m : Char} {s t : Str} (hl : ds.length = 8) (hd : ∀ c ∈ ds, Hex.isDigit c = true)
      (hv : Hex.val 0 ds = m.toNat) (r : Unescapes q s t) : Unescapes q ('\\' :: 'U' :: (ds ++ s)) (m :: t)

/-- What becomes of the text between double quotes: with escapes in it, the text before the first of them is not
kept, but replaced by as many bytes from the beginning as it has characters. With ASCII text before the first
escape this is `Unescapes`; it should be `Unescapes` always. -/
inductive Miscuts (q : Bool) : (s t : Str) → Prop
  | kept {s : Str} (h : '\\' ∉ s) (hu : Unescapes q s s) : Miscuts q s s
  | cut {pre rest a b t t' : Str} (h : '\\' ∉ pre) (he : pre ++ '\\' :: rest = a ++ b)
      (hl : Str.byteLen a = pre.length) (hu : Unescapes q (pre ++ '\\' :: rest) (pre ++ t)) (ht : t' = a ++ t) :
      Miscuts q (pre ++ '\\' :: rest) t'

/-- Text with no closing quote in it: a double quote only after a backslash that itself is not after one, and no
such backslash at the end. -/
inductive Enclosed : Str → Prop
  | nil : Enclosed []
  | plain {c : Char} {s : Str} (hb : c ≠ '\\') (hq : c ≠ '"') (h : Enclosed s) : Enclosed (c :: s)
  | pair (c : Char) {s : Str} (h : Enclosed s) : Enclosed ('\\' :: c :: s)

/-- Text that makes the parser panic between double quotes: before the first backslash there is no control character,
but the number of characters there, as a number of bytes, falls within a character. -/
def Derails (s : Str) : Prop :=
  ∃ pre rest, s = pre ++ '\\' :: rest ∧ '\\' ∉ pre ∧ (∀ c ∈ pre, ¬ isControl c) ∧
    ¬ ∃ a b, s = a ++ b ∧ Str.byteLen a = pre.length

/-- The decimal text of an integer: digits, possibly after a sign. -/
def IntText (s : Str) (n : Int) : Prop :=
  ∃ ds : Str, ds ≠ [] ∧ (∀ c ∈ ds, Dec.isDigit c = true) ∧
    ((s = ds ∧ n = Dec.digitsVal 0 ds) ∨ (s = '+' :: ds ∧ n = Dec.digitsVal 0 ds) ∨
      (s = '-' :: ds ∧ n = -(Dec.digitsVal 0 ds : Int)))

/-- The characters that end a text without quotes. -/
def separators : List Char := [',', '{', '}', '[', ']']

/-- What a text without quotes and separators stands for. -/
inductive Bare [FloatOps] : Str → Value → Prop
  | tt : Bare (str "true") (.ofBool true)
  | ff : Bare (str "false") (.ofBool false)
  | float {s : Str} {f : F64} (h : '.' ∈ s) (hf : FloatOps.parse64 s = some f) : Bare s (.ofNum (.f64 f))
  | dotted {s : Str} (h : '.' ∈ s) (hf : FloatOps.parse64 s = none) : Bare s (.ofStr s)
  | unsigned {s : Str} {n : BitVec 64} (hd : '.' ∉ s) (hs : s.head? ≠ some '-') (h : IntText s n.toNat) :
      Bare s (.ofNum (.usize n))
  | signed {s : Str} {n : BitVec 64} (hd : '.' ∉ s) (hs : s.head? = some '-') (h : IntText s n.toInt) :
      Bare s (.ofNum (.isize n))
  | text {s : Str} (ht : s ≠ str "true") (hf : s ≠ str "false") (hd : '.' ∉ s)
      (hn : ¬ ∃ n : Int, IntText s n ∧ if s.head? = some '-' then -(2 ^ 63) ≤ n else n < 2 ^ 64) :
      Bare s (.ofStr s)

/-- The text of a key: letters, digits, `_` and `-`, or a quoted string. As everywhere below, `Q` says what the
text between double quotes stands for; it is meant to be `Unescapes false`. -/
inductive KeyText (Q : Str → Str → Prop) : Str → Str → Prop
  | ident {s : Str} (h : ∀ c ∈ s, c.isAlphanum = true ∨ c = '_' ∨ c = '-') : KeyText Q s s
  | quoted {s t : Str} (h : Q s t) : KeyText Q ('"' :: (s ++ ['"'])) t

mutual
/-- The text `s`, possibly with white space around it, stands for the value. -/
inductive Reads [FloatOps] (Q : Str → Str → Prop) : Str → Value → Prop
  | bare {a s b : Str} {v : Value} (ha : Ws a) (hb : Ws b) (hne : s ≠ []) (hs : ∀ c ∈ s, c ∉ separators)
      (h1 : s.head? ≠ some '"') (h2 : s.head? ≠ some '\'')
      (h3 : ∀ c, s.head? = some c → Str.isWs c = false) (h4 : ∀ c, s.getLast? = some c → Str.isWs c = false)
      (h : Bare s v) : Reads Q (a ++ (s ++ b)) v
  | string {a s t b : Str} (ha : Ws a) (hb : Ws b) (h : Q s t) :
      Reads Q (a ++ '"' :: (s ++ '"' :: b)) (.ofStr t)
  | char {a b : Str} (c : Char) (ha : Ws a) (hb : Ws b) : Reads Q (a ++ '\'' :: c :: '\'' :: b) (.ofChar c)
  | array {a s b : Str} {vs : List Value} (ha : Ws a) (hb : Ws b) (h : Items Q s vs) :
      Reads Q (a ++ '[' :: (s ++ ']' :: b)) (.ofArray vs)
  | dict {a s b : Str} {es : List (Str × Value)} (ha : Ws a) (hb : Ws b) (h : Entries Q s es) :
      Reads Q (a ++ '{' :: (s ++ '}' :: b)) (.ofDict (Map.ofList es))
/-- The text between the brackets of an array: items with commas between them; a comma may follow the last
one; nothing before a comma is the empty string. -/
inductive Items [FloatOps] (Q : Str → Str → Prop) : Str → List Value → Prop
  | nil {s : Str} (h : Ws s) : Items Q s []
  | last {s : Str} {v : Value} (h : Reads Q s v) : Items Q s [v]
  | cons {s r : Str} {v : Value} {vs : List Value} (h : Reads Q s v) (hr : Items Q r vs) :
      Items Q (s ++ ',' :: r) (v :: vs)
  | skip {s r : Str} {vs : List Value} (h : Ws s) (hr : Items Q r vs) : Items Q (s ++ ',' :: r) (.ofStr [] :: vs)
/-- The text between the braces of a dictionary: entries `key = value` with commas between them; a comma
may follow the last one; nothing after `=` is the empty string. -/
inductive Entries [FloatOps] (Q : Str → Str → Prop) : Str → List (Str × Value) → Prop
  | nil {s : Str} (h : Ws s) : Entries Q s []
  | last {a k b s key : Str} {v : Value} (ha : Ws a) (hk : KeyText Q k key) (hb : Ws b) (h : Reads Q s v) :
      Entries Q (a ++ (k ++ (b ++ '=' :: s))) [(key, v)]
  | lastEmpty {a k b s key : Str} (ha : Ws a) (hk : KeyText Q k key) (hb : Ws b) (h : Ws s) :
      Entries Q (a ++ (k ++ (b ++ '=' :: s))) [(key, .ofStr [])]
  | cons {a k b s r key : Str} {v : Value} {es : List (Str × Value)} (ha : Ws a) (hk : KeyText Q k key)
      (hb : Ws b) (h : Reads Q s v) (hr : Entries Q r es) :
      Entries Q (a ++ (k ++ (b ++ '=' :: (s ++ ',' :: r)))) ((key, v) :: es)
  | consEmpty {a k b s r key : Str} {es : List (Str × Value)} (ha : Ws a) (hk : KeyText Q k key)
      (hb : Ws b) (h : Ws s) (hr : Entries Q r es) :
      Entries Q (a ++ (k ++ (b ++ '=' :: (s ++ ',' :: r)))) ((key, .ofStr []) :: es)
end

mutual
/-- The text begins, after white space and perhaps with values of arrays and dictionaries that are complete, with a
quoted string or key that `D` holds of. -/
inductive Meets [FloatOps] (Q : Str → Str → Prop) (D : Str → Prop) : Str → Prop
  | string {a s r : Str} (ha : Ws a) (hs : Enclosed s) (h : D s) : Meets Q D (a ++ '"' :: (s ++ '"' :: r))
  | array {a s : Str} (ha : Ws a) (h : MeetsItems Q D s) : Meets Q D (a ++ '[' :: s)
  | dict {a s : Str} (ha : Ws a) (h : MeetsEntries Q D s) : Meets Q D (a ++ '{' :: s)
/-- The same of the text after the opening bracket of an array. -/
inductive MeetsItems [FloatOps] (Q : Str → Str → Prop) (D : Str → Prop) : Str → Prop
  | here {s : Str} (h : Meets Q D s) : MeetsItems Q D s
  | cons {s r : Str} {v : Value} (h : Reads Q s v) (hr : MeetsItems Q D r) : MeetsItems Q D (s ++ ',' :: r)
  | skip {s r : Str} (h : Ws s) (hr : MeetsItems Q D r) : MeetsItems Q D (s ++ ',' :: r)
/-- The same of the text after the opening brace of a dictionary. -/
inductive MeetsEntries [FloatOps] (Q : Str → Str → Prop) (D : Str → Prop) : Str → Prop
  | key {a s r : Str} (ha : Ws a) (hs : Enclosed s) (h : D s) : MeetsEntries Q D (a ++ '"' :: (s ++ '"' :: r))
  | value {a k b s key : Str} (ha : Ws a) (hk : KeyText Q k key) (hb : Ws b) (h : Meets Q D s) :
      MeetsEntries Q D (a ++ (k ++ (b ++ '=' :: s)))
  | cons {a k b s r key : Str} {v : Value} (ha : Ws a) (hk : KeyText Q k key) (hb : Ws b) (h : Reads Q s v)
      (hr : MeetsEntries Q D r) : MeetsEntries Q D (a ++ (k ++ (b ++ '=' :: (s ++ ',' :: r))))
  | consEmpty {a k b s r key : Str} (ha : Ws a) (hk : KeyText Q k key) (hb : Ws b) (h : Ws s)
      (hr : MeetsEntries Q D r) : MeetsEntries Q D (a ++ (k ++ (b ++ '=' :: (s ++ ',' :: r))))
end

/-- The text is the value written in the grammar. -/
abbrev Writes [FloatOps] (s : Str) (v : Value) : Prop := Reads (Unescapes false) s v

/-- Every character between a double quote and the first backslash after it is ASCII. -/
def CleanText (s : Str) : Prop :=
  ∀ a b d, s = a ++ '"' :: (b ++ '\\' :: d) → '"' ∉ b → '\\' ∉ b → ∀ c ∈ b, c.toNat < 128

end Figment
