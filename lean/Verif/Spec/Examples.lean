import Verif.Spec.Data
/-!
# Concrete data used to show that hypotheses can be met
-/
namespace Figment.Ex

/-- An untagged number. -/
def n (k : Nat) : Value := .num Tag.Default (.u8 (BitVec.ofNat 8 k))
/-- An untagged string. -/
def s (x : String) : Value := .string Tag.Default (str x)
/-- An untagged dictionary. -/
def d (l : List (Str × Value)) : Value := .dict Tag.Default l
/-- An untagged array. -/
def a (l : List Value) : Value := .array Tag.Default l

/-- A profile that is neither `default` nor `global`. -/
def dev : Profile := ⟨str "Dev"⟩

/-- Some data: two profiles, nested dictionaries, an array. -/
def data1 : Data :=
  [(Profile.Default, [(str "a", n 1), (str "b", d [(str "x", n 2), (str "y", a [n 3, n 4])])]),
   (dev, [(str "a", n 5)])]

/-- Other data, overlapping with `data1` in every way. -/
def data2 : Data :=
  [(Profile.Default, [(str "b", d [(str "x", s "two"), (str "y", a [n 9]), (str "z", n 7)]), (str "c", n 8)]),
   (Profile.Global, [(str "g", n 6)])]

/-- A code location. -/
def loc : Location := ⟨str "main.rs", 1, 2⟩

/-- A provider of `data1`. -/
def prov1 : Provider := Provider.plain (Metadata.named (str "one")) (.ok data1)
/-- A provider of `data2`. -/
def prov2 : Provider := Provider.plain (Metadata.named (str "two")) (.ok data2)
/-- A provider that fails. -/
def provErr : Provider :=
  Provider.plain (Metadata.named (str "bad")) (.error (Error.ofKind (.message (str "no file"))))

/-- A figment with `data1` in it, tagged 1. -/
def fig1 : Fig := Fig.provideWith Fig.new prov1 .Merge loc ⟨1#64⟩

theorem data1_wf : data1.WF := by decide
theorem data2_wf : data2.WF := by decide

end Figment.Ex
