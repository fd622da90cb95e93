import Verif.Model.Prim
/-!
# Specification: the texts of numbers
-/
namespace Xsd

/-- Specification of a decimal numeral: `s` is a non-empty string of ASCII digits with value `n`. -/
inductive Numeral : Str → Nat → Prop where
  | digit (d : Nat) (h : d < 10) : Numeral [digitChar d] d
  | snoc (s : Str) (n d : Nat) (hs : Numeral s n) (h : d < 10) :
      Numeral (s ++ [digitChar d]) (n * 10 + d)

/-- Specification of an integer text: sign, numeral, value. -/
def IntText (signed : Bool) (s : Str) (i : Int) : Prop :=
  ∃ ds n, Numeral ds n ∧
    ((s = ds ∧ i = n) ∨ (s = '+' :: ds ∧ i = n) ∨ (signed = true ∧ s = '-' :: ds ∧ i = -(n : Int)))

/-- Specification: the text of an unsigned numeral of at most `hi`. A leading plus sign is accepted, as by Rust. -/
def Unsigned (hi : Nat) (s : Str) (n : Nat) : Prop :=
  n ≤ hi ∧ ∃ ds, Numeral ds n ∧ (s = ds ∨ s = '+' :: ds)

/-- Specification: the text `s` stands for the value `v` of the built-in type that is called `n`. Decimals and floats are those of the
libraries; types without a Rust counterpart are texts. -/
def TypeText (x : Ext) (n s : Str) (v : Val) : Prop :=
  (n ∈ [c!"integer", c!"long"] ∧ ∃ i, v = .int i ∧ IntText true s i ∧ -2 ^ 63 ≤ i ∧ i < 2 ^ 63) ∨
  (n ∈ [c!"nonNegativeInteger", c!"positiveInteger"] ∧ ∃ i, v = .int i ∧ IntText false s i ∧ 0 ≤ i ∧ i < 2 ^ 64) ∨
  (n = c!"int" ∧ ∃ i, v = .int i ∧ IntText true s i ∧ -2 ^ 31 ≤ i ∧ i < 2 ^ 31) ∨
  (n = c!"boolean" ∧ ((s = c!"true" ∧ v = .bool true) ∨ (s = c!"false" ∧ v = .bool false))) ∨
  (n = c!"decimal" ∧ ∃ d, v = .dec d ∧ x.parseDecimal s = some d) ∨
  (n = c!"float" ∧ ∃ d, v = .flt d ∧ x.parseFloat s = some d) ∨
  (n ∈ [c!"string", c!"time", c!"date", c!"dateTime", c!"duration", c!"base64Binary", c!"hexBinary", c!"any", c!"anyType"] ∧ v = .str s)

end Xsd
