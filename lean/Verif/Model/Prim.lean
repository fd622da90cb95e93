import Verif.Model.Decode
/-!
# Parameters of the model, values, and literal types

* `Ext`: third-party and std functions the code relies on but does not define.
* `Val`: values of the generated Rust types.
* literal types of `xsd-internal/src/ast/literal_type.rs` with Rust's `FromStr`/`Display`.
-/
namespace Xsd

/-- Functions from outside the repository. The model is parametric in them; a theorem that needs a law
states it as a hypothesis. Decimals and floats are coded as natural numbers (both are countable
types). They are called at name.rs:29 (`to_pascal_case`), element_content.rs:19 (`to_snake_case`), root.rs:432 and 445 (`char`),
parse/annotation.rs:30 (white space), utils.rs:9-11 (identifiers) and literal_type.rs:53-54, 67-82 (numbers), and elsewhere. -/
structure Ext where
  /-- Inflector's `to_pascal_case` -/
  pascal : Str → Str
  /-- Inflector's `to_snake_case` -/
  snake : Str → Str
  /-- `char::is_alphanumeric` -/
  isAlphanumeric : Char → Bool
  /-- `char::is_alphabetic` -/
  isAlphabetic : Char → Bool
  /-- `char::is_whitespace` -/
  isWhitespace : Char → Bool
  /-- is this string accepted by `proc_macro2::Ident::new` (which panics otherwise)? -/
  identOk : Str → Bool
  /-- `rust_decimal::Decimal::from_str` -/
  parseDecimal : Str → Option Nat
  /-- `rust_decimal::Decimal::to_string` -/
  showDecimal : Nat → Str
  /-- `f32::from_str` -/
  parseFloat : Str → Option Nat
  /-- `f32::to_string` -/
  showFloat : Nat → Str

/-- Values of generated types. `enumv` is a unit variant of an enumeration, `variant` a choice variant;
both carry the variant's identifier. Struct fields carry their identifier (the types declared at xsd/schema.rs:229-234). -/
inductive Val where
  | str (s : Str)
  | bool (b : Bool)
  | int (i : Int)
  | dec (n : Nat)
  | flt (n : Nat)
  | unit
  | none
  | some (v : Val)
  | vec (vs : List Val)
  | newtype (v : Val)
  | struct (fields : List (Str × Val))
  | variant (name : Str) (v : Val)
  | enumv (name : Str)
  deriving Repr, BEq, Inhabited

/-- `LiteralType` (xsd-internal/src/ast/literal_type.rs:5-20). -/
inductive LiteralType where
  | string | boolean | int64 | uint64 | int32 | decimal | float32
  | dateTime | time | date | duration | base64Binary | hexBinary | any
  deriving Repr, DecidableEq

/-- `LiteralType::xsd_name` (xsd-internal/src/ast/literal_type.rs:23-41). -/
def LiteralType.xsdName : LiteralType → Str
  | string => c!"string"
  | boolean => c!"boolean"
  | int64 => c!"long"
  | uint64 => c!"nonNegativeInteger"
  | int32 => c!"int"
  | decimal => c!"decimal"
  | float32 => c!"float"
  | dateTime => c!"dateTime"
  | time => c!"time"
  | date => c!"date"
  | duration => c!"duration"
  | base64Binary => c!"base64Binary"
  | hexBinary => c!"hexBinary"
  | any => c!"any"

/-- The Rust type that represents a literal (literal_type.rs:45-65). -/
inductive Prim where
  | string | bool | i64 | u64 | i32 | decimal | f32
  deriving Repr, DecidableEq

/-- `LiteralType::to_impl` (xsd-internal/src/ast/literal_type.rs:45-65). -/
def LiteralType.prim : LiteralType → Prim
  | string => .string
  | boolean => .bool
  | int64 => .i64
  | uint64 => .u64
  | int32 => .i32
  | decimal => .decimal
  | float32 => .f32
  | any => .string
  | dateTime => .string
  | time => .string
  | date => .string
  | duration => .string
  | base64Binary => .string
  | hexBinary => .string

/-- Value of an ASCII digit (std; used where numbers are read and written, literal_type.rs:67-82, and at xsd/parse/element.rs:188-205). -/
def digitVal (c : Char) : Option Nat :=
  if '0'.toNat ≤ c.toNat ∧ c.toNat ≤ '9'.toNat then some (c.toNat - '0'.toNat) else none

/-- Accumulate decimal digits; `none` at the first non-digit
(std; used where numbers are read and written, literal_type.rs:67-82, and at xsd/parse/element.rs:188-205). -/
def parseDigits : Nat → Str → Option Nat
  | acc, [] => some acc
  | acc, c :: cs =>
    match digitVal c with
    | some d => parseDigits (acc * 10 + d) cs
    | none => none

/-- Non-empty digit string (std; used where numbers are read and written, literal_type.rs:67-82, and at xsd/parse/element.rs:188-205). -/
def parseNat (s : Str) : Option Nat := if s = [] then none else parseDigits 0 s

/-- Sign and digits of Rust's integer `FromStr` (`from_str_radix(_, 10)`): optional `+`, or `-` for
signed types, then at least one ASCII digit
(std; used where numbers are read and written, literal_type.rs:67-82, and at xsd/parse/element.rs:188-205). -/
def parseSigned (signed : Bool) : Str → Option Int
  | '+' :: ds => (parseNat ds).map Int.ofNat
  | '-' :: ds => if signed then (parseNat ds).map (fun n => -(Int.ofNat n)) else none
  | ds => (parseNat ds).map Int.ofNat

/-- Rust's integer `FromStr`: sign, digits, value in range. Called by generated code
(literal_type.rs:74), and for occurrence bounds and facets. -/
def parseInt (signed : Bool) (lo hi : Int) (s : Str) : Option Int :=
  match parseSigned signed s with
  | some i => if lo ≤ i ∧ i ≤ hi then some i else none
  | none => none

/-- Digit character (std; used where numbers are read and written, literal_type.rs:67-82, and at xsd/parse/element.rs:188-205). -/
def digitChar (d : Nat) : Char := Char.ofNat ('0'.toNat + d)

/-- Decimal digits of a number, with fuel
(std; used where numbers are read and written, literal_type.rs:67-82, and at xsd/parse/element.rs:188-205). -/
def showDigits : Nat → Nat → Str
  | 0, _ => []
  | f + 1, n => if n < 10 then [digitChar n] else showDigits f (n / 10) ++ [digitChar (n % 10)]

/-- `Display` of an unsigned integer (std; used where numbers are read and written, literal_type.rs:67-82, and at xsd/parse/element.rs:188-205). -/
def showNat (n : Nat) : Str := showDigits (n + 1) n

/-- `Display` of an integer (std; used where numbers are read and written, literal_type.rs:67-82, and at xsd/parse/element.rs:188-205). -/
def showInt (i : Int) : Str := if i < 0 then '-' :: showNat i.natAbs else showNat i.natAbs

/-- Range of `i64` (literal_type.rs:50). -/
def i64Min : Int := -9223372036854775808
/-- The greatest one (literal_type.rs:50). -/
def i64Max : Int := 9223372036854775807
/-- Range of `u64` (literal_type.rs:51). -/
def u64Max : Int := 18446744073709551615
/-- Range of `i32` (literal_type.rs:52). -/
def i32Min : Int := -2147483648
/-- The greatest one (literal_type.rs:52). -/
def i32Max : Int := 2147483647
/-- Range of `u32` (minOccurs/maxOccurs) (parse/element.rs:188, 205). -/
def u32Max : Int := 4294967295

/-- `std::str::FromStr::from_str` at the Rust type of a literal. `String`'s cannot fail, `bool`'s accepts
exactly `true` and `false` (literal_type.rs:74). -/
def parsePrim (x : Ext) : Prim → Str → Option Val
  | .string, s => some (.str s)
  | .bool, s => if s = c!"true" then some (.bool true) else if s = c!"false" then some (.bool false) else none
  | .i64, s => (parseInt true i64Min i64Max s).map .int
  | .u64, s => (parseInt false 0 u64Max s).map .int
  | .i32, s => (parseInt true i32Min i32Max s).map .int
  | .decimal, s => (x.parseDecimal s).map .dec
  | .f32, s => (x.parseFloat s).map .flt

/-- `val.to_string()` at the Rust type of a literal (literal_type.rs:67-69); `none` if the value does not
have that type. -/
def showPrim (x : Ext) : Prim → Val → Option Str
  | .string, .str s => some s
  | .bool, .bool true => some c!"true"
  | .bool, .bool false => some c!"false"
  | .i64, .int i => some (showInt i)
  | .u64, .int i => some (showInt i)
  | .i32, .int i => some (showInt i)
  | .decimal, .dec n => some (x.showDecimal n)
  | .f32, .flt n => some (x.showFloat n)
  | _, _ => none

end Xsd
