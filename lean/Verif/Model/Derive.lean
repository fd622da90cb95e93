import Verif.Model.Schema
/-!
# `xsd-derive/src/lib.rs` and `generator.rs`: the attribute macro

The macro works on token streams. The parts that the code does not look into (an attribute, an item, a visibility, a generated
item) are single tokens here.
-/
namespace Xsd

/-- `syn::Attribute`: `#[..]`, or `#![..]` if it is an inner one. syn collects the attributes in front of a module and the inner
ones at the start of its body in one list (`syn::ItemMod::attrs`) (used at xsd-derive/src/generator.rs:11). -/
structure RustAttr where
  inner : Bool
  text : Str
  deriving Repr, DecidableEq

/-- `syn::ItemMod`, the fields used at xsd-derive/src/generator.rs:11-18. The content of `mod name;` is `none`. -/
structure ItemMod where
  attrs : List RustAttr
  vis : Str
  ident : Str
  content : Option (List Str)
  deriving Repr, DecidableEq

/-- Tokens of the macro's result (xsd-derive/src/generator.rs:20-28). -/
inductive Tok where
  | attr (a : RustAttr)
  | vis (v : Str)
  | kwMod
  | ident (i : Str)
  | openBrace
  | item (s : Str)
  | generated (d : TypeDef)
  | closeBrace

/-- The `quote!` template (xsd-derive/src/generator.rs:20-28). -/
def quoteMod (item : ItemMod) (structs : List TypeDef) : List Tok :=
  item.attrs.map .attr ++ [.vis item.vis, .kwMod, .ident item.ident, .openBrace] ++
    (item.content.getD []).map .item ++ structs.map .generated ++ [.closeBrace]

/-- `generator::generate` (xsd-derive/src/generator.rs:7-32). `generate_all` goes through a map; `order` is the order in which that
happens. -/
def macroGenerate (x : Ext) (F : Files) (k : Nat) (order : List (Name × Root) → List (Name × Root)) (item : ItemMod) (path : Str) :
    Res SErr (List Tok) := do
  let schema ← parseFile x F k path
  match generateAll x { schema.context with elements := order schema.context.elements } with
  | .ok structs => .ok (quoteMod item structs)
  | .err n => .err (.notFound n)
  | .panic => .panic
  | .diverge => .diverge

/-- The errors of the macro (xsd-derive/src/lib.rs:17-24, 29-33, 61-64): they become `compile_error!`. -/
inductive MacroErr where
  | unsupportedProperty
  | schemaRequired
  | schema (e : SErr)
  deriving Repr, DecidableEq

/-- The argument parser (xsd-derive/src/lib.rs:15-24): `schema = ".."`; the last one counts. -/
def macroArgs : List (Str × Str) → Option Str → Res MacroErr (Option Str)
  | [], path => .ok path
  | (key, value) :: args, path => if key = c!"schema" then macroArgs args (some value) else .err .unsupportedProperty
  termination_by args => args.length

/-- `all` and `generate` (xsd-derive/src/lib.rs:11-35, 37-67). The arguments are given as parsed `key = "value"` pairs; `dir` is
`CARGO_MANIFEST_DIR`. -/
def macroAll (x : Ext) (F : Files) (k : Nat) (order : List (Name × Root) → List (Name × Root)) (dir : Str) (args : List (Str × Str))
    (item : ItemMod) : Res MacroErr (List Tok) := do
  let path ← macroArgs args none
  match path with
  | none => .err .schemaRequired
  | some path =>
    match macroGenerate x F k order item (F.push dir path) with
    | .ok ts => .ok ts
    | .err e => .err (.schema e)
    | .panic => .panic
    | .diverge => .diverge

end Xsd
