import Verif.Model.Prim
/-!
# `xsd-internal/src/ast`: the schema AST, the namespace table, and the code-generation context
-/
namespace Xsd

/-- `Namespace` (xsd-internal/src/ast/name.rs:8-12). -/
inductive Namespace where
  | none
  | id (n : Nat)
  deriving Repr, DecidableEq

/-- `Name` (xsd-internal/src/ast/name.rs:15-18). -/
structure Name where
  name : Str
  ns : Namespace
  deriving Repr, DecidableEq

/-- `NamespaceDefinition` (xsd-internal/src/ast/namespaces.rs:6-9). -/
structure NsDef where
  uri : Str
  pfx : Str
  deriving Repr, DecidableEq

/-- `Namespaces` (xsd-internal/src/ast/namespaces.rs:12-15). -/
structure Namespaces where
  byUri : List (Str × Nat)
  byId : List (Nat × NsDef)
  deriving Repr, DecidableEq

/-- `Namespaces::default()` (the derived one, namespaces.rs:11). -/
def Namespaces.empty : Namespaces := ⟨[], []⟩

/-- `Namespaces::get_or_insert` (xsd-internal/src/ast/namespaces.rs:18-34). -/
def Namespaces.getOrInsert (t : Namespaces) (uri : Str) : Namespace × Namespaces :=
  match alookup t.byUri uri with
  | some id => (.id id, t)
  | none =>
    let id := t.byUri.length + 1
    (.id id, ⟨ainsert t.byUri uri id, ainsert t.byId id ⟨uri, c!"ns" ++ showNat id⟩⟩)

/-- `Namespaces::get_by_id` (xsd-internal/src/ast/namespaces.rs:45-49); `none` is the `expect` panic. -/
def Namespaces.getById (t : Namespaces) (id : Nat) : Option NsDef := alookup t.byId id

/-- `LeafContent` (xsd-internal/src/ast/leaf_content.rs:8-12). -/
inductive LeafContent where
  | literal (t : LiteralType)
  | named (n : Name)
  | fixed (s : Str)
  deriving Repr, DecidableEq

/-- `Restriction` (xsd-internal/src/ast/leaf_definition.rs:16-25). -/
inductive Restriction where
  | length (n : Nat)
  | minLength (n : Nat)
  | maxLength (n : Nat)
  | pattern (s : Str)
  | minInclusive (d : Nat)
  | maxInclusive (d : Nat)
  | fractionDigits (n : Nat)
  | totalDigits (n : Nat)
  deriving Repr, DecidableEq

/-- `LeafDefinition` (xsd-internal/src/ast/leaf_definition.rs:8-13). -/
structure LeafDef where
  content : LeafContent
  restrictions : List Restriction
  docs : Option Str
  deriving Repr, DecidableEq

/-- `MaxOccurs` (xsd-internal/src/ast/leaf.rs:23-26). `MinOccurs` is a plain number. -/
inductive MaxOccurs where
  | number (n : Nat)
  | unbounded
  deriving Repr, DecidableEq

/-- `MaxOccurs::is_vec` (xsd-internal/src/ast/leaf.rs:29-34). -/
def MaxOccurs.isVec : MaxOccurs → Bool
  | number n => decide (n > 1)
  | unbounded => true

/-- `Leaf` (xsd-internal/src/ast/leaf.rs:10-17). -/
structure Leaf where
  name : Name
  definition : LeafDef
  isUnordered : Bool
  isVirtual : Bool
  minOccurs : Nat
  maxOccurs : MaxOccurs
  deriving Repr, DecidableEq

/-- `Leaf::is_optional` (xsd-internal/src/ast/leaf.rs:38-40). -/
def Leaf.isOptional (l : Leaf) : Bool := l.minOccurs == 0

/-- `Leaf::is_vec` (xsd-internal/src/ast/leaf.rs:42-48). -/
def Leaf.isVec (l : Leaf) : Bool :=
  match l.maxOccurs with
  | .unbounded => true
  | .number n => if n > 1 then true else false

/-- `Attribute` (xsd-internal/src/ast/attribute.rs:9-15). -/
structure Attribute where
  name : Name
  content : LeafContent
  default : Option Str
  isOptional : Bool
  docs : Option Str
  deriving Repr, DecidableEq

/-- `ElementContent` (xsd-internal/src/ast/element_content.rs:10-13). -/
inductive ElementContent where
  | leaf (name : Name) (d : LeafDef)
  | leaves (ls : List Leaf)
  deriving Repr, DecidableEq

/-- `ElementDefinition` (xsd-internal/src/ast/element_definition.rs:10-15). -/
structure ElementDef where
  attributes : List Attribute
  content : Option ElementContent
  isVirtual : Bool
  docs : Option Str
  deriving Repr, DecidableEq

/-- `Root` with `ChoiceDefinition` (xsd-internal/src/ast/root.rs:12-24). -/
inductive Root where
  | leaf (d : LeafDef)
  | enum (names : List Name)
  | element (d : ElementDef)
  | choice (variants : List Leaf) (isVirtual : Bool) (docs : Option Str)
  deriving Repr, DecidableEq

/-- `SchemaContext` (xsd-internal/src/xsd/context.rs:31-36). -/
structure SchemaContext where
  elements : List (Name × Root)
  target : Namespace
  isQualified : Bool
  namespaces : Namespaces
  deriving Repr, DecidableEq

/-- `ctx.elements.get(name)` (e.g. leaf_content.rs:18, xsd/context.rs:178). -/
def SchemaContext.get (S : SchemaContext) (n : Name) : Option Root := alookup S.elements n

/-- `SchemaContext::get_xml_element_name` (xsd-internal/src/xsd/context.rs:152-164): the qualified name
that is written. `panic` is the `expect` in `get_by_id`. -/
def SchemaContext.xmlName (S : SchemaContext) (n : Name) : Res Str Str :=
  match n.ns with
  | .none => .ok n.name
  | .id id =>
    if S.isQualified && decide (n.ns = S.target) then .ok n.name
    else match S.namespaces.getById id with
      | some d => .ok (d.pfx ++ ':' :: n.name)
      | none => .panic

/-- `SchemaContext::quote_xml_namespace` with the local name (xsd-internal/src/xsd/context.rs:166-175):
the expanded name that is looked for when reading. -/
def SchemaContext.qname (S : SchemaContext) (n : Name) : Res Str QName :=
  match n.ns with
  | .none => .ok ⟨n.name, none⟩
  | .id id =>
    match S.namespaces.getById id with
    | some d => .ok ⟨n.name, some d.uri⟩
    | none => .panic

/-- The loop of `SchemaContext::resolve` (xsd-internal/src/xsd/context.rs:177-187), with fuel;
`diverge` if the fuel runs out. -/
def SchemaContext.resolveFrom (S : SchemaContext) : Nat → Option Root → Res Str (Option Root)
  | 0, _ => .diverge
  | k + 1, next =>
    match next with
    | some (.leaf d) =>
      match d.content with
      | .named m => S.resolveFrom k (S.get m)
      | _ => .ok next
    | _ => .ok next

/-- Fuel for following aliases: an alias chain without repetition is no longer than the number of
definitions (`Verif/Props/Alias.lean` shows that more fuel never helps)
(for the loop at xsd/context.rs:177-187 and the recursion at leaf_content.rs:18-21; not in the code). -/
def SchemaContext.aliasFuel (S : SchemaContext) : Nat := S.elements.length + 2

/-- `SchemaContext::resolve` (xsd-internal/src/xsd/context.rs:177-187). -/
def SchemaContext.resolve (S : SchemaContext) (n : Name) : Res Str (Option Root) :=
  S.resolveFrom S.aliasFuel (S.get n)

end Xsd
