import Verif.Model.Node
/-!
# `xsd-internal/src/xsd/node.rs` as it is written

`Verif/Model/Node.lean` has the view of schema nodes that the model of the parser uses: a list of names that were asked for instead of flags
in a map, filters instead of loops. This file has the data structures of the source. `Verif/Props/NodeCells.lean` shows that both agree.
-/
namespace Xsd.NodeRs

/-- `Attribute` (xsd/node.rs:58-62). -/
structure Attribute where
  inner : XAttr
  visited : Bool
  deriving Repr, DecidableEq

/-- `Node` (xsd/node.rs:50-56). The field `name` is the local name of `inner`. The map is the list of its entries in the order of iteration. -/
structure Node where
  inner : Elem
  attributes : List (Str × Attribute)

/-- `NodeError` (xsd/node.rs:10-49), with the starts of the ranges. -/
inductive NodeError where
  | missingElement (name : Str) (ns : Option Str) (start : Nat)
  | elementNotFound (elementName elementNs attributeName attributeValue : Option Str) (start : Nat)
  | missingAttribute (name element : Str) (start : Nat)
  | textExpected (name : Str) (start : Nat)
  | unsupportedAttribute (name element : Str) (start : Nat)
  | unsupportedElement (name parent : Str) (start : Nat)
  | missingNamespace (uri : Str) (start : Nat)
  deriving Repr, DecidableEq

/-- `.map(..).collect()` into the map (xsd/node.rs:67-80): the attributes are inserted one after the other. -/
def collectAttributes (as : List XAttr) : List (Str × Attribute) := as.foldl (fun m a => ainsert m a.loc ⟨a, false⟩) []

/-- `Node::from` (xsd/node.rs:64-87). `hash` is the order in which the map is iterated, which is any. -/
def Node.of (hash : List (Str × Attribute) → List (Str × Attribute)) (e : Elem) : Node := ⟨e, hash (collectAttributes e.1.attrs)⟩

/-- `Node::name` (xsd/node.rs:90-93). -/
def Node.name (n : Node) : Str := n.inner.1.name.loc

/-- The start of `Node::range` (xsd/node.rs:104-106). -/
def Node.start (n : Node) : Nat := n.inner.1.start

/-- `attr.visited.replace(true)` on the entry with the key (xsd/node.rs:143-145). -/
def visit (name : Str) (m : List (Str × Attribute)) : List (Str × Attribute) :=
  m.map fun p => if p.1 = name then (p.1, { p.2 with visited := true }) else p

/-- `Node::attribute` (xsd/node.rs:142-146): the attribute, and the node with the flag set. -/
def Node.attribute (n : Node) (name : Str) : Option Attribute × Node :=
  match alookup n.attributes name with
  | some a => (some { a with visited := true }, { n with attributes := visit name n.attributes })
  | none => (none, n)

/-- `Node::try_attribute` (xsd/node.rs:148-155). -/
def Node.tryAttribute (n : Node) (name : Str) : Res NodeError Attribute × Node :=
  match n.attribute name with
  | (some a, n) => (.ok a, n)
  | (none, n) => (.err (.missingAttribute name n.name n.start), n)

/-- The loop of `Node::prevent_unvisited_attributes` (xsd/node.rs:175-184). -/
def firstUnvisited (element : Str) : List (Str × Attribute) → Res NodeError Unit
  | [] => .ok ()
  | (name, attr) :: rest =>
    if attr.inner.ns = none ∧ attr.visited = false then .err (.unsupportedAttribute name element attr.inner.start)
    else firstUnvisited element rest

/-- `Node::prevent_unvisited_attributes` (xsd/node.rs:174-187). -/
def Node.preventUnvisitedAttributes (n : Node) : Res NodeError Unit := firstUnvisited n.name n.attributes

/-- `Node::child` (xsd/node.rs:108-120): the element that the new node is made of. -/
def Node.child (n : Node) (name : Str) (ns : Option Str) : Option Elem := (elemKids n.inner.2).find? (fun e => e.is ⟨name, ns⟩)

/-- `Node::try_child` (xsd/node.rs:122-133). -/
def Node.tryChild (n : Node) (name : Str) (ns : Option Str) : Res NodeError Elem :=
  match n.child name ns with
  | some e => .ok e
  | none => .err (.missingElement name ns n.start)

/-- `Node::text` (xsd/node.rs:157-165). -/
def Node.text (n : Node) : Option Str :=
  match n.inner.2.head? with
  | some (.text s) => some s
  | _ => none

/-- `Node::try_text` (xsd/node.rs:167-172). -/
def Node.tryText (n : Node) : Res NodeError Str :=
  match n.text with
  | some s => .ok s
  | none => .err (.textExpected n.name n.start)

/-- `roxmltree::Node::lookup_prefix`: the prefix of the first declaration in scope for the namespace. (For the namespace of XML itself roxmltree
returns `xml`, which is left out.) (called at xsd/node.rs:190) -/
def lookupPrefix (nss : List (Option Str × Str)) (uri : Str) : Option Str := (nss.find? (fun p => p.2 = uri)).bind Prod.fst

/-- `roxmltree::Node::lookup_namespace_uri`: the first declaration in scope of the prefix
(called at xsd/node.rs:204, and `default_namespace` at xsd/node.rs:218). -/
def lookupNamespaceUri (nss : List (Option Str × Str)) (pfx : Option Str) : Option Str := (nss.find? (fun p => p.1 = pfx)).map Prod.snd

/-- `Node::try_namespace_prefix` (xsd/node.rs:189-201). -/
def Node.tryNamespacePrefix (n : Node) (uri : Str) : Res NodeError Str :=
  match lookupPrefix n.inner.1.nss uri with
  | some p => .ok p
  | none => .err (.missingNamespace uri n.start)

/-- `Node::try_namespace_uri` (xsd/node.rs:203-215). -/
def Node.tryNamespaceUri (n : Node) (pfx : Str) : Res NodeError Str :=
  match lookupNamespaceUri n.inner.1.nss (some pfx) with
  | some u => .ok u
  | none => .err (.missingNamespace pfx n.start)

/-- `Node::default_namespace` (xsd/node.rs:217-219). -/
def Node.defaultNamespace (n : Node) : Option Str := lookupNamespaceUri n.inner.1.nss none

/-- `ChildrenFilter` (xsd/node.rs:253-260). The functions `element`, `namespace` and `attribute` of the builder (xsd/node.rs:268-282) set
its fields. -/
structure ChildrenFilter where
  elementName : Option Str := none
  elementNs : Option Str := none
  attributeName : Option Str := none
  attributeValue : Option Str := none

/-- The closure of `ChildrenFilterBuilder::iter` (xsd/node.rs:288-313) on an element. -/
def ChildrenFilter.keeps (f : ChildrenFilter) (e : Elem) : Bool :=
  if f.elementName.any (fun n => n ≠ e.1.name.loc) then false
  else if f.elementNs.any (fun u => some u ≠ e.1.name.ns) then false
  else
    match f.attributeName, f.attributeValue with
    | some n, some v => attrOf e.1 n = some v
    | _, _ => true

/-- `ChildrenFilterBuilder::iter` (xsd/node.rs:284-316): the elements that new nodes are made of. -/
def Node.iter (n : Node) (f : ChildrenFilter) : List Elem := (elemKids n.inner.2).filter f.keeps

/-- `ChildrenFilterBuilder::try_find` (xsd/node.rs:318-331). -/
def Node.tryFind (n : Node) (f : ChildrenFilter) : Res NodeError Elem :=
  match n.iter f with
  | e :: _ => .ok e
  | [] => .err (.elementNotFound f.elementName f.elementNs f.attributeName f.attributeValue n.start)

/-- `Children` (xsd/node.rs:341-344). The nodes in it have not been used yet: they are given by the elements they are made of. -/
structure Children where
  node : Node
  children : List Elem

/-- `ChildrenFilterBuilder::collect` (xsd/node.rs:333-338). -/
def Node.collect (n : Node) (f : ChildrenFilter) : Children := ⟨n, n.iter f⟩

/-- `Children::remove` (xsd/node.rs:346-358). -/
def Children.remove (c : Children) (q : QName) : Option Elem × Children :=
  match c.children.findIdx? (fun e => e.is q) with
  | some i => (c.children[i]?, { c with children := c.children.eraseIdx i })
  | none => (none, c)

/-- `Children::try_remove` (xsd/node.rs:360-371). -/
def Children.tryRemove (c : Children) (q : QName) : Res NodeError Elem × Children :=
  match c.remove q with
  | (some e, c) => (.ok e, c)
  | (none, c) => (.err (.missingElement q.loc q.ns c.node.start), c)

/-- `Children::prevent_unvisited_children` (xsd/node.rs:373-383). -/
def Children.preventUnvisitedChildren (c : Children) : Res NodeError Unit :=
  match c.children.head? with
  | some e => .err (.unsupportedElement e.1.name.loc c.node.name e.1.start)
  | none => .ok ()

/-- `while let Some(child) = children.remove(..)` (parse/complex_type.rs:120, parse/complex_content.rs:79, parse/simple_content.rs:33,
parse/annotation.rs): the children that the body is run with and what is left, with a limit for the number of rounds. -/
def Children.drain (q : QName) : Nat → Children → Option (List Elem × Children)
  | 0, _ => none
  | k + 1, c =>
    match c.remove q with
    | (some e, c) => (Children.drain q k c).map fun r => (e :: r.1, r.2)
    | (none, c) => some ([], c)

end Xsd.NodeRs
