import Verif.Xml
import Verif.Model.Ast
import Verif.Model.VirtualName
/-!
# `xsd-internal/src/xsd/node.rs` and `error.rs`: schema nodes as the parser sees them
-/
namespace Xsd

/-- `NS_XSD` (xsd-internal/src/xsd/context.rs:38). -/
def nsXsd : Str := c!"http://www.w3.org/2001/XMLSchema"

/-- `XsdError` (xsd/error.rs:3-54) with the variants of `NodeError` (xsd/node.rs:11-49) that occur. The number is the start
of the source range. `ParseIntError` and the decimal error are not modelled; `NodeError::MissingNamespace` and
`ElementNotFound` are never made by the parser. -/
inductive XErr where
  | xml
  | missingChild (name : Str) (start : Nat)
  | missingAttribute (name element : Str) (start : Nat)
  | textExpected (name : Str) (start : Nat)
  | unsupportedAttribute (name element : Str) (start : Nat)
  | unsupportedChild (name parent : Str) (start : Nat)
  | unsupportedElement (name : Str) (start : Nat)
  | unsupportedAttributeValue (name value element : Str) (start : Nat)
  | unexpectedAttribute (name element : Str) (start : Nat)
  | missingElement (name parent : Str) (start : Nat)
  | missingNamespace (pfx : Str) (start : Nat)
  | parseInt (start : Nat)
  | parseDecimal (start : Nat)
  | unsupportedType (name : Str) (start : Nat)
  deriving Repr, DecidableEq

/-- `XsdError::range` (xsd/error.rs:57-73) and `NodeError::range` (xsd/node.rs:239-250), the start of it. -/
def XErr.start : XErr → Option Nat
  | .xml => none
  | .missingChild _ s => some s
  | .missingAttribute _ _ s => some s
  | .textExpected _ s => some s
  | .unsupportedAttribute _ _ s => some s
  | .unsupportedChild _ _ s => some s
  | .unsupportedElement _ s => some s
  | .unsupportedAttributeValue _ _ _ s => some s
  | .unexpectedAttribute _ _ s => some s
  | .missingElement _ _ s => some s
  | .missingNamespace _ s => some s
  | .parseInt s => some s
  | .parseDecimal s => some s
  | .unsupportedType _ s => some s

/-- `Node` (xsd/node.rs:52-56). `seen` are the names that `attribute` was called with: the `visited` cells
(xsd/node.rs:59-62) of the attributes with these names are set. -/
structure Nd where
  info : ElemInfo
  kids : List XNode
  seen : List Str
  deriving Repr

/-- `Node::from` (xsd/node.rs:64-87): no attribute is visited yet. -/
def Nd.of (e : Elem) : Nd := ⟨e.1, e.2, []⟩

/-- `Node::name` (xsd/node.rs:90-93). -/
def Nd.name (nd : Nd) : Str := nd.info.name.loc

/-- The start of `Node::range` (xsd/node.rs:104-106). -/
def Nd.start (nd : Nd) : Nat := nd.info.start

/-- `HashMap::get` on the attribute map (xsd/node.rs:67-80, 143): the key is the local name, so the last
attribute with that local name is the one that is kept, whatever its namespace. -/
def Nd.attr (nd : Nd) (n : Str) : Option XAttr := nd.info.attrs.reverse.find? (fun a => a.loc = n)

/-- The side effect of `Node::attribute` (xsd/node.rs:142-146). (Marking a name that is not there has no effect.) -/
def Nd.see (nd : Nd) (n : Str) : Nd := { nd with seen := n :: nd.seen }

/-- `Node::try_attribute` (xsd/node.rs:148-155), the value. -/
def Nd.tryAttr (nd : Nd) (n : Str) : Res XErr XAttr :=
  match nd.attr n with
  | some a => .ok a
  | none => .err (.missingAttribute n nd.name nd.start)

/-- The entries of the attribute map (xsd/node.rs:67-80): of several attributes with one local name, the last. -/
def lastAttrs : List XAttr → List XAttr
  | [] => []
  | a :: as => if as.any (fun b => b.loc = a.loc) then lastAttrs as else a :: lastAttrs as

/-- `Node::prevent_unvisited_attributes` (xsd/node.rs:174-187). The code goes through the map in hash order, so which
of several unsupported attributes is reported is not determined; the model reports the first. -/
def Nd.preventUnvisitedAttributes (nd : Nd) : Res XErr Unit :=
  match (lastAttrs nd.info.attrs).find? (fun a => a.ns = none ∧ a.loc ∉ nd.seen) with
  | some a => .err (.unsupportedAttribute a.loc nd.name a.start)
  | none => .ok ()

/-- `node.children().namespace(NS_XSD).iter()` (xsd/node.rs:284-316): the child elements in the XSD
namespace, as fresh nodes. -/
def Nd.xsdKids (nd : Nd) : List Nd := ((elemKids nd.kids).filter (fun e => e.1.name.ns = some nsXsd)).map Nd.of

/-- `Node::child(name, Some(NS_XSD))` (xsd/node.rs:108-120). -/
def Nd.child (nd : Nd) (n : Str) : Option Nd := ((elemKids nd.kids).find? (fun e => e.is ⟨n, some nsXsd⟩)).map Nd.of

/-- `Node::text` (xsd/node.rs:157-165). -/
def Nd.text (nd : Nd) : Option Str :=
  match nd.kids with
  | .text s :: _ => some s
  | _ => none

/-- `Node::try_text` (xsd/node.rs:167-172). -/
def Nd.tryText (nd : Nd) : Res XErr Str :=
  match nd.text with
  | some s => .ok s
  | none => .err (.textExpected nd.name nd.start)

/-- `Children::remove(name, Some(NS_XSD))` (xsd/node.rs:346-358): the first such child, and the children
without it. -/
def removeKid (n : Str) : List Nd → Option Nd × List Nd
  | [] => (none, [])
  | k :: ks =>
    if k.info.name = ⟨n, some nsXsd⟩ then (some k, ks)
    else ((removeKid n ks).1, k :: (removeKid n ks).2)

/-- `Children::try_remove(name, Some(NS_XSD))` (xsd/node.rs:360-371). -/
def tryRemoveKid (nd : Nd) (n : Str) (ks : List Nd) : Res XErr (Nd × List Nd) :=
  match removeKid n ks with
  | (some k, rest) => .ok (k, rest)
  | (none, _) => .err (.missingChild n nd.start)

/-- `while let Some(child) = children.remove(name, Some(NS_XSD))`: removing the first such child until there is none
left visits these children in order (parse/complex_type.rs:120, parse/complex_content.rs:79, parse/simple_content.rs:33, parse/annotation.rs:19). -/
def removeKids (n : Str) (ks : List Nd) : List Nd × List Nd :=
  (ks.filter (fun k => k.info.name = ⟨n, some nsXsd⟩), ks.filter (fun k => ¬ k.info.name = ⟨n, some nsXsd⟩))

/-- `Children::prevent_unvisited_children` (xsd/node.rs:373-383). -/
def preventUnvisitedChildren (nd : Nd) : List Nd → Res XErr Unit
  | [] => .ok ()
  | k :: _ => .err (.unsupportedChild k.name nd.name k.start)

/-- `annotation::parse` (parse/annotation.rs:5-27). -/
def parseAnnotation1 (x : Ext) (nd : Nd) : Res XErr (Option Str) := do
  let r := removeKid c!"documentation" nd.xsdKids
  let docs ← (match r.1 with
    | some d => do
      let t ← d.tryText
      pure (if t = [] then none else some (cleanupDocs x t))
    | none => pure none : Res XErr (Option Str))
  preventUnvisitedChildren nd (removeKids c!"documentation" r.2).2
  nd.preventUnvisitedAttributes
  pure docs

/-- `parse_annotation` (parse/mod.rs:109-111). -/
def parseAnnotation (x : Ext) : Option Nd → Res XErr (Option Str)
  | none => .ok none
  | some nd => parseAnnotation1 x nd

end Xsd
