import Verif.Xml
/-!
# `xsd/src/decode.rs`: the reading cursor
-/
namespace Xsd

/-- `FromXmlError` (xsd/src/decode.rs:8-37). The boxed error of `ParseType` is dropped: it is only
displayed. `Xml` is raised by roxmltree, before the tree exists, and `Infallible` never. -/
inductive DErr where
  | missingElement (name : Str) (ns : Option Str)
  | missingAttribute (name : Str)
  | textExpected (name : Str)
  | invalidVariant (name : Str)
  | missingVariant (name : Str)
  | parseType (type_ value : Str)
  | fixedMismatch (expected received : Str)
  deriving Repr, DecidableEq

/-- `Node` with its `Children` (xsd/src/decode.rs:40-49): the element, the part of the element-children
iterator not yet pulled, the peeked queue and the `next` slot. -/
structure Cursor where
  node : Elem
  children : List Elem
  peeked : List Elem
  next : Option Elem

namespace Cursor

/-- `Node::new` (xsd/src/decode.rs:77-86). -/
def new (e : Elem) : Cursor :=
  { node := e, children := elemKids e.2, peeked := [], next := none }

/-- `children.peeked.pop_front().or_else(|| children.children.next())`
(xsd/src/decode.rs:91-94, 108-109): the element and the remaining buffers. -/
def pull (c : Cursor) : Option Elem × Cursor :=
  match c.peeked with
  | e :: es => (some e, { c with peeked := es })
  | [] =>
    match c.children with
    | e :: es => (some e, { c with children := es })
    | [] => (none, c)

/-- `Node::peek_child` (xsd/src/decode.rs:88-101). -/
def peekChild (c : Cursor) (q : QName) : Bool × Cursor :=
  let c :=
    match c.next with
    | some _ => c
    | none => let (e, c) := c.pull; { c with next := e }
  match c.next with
  | some e => (e.is q, c)
  | none => (false, c)

/-- `Node::next_child` (xsd/src/decode.rs:103-118). The returned element stands for the fresh
`Node::new` around it. -/
def nextChild (c : Cursor) (q : QName) : Option Elem × Cursor :=
  let (e, c) :=
    match c.next with
    | some e => (some e, { c with next := none })
    | none => c.pull
  match e with
  | some e => if e.is q then (some e, c) else (none, { c with next := some e })
  | none => (none, c)

/-- `Node::try_next_child` (xsd/src/decode.rs:120-130). -/
def tryNextChild (c : Cursor) (q : QName) : Except DErr Elem × Cursor :=
  match c.nextChild q with
  | (some e, c) => (.ok e, c)
  | (none, c) => (.error (.missingElement q.loc q.ns), c)

/-- The scan of `peeked` in `Node::child` (xsd/src/decode.rs:142-147): the first match and the queue
without it. -/
def removeFirst (q : QName) : List Elem → Option (Elem × List Elem)
  | [] => none
  | e :: es =>
    if e.is q then some (e, es)
    else match removeFirst q es with
      | some (x, es') => some (x, e :: es')
      | none => none

/-- The `while let Some(child) = children.children.next()` loop of `Node::child`
(xsd/src/decode.rs:150-156): match, new iterator, new peeked queue. -/
def scan (q : QName) : List Elem → List Elem → Option Elem × List Elem × List Elem
  | [], peeked => (none, [], peeked)
  | e :: es, peeked => if e.is q then (some e, es, peeked) else scan q es (peeked ++ [e])

/-- Lines 142-158 of `Node::child` (xsd/src/decode.rs). -/
def childRest (c : Cursor) (q : QName) : Option Elem × Cursor :=
  match removeFirst q c.peeked with
  | some (e, es) => (some e, { c with peeked := es })
  | none =>
    let (e, cs, ps) := scan q c.children c.peeked
    (e, { c with children := cs, peeked := ps })

/-- `Node::child` (xsd/src/decode.rs:132-159). -/
def child (c : Cursor) (q : QName) : Option Elem × Cursor :=
  match c.next with
  | some e => if e.is q then (some e, { c with next := none }) else c.childRest q
  | none => c.childRest q

/-- `Node::try_child` (xsd/src/decode.rs:161-167). -/
def tryChild (c : Cursor) (q : QName) : Except DErr Elem × Cursor :=
  match c.child q with
  | (some e, c) => (.ok e, c)
  | (none, c) => (.error (.missingElement q.loc q.ns), c)

/-- `Node::attribute` (xsd/src/decode.rs:169-171). -/
def attr (c : Cursor) (name : Str) : Option Str := attrOf c.node.1 name

/-- `Node::try_attribute` (xsd/src/decode.rs:173-178). -/
def tryAttribute (c : Cursor) (name : Str) : Except DErr Str :=
  match c.attr name with
  | some v => .ok v
  | none => .error (.missingAttribute name)

/-- `Node::text` (xsd/src/decode.rs:180-188). `roxmltree::Node::text()` of an element is the text of
its first child if that is a text node. -/
def text (c : Cursor) : Except DErr Str :=
  match c.node.2 with
  | [] => .ok []
  | .text s :: _ => .ok s
  | _ => .error (.textExpected c.node.1.name.loc)

end Cursor

/-- `Document` (xsd/src/decode.rs:39): the root element of the parsed document. roxmltree rejects
documents without one. -/
structure Doc where
  root : Elem

namespace Doc

/-- `Document::child` (xsd/src/decode.rs:57-65). -/
def child (d : Doc) (q : QName) : Option Elem := if d.root.is q then some d.root else none

/-- `Document::try_child` (xsd/src/decode.rs:67-73). -/
def tryChild (d : Doc) (q : QName) : Except DErr Elem :=
  match d.child q with
  | some e => .ok e
  | none => .error (.missingElement q.loc q.ns)

end Doc

end Xsd
