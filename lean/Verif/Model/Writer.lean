import Verif.Xml
/-!
# `xsd/src/lib.rs`: the writing context, and the tree that an event stream denotes
-/
namespace Xsd

/-- The events passed to xml-rs' `EventWriter::write` by `Context` and by generated code: start tag
with qualified name, attributes and namespace declarations (prefix `[]` is `NS_NO_PREFIX`), end tag,
characters (xsd/src/lib.rs:80-89, 102, xsd-internal/src/ast/leaf_content.rs:33, 42). -/
inductive Ev where
  | start (name : Str) (attrs : List (Str × Str)) (nss : List (Str × Str))
  | fin
  | chars (s : Str)
  deriving Repr, DecidableEq

/-- `ContextInner` (xsd/src/lib.rs:20-24). -/
structure Inner where
  name : Str
  attrs : List (Str × Str)
  nss : List (Str × Str)
  deriving Repr, DecidableEq

/-- `Context` (xsd/src/lib.rs:15-18). `Virtual` holds a `&mut` to the inner of another context: here it is
a copy which the owner takes back when the borrow ends (`Ctx.endBorrow`). -/
structure Ctx where
  virt : Bool
  inner : Inner
  deriving Repr, DecidableEq

/-- xml-rs' `Namespace::put`: adds the binding unless the prefix is bound already (first wins). Used
at xsd/src/lib.rs:52, 55, 63, 66. -/
def nsPut (m : List (Str × Str)) (p u : Str) : List (Str × Str) :=
  if (alookup m p).isSome then m else m ++ [(p, u)]

namespace Ctx

/-- `Context::new` (xsd/src/lib.rs:27-33). -/
def new (name : Str) : Ctx := ⟨false, ⟨name, [], []⟩⟩

/-- `Context::wrap` (xsd/src/lib.rs:35-40). -/
def wrap (c : Ctx) : Ctx := ⟨true, c.inner⟩

/-- End of the `&mut` borrow taken by `wrap`: the owner sees the changes made through it
(xsd/src/lib.rs:35-40, called at xsd-internal/src/ast/leaf.rs:80). -/
def endBorrow (owner borrowed : Ctx) : Ctx := ⟨owner.virt, borrowed.inner⟩

/-- `Context::set_attr` (xsd/src/lib.rs:42-47). -/
def setAttr (c : Ctx) (n v : Str) : Ctx :=
  match c.virt with
  | true => ⟨true, { c.inner with attrs := c.inner.attrs ++ [(n, v)] }⟩
  | false => ⟨false, { c.inner with attrs := c.inner.attrs ++ [(n, v)] }⟩

/-- `Context::set_ns` (xsd/src/lib.rs:49-58). -/
def setNs (c : Ctx) (p u : Str) : Ctx :=
  match c.virt with
  | true => ⟨true, { c.inner with nss := nsPut c.inner.nss p u }⟩
  | false => ⟨false, { c.inner with nss := nsPut c.inner.nss p u }⟩

/-- `Context::set_default_ns` (xsd/src/lib.rs:60-69). -/
def setDefaultNs (c : Ctx) (u : Str) : Ctx :=
  match c.virt with
  | true => ⟨true, { c.inner with nss := nsPut c.inner.nss [] u }⟩
  | false => ⟨false, { c.inner with nss := nsPut c.inner.nss [] u }⟩

/-- `Context::write_start_element` (xsd/src/lib.rs:71-94): events written and the context after. -/
def writeStart (c : Ctx) : List Ev × Ctx :=
  match c.virt with
  | true => ([], c)
  | false => ([.start c.inner.name c.inner.attrs c.inner.nss],
      ⟨false, { c.inner with attrs := [], nss := [] }⟩)

/-- `Context::write_end_element` (xsd/src/lib.rs:96-106). -/
def writeEnd (c : Ctx) : List Ev :=
  match c.virt with
  | true => []
  | false => [.fin]

end Ctx

/-! ## The document denoted by an event stream

This is the contract assumed of xml-rs' emitter followed by roxmltree's parser (third party, not in
the repository): which tree, if any, a written event stream is read back as. -/

/-- Namespace bindings in scope, innermost first (roxmltree and xml-rs, called at xsd/src/decode.rs:52 and xsd/src/lib.rs:80-102). -/
abbrev Scope := List (Str × Str)

/-- Split a qualified name at its first colon (xml-rs `Name::from(&str)`)
(roxmltree and xml-rs, called at xsd/src/decode.rs:52 and xsd/src/lib.rs:80-102). -/
def splitColon : Str → Option (Str × Str)
  | [] => none
  | ':' :: rest => some ([], rest)
  | c :: rest =>
    match splitColon rest with
    | some (p, l) => some (c :: p, l)
    | none => none

/-- Resolve an element name: a prefix must be bound, no prefix means the default namespace; binding
to the empty URI means no namespace (roxmltree and xml-rs, called at xsd/src/decode.rs:52 and xsd/src/lib.rs:80-102). -/
def resolveName (sc : Scope) (n : Str) : Option QName :=
  match splitColon n with
  | some (p, l) => (alookup sc p).map (fun u => ⟨l, some u⟩)
  | none =>
    match alookup sc [] with
    | none => some ⟨n, none⟩
    | some [] => some ⟨n, none⟩
    | some u => some ⟨n, some u⟩

/-- Attributes: only unprefixed names other than `xmlns`, all distinct; anything else is outside the
model and treated as malformed (generated code writes attribute names exactly as declared)
(roxmltree and xml-rs, called at xsd/src/decode.rs:52 and xsd/src/lib.rs:80-102). -/
def resolveAttrs : List (Str × Str) → Option (List XAttr)
  | [] => some []
  | (n, v) :: as =>
    if (splitColon n).isSome || n == c!"xmlns" || (as.map Prod.fst).contains n then none
    else (resolveAttrs as).map (fun r => ⟨n, none, v, 0⟩ :: r)

/-- The declarations that xml-rs writes: all but an empty default namespace. A prefix bound to the
empty URI is malformed XML (roxmltree and xml-rs, called at xsd/src/decode.rs:52 and xsd/src/lib.rs:80-102). -/
def declared (nss : List (Str × Str)) : Option Scope :=
  if nss.any (fun b => b.1 != [] && b.2 == []) then none
  else some (nss.filter (fun b => !(b.1 == [] && b.2 == [])))

/-- An element whose end tag has not been seen. Source positions and the in-scope namespace list of
the result are not represented (the decoder does not look at them)
(roxmltree and xml-rs, called at xsd/src/decode.rs:52 and xsd/src/lib.rs:80-102). -/
structure Frame where
  info : ElemInfo
  scope : Scope
  kids : List XNode

/-- XML white space (roxmltree and xml-rs, called at xsd/src/decode.rs:52 and xsd/src/lib.rs:80-102). -/
def isXmlSpace (c : Char) : Bool := c == ' ' || c == '\t' || c == '\n' || c == '\r'

/-- Append characters to child nodes: empty text disappears, adjacent text merges
(roxmltree and xml-rs, called at xsd/src/decode.rs:52 and xsd/src/lib.rs:80-102). -/
def addText (kids : List XNode) (s : Str) : List XNode :=
  if s = [] then kids
  else match kids.getLast? with
    | some (.text t) => kids.dropLast ++ [.text (t ++ s)]
    | _ => kids ++ [.text s]

/-- Progress of reading an event stream (roxmltree and xml-rs, called at xsd/src/decode.rs:52 and xsd/src/lib.rs:80-102). -/
inductive BState where
  | before
  | inside (top : Frame) (rest : List Frame)
  | done (e : Elem)

/-- Open an element in a scope (roxmltree and xml-rs, called at xsd/src/decode.rs:52 and xsd/src/lib.rs:80-102). -/
def openElem (sc : Scope) (n : Str) (attrs nss : List (Str × Str)) : Option Frame := do
  let ds ← declared nss
  let q ← resolveName (ds ++ sc) n
  let as ← resolveAttrs attrs
  pure ⟨⟨q, as, [], 0⟩, ds ++ sc, []⟩

/-- One event. `none` is a document that is not well-formed
(roxmltree and xml-rs, called at xsd/src/decode.rs:52 and xsd/src/lib.rs:80-102). -/
def bstep : BState → Ev → Option BState
  | .before, .start n as ns => (openElem [] n as ns).map (fun f => .inside f [])
  | .before, .fin => none
  | .before, .chars s => if s.all isXmlSpace then some .before else none
  | .inside t r, .start n as ns => (openElem t.scope n as ns).map (fun f => .inside f (t :: r))
  | .inside t [], .fin => some (.done (t.info, t.kids))
  | .inside t (u :: r), .fin => some (.inside { u with kids := u.kids ++ [.elem t.info t.kids] } r)
  | .inside t r, .chars s => some (.inside { t with kids := addText t.kids s } r)
  | .done _, .start _ _ _ => none
  | .done _, .fin => none
  | .done e, .chars s => if s.all isXmlSpace then some (.done e) else none

/-- Read events from a state (roxmltree and xml-rs, called at xsd/src/decode.rs:52 and xsd/src/lib.rs:80-102). -/
def brun : BState → List Ev → Option BState
  | st, [] => some st
  | st, e :: es =>
    match bstep st e with
    | some st => brun st es
    | none => none

/-- The root element that an event stream denotes, if it is a well-formed document
(roxmltree and xml-rs, called at xsd/src/decode.rs:52 and xsd/src/lib.rs:80-102). -/
def buildDoc (evs : List Ev) : Option Elem :=
  match brun .before evs with
  | some (.done e) => some e
  | _ => none

/-- White space nodes that an indenting writer adds (roxmltree and xml-rs, called at xsd/src/decode.rs:52 and xsd/src/lib.rs:80-102). -/
def XNode.isSpace : XNode → Bool
  | .text s => s.all isXmlSpace
  | _ => false

mutual
/-- `Indented n n'`: `n'` is `n` with white-space text inserted between and around the children of
elements that have a first child which is not text (where xml-rs with `perform_indent(true)`,
schema.rs:262-264, may insert some); text is never touched. -/
inductive Indented : XNode → XNode → Prop where
  | text (s : Str) : Indented (.text s) (.text s)
  | other : Indented .other .other
  | same {i : ElemInfo} {cs cs' : List XNode} (h : IndentedL false cs cs') :
      Indented (.elem i cs) (.elem i cs')
  | sep {i : ElemInfo} {c : XNode} {cs cs' : List XNode} (h : IndentedL true (c :: cs) cs')
      (htx : ∀ s, c ≠ .text s) : Indented (.elem i (c :: cs)) (.elem i cs')
/-- Child lists; `true` allows inserted white space (roxmltree and xml-rs, called at xsd/src/decode.rs:52 and xsd/src/lib.rs:80-102). -/
inductive IndentedL : Bool → List XNode → List XNode → Prop where
  | nil {b : Bool} : IndentedL b [] []
  | cons {b : Bool} {c c' : XNode} {cs cs' : List XNode} (h : Indented c c')
      (hs : IndentedL b cs cs') : IndentedL b (c :: cs) (c' :: cs')
  | space {w : Str} {cs cs' : List XNode} (hw : w.all isXmlSpace = true) (h : IndentedL true cs cs') :
      IndentedL true cs (.text w :: cs')
end

end Xsd
