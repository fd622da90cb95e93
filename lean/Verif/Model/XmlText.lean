import Verif.Model.Writer
/-!
# XML text

`xsd/src/decode.rs:52` passes the text of a document to `roxmltree::Document::parse`, and generated code passes
its events to xml-rs' `EventWriter` (`xsd-internal/src/xsd/schema.rs:261-274`). Neither library is in the repository. This file says
what is assumed of them, as functions: `readXml` is the part of XML 1.0 and of Namespaces in XML that roxmltree
implements, and `emitXml` is the text that xml-rs writes for a list of events.

The reader goes through the text one character at a time (`lexStep`), and puts tags and characters together
(`rstep`). Simplified: what is between `<?xml` and `?>` at the start of a document is not looked at. Source positions and the in-scope
namespace list of elements, which only matter for schema files, are in `Verif/Model/SchemaText.lean`.
-/
namespace Xsd
namespace XmlText

/-- XML 1.0, production `Char`: `roxmltree` rejects other characters (roxmltree, called at xsd/src/decode.rs:52). -/
def isXmlChar (c : Char) : Bool :=
  let n := c.toNat
  n == 9 || n == 10 || n == 13 || (32 ≤ n && n ≤ 0xD7FF) || (0xE000 ≤ n && n ≤ 0xFFFD) || (0x10000 ≤ n && n ≤ 0x10FFFF)

/-- XML 1.0, production `NameStartChar`, without the colon (roxmltree, called at xsd/src/decode.rs:52). -/
def isNameStart (c : Char) : Bool :=
  let n := c.toNat
  (65 ≤ n && n ≤ 90) || n == 95 || (97 ≤ n && n ≤ 122) || (0xC0 ≤ n && n ≤ 0xD6) || (0xD8 ≤ n && n ≤ 0xF6) ||
    (0xF8 ≤ n && n ≤ 0x2FF) || (0x370 ≤ n && n ≤ 0x37D) || (0x37F ≤ n && n ≤ 0x1FFF) || (0x200C ≤ n && n ≤ 0x200D) ||
    (0x2070 ≤ n && n ≤ 0x218F) || (0x2C00 ≤ n && n ≤ 0x2FEF) || (0x3001 ≤ n && n ≤ 0xD7FF) ||
    (0xF900 ≤ n && n ≤ 0xFDCF) || (0xFDF0 ≤ n && n ≤ 0xFFFD) || (0x10000 ≤ n && n ≤ 0xEFFFF)

/-- XML 1.0, production `NameChar`, without the colon (roxmltree, called at xsd/src/decode.rs:52). -/
def isNameChar (c : Char) : Bool :=
  let n := c.toNat
  isNameStart c || n == 45 || n == 46 || (48 ≤ n && n ≤ 57) || n == 0xB7 || (0x300 ≤ n && n ≤ 0x36F) ||
    (0x203F ≤ n && n ≤ 0x2040)

/-- Namespaces in XML, production `NCName` (roxmltree, called at xsd/src/decode.rs:52). -/
def isNCName : Str → Bool
  | [] => false
  | c :: cs => isNameStart c && cs.all isNameChar

/-- Namespaces in XML, production `QName` (roxmltree, called at xsd/src/decode.rs:52). -/
def isQName (s : Str) : Bool :=
  match splitColon s with
  | some (p, l) => isNCName p && isNCName l
  | none => isNCName s

/-- XML 1.0, section 2.11: line ends are read as line feeds (roxmltree, called at xsd/src/decode.rs:52). -/
def normEol : Str → Str
  | [] => []
  | '\r' :: '\n' :: cs => '\n' :: normEol cs
  | '\r' :: cs => '\n' :: normEol cs
  | c :: cs => c :: normEol cs

/-- The value of a digit (roxmltree, called at xsd/src/decode.rs:52). -/
def hexDigit (c : Char) : Option Nat :=
  let n := c.toNat
  if 48 ≤ n ∧ n ≤ 57 then some (n - 48)
  else if 97 ≤ n ∧ n ≤ 102 then some (n - 87)
  else if 65 ≤ n ∧ n ≤ 70 then some (n - 55)
  else none

/-- The number that digits stand for (roxmltree, called at xsd/src/decode.rs:52). -/
def numValue (base : Nat) : Nat → Str → Option Nat
  | acc, [] => some acc
  | acc, c :: cs =>
    match hexDigit c with
    | some d => if d < base then numValue base (acc * base + d) cs else none
    | none => none

/-- The character with a code point, if XML has it (roxmltree, called at xsd/src/decode.rs:52). -/
def xmlChar (n : Nat) : Option Char :=
  if n.isValidChar ∧ isXmlChar (Char.ofNat n) = true then some (Char.ofNat n) else none

/-- The character that a reference (without `&` and `;`) stands for: a predefined entity or a character
reference. No other entities exist, as there is no DTD (roxmltree, called at xsd/src/decode.rs:52). -/
def decodeRef (r : Str) : Option Char :=
  if r = c!"lt" then some '<'
  else if r = c!"gt" then some '>'
  else if r = c!"amp" then some '&'
  else if r = c!"quot" then some '"'
  else if r = c!"apos" then some '\''
  else match r with
    | '#' :: 'x' :: ds => if ds = [] then none else (numValue 16 0 ds).bind xmlChar
    | '#' :: ds => if ds = [] then none else (numValue 10 0 ds).bind xmlChar
    | _ => none

/-- What the text consists of. Characters come one (or, in CDATA sections, a few) at a time; `lit` says that they are written as they
are, not as references or in a CDATA section (roxmltree, called at xsd/src/decode.rs:52). -/
inductive Tok where
  | start (name : Str) (attrs : List (Str × Str))
  | fin (name : Str)
  | chars (lit : Bool) (s : Str)
  | other
  deriving Repr, DecidableEq

/-- What the characters read so far are a part of (roxmltree, called at xsd/src/decode.rs:52). -/
inductive LState where
  /-- character data; the number of `]` just read, if less than two -/
  | content (k : Nat)
  /-- a reference in character data -/
  | ref (r : Str)
  /-- after `<` -/
  | lt
  /-- the name in a start tag -/
  | openName (n : Str)
  /-- a start tag after the name or an attribute; has there been white space? -/
  | inTag (n : Str) (as : List (Str × Str)) (sp : Bool)
  /-- the name of an attribute -/
  | attrName (n : Str) (as : List (Str × Str)) (a : Str)
  /-- white space after the name of an attribute -/
  | attrEnd (n : Str) (as : List (Str × Str)) (a : Str)
  /-- after `=` -/
  | attrEq (n : Str) (as : List (Str × Str)) (a : Str)
  /-- an attribute value in quotes `q` -/
  | attrVal (n : Str) (as : List (Str × Str)) (a : Str) (q : Char) (v : Str)
  /-- a reference in an attribute value -/
  | attrRef (n : Str) (as : List (Str × Str)) (a : Str) (q : Char) (v : Str) (r : Str)
  /-- after `/` in a start tag -/
  | slash (n : Str) (as : List (Str × Str))
  /-- the name in an end tag -/
  | closeName (n : Str)
  /-- white space in an end tag -/
  | closeEnd (n : Str)
  /-- after `<!` -/
  | bang (s : Str)
  /-- a comment; the number of `-` just read -/
  | comment (k : Nat)
  /-- a CDATA section; the number of `]` just read -/
  | cdata (k : Nat)
  /-- the target of a processing instruction -/
  | piName (n : Str)
  /-- a processing instruction; has `?` just been read? -/
  | pi (q : Bool)
  deriving Repr, DecidableEq

/-- The number of `]` just read (two at most) after one more character (roxmltree, called at xsd/src/decode.rs:52). -/
def brackets (k : Nat) (c : Char) : Nat := if c = ']' then min 2 (k + 1) else 0

/-- Is this `xml`, in any case? Such processing instructions are reserved (roxmltree, called at xsd/src/decode.rs:52). -/
def isXmlTarget (n : Str) : Bool := n.map Char.toLower == c!"xml"

/-- A start tag after the name or an attribute (roxmltree, called at xsd/src/decode.rs:52). -/
def tagStep (n : Str) (as : List (Str × Str)) (sp : Bool) (c : Char) : Option (LState × List Tok) :=
  if isXmlSpace c then some (.inTag n as true, [])
  else if c = '>' then some (.content 0, [.start n as])
  else if c = '/' then some (.slash n as, [])
  else if sp && isNameStart c then some (.attrName n as [c], [])
  else none

/-- One character: the next state and what has ended here. `none` is a text that is not well-formed
(roxmltree, called at xsd/src/decode.rs:52). -/
def lexStep : LState → Char → Option (LState × List Tok)
  | .content k, c =>
    if c = '<' then some (.lt, [])
    else if c = '&' then some (.ref [], [])
    else if c = '>' ∧ 2 ≤ k then none
    else some (.content (brackets k c), [.chars true [c]])
  | .ref r, c =>
    if c = ';' then (decodeRef r).map (fun d => (.content 0, [.chars false [d]]))
    else some (.ref (r ++ [c]), [])
  | .lt, c =>
    if c = '/' then some (.closeName [], [])
    else if c = '!' then some (.bang [], [])
    else if c = '?' then some (.piName [], [])
    else if isNameStart c then some (.openName [c], [])
    else none
  | .openName n, c =>
    if isNameChar c ∨ c = ':' then some (.openName (n ++ [c]), []) else tagStep n [] false c
  | .inTag n as sp, c => tagStep n as sp c
  | .attrName n as a, c =>
    if isNameChar c ∨ c = ':' then some (.attrName n as (a ++ [c]), [])
    else if c = '=' then some (.attrEq n as a, [])
    else if isXmlSpace c then some (.attrEnd n as a, [])
    else none
  | .attrEnd n as a, c =>
    if c = '=' then some (.attrEq n as a, [])
    else if isXmlSpace c then some (.attrEnd n as a, [])
    else none
  | .attrEq n as a, c =>
    if c = '"' ∨ c = '\'' then some (.attrVal n as a c [], [])
    else if isXmlSpace c then some (.attrEq n as a, [])
    else none
  | .attrVal n as a q v, c =>
    if c = q then some (.inTag n (as ++ [(a, v)]) false, [])
    else if c = '<' then none
    else if c = '&' then some (.attrRef n as a q v [], [])
    else if isXmlSpace c then some (.attrVal n as a q (v ++ [' ']), [])
    else some (.attrVal n as a q (v ++ [c]), [])
  | .attrRef n as a q v r, c =>
    if c = ';' then (decodeRef r).map (fun d => (.attrVal n as a q (v ++ [d]), []))
    else some (.attrRef n as a q v (r ++ [c]), [])
  | .slash n as, c => if c = '>' then some (.content 0, [.start n as, .fin n]) else none
  | .closeName n, c =>
    if isNameChar c ∨ c = ':' then some (.closeName (n ++ [c]), [])
    else if c = '>' then some (.content 0, [.fin n])
    else if isXmlSpace c then some (.closeEnd n, [])
    else none
  | .closeEnd n, c =>
    if c = '>' then some (.content 0, [.fin n])
    else if isXmlSpace c then some (.closeEnd n, [])
    else none
  | .bang s, c =>
    if s ++ [c] = c!"--" then some (.comment 0, [])
    else if s ++ [c] = c!"[CDATA[" then some (.cdata 0, [])
    else if (s ++ [c]).isPrefixOf c!"--" ∨ (s ++ [c]).isPrefixOf c!"[CDATA[" then some (.bang (s ++ [c]), [])
    else none
  | .comment k, c =>
    if k = 2 then (if c = '>' then some (.content 0, [.other]) else none)
    else if c = '-' then some (.comment (k + 1), [])
    else some (.comment 0, [])
  | .cdata k, c =>
    if c = ']' then (if k = 2 then some (.cdata 2, [.chars false [']']]) else some (.cdata (k + 1), []))
    else if c = '>' ∧ k = 2 then some (.content 0, [])
    else some (.cdata 0, [.chars false (List.replicate k ']' ++ [c])])
  | .piName n, c =>
    if isNameChar c ∨ c = ':' then some (.piName (n ++ [c]), [])
    else if n = [] ∨ isXmlTarget n then none
    else if c = '?' then some (.pi true, [])
    else if isXmlSpace c then some (.pi false, [])
    else none
  | .pi q, c =>
    if c = '>' ∧ q = true then some (.content 0, [.other]) else some (.pi (c == '?'), [])

/-! ## Elements -/

/-- The prefix that an attribute with this name declares (`[]` is the default namespace), if it is a namespace
declaration (roxmltree, called at xsd/src/decode.rs:52). -/
def nsDecl (a : Str) : Option Str :=
  if a = c!"xmlns" then some []
  else match splitColon a with
    | some (p, l) => if p = c!"xmlns" then some l else none
    | none => none

/-- The namespace of the prefix `xml` (roxmltree, called at xsd/src/decode.rs:52). -/
def xmlNs : Str := c!"http://www.w3.org/XML/1998/namespace"

/-- The namespace of the prefix `xmlns` (roxmltree, called at xsd/src/decode.rs:52). -/
def xmlnsNs : Str := c!"http://www.w3.org/2000/xmlns/"

/-- Namespaces in XML, sections 2.2 and 3: may this prefix be bound to this namespace name? (roxmltree, called at xsd/src/decode.rs:52) -/
def bindingOk (b : Str × Str) : Bool :=
  b.1 != c!"xmlns" && b.2 != xmlnsNs && ((b.1 == c!"xml") == (b.2 == xmlNs)) && (b.1 == [] || b.2 != [])

/-- The attribute with a name and a value: a prefix must be bound, no prefix means no namespace
(roxmltree, called at xsd/src/decode.rs:52). -/
def readAttr (sc : Scope) (a : Str × Str) : Option XAttr :=
  match splitColon a.1 with
  | some (p, l) => (alookup sc p).map (fun u => ⟨l, some u, a.2, 0⟩)
  | none => some ⟨a.1, none, a.2, 0⟩

/-- All or nothing (roxmltree, called at xsd/src/decode.rs:52). -/
def readAttrs (sc : Scope) : List (Str × Str) → Option (List XAttr)
  | [] => some []
  | a :: as =>
    match readAttr sc a, readAttrs sc as with
    | some x, some xs => some (x :: xs)
    | _, _ => none

/-- Are these different from each other? (roxmltree, called at xsd/src/decode.rs:52) -/
def allDiff {α : Type} [DecidableEq α] : List α → Bool
  | [] => true
  | a :: as => !as.contains a && allDiff as

/-- The element that a start tag opens (roxmltree, called at xsd/src/decode.rs:52). -/
def readElem (sc : Scope) (n : Str) (raw : List (Str × Str)) : Option Frame :=
  let ds := raw.filterMap (fun a => (nsDecl a.1).map (fun p => (p, a.2)))
  let as := raw.filter (fun a => (nsDecl a.1).isNone)
  if isQName n ∧ (raw.all (fun a => isQName a.1)) ∧ allDiff (raw.map Prod.fst) ∧ ds.all bindingOk then
    match resolveName (ds ++ sc) n, readAttrs (ds ++ sc) as with
    | some q, some xs =>
      if allDiff (xs.map (fun a => (a.loc, a.ns))) then some ⟨⟨q, xs, [], 0⟩, ds ++ sc, []⟩ else none
    | _, _ => none
  else none

/-- Progress of reading: the elements that are open, with the names of their start tags (roxmltree, called at xsd/src/decode.rs:52). -/
inductive RState where
  | before
  | inside (n : Str) (top : Frame) (rest : List (Str × Frame))
  | done (e : Elem)

/-- The bindings outside of the root element (roxmltree, called at xsd/src/decode.rs:52). -/
def xmlScope : Scope := [(c!"xml", xmlNs)]

/-- One tag or character (roxmltree, called at xsd/src/decode.rs:52). -/
def rstep : RState → Tok → Option RState
  | .before, .start n as => (readElem xmlScope n as).map (fun f => .inside n f [])
  | .before, .fin _ => none
  | .before, .chars lit s => if lit ∧ s.all isXmlSpace then some .before else none
  | .before, .other => some .before
  | .inside m t r, .start n as => (readElem t.scope n as).map (fun f => .inside n f ((m, t) :: r))
  | .inside m t r, .fin n =>
    if m = n then
      match r with
      | [] => some (.done (t.info, t.kids))
      | (m', u) :: r => some (.inside m' { u with kids := u.kids ++ [.elem t.info t.kids] } r)
    else none
  | .inside m t r, .chars _ s => some (.inside m { t with kids := addText t.kids s } r)
  | .inside m t r, .other => some (.inside m { t with kids := t.kids ++ [.other] } r)
  | .done _, .start _ _ => none
  | .done _, .fin _ => none
  | .done e, .chars lit s => if lit ∧ s.all isXmlSpace then some (.done e) else none
  | .done e, .other => some (.done e)

/-- Several tags or characters (roxmltree, called at xsd/src/decode.rs:52). -/
def rsteps : RState → List Tok → Option RState
  | st, [] => some st
  | st, t :: ts => (rstep st t).bind (fun st => rsteps st ts)

/-- Read characters from a state on (roxmltree, called at xsd/src/decode.rs:52). -/
def readFrom : LState → RState → Str → Option (LState × RState)
  | l, st, [] => some (l, st)
  | l, st, c :: cs =>
    match lexStep l c with
    | some (l, ts) =>
      match rsteps st ts with
      | some st => readFrom l st cs
      | none => none
    | none => none

/-- What follows `?>` (roxmltree, called at xsd/src/decode.rs:52). -/
def afterDecl : Str → Option Str
  | [] => none
  | '?' :: '>' :: cs => some cs
  | _ :: cs => afterDecl cs

/-- What follows the XML declaration, if there is one (roxmltree, called at xsd/src/decode.rs:52). -/
def skipDecl (s : Str) : Option Str :=
  match s with
  | '<' :: '?' :: 'x' :: 'm' :: 'l' :: c :: cs => if isXmlSpace c then afterDecl cs else some s
  | _ => some s

/-- What follows the byte order mark, if there is one (roxmltree, called at xsd/src/decode.rs:52). -/
def skipBom : Str → Str
  | '\uFEFF' :: cs => cs
  | s => s

/-- `roxmltree::Document::parse` (called at xsd/src/decode.rs:52 and xsd-internal/src/xsd/schema.rs:57): the root element of
a document, `none` for an error. -/
def readXml (s : Str) : Option Elem :=
  if s.all isXmlChar then
    match skipDecl (skipBom (normEol s)) with
    | some s =>
      match readFrom (.content 0) .before s with
      | some (.content _, .done e) => some e
      | _ => none
    | none => none
  else none

/-! ## Writing -/

/-- xml-rs' `escape_str_pcdata` (xml-rs, called at xsd-internal/src/xsd/schema.rs:262-272). -/
def escText (c : Char) : Str :=
  if c = '<' then c!"&lt;" else if c = '>' then c!"&gt;" else if c = '&' then c!"&amp;" else [c]

/-- xml-rs' `escape_str_attribute` (xml-rs, called at xsd-internal/src/xsd/schema.rs:262-272). -/
def escAttr (c : Char) : Str :=
  if c = '<' then c!"&lt;" else if c = '>' then c!"&gt;" else if c = '&' then c!"&amp;"
  else if c = '"' then c!"&quot;" else if c = '\'' then c!"&apos;"
  else if c = '\n' then c!"&#xA;" else if c = '\r' then c!"&#xD;" else [c]

/-- An attribute with a space before it (xml-rs, called at xsd-internal/src/xsd/schema.rs:262-272). -/
def emitAttr (a : Str × Str) : Str := ' ' :: a.1 ++ c!"=\"" ++ a.2.flatMap escAttr ++ c!"\""

/-- The attribute that declares a namespace (xml-rs, called at xsd-internal/src/xsd/schema.rs:262-272). -/
def declAttr (b : Str × Str) : Str × Str := (if b.1 = [] then c!"xmlns" else c!"xmlns:" ++ b.1, b.2)

/-- The namespace declarations that xml-rs writes in a start tag: not the empty default namespace, not those of the prefixes `xml`
and `xmlns`, and not those that are in scope already (`NamespaceStack::checked_target`, `emit_current_namespace_attributes`)
(xml-rs, called at xsd-internal/src/xsd/schema.rs:262-272). -/
def tagDecls (sc : Scope) (nss : List (Str × Str)) : List (Str × Str) :=
  nss.filter (fun b => !(b.1 == [] && b.2 == []) && b.1 != c!"xml" && b.1 != c!"xmlns" && alookup sc b.1 != some b.2)

/-- Line break and indentation (xml-rs, called at xsd-internal/src/xsd/schema.rs:262-272). -/
def newLine (level : Nat) : Str := '\n' :: List.replicate (2 * level) ' '

/-- What xml-rs' emitter remembers of an open element: its name, whether text and whether elements have been written in
it, and the namespace bindings in it (xml-rs, called at xsd-internal/src/xsd/schema.rs:262-272). -/
structure Open where
  name : Str
  text : Bool
  elems : Bool
  scope : Scope
  deriving Repr, DecidableEq

/-- The bindings in the innermost element (xml-rs, called at xsd-internal/src/xsd/schema.rs:262-272). -/
def openScope : List Open → Scope
  | [] => []
  | o :: _ => o.scope

/-- Line break before a start tag: `before_markup` of the emitter (xml-rs, called at xsd-internal/src/xsd/schema.rs:262-272). -/
def indentBefore : List Open → Str
  | [] => newLine 0
  | o :: st => if o.text then [] else newLine (st.length + 1)

/-- An element has been written in the innermost element (xml-rs, called at xsd-internal/src/xsd/schema.rs:262-272). -/
def addElem : List Open → List Open
  | [] => []
  | o :: st => { o with elems := true } :: st

/-- Text has been written in the innermost element (xml-rs, called at xsd-internal/src/xsd/schema.rs:262-272). -/
def addChars : List Open → List Open
  | [] => []
  | o :: st => { o with text := true } :: st

/-- xml-rs' emitter with `perform_indent(true)` (schema.rs:262-264), after the XML declaration. An element without content is
written as an empty-element tag (`normalize_empty_elements`, `pad_self_closing`). `pending`: the start tag of the innermost
element has not been closed yet. -/
def emitEvs : List Open → Bool → List Ev → Str
  | _, _, [] => []
  | st, pending, .start n as nss :: evs =>
    (if pending then c!">" else []) ++ (indentBefore st ++ ('<' :: n ++
      (((tagDecls (openScope st) nss).map declAttr ++ as).flatMap emitAttr ++
        emitEvs (⟨n, false, false, nss ++ openScope st⟩ :: addElem st) true evs)))
  | st, pending, .chars s :: evs =>
    (if pending then c!">" else []) ++ (s.flatMap escText ++ emitEvs (addChars st) false evs)
  | [], _, .fin :: evs => emitEvs [] false evs
  | o :: st, pending, .fin :: evs =>
    (if pending then c!" />"
     else (if o.elems && !o.text then newLine st.length else []) ++ c!"</" ++ o.name ++ c!">") ++
      emitEvs st false evs

/-- The text that `to_xml` returns for its events (xsd-internal/src/xsd/schema.rs:261-274). -/
def emitXml (evs : List Ev) : Str := c!"<?xml version=\"1.0\" encoding=\"UTF-8\"?>" ++ emitEvs [] false evs

end XmlText
end Xsd
