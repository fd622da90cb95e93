import Verif.Model.XmlText
import Verif.Model.Schema
/-!
# The text of schema files

`Schema::parse_with_context` (`xsd-internal/src/xsd/schema.rs:51-87`) passes the text of a schema file to
`roxmltree::Document::parse`, looks at the namespaces in scope of the root element (`xsd/context.rs:46-54`), and
turns the start of source ranges into rows and columns with `Document::text_pos_at`. roxmltree is not in the repository; this
file says what is assumed of it, in addition to `Verif/Model/XmlText.lean`.
-/
namespace Xsd
namespace XmlText

/-- The characters with the numbers of the bytes before them (roxmltree, called at xsd-internal/src/xsd/schema.rs:57). -/
def offsets : Nat → Str → List (Char × Nat)
  | _, [] => []
  | p, c :: cs => (c, p) :: offsets (p + c.utf8Size) cs

/-- `normEol`, with offsets in the text as it was (roxmltree, called at xsd-internal/src/xsd/schema.rs:57). -/
def normEolAt : List (Char × Nat) → List (Char × Nat)
  | [] => []
  | ('\r', p) :: ('\n', _) :: cs => ('\n', p) :: normEolAt cs
  | ('\r', p) :: cs => ('\n', p) :: normEolAt cs
  | c :: cs => c :: normEolAt cs

/-- Where the last start tag and the attributes in it start (roxmltree, called at xsd-internal/src/xsd/schema.rs:57). -/
structure Marks where
  lt : Nat
  attrs : List Nat
  deriving Repr, DecidableEq

/-- What starts with a character at an offset (roxmltree, called at xsd-internal/src/xsd/schema.rs:57). -/
def mark (m : Marks) (l : LState) (c : Char) (p : Nat) : Marks :=
  match l with
  | .content _ => if c = '<' then ⟨p, []⟩ else m
  | .inTag _ _ sp => if sp && isNameStart c then ⟨m.lt, m.attrs ++ [p]⟩ else m
  | _ => m

/-- Attributes with their offsets (roxmltree, called at xsd-internal/src/xsd/schema.rs:57). -/
def placeAttrs : List XAttr → List Nat → List XAttr
  | [], _ => []
  | as, [] => as
  | a :: as, p :: ps => { a with start := p } :: placeAttrs as ps

/-- The first binding of each prefix (roxmltree, called at xsd-internal/src/xsd/schema.rs:57). -/
def firstBindings : Scope → Scope
  | [] => []
  | b :: sc => b :: (firstBindings sc).filter (fun d => d.1 != b.1)

/-- `roxmltree::Node::namespaces`: the bindings in scope except the one of `xml`; the default namespace has no prefix
(called at xsd/context.rs:47). -/
def nsList (sc : Scope) : List (Option Str × Str) :=
  ((firstBindings sc).filter (fun b => b.1 != c!"xml")).map (fun b => (if b.1 = [] then none else some b.1, b.2))

/-- An element just opened, with the start of its range and of those of its attributes (`raw`: with namespace declarations), and the
namespaces in scope (roxmltree, called at xsd-internal/src/xsd/schema.rs:57). -/
def placeFrame (m : Marks) (raw : List (Str × Str)) (f : Frame) : Frame :=
  { f with info := ⟨f.info.name,
      placeAttrs f.info.attrs (((raw.zip m.attrs).filter (fun a => (nsDecl a.1.1).isNone)).map Prod.snd), nsList f.scope, m.lt⟩ }

/-- The same for the innermost element (roxmltree, called at xsd-internal/src/xsd/schema.rs:57). -/
def placeTop (m : Marks) (raw : List (Str × Str)) : RState → RState
  | .inside n f r => .inside n (placeFrame m raw f) r
  | st => st

/-- `rstep`, with positions (roxmltree, called at xsd-internal/src/xsd/schema.rs:57). -/
def rstepAt (m : Marks) (st : RState) : Tok → Option RState
  | .start n as => (rstep st (.start n as)).map (placeTop m as)
  | t => rstep st t

/-- `rsteps`, with positions (roxmltree, called at xsd-internal/src/xsd/schema.rs:57). -/
def rstepsAt (m : Marks) : RState → List Tok → Option RState
  | st, [] => some st
  | st, t :: ts => (rstepAt m st t).bind (fun st => rstepsAt m st ts)

/-- `readFrom`, with positions (roxmltree, called at xsd-internal/src/xsd/schema.rs:57). -/
def readFromAt : LState → Marks → RState → List (Char × Nat) → Option (LState × RState)
  | l, _, st, [] => some (l, st)
  | l, m, st, (c, p) :: cs =>
    match lexStep l c with
    | some (l', ts) =>
      match rstepsAt (mark m l c p) st ts with
      | some st => readFromAt l' (mark m l c p) st cs
      | none => none
    | none => none

/-- `roxmltree::Document::parse` (called at xsd-internal/src/xsd/schema.rs:57): the root element, with positions and namespaces in scope. -/
def readXmlAt (s : Str) : Option Elem :=
  if s.all isXmlChar then
    let cs := normEolAt (offsets 0 s)
    match skipDecl (skipBom (cs.map Prod.fst)) with
    | some t =>
      match readFromAt (.content 0) ⟨0, []⟩ .before (cs.drop (cs.length - t.length)) with
      | some (.content _, .done e) => some e
      | _ => none
    | none => none
  else none

/-- The characters before a byte offset (for `text_pos_at`, xsd/schema.rs:77). -/
def takeBytes : Nat → Str → Str
  | _, [] => []
  | n, c :: cs => if n = 0 then [] else c :: takeBytes (n - c.utf8Size) cs

/-- `roxmltree::Document::text_pos_at` (called at xsd-internal/src/xsd/schema.rs:77): row and column, from 1 on, of a byte offset. -/
def textPos (s : Str) (n : Nat) : Nat × Nat :=
  ((takeBytes n s).count '\n' + 1, ((takeBytes n s).reverse.takeWhile (fun c => c != '\n')).length + 1)

end XmlText

/-- A file system of texts. `err` is the position that roxmltree reports for texts that are not well-formed; nothing is assumed of it
(xsd/schema.rs:34, 57-77). -/
structure TextFiles where
  /-- `read_to_string` (xsd/schema.rs:34); `none` is an error -/
  read : Str → Option Str
  /-- `path.parent().unwrap_or(path)` (xsd/schema.rs:70) -/
  parent : Str → Str
  /-- `base.push(location)` (xsd/schema.rs:119-120) -/
  push : Str → Str → Str
  /-- `roxmltree::Error::pos` (xsd/schema.rs:60) -/
  err : Str → Nat × Nat

/-- `Document::parse` on what `read_to_string` returns (xsd/schema.rs:34-68). -/
def fileContent (err : Str → Nat × Nat) (s : Str) : FileContent :=
  match XmlText.readXmlAt s with
  | some e => .doc ⟨e, XmlText.textPos s⟩
  | none => .malformed (err s).1 (err s).2

/-- The files as `Verif/Model/Schema.lean` has them (xsd/schema.rs:34, 70, 119-120). -/
def TextFiles.files (T : TextFiles) : Files where
  read p := (T.read p).map (fileContent T.err)
  parent := T.parent
  push := T.push

end Xsd
