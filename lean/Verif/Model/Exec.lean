import Verif.Model.Codegen
import Verif.Model.Writer
/-!
# Meaning of the generated code

Interpreter of the templates of `Verif/Model/Codegen.lean` over the runtime (`Decode`, `Writer`). One fuel
counter bounds the depth of calls between generated functions and the number of iterations of every loop;
running out is `diverge`, and more fuel never changes another outcome
(`Verif/Lemmas/ExecMono.lean`). `panic` stands for generated code that does not compile or a value that
does not have the declared type.
-/
namespace Xsd

/-- The node operations used by generated code (xsd/src/decode.rs:88-188), so that the interpreter can
run on the implementation model (`cursorOps`) and on its specification (`queueOps`). -/
structure Ops (σ : Type) where
  mkNode : Elem → σ
  peek : σ → QName → Bool × σ
  next : σ → QName → Option Elem × σ
  tryNext : σ → QName → Except DErr Elem × σ
  tryChild : σ → QName → Except DErr Elem × σ
  attr : σ → Str → Option Str
  tryAttr : σ → Str → Except DErr Str
  text : σ → Except DErr Str

/-- The implementation (xsd/src/decode.rs). -/
def cursorOps : Ops Cursor where
  mkNode := Cursor.new
  peek := Cursor.peekChild
  next := Cursor.nextChild
  tryNext := Cursor.tryNextChild
  tryChild := Cursor.tryChild
  attr := Cursor.attr
  tryAttr := Cursor.tryAttribute
  text := Cursor.text

/-- Result of running generated decoding code: a value and the node state. -/
notation "DRes " σ:max α:max => Res DErr (α × σ)

/-- Items of the generated program are found by identifier (`impl #name_ident`, xsd/schema.rs:257, 297, 313). -/
def findType (P : List TypeDef) (i : Str) : Option TypeDef := P.find? (fun t => decide (t.ident = i))

/-- Rust's `Result` in `?` position (e.g. leaf_content.rs:53, leaf.rs:231). -/
def ofExcept {α : Type} : Except DErr α → Res DErr α
  | .ok a => .ok a
  | .error e => .err e

section Read
variable {σ : Type} (x : Ext) (o : Ops σ) (P : List TypeDef)

/-- `false || c1 || c2 …` (root.rs:381-383, 413-415); `callL` is `Ident::lookahead(node)`. -/
def runChecks (callL : Str → σ → DRes σ Bool) : List Check → σ → DRes σ Bool
  | [], s => .ok (false, s)
  | .call i :: cs, s => do
    let r ← callL i s
    if r.1 then .ok (true, r.2) else runChecks callL cs r.2
  | .peek q :: cs, s =>
    let r := o.peek s q
    if r.1 then .ok (true, r.2) else runChecks callL cs r.2

/-- The generated `lookahead` function (schema.rs:310-318). -/
def lookahead : Nat → Str → σ → DRes σ Bool
  | 0, _, _ => .diverge
  | k + 1, i, s =>
    match findType P i with
    | none => .panic
    | some t =>
      match t.look with
      | .always => .ok (true, s)
      | .checks cs => runChecks o (lookahead k) cs s

/-- `FromStr::from_str(val).map_err(ParseType)?` (literal_type.rs:71-82). -/
def parseLit (t : LiteralType) (s : Str) : Res DErr Val :=
  match parsePrim x t.prim s with
  | some v => .ok v
  | none => .err (.parseType t.xsdName s)

/-- Meaning of `ValRead`; `callF` is `Ident::from_xml_node(&node)?` (leaf_content.rs:47-76, name.rs:39-44). -/
def readVal (callF : Str → σ → DRes σ Val) : ValRead → σ → DRes σ Val
  | .text t, s => do
    let val ← ofExcept (o.text s)
    let v ← parseLit x t val
    .ok (v, s)
  | .fixed f, s => do
    let val ← ofExcept (o.text s)
    if val = f then .ok (.unit, s) else .err (.fixedMismatch f val)
  | .call i, s => callF i s

/-- `#value` evaluated with `node` bound to a fresh child node (leaf.rs:203, 224, 231-232, 236-237). -/
def readOn (callF : Str → σ → DRes σ Val) (v : ValRead) (e : Elem) : Res DErr Val := do
  let r ← readVal x o callF v (o.mkNode e)
  pure r.1

/-- `while let Some(node) = node.next_child(name, ns) { vec.push(#value); }` (leaf.rs:202-204,
root.rs:308-310). -/
def loopNext (callF : Str → σ → DRes σ Val) (q : QName) (v : ValRead) : Nat → σ → DRes σ (List Val)
  | 0, _ => .diverge
  | k + 1, s =>
    match o.next s q with
    | (none, s) => .ok ([], s)
    | (some e, s) => do
      let w ← readOn x o callF v e
      let r ← loopNext callF q v k s
      .ok (w :: r.1, r.2)

/-- `while Ident::lookahead(node) { vec.push(#value); }` (leaf.rs:162-164). -/
def loopLook (callF : Str → σ → DRes σ Val) (callL : Str → σ → DRes σ Bool) (i : Str) (v : ValRead) :
    Nat → σ → DRes σ (List Val)
  | 0, _ => .diverge
  | k + 1, s => do
    let b ← callL i s
    if b.1 then do
      let w ← readVal x o callF v b.2
      let r ← loopLook callF callL i v k w.2
      .ok (w.1 :: r.1, r.2)
    else .ok ([], b.2)

/-- `vec`, or with the `None` if empty wrapper of an optional list (leaf.rs:169-178, 209-218). -/
def wrapVec (opt : Bool) (vs : List Val) : Val :=
  if opt then (if vs = [] then .none else .some (.vec vs)) else .vec vs

/-- Meaning of `LeafRead`. `k` bounds loops (leaf.rs:142-245). -/
def readLeaf (callF : Str → σ → DRes σ Val) (callL : Str → σ → DRes σ Bool) (k : Nat) :
    LeafRead → σ → DRes σ Val
  | .plain v, s => readVal x o callF v s
  | .whileLookahead i v opt, s => do
    let r ← loopLook x o callF callL i v k s
    .ok (wrapVec opt r.1, r.2)
  | .ifLookahead i v, s => do
    let b ← callL i s
    if b.1 then do
      let r ← readVal x o callF v b.2
      .ok (.some r.1, r.2)
    else .ok (.none, b.2)
  | .whileNext q v opt, s => do
    let r ← loopNext x o callF q v k s
    .ok (wrapVec opt r.1, r.2)
  | .ifNext q v, s =>
    match o.next s q with
    | (none, s) => .ok (.none, s)
    | (some e, s) => do
      let w ← readOn x o callF v e
      .ok (.some w, s)
  | .tryChild q v, s =>
    match o.tryChild s q with
    | (.error e, _) => .err e
    | (.ok e, s) => do
      let w ← readOn x o callF v e
      .ok (w, s)
  | .tryNext q v, s =>
    match o.tryNext s q with
    | (.error e, _) => .err e
    | (.ok e, s) => do
      let w ← readOn x o callF v e
      .ok (w, s)

/-- Fields of a struct literal, evaluated in order (element_content.rs:72-78). -/
def readLeaves (callF : Str → σ → DRes σ Val) (callL : Str → σ → DRes σ Bool) (k : Nat) :
    List (Str × LeafRead) → σ → DRes σ (List (Str × Val))
  | [], s => .ok ([], s)
  | (f, l) :: ls, s => do
    let w ← readLeaf x o callF callL k l s
    let r ← readLeaves callF callL k ls w.2
    .ok ((f, w.1) :: r.1, r.2)

/-- `match s { "a" => T::A, …, _ => return Err(InvalidVariant) }` (root.rs:111-118): first arm wins. -/
def enumFromStr (vs : List (Str × Str)) (s : Str) : Res DErr Val :=
  match vs.find? (fun p => decide (p.2 = s)) with
  | some p => .ok (.enumv p.1)
  | none => .err (.invalidVariant s)

/-- `FromStr::from_str(val)?` at a generated type (root.rs:62-74, 108-119). At a builtin type other than
`String` the code does not compile: no conversion of the error exists. -/
def fromStrAt (ty : Ty) (s : Str) : Res DErr Val :=
  match ty with
  | .prim .string => .ok (.str s)
  | .named i =>
    match findType P i with
    | some t =>
      match t.decl with
      | .newtype _ (some l) =>
        match parsePrim x l.prim s with
        | some v => .ok (.newtype v)
        | none => .err (.parseType i s)
      | .enum vs => enumFromStr vs s
      | _ => .panic
    | none => .panic
  | _ => .panic

/-- Meaning of `StrRead` (leaf_content.rs:78-84). -/
def readStr (r : StrRead) (s : Str) : Res DErr Val :=
  match r with
  | .lit t => parseLit x t s
  | .fromStr ty => fromStrAt x P ty s
  | .unit => .ok .unit

/-- Meaning of `AttrRead` (attribute.rs:67-84). -/
def readAttr (a : AttrRead) (s : σ) : Res DErr Val :=
  if a.optional then
    match o.attr s a.name with
    | some v => do
      let w ← readStr x P a.inner v
      .ok (.some w)
    | none => .ok .none
  else do
    let v ← ofExcept (o.tryAttr s a.name)
    readStr x P a.inner v

/-- Attribute fields of a struct literal (element_definition.rs:72-74). -/
def readAttrs : List AttrRead → σ → Res DErr (List (Str × Val))
  | [], _ => .ok []
  | a :: as, s => do
    let w ← readAttr x o P a s
    let r ← readAttrs as s
    .ok ((a.field, w) :: r)

/-- Meaning of `ContentRead` (element_content.rs:61-80, element_definition.rs:69-71). -/
def readContent (callF : Str → σ → DRes σ Val) (callL : Str → σ → DRes σ Bool) (k : Nat) :
    ContentRead → σ → DRes σ (List (Str × Val))
  | .nothing, s => .ok ([], s)
  | .single f v, s => do
    let r ← readVal x o callF v s
    .ok ([(f, r.1)], r.2)
  | .leaves ls, s => readLeaves x o callF callL k ls s

/-- The `if … else if … else { return Err(MissingVariant) }` chain of a choice (root.rs:284-331). -/
def readChoice (callF : Str → σ → DRes σ Val) (callL : Str → σ → DRes σ Bool) (k : Nat) (self : Str) :
    List (Str × VarRead) → σ → DRes σ Val
  | [], _ => .err (.missingVariant self)
  | (n, .virt i v) :: vs, s => do
    let b ← callL i s
    if b.1 then do
      let r ← readVal x o callF v b.2
      .ok (.variant n r.1, r.2)
    else readChoice callF callL k self vs b.2
  | (n, .vec q v) :: vs, s =>
    let b := o.peek s q
    if b.1 then do
      let r ← loopNext x o callF q v k b.2
      .ok (.variant n (.vec r.1), r.2)
    else readChoice callF callL k self vs b.2
  | (n, .single q v) :: vs, s =>
    match o.next s q with
    | (some e, s) => do
      let w ← readOn x o callF v e
      .ok (.variant n w, s)
    | (none, s) => readChoice callF callL k self vs s

/-- Body of `from_xml_node` of type `t` (schema.rs:304-306, root.rs:260-334). -/
def runFrom (callF : Str → σ → DRes σ Val) (callL : Str → σ → DRes σ Bool) (k : Nat) (t : TypeDef)
    (s : σ) : DRes σ Val :=
  match t.fromXml with
  | .leaf v => do
    let r ← readVal x o callF v s
    .ok (.newtype r.1, r.2)
  | .enumText => do
    let val ← ofExcept (o.text s)
    match t.decl with
    | .enum vs => do
      let v ← enumFromStr vs val
      .ok (v, s)
    | _ => .panic
  | .element c as => do
    let r ← readContent x o callF callL k c s
    let w ← readAttrs x o P as r.2
    .ok (.struct (r.1 ++ w), r.2)
  | .choice vs => readChoice x o callF callL k t.ident vs s

/-- The generated `from_xml_node` of the type called `i` (xsd/schema.rs:304-306). -/
def fromNode : Nat → Str → σ → DRes σ Val
  | 0, _, _ => .diverge
  | k + 1, i, s =>
    match findType P i with
    | none => .panic
    | some t => runFrom x o P (fromNode k) (lookahead o P k) k t s

/-- The generated `from_xml` (schema.rs:298-302), on a parsed document. -/
def fromXml (k : Nat) (i : Str) (d : Doc) : Res DErr Val :=
  match findType P i with
  | none => .panic
  | some t => do
    let e ← ofExcept (d.tryChild t.rootName)
    let r ← fromNode x o P k i (o.mkNode e)
    pure r.1

end Read

/-! ## Writing -/

/-- Result of running generated writing code: events and the writing context
(xsd/schema.rs:277-281; errors of the underlying writer are not modelled). -/
abbrev WRes := Res Unit (List Ev × Ctx)

section Write
variable (x : Ext) (P : List TypeDef)

/-- Meaning of `ValWrite`; `callW` is `val.to_xml_writer(ctx, writer)?` (leaf_content.rs:26-45, name.rs:33-37). -/
def writeVal (callW : Str → Val → Ctx → WRes) : ValWrite → Val → Ctx → WRes
  | .chars t, v, c =>
    match showPrim x t.prim v with
    | some s => .ok (if s = [] then [] else [.chars s], c)
    | none => .panic
  | .fixed s, _, c => .ok ([.chars s], c)
  | .call i, v, c => callW i v c

/-- A statement between `ctx.write_start_element(writer)?` and `ctx.write_end_element(writer)?`, if
`tags` (leaf.rs:105-117, element_definition.rs:55-63). -/
def withTags (tags : Bool) (body : Ctx → WRes) (c : Ctx) : WRes :=
  if tags then do
    let st := c.writeStart
    let r ← body st.2
    .ok (st.1 ++ r.1 ++ r.2.writeEnd, r.2)
  else body c

/-- `for val in val { … }` (leaf.rs:119-125). -/
def forEach (body : Val → Ctx → WRes) : List Val → Ctx → WRes
  | [], c => .ok ([], c)
  | v :: vs, c => do
    let r ← body v c
    let r2 ← forEach body vs r.2
    .ok (r.1 ++ r2.1, r2.2)

/-- One value of a leaf, with its own context (leaf.rs:77-117). -/
def writeItem (callW : Str → Val → Ctx → WRes) (l : LeafWrite) (v : Val) (c : Ctx) : WRes :=
  match l.newCtx with
  | none => do
    let r ← withTags l.tags (writeVal x callW l.inner v) c.wrap
    .ok (r.1, c.endBorrow r.2)
  | some nm => do
    let r ← withTags l.tags (writeVal x callW l.inner v) (Ctx.new nm)
    .ok (r.1, c)

/-- The `for val in val` of a list leaf (leaf.rs:119-125). -/
def writeMany (callW : Str → Val → Ctx → WRes) (l : LeafWrite) (v : Val) (c : Ctx) : WRes :=
  if l.vec then
    match v with
    | .vec vs => forEach (writeItem x callW l) vs c
    | _ => .panic
  else writeItem x callW l v c

/-- Meaning of `LeafWrite` (leaf.rs:72-140). -/
def writeLeaf (callW : Str → Val → Ctx → WRes) (l : LeafWrite) (fields : List (Str × Val)) (c : Ctx) :
    WRes :=
  match alookup fields l.field with
  | none => .panic
  | some v =>
    if l.opt then
      match v with
      | .none => .ok ([], c)
      | .some v => writeMany x callW l v c
      | _ => .panic
    else writeMany x callW l v c

/-- All leaves of a sequence (element_content.rs:49-57). -/
def writeLeaves (callW : Str → Val → Ctx → WRes) (fields : List (Str × Val)) :
    List LeafWrite → Ctx → WRes
  | [], c => .ok ([], c)
  | l :: ls, c => do
    let r ← writeLeaf x callW l fields c
    let r2 ← writeLeaves callW fields ls r.2
    .ok (r.1 ++ r2.1, r2.2)

/-- `val.to_string()` at a generated type (root.rs:76-80, 129-133). -/
def displayAt (ty : Ty) (v : Val) : Option Str :=
  match ty with
  | .prim p => showPrim x p v
  | .named i =>
    match findType P i with
    | some t =>
      match t.decl, v with
      | .newtype _ (some l), .newtype w => showPrim x l.prim w
      | .enum vs, .enumv n => alookup vs n
      | _, _ => none
    | none => none
  | _ => none

/-- Meaning of `AttrShow` (attribute.rs:39-43). -/
def showAttr (a : AttrShow) (v : Val) : Option Str :=
  match a with
  | .lit t => showPrim x t.prim v
  | .display ty => displayAt x P ty v
  | .fixed s => some s

/-- Meaning of `AttrWrite` (attribute.rs:44-59). -/
def writeAttr (a : AttrWrite) (fields : List (Str × Val)) (c : Ctx) : Res Unit Ctx :=
  match alookup fields a.field with
  | none => .panic
  | some v =>
    if a.optional then
      match v with
      | .none => .ok c
      | .some v =>
        match showAttr x P a.inner v with
        | some s => .ok (c.setAttr a.name s)
        | none => .panic
      | _ => .panic
    else
      match showAttr x P a.inner v with
      | some s => .ok (c.setAttr a.name s)
      | none => .panic

/-- All attributes of an element (element_definition.rs:38-40). -/
def writeAttrs (fields : List (Str × Val)) : List AttrWrite → Ctx → Res Unit Ctx
  | [], c => .ok c
  | a :: as, c => do
    let c ← writeAttr x P a fields c
    writeAttrs fields as c

/-- Meaning of `ContentWrite` (element_content.rs:39-59, element_definition.rs:58-60). -/
def writeContent (callW : Str → Val → Ctx → WRes) (fields : List (Str × Val)) (w : ContentWrite)
    (c : Ctx) : WRes :=
  match w with
  | .nothing => .ok ([], c)
  | .single f v =>
    match alookup fields f with
    | some val => writeVal x callW v val c
    | none => .panic
  | .leaves ls => writeLeaves x callW fields ls c

/-- One value of a choice variant (root.rs:213-225). -/
def writeVarItem (callW : Str → Val → Ctx → WRes) (w : VarWrite) (v : Val) (c : Ctx) : WRes := do
  let r ← withTags w.tags (writeVal x callW w.inner v) (Ctx.new w.name)
  .ok (r.1, c)

/-- The `match self { … }` of a choice (root.rs:226-245): first arm with that variant. -/
def writeChoice (callW : Str → Val → Ctx → WRes) (vs : List VarWrite) (v : Val) (c : Ctx) : WRes :=
  match v with
  | .variant n w =>
    match vs.find? (fun a => decide (a.variant = n)) with
    | none => .panic
    | some a =>
      if a.vec then
        match w with
        | .vec ws => forEach (writeVarItem x callW a) ws c
        | _ => .panic
      else writeVarItem x callW a w c
  | _ => .panic

/-- The generated `ctx.set_default_ns(..)`/`ctx.set_ns(..)` statements (schema.rs:284). -/
def setNss (nss : List (Str × Str)) (c : Ctx) : Ctx :=
  nss.foldl (fun c b => if b.1 = [] then c.setDefaultNs b.2 else c.setNs b.1 b.2) c

/-- Body of `to_xml_writer` of type `t` (root.rs:166-258, element_definition.rs:36-65). -/
def runTo (callW : Str → Val → Ctx → WRes) (t : TypeDef) (v : Val) (c : Ctx) : WRes :=
  let c := setNss t.nss c
  match t.toXml with
  | .leaf w tags =>
    match v with
    | .newtype val => withTags tags (writeVal x callW w val) c
    | _ => .panic
  | .enumText =>
    match t.decl, v with
    | .enum vs, .enumv n =>
      match alookup vs n with
      | some s => withTags true (fun c => .ok (if s = [] then [] else [.chars s], c)) c
      | none => .panic
    | _, _ => .panic
  | .element as tags w =>
    match v with
    | .struct fields => do
      let c ← writeAttrs x P fields as c
      withTags tags (writeContent x callW fields w) c
    | _ => .panic
  | .choice vs tags => withTags tags (writeChoice x callW vs v) c

/-- The generated `to_xml_writer` of the type called `i` (schema.rs:277-288). -/
def toXmlWriter : Nat → Str → Val → Ctx → WRes
  | 0, _, _, _ => .diverge
  | k + 1, i, v, c =>
    match findType P i with
    | none => .panic
    | some t => runTo x P (toXmlWriter k) t v c

/-- The generated `to_xml` (schema.rs:258-275), up to the document declaration: the events written. -/
def toXml (k : Nat) (i : Str) (v : Val) : Res Unit (List Ev) :=
  match findType P i with
  | none => .panic
  | some t => do
    let r ← toXmlWriter x P k i v (Ctx.new t.xmlName)
    pure r.1

end Write

end Xsd
