import Verif.Model.Ast
/-!
# Code generation

Every `quote!` template that the generator can produce is a constructor of the types below; the
meaning of the templates is in `Verif/Model/Exec.lean`. Doc comments, derives and imports of the
generated code are dropped. Identifiers are strings; `r#x` is the raw identifier of `x`.
-/
namespace Xsd

/-- A generated Rust type (literal_type.rs:45-65, leaf_content.rs:15-24, leaf.rs:50-58). -/
inductive Ty where
  | prim (p : Prim)
  | unit
  | named (ident : Str)
  | option (t : Ty)
  | vec (t : Ty)
  deriving Repr, DecidableEq

/-- Expression that reads a value from `node` (leaf_content.rs:47-76, name.rs:39-44). -/
inductive ValRead where
  /-- `{ let val = node.text()?; from_str(val).map_err(ParseType)? }` -/
  | text (t : LiteralType)
  /-- `{ let val = node.text()?; if val != fixed { return Err(FixedMismatch) } }` -/
  | fixed (s : Str)
  /-- `Ident::from_xml_node(&node)?` -/
  | call (ident : Str)
  deriving Repr, DecidableEq

/-- Right-hand side of a struct field read from child elements (leaf.rs:142-245). -/
inductive LeafRead where
  /-- `#value` -/
  | plain (v : ValRead)
  /-- `{ let mut vec = Vec::new(); while Ident::lookahead(node) { vec.push(#value); } vec }`, with the
  `None` if empty / `Some` wrapper when `opt` -/
  | whileLookahead (ident : Str) (v : ValRead) (opt : Bool)
  /-- `if Ident::lookahead(node) { Some(#value) } else { None }` -/
  | ifLookahead (ident : Str) (v : ValRead)
  /-- `{ … while let Some(node) = node.next_child(name, ns) { vec.push(#value); } vec }` -/
  | whileNext (q : QName) (v : ValRead) (opt : Bool)
  /-- `if let Some(node) = node.next_child(name, ns) { Some(#value) } else { None }` -/
  | ifNext (q : QName) (v : ValRead)
  /-- `let node = node.try_child(name, ns)?; #value` -/
  | tryChild (q : QName) (v : ValRead)
  /-- `let node = node.try_next_child(name, ns)?; #value` -/
  | tryNext (q : QName) (v : ValRead)
  deriving Repr, DecidableEq

/-- Expression that reads a value from the string `val` (leaf_content.rs:78-84). -/
inductive StrRead where
  /-- `FromStr::from_str(val).map_err(ParseType)?` (literal_type.rs:71-82) -/
  | lit (t : LiteralType)
  /-- `::std::str::FromStr::from_str(val)?` (name.rs:46-50), at the declared type of the field -/
  | fromStr (ty : Ty)
  /-- `()` -/
  | unit
  deriving Repr, DecidableEq

/-- Reading an attribute (attribute.rs:62-85). -/
structure AttrRead where
  field : Str
  name : Str
  inner : StrRead
  optional : Bool
  deriving Repr, DecidableEq

/-- Content part of a struct literal (element_content.rs:61-80). -/
inductive ContentRead where
  | nothing
  | single (field : Str) (v : ValRead)
  | leaves (ls : List (Str × LeafRead))
  deriving Repr, DecidableEq

/-- One arm of the `if … else if …` chain of a choice (root.rs:284-322). -/
inductive VarRead where
  /-- `if Ident::lookahead(node) { Self::V(#inner) }` -/
  | virt (ident : Str) (v : ValRead)
  /-- `if node.peek_child(..) { let mut vec = …; while let Some(node) = node.next_child(..) {…} Self::V(vec) }` -/
  | vec (q : QName) (v : ValRead)
  /-- `if let Some(node) = node.next_child(..) { Self::V(#inner) }` -/
  | single (q : QName) (v : ValRead)
  deriving Repr, DecidableEq

/-- Body of `from_xml_node` (root.rs:260-334). -/
inductive FromBody where
  /-- `Name(#inner)` -/
  | leaf (v : ValRead)
  /-- `{ let val = node.text()?; FromStr::from_str(val)? }`, for an enumeration -/
  | enumText
  /-- `Name { content, attributes }`: fields are evaluated in that order -/
  | element (c : ContentRead) (attrs : List AttrRead)
  | choice (vs : List (Str × VarRead))
  deriving Repr, DecidableEq

/-- One disjunct of a lookahead (root.rs:348-416). -/
inductive Check where
  | call (ident : Str)
  | peek (q : QName)
  deriving Repr, DecidableEq

/-- Body of `lookahead` (root.rs:336-418). -/
inductive Look where
  | always
  | checks (cs : List Check)
  deriving Repr, DecidableEq

/-- Statement that writes `val` (leaf_content.rs:26-45, name.rs:33-37). -/
inductive ValWrite where
  /-- `let val = val.to_string(); if !val.is_empty() { writer.write(characters(&val))?; }` -/
  | chars (t : LiteralType)
  /-- `writer.write(characters(fixed))?;` -/
  | fixed (s : Str)
  /-- `val.to_xml_writer(ctx, writer)?;`, where `val` has the type `ident` -/
  | call (ident : Str)
  deriving Repr, DecidableEq

/-- Writing one leaf of a sequence (leaf.rs:72-140). -/
structure LeafWrite where
  field : Str
  /-- `Context::wrap(&mut ctx)` (`none`) or `Context::new(name)` -/
  newCtx : Option Str
  /-- write start and end tag around `inner` -/
  tags : Bool
  inner : ValWrite
  vec : Bool
  opt : Bool
  deriving Repr, DecidableEq

/-- How an attribute value becomes a string (attribute.rs:39-43). -/
inductive AttrShow where
  /-- `val.to_string()` of a literal -/
  | lit (t : LiteralType)
  /-- `val.to_string()` at the declared type of the field -/
  | display (ty : Ty)
  /-- the fixed string -/
  | fixed (s : Str)
  deriving Repr, DecidableEq

/-- Writing an attribute (attribute.rs:36-60). -/
structure AttrWrite where
  field : Str
  name : Str
  inner : AttrShow
  optional : Bool
  deriving Repr, DecidableEq

/-- Content part of an element's writer (element_content.rs:39-59). -/
inductive ContentWrite where
  | nothing
  | single (field : Str) (v : ValWrite)
  | leaves (ls : List LeafWrite)
  deriving Repr, DecidableEq

/-- One `match` arm of a choice's writer (root.rs:208-239). -/
structure VarWrite where
  variant : Str
  name : Str
  tags : Bool
  inner : ValWrite
  vec : Bool
  deriving Repr, DecidableEq

/-- Body of `to_xml_writer` (root.rs:166-258, element_definition.rs:36-65). -/
inductive ToBody where
  | leaf (v : ValWrite) (tags : Bool)
  | enumText
  | element (attrs : List AttrWrite) (tags : Bool) (c : ContentWrite)
  | choice (vs : List VarWrite) (tags : Bool)
  deriving Repr, DecidableEq

/-- Type declaration (root.rs:52-164). -/
inductive Decl where
  /-- `(pub T);`, with `FromStr` and `Display` for a literal -/
  | newtype (t : Ty) (fromStr : Option LiteralType)
  /-- unit variants with their XML strings, `FromStr`, `as_str`, `Display` -/
  | enum (vs : List (Str × Str))
  | struct (fields : List (Str × Ty))
  | choice (vs : List (Str × Ty))
  deriving Repr, DecidableEq

/-- Everything generated for one schema name (schema.rs:204-322). -/
structure TypeDef where
  ident : Str
  decl : Decl
  /-- argument of `Context::new` in `to_xml` -/
  xmlName : Str
  /-- the `set_default_ns`/`set_ns` calls, `[]` standing for the default namespace -/
  nss : List (Str × Str)
  toXml : ToBody
  /-- arguments of `doc.try_child` in `from_xml` -/
  rootName : QName
  fromXml : FromBody
  look : Look
  deriving Repr, DecidableEq

/-- The keywords listed in `escape_ident` (xsd-internal/src/utils.rs:5-8), `" break"` included as written. -/
def escapedWords : List Str :=
  [c!" break", c!"const", c!"continue", c!"crate", c!"else", c!"enum", c!"extern", c!"false", c!"fn",
   c!"for", c!"if", c!"impl", c!"in", c!"let", c!"loop", c!"match", c!"mod", c!"move", c!"mut",
   c!"pub", c!"ref", c!"return", c!"self", c!"Self", c!"static", c!"struct", c!"super", c!"trait",
   c!"true", c!"type", c!"unsafe", c!"use", c!"where", c!"while", c!"async", c!"await", c!"dyn"]

/-- Words that cannot be raw identifiers: `format_ident!("r#{}", …)` panics on them (utils.rs:9). -/
def noRawWords : List Str := [c!"crate", c!"self", c!"Self", c!"super"]

/-- `format_ident!("{}", s)`: panics if `s` is not an identifier (utils.rs:11, leaf.rs:158, 188). -/
def formatIdent (x : Ext) (s : Str) : Res Str Str := if x.identOk s then .ok s else .panic

/-- `escape_ident` (xsd-internal/src/utils.rs:3-13). -/
def escapeIdent (x : Ext) (s : Str) : Res Str Str :=
  if escapedWords.contains s then
    if noRawWords.contains s || !x.identOk s then .panic else .ok (c!"r#" ++ s)
  else formatIdent x s

section Gen
variable (x : Ext) (S : SchemaContext)

/-- The recursion `Named(name) => match ctx.elements.get(name) { Some(Root::Leaf(def)) => def.X(ctx), … }`
shared by `LeafContent::to_impl`, `to_xml_impl` and `from_xml_impl`
(leaf_content.rs:18-21, 37-40, 58-61): the content at the end of the alias chain. -/
def inlineAlias : Nat → LeafContent → Res Str LeafContent
  | _, .literal t => .ok (.literal t)
  | _, .fixed s => .ok (.fixed s)
  | 0, .named _ => .diverge
  | k + 1, .named n =>
    match S.get n with
    | some (.leaf d) => inlineAlias k d.content
    | _ => .ok (.named n)

/-- `inlineAlias` with enough fuel (leaf_content.rs:18-21, 37-40, 58-61). -/
def inlined (c : LeafContent) : Res Str LeafContent := inlineAlias S S.aliasFuel c

/-- Identifier of a generated type, `Name::to_impl` (name.rs:28-31) and schema.rs:216. -/
def typeIdent (n : Name) : Res Str Str := escapeIdent x (x.pascal n.name)

/-- Identifier of a struct field (leaf.rs:51, attribute.rs:19, element_content.rs:19). -/
def fieldIdent (n : Name) : Res Str Str := escapeIdent x (x.snake n.name)

/-- `format_ident!("{}", name.to_pascal_case())` (root.rs:147, 209, 285, 291; leaf.rs:158, 188). -/
def pascalIdent (n : Name) : Res Str Str := formatIdent x (x.pascal n.name)

/-- `LeafContent::to_impl` (leaf_content.rs:15-24). -/
def contentTy (c : LeafContent) : Res Str Ty := do
  match ← inlined S c with
  | .literal t => pure (.prim t.prim)
  | .named n => do let i ← typeIdent x n; pure (.named i)
  | .fixed _ => pure .unit

/-- `LeafContent::to_xml_impl` (leaf_content.rs:26-45). -/
def contentWrite (c : LeafContent) : Res Str ValWrite := do
  match ← inlined S c with
  | .literal t => pure (.chars t)
  | .named n => do let i ← typeIdent x n; pure (.call i)
  | .fixed s => pure (.fixed s)

/-- `LeafContent::from_xml_impl` (leaf_content.rs:47-76). -/
def contentRead (c : LeafContent) : Res Str ValRead := do
  match ← inlined S c with
  | .literal t => pure (.text t)
  | .named n => do let i ← typeIdent x n; pure (.call i)
  | .fixed s => pure (.fixed s)

/-- `Leaf::to_impl` (leaf.rs:50-70): field and type. -/
def leafDecl (l : Leaf) : Res Str (Str × Ty) := do
  let f ← fieldIdent x l.name
  let t ← contentTy x S l.definition.content
  let t := if l.isVec then .vec t else t
  let t := if l.isOptional then .option t else t
  pure (f, t)

/-- `Leaf::to_xml_impl` (leaf.rs:72-140). -/
def leafWrite (l : Leaf) : Res Str LeafWrite := do
  let f ← fieldIdent x l.name
  let nm ← S.xmlName l.name
  let inner ← contentWrite x S l.definition.content
  let tags ←
    if l.isVirtual then pure false
    else match l.definition.content with
      | .named n => do
        match ← S.resolve n with
        | some (.leaf d) =>
          match d.content with
          | .literal _ => pure true
          | _ => pure false
        | _ => pure false
      | _ => pure true
  pure ⟨f, if l.isVirtual then none else some nm, tags, inner, l.isVec, l.isOptional⟩

/-- `Leaf::from_xml_impl` (leaf.rs:142-245). A virtual leaf whose content is not a name is the
`unreachable!()` of lines 155 and 186. -/
def leafRead (l : Leaf) : Res Str (Str × LeafRead) := do
  let f ← fieldIdent x l.name
  let q ← S.qname l.name
  let v ← contentRead x S l.definition.content
  if l.isVirtual then
    if l.isVec then
      match l.definition.content with
      | .named n => do
        let i ← pascalIdent x n
        pure (f, .whileLookahead i v l.isOptional)
      | _ => .panic
    else if l.isOptional then
      match l.definition.content with
      | .named n => do
        let i ← pascalIdent x n
        pure (f, .ifLookahead i v)
      | _ => .panic
    else pure (f, .plain v)
  else if l.isVec then pure (f, .whileNext q v l.isOptional)
  else if l.isOptional then pure (f, .ifNext q v)
  else if l.isUnordered then pure (f, .tryChild q v)
  else pure (f, .tryNext q v)

/-- `Attribute::to_impl` (attribute.rs:18-34). -/
def attrDecl (a : Attribute) : Res Str (Str × Ty) := do
  let f ← fieldIdent x a.name
  let t ← contentTy x S a.content
  pure (f, if a.isOptional then .option t else t)

/-- `Attribute::to_xml_impl` (attribute.rs:36-60). -/
def attrWrite (a : Attribute) : Res Str AttrWrite := do
  let f ← fieldIdent x a.name
  let nm ← S.xmlName a.name
  let inner ←
    match a.content with
    | .literal t => pure (.lit t)
    | .named _ => do let t ← contentTy x S a.content; pure (.display t)
    | .fixed s => pure (.fixed s)
  pure ⟨f, nm, inner, a.isOptional⟩

/-- `Attribute::from_xml_impl` (attribute.rs:62-85). -/
def attrRead (a : Attribute) : Res Str AttrRead := do
  let f ← fieldIdent x a.name
  let inner ←
    match a.content with
    | .literal t => pure (.lit t)
    | .named _ => do let t ← contentTy x S a.content; pure (.fromStr t)
    | .fixed _ => pure .unit
  pure ⟨f, a.name.name, inner, a.isOptional⟩

/-- `mapM` for generator results (`iter().map(..).collect()`) (e.g. element_content.rs:33, 50-53, 73-76). -/
def mapRes {α β : Type} (f : α → Res Str β) : List α → Res Str (List β)
  | [] => .ok []
  | a :: as => do
    let b ← f a
    let bs ← mapRes f as
    pure (b :: bs)

/-- `ElementContent::to_impl` (element_content.rs:16-37). -/
def contentDecl : Option ElementContent → Res Str (List (Str × Ty))
  | none => pure []
  | some (.leaf n d) => do
    let f ← fieldIdent x n
    let t ← contentTy x S d.content
    pure [(f, t)]
  | some (.leaves ls) => mapRes (leafDecl x S) ls

/-- `ElementContent::to_xml_impl` (element_content.rs:39-59). -/
def elementContentWrite : Option ElementContent → Res Str ContentWrite
  | none => pure .nothing
  | some (.leaf n d) => do
    let f ← fieldIdent x n
    let v ← contentWrite x S d.content
    pure (.single f v)
  | some (.leaves ls) => do
    let ls ← mapRes (leafWrite x S) ls
    pure (.leaves ls)

/-- `ElementContent::from_xml_impl` (element_content.rs:61-80). -/
def elementContentRead : Option ElementContent → Res Str ContentRead
  | none => pure .nothing
  | some (.leaf n d) => do
    let f ← fieldIdent x n
    let v ← contentRead x S d.content
    pure (.single f v)
  | some (.leaves ls) => do
    let ls ← mapRes (leafRead x S) ls
    pure (.leaves ls)

/-- `is_named_leaf` (element_definition.rs:44-53). -/
def isNamedLeaf : Option ElementContent → Bool
  | some (.leaf _ d) =>
    match d.content with
    | .named _ => true
    | _ => false
  | _ => false

/-- Character map of `escape_enum_names` (root.rs:429-438). -/
def enumFilter (c : Char) : Option Char :=
  if c = '_' ∨ c = '-' then some '_' else if x.isAlphanumeric c then some c else none

/-- First candidate for a variant name (root.rs:426-449). -/
def enumBase (s : Str) : Str :=
  let v := x.pascal (s.filterMap (enumFilter x))
  match v with
  | [] => v
  | c :: _ => if x.isAlphabetic c then v else 'V' :: v

/-- The `loop` of root.rs:451-458, with fuel: the accepted name and the new counter. -/
def enumPick (used : List Str) : Nat → Nat → Str → Option (Str × Nat)
  | 0, _, _ => none
  | f + 1, cnt, v =>
    if v = [] ∨ v ∈ used then enumPick used f (cnt + 1) (c!"Variant" ++ showNat (cnt + 1))
    else some (v, cnt)

/-- `escape_enum_names` (root.rs:421-464) from a given map and counter. The inner loop gets fuel
`used.length + 2`; `Verif/Props/Enums.lean` proves that it never runs out. -/
def escapeEnumFrom : List (Str × Str) → Nat → List Name → Res Str (List (Str × Str))
  | m, _, [] => .ok m
  | m, cnt, n :: ns =>
    match enumPick (m.map Prod.fst) (m.length + 2) cnt (enumBase x n.name) with
    | some (v, cnt) => escapeEnumFrom (ainsert m v n.name) cnt ns
    | none => .diverge

/-- `escape_enum_names` (root.rs:421-464): variant name and XML string of each entry of the map. -/
def escapeEnumNames (ns : List Name) : Res Str (List (Str × Str)) := escapeEnumFrom x [] 0 ns

/-- Variant declaration of a choice (root.rs:146-155). -/
def variantDecl (l : Leaf) : Res Str (Str × Ty) := do
  let v ← pascalIdent x l.name
  let t ← contentTy x S l.definition.content
  pure (v, if l.isVec then .vec t else t)

/-- Variant writer of a choice (root.rs:208-239). -/
def variantWrite (l : Leaf) : Res Str VarWrite := do
  let v ← pascalIdent x l.name
  let inner ← contentWrite x S l.definition.content
  let tags := match l.definition.content with | .literal _ => true | _ => false
  pure ⟨v, l.name.name, tags, inner, l.isVec⟩

/-- Variant reader of a choice (root.rs:284-322). -/
def variantRead (l : Leaf) : Res Str (Str × VarRead) := do
  let v ← pascalIdent x l.name
  let inner ← contentRead x S l.definition.content
  let q ← S.qname l.name
  if l.isVirtual then
    match l.definition.content with
    | .named n => do
      let i ← pascalIdent x n
      pure (v, .virt i inner)
    | _ => .panic
  else if l.isVec then pure (v, .vec q inner)
  else pure (v, .single q inner)

/-- `Root::to_declaration` (root.rs:52-164). -/
def rootDecl : Root → Res Str Decl
  | .leaf d => do
    let t ← contentTy x S d.content
    pure (.newtype t (match d.content with | .literal l => some l | _ => none))
  | .enum ns => do
    let m ← escapeEnumNames x ns
    let vs ← mapRes (fun (p : Str × Str) => do let v ← formatIdent x p.1; pure (v, p.2)) m
    pure (.enum vs)
  | .element d => do
    let cs ← contentDecl x S d.content
    let as ← mapRes (attrDecl x S) d.attributes
    pure (.struct (cs ++ as))
  | .choice vs _ _ => do
    let vs ← mapRes (variantDecl x S) vs
    pure (.choice vs)

/-- `Root::to_xml_impl` (root.rs:166-258) with `ElementDefinition::to_xml_impl`
(element_definition.rs:36-65). -/
def rootWrite : Root → Res Str ToBody
  | .leaf d => do
    let v ← contentWrite x S d.content
    pure (.leaf v (match d.content with | .named _ => false | _ => true))
  | .enum _ => pure .enumText
  | .element d => do
    let as ← mapRes (attrWrite x S) d.attributes
    let c ← elementContentWrite x S d.content
    pure (.element as (!d.isVirtual && !isNamedLeaf d.content) c)
  | .choice vs virt _ => do
    let vs ← mapRes (variantWrite x S) vs
    pure (.choice vs (!virt))

/-- `Root::from_xml_impl` (root.rs:260-334) with `ElementDefinition::from_xml_impl`
(element_definition.rs:67-80). -/
def rootRead : Root → Res Str FromBody
  | .leaf d => do let v ← contentRead x S d.content; pure (.leaf v)
  | .enum _ => pure .enumText
  | .element d => do
    let c ← elementContentRead x S d.content
    let as ← mapRes (attrRead x S) d.attributes
    pure (.element c as)
  | .choice vs _ _ => do
    let vs ← mapRes (variantRead x S) vs
    pure (.choice vs)

/-- One lookahead check (root.rs:360-378, 391-410). -/
def leafCheck (l : Leaf) : Res Str Check :=
  if l.isVirtual then
    match l.definition.content with
    | .named n => do let i ← pascalIdent x n; pure (.call i)
    | _ => .panic
  else do let q ← S.qname l.name; pure (.peek q)

/-- The leaves inspected by an element's lookahead: up to and including the first required one (the
`scan` of root.rs:354-358). -/
def lookLeaves : List Leaf → List Leaf
  | [] => []
  | l :: ls => if l.isOptional then l :: lookLeaves ls else [l]

/-- `Root::lookahead_impl` (root.rs:336-418). -/
def rootLook : Root → Res Str Look
  | .leaf _ => pure .always
  | .enum _ => pure .always
  | .element d =>
    match d.content with
    | some (.leaves ls) => do
      let cs ← mapRes (leafCheck x S) (lookLeaves ls)
      pure (.checks cs)
    | _ => pure (.checks [])
  | .choice vs _ _ => do
    let cs ← mapRes (leafCheck x S) vs
    pure (.checks cs)

/-- The namespace declarations of every generated writer (schema.rs:239-254): the default namespace if the
schema is qualified and has a target namespace, then every other entry of the table, in the
table's iteration order. -/
def schemaNss : Res Str (List (Str × Str)) := do
  let dflt ←
    match S.isQualified, S.target with
    | true, .id id =>
      match S.namespaces.getById id with
      | some d => pure [([], d.uri)]
      | none => .panic
    | _, _ => pure []
  let rest := S.namespaces.byId.filterMap (fun (p : Nat × NsDef) =>
    if S.isQualified && decide (Namespace.id p.1 = S.target) then none else some (p.2.pfx, p.2.uri))
  pure (dflt ++ rest)

/-- `Schema::generate_element` (schema.rs:204-322). -/
def generateElement (n : Name) : Res Str TypeDef :=
  match S.get n with
  | none => .err n.name
  | some r => do
    let ident ← typeIdent x n
    let decl ← rootDecl x S r
    let toXml ← rootWrite x S r
    let xmlName ← S.xmlName n
    let nss ← schemaNss S
    let rootName ← S.qname n
    let fromXml ← rootRead x S r
    let look ← rootLook x S r
    pure ⟨ident, decl, xmlName, nss, toXml, rootName, fromXml, look⟩

/-- `Schema::generate_all` (schema.rs:152-160): the generated items, in map iteration order. -/
def generateAll : Res Str (List TypeDef) := mapRes (generateElement x S) (S.elements.map Prod.fst)

end Gen

end Xsd
