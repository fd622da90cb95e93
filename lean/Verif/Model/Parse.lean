import Verif.Model.Node
/-!
# `xsd-internal/src/xsd/context.rs` and `xsd-internal/src/xsd/parse/`: from schema nodes to the AST
-/
namespace Xsd

/-- `Context` with its `SharedContext` (xsd/context.rs:12-27). A `HashSet` is a list without repetitions. -/
structure PCtx where
  roots : List (Name × Root)
  defaultNs : Option Str
  target : Namespace
  docNss : List (Str × Str)
  isQualified : Bool
  nss : Namespaces
  deps : List (Name × List Name)
  deriving Repr, DecidableEq

/-- A function that takes `ctx: &mut Context` and returns `Result<_, XsdError>`. After an error the context is never
looked at again (e.g. xsd/parse/root.rs, xsd/parse/sequence.rs). -/
def P (α : Type) : Type := PCtx → Res XErr (α × PCtx)

namespace P
variable {α β : Type}

/-- `return Ok(a)` (e.g. xsd/parse/annotation.rs:26). -/
def ret (a : α) : P α := fun s => .ok (a, s)

/-- Rust's `?` (e.g. xsd/parse/annotation.rs:23). -/
def bnd (m : P α) (f : α → P β) : P β := fun s =>
  match m s with
  | .ok (a, s') => f a s'
  | .err e => .err e
  | .panic => .panic
  | .diverge => .diverge

/-- `?` (e.g. xsd/parse/annotation.rs:23). -/
instance : Monad P where
  pure := ret
  bind := bnd

/-- A computation that does not use the context (e.g. xsd/parse/annotation.rs:5). -/
def lift (r : Res XErr α) : P α := fun s =>
  match r with
  | .ok a => .ok (a, s)
  | .err e => .err e
  | .panic => .panic
  | .diverge => .diverge

/-- Read the context (`ctx`, e.g. xsd/context.rs:94). -/
def get : P PCtx := fun s => .ok (s, s)

/-- Change the context (`&mut ctx`, e.g. xsd/context.rs:71). -/
def modify (f : PCtx → PCtx) : P Unit := fun s => .ok ((), f s)

/-- `return Err(e)` (e.g. xsd/context.rs:111-116). -/
def fail (e : XErr) : P α := fun _ => .err e

/-- Out of fuel (not in the code: C40 shows that this does not happen). -/
def diverge : P α := fun _ => .diverge

end P

/-- `HashSet::insert` (xsd/context.rs:90). -/
def sinsert {α : Type} [DecidableEq α] (l : List α) (a : α) : List α := if a ∈ l then l else l ++ [a]

/-- `Context::new` (xsd/context.rs:41-62). -/
def PCtx.new (schema : ElemInfo) (target : Option Str) (nss : Namespaces) (deps : List (Name × List Name)) : PCtx :=
  let docNss := schema.nss.foldl (fun m p =>
    match p.1 with
    | some pfx => ainsert m pfx p.2
    | none => m) []
  let t := match target with
    | some u => nss.getOrInsert u
    | none => (.none, nss)
  { roots := []
    defaultNs := (schema.nss.find? (fun p => p.1 = none)).map Prod.snd
    target := t.1
    docNss := docNss
    isQualified := decide (attrOf schema c!"elementFormDefault" = some c!"qualified")
    nss := t.2
    deps := deps }

/-- `Context::add_root` (xsd/context.rs:71-73). -/
def PCtx.addRoot (s : PCtx) (n : Name) (r : Root) : PCtx := { s with roots := ainsert s.roots n r }

/-- `Context::discover_type(name, Some(parent))` (xsd/context.rs:87-92). -/
def PCtx.discoverType (s : PCtx) (n parent : Name) : PCtx :=
  { s with deps := ainsert s.deps parent (sinsert ((alookup s.deps parent).getD []) n) }

/-- `Context::get_node_name` (xsd/context.rs:94-103). -/
def PCtx.nodeName (s : PCtx) (n : Str) (isTopLevel : Bool) : Name :=
  ⟨n, if s.isQualified || isTopLevel then s.target else .none⟩

/-- `add_root` as a parser step (xsd/context.rs:71-73). -/
def addRoot (n : Name) (r : Root) : P Unit := P.modify (fun s => s.addRoot n r)

/-- `discover_type` as a parser step (xsd/context.rs:87-92). -/
def discoverType (n parent : Name) : P Unit := P.modify (fun s => s.discoverType n parent)

/-- `get_node_name(name, false)` as a parser step (xsd/context.rs:94-103). -/
def nodeName (n : Str) : P Name := fun s => .ok (s.nodeName n false, s)

/-- `literal_from_str` (xsd/context.rs:190-211). -/
def literalFromStr (s : Str) : Option LiteralType :=
  if s = c!"string" then some .string
  else if s = c!"boolean" then some .boolean
  else if s = c!"integer" then some .int64
  else if s = c!"long" then some .int64
  else if s = c!"nonNegativeInteger" then some .uint64
  else if s = c!"positiveInteger" then some .uint64
  else if s = c!"int" then some .int32
  else if s = c!"decimal" then some .decimal
  else if s = c!"float" then some .float32
  else if s = c!"time" then some .time
  else if s = c!"date" then some .date
  else if s = c!"dateTime" then some .dateTime
  else if s = c!"duration" then some .duration
  else if s = c!"base64Binary" then some .base64Binary
  else if s = c!"hexBinary" then some .hexBinary
  else if s = c!"any" then some .any
  else if s = c!"anyType" then some .any
  else none

/-- `splitn(2, ':')` (std): the part before the first colon and, if there is one, the part after it (xsd/context.rs:107). -/
def splitn2 : Str → Str × Option Str
  | [] => ([], none)
  | c :: cs =>
    if c = ':' then ([], some cs)
    else (c :: (splitn2 cs).1, (splitn2 cs).2)

/-- `literal_from_str(name).ok_or_else(..)` (xsd/context.rs:118-123, 135-140). -/
def literalOr (n : Str) (a : XAttr) : Res XErr LeafContent :=
  match literalFromStr n with
  | some t => .ok (.literal t)
  | none => .err (.unsupportedType n a.start)

/-- `Context::get_type_name` (xsd/context.rs:105-144). -/
def getTypeName (a : XAttr) : P LeafContent := fun s =>
  match splitn2 a.value with
  | (pfx, some n) =>
    match alookup s.docNss pfx with
    | none => .err (.missingNamespace pfx a.start)
    | some uri =>
      if uri = nsXsd then P.lift (literalOr n a) s
      else
        let r := s.nss.getOrInsert uri
        .ok (.named ⟨n, r.1⟩, { s with nss := r.2 })
  | (n, none) =>
    if s.defaultNs = some nsXsd then P.lift (literalOr n a) s
    else .ok (.named ⟨n, .none⟩, s)

section
variable (x : Ext)

/-- `derive_virtual_name` (parse/mod.rs:19-57). -/
def deriveVirtualName (names : List Name) (shorten : Bool) : P Name := fun s =>
  match virtualName x (names.map Name.name) shorten with
  | .ok n => .ok (s.nodeName n false, s)
  | .err _ => .panic
  | .panic => .panic
  | .diverge => .diverge

/-- `u32::from_str` with the error of `parse_min_occurs` (parse/element.rs:188-193). -/
def parseU32 (a : XAttr) : Res XErr Nat :=
  match parseInt false 0 u32Max a.value with
  | some i => .ok i.toNat
  | none => .err (.parseInt a.start)

/-- `usize::from_str` with the error of the facets (parse/simple_type.rs:53-56; 64-bit target). -/
def parseUsize (a : XAttr) : Res XErr Nat :=
  match parseInt false 0 u64Max a.value with
  | some i => .ok i.toNat
  | none => .err (.parseInt a.start)

/-- `Decimal::from_str` with the error of the facets (parse/simple_type.rs:81-84). -/
def parseDec (a : XAttr) : Res XErr Nat :=
  match x.parseDecimal a.value with
  | some d => .ok d
  | none => .err (.parseDecimal a.start)

/-- `parse_min_occurs` (parse/element.rs:186-196); `MinOccurs::default()` is 1 (ast/leaf.rs). -/
def parseMinOccurs : Option XAttr → Res XErr Nat
  | some a => parseU32 a
  | none => .ok 1

/-- `parse_max_occurs` (parse/element.rs:198-215); `MaxOccurs::default()` is `Number(1)` (ast/leaf.rs). -/
def parseMaxOccurs : Option XAttr → Res XErr MaxOccurs
  | some a =>
    if a.value = c!"unbounded" then .ok .unbounded
    else do
      let n ← parseU32 a
      pure (.number n)
  | none => .ok (.number 1)

/-- One child of `restriction` (parse/simple_type.rs:43-119): an enumeration value or a facet. -/
def parseFacet (c : Nd) : Res XErr (Str ⊕ Restriction) :=
  if c.name = c!"enumeration" then do
    let a ← c.tryAttr c!"value"
    pure (.inl a.value)
  else if c.name = c!"length" then do
    let a ← c.tryAttr c!"value"
    let n ← parseUsize a
    pure (.inr (.length n))
  else if c.name = c!"minLength" then do
    let a ← c.tryAttr c!"value"
    let n ← parseUsize a
    pure (.inr (.minLength n))
  else if c.name = c!"maxLength" then do
    let a ← c.tryAttr c!"value"
    let n ← parseUsize a
    pure (.inr (.maxLength n))
  else if c.name = c!"pattern" then do
    let a ← c.tryAttr c!"value"
    pure (.inr (.pattern a.value))
  else if c.name = c!"minInclusive" then do
    let a ← c.tryAttr c!"value"
    let n ← parseDec x a
    pure (.inr (.minInclusive n))
  else if c.name = c!"maxInclusive" then do
    let a ← c.tryAttr c!"value"
    let n ← parseDec x a
    pure (.inr (.maxInclusive n))
  else if c.name = c!"fractionDigits" then do
    let a ← c.tryAttr c!"value"
    let n ← parseUsize a
    pure (.inr (.fractionDigits n))
  else if c.name = c!"totalDigits" then do
    let a ← c.tryAttr c!"value"
    let n ← parseUsize a
    pure (.inr (.totalDigits n))
  else .err (.unsupportedElement c.name c.start)

/-- The loop over the children of `restriction` (parse/simple_type.rs:43-119): the enumeration values and the
facets, each in order. -/
def parseFacets : List Nd → Res XErr (List Str × List Restriction)
  | [] => .ok ([], [])
  | c :: cs => do
    let f ← parseFacet x c
    let r ← parseFacets cs
    pure (match f with
      | .inl v => (v :: r.1, r.2)
      | .inr q => (r.1, q :: r.2))

/-- `simple_type::parse` (parse/simple_type.rs:10-130). -/
def parseSimpleType (nd : Nd) : P Root := do
  P.lift nd.preventUnvisitedAttributes
  let r := removeKid c!"annotation" nd.xsdKids
  let docs ← P.lift (parseAnnotation x r.1)
  let (restriction, rest) ← P.lift (tryRemoveKid nd c!"restriction" r.2)
  let attr ← P.lift (restriction.tryAttr c!"base")
  let content ← getTypeName attr
  match content with
  | .literal t => do
    P.lift (preventUnvisitedChildren nd rest)
    let (enums, restrictions) ← P.lift (parseFacets x restriction.xsdKids)
    pure (if enums = [] then .leaf ⟨.literal t, restrictions, docs⟩ else .enum (enums.map (fun v => ⟨v, .none⟩)))
  | _ => P.fail (.unsupportedAttributeValue c!"base" attr.value c!"restriction" attr.start)

/-- The content of an element or attribute with a `type` attribute (parse/element.rs:22-32 and 113-123,
parse/attribute.rs:41-51), and the node after its attributes were looked at. -/
def parseTypeAttr (nd : Nd) (attr : XAttr) (parent : Name) : P (LeafContent × Nd) := do
  let content ← getTypeName attr
  match content with
  | .named n => do
    discoverType n parent
    pure (.named n, nd)
  | .literal t =>
    match nd.attr c!"fixed" with
    | some f => pure (.fixed f.value, nd.see c!"fixed")
    | none => pure (.literal t, nd.see c!"fixed")
  | .fixed f => pure (.fixed f, nd)

/-- The content of an attribute declaration (parse/attribute.rs:19-54). -/
def parseAttrContent (nd : Nd) (name parent : Name) (child : Option Nd) : P (LeafContent × Nd) :=
  match child with
  | some c => do
    let root ← parseSimpleType x c
    match root with
    | .leaf ⟨.literal t, _, _⟩ => pure (.literal t, nd)
    | _ => do
      let data ← nodeName c!"Data"
      let vname ← deriveVirtualName x [parent, name, data] false
      addRoot vname root
      discoverType vname parent
      pure (.named vname, nd)
  | none => do
    let a ← P.lift (nd.tryAttr c!"type")
    parseTypeAttr (nd.see c!"type") a parent

/-- `attribute::parse` (parse/attribute.rs:6-89). -/
def parseAttribute (nd : Nd) (parent : Name) : P (Option Attribute) := do
  let nameAttr ← P.lift (nd.tryAttr c!"name")
  let nd := nd.see c!"name"
  let name : Name := ⟨nameAttr.value, .none⟩
  let r := removeKid c!"annotation" nd.xsdKids
  let docs ← P.lift (parseAnnotation x r.1)
  let q := removeKid c!"simpleType" r.2
  let (content, nd) ← parseAttrContent x nd name parent q.1
  P.lift (preventUnvisitedChildren nd q.2)
  let default := (nd.attr c!"default").map XAttr.value
  let use := (nd.attr c!"use").map XAttr.value
  let nd := (nd.see c!"default").see c!"use"
  if use = some c!"prohibited" then pure none
  else if use = some c!"required" ∨ use = some c!"optional" ∨ use = none then do
    let isOptional := decide (use ≠ some c!"required")
    if default.isSome ∧ isOptional = false then P.fail (.unexpectedAttribute c!"default" nd.name nd.start)
    else do
      P.lift nd.preventUnvisitedAttributes
      pure (some ⟨name, content, default, isOptional, docs⟩)
  else P.fail (.unsupportedAttributeValue c!"use" (use.getD []) nd.name nd.start)

/-- The loop over the attribute declarations (parse/complex_type.rs:119-124, parse/complex_content.rs:78-83,
parse/simple_content.rs:32-37). -/
def parseAttributes (parent : Name) : List Nd → P (List Attribute)
  | [] => pure []
  | c :: cs => do
    let a ← parseAttribute x c parent
    let as ← parseAttributes parent cs
    pure (match a with
      | some a => a :: as
      | none => as)

/-- `simple_content::parse` (parse/simple_content.rs:6-54). -/
def parseSimpleContent (nd : Nd) (parent : Name) : P ElementDef := do
  P.lift nd.preventUnvisitedAttributes
  let (extension, rest) ← P.lift (tryRemoveKid nd c!"extension" nd.xsdKids)
  P.lift (preventUnvisitedChildren nd rest)
  let base ← P.lift (extension.tryAttr c!"base")
  let content ← getTypeName base
  let leafName ← (match content with
    | .named n => do
      discoverType n parent
      pure n
    | _ => pure parent : P Name)
  let kids := removeKids c!"attribute" extension.xsdKids
  let attributes ← parseAttributes x parent kids.1
  P.lift (preventUnvisitedChildren extension kids.2)
  pure ⟨attributes, some (.leaf leafName ⟨content, [], none⟩), false, none⟩

/-- `ElementDefinition::with_docs` (ast/element_definition.rs:18-23). -/
def ElementDef.withDocs (d : ElementDef) (docs : Option Str) : ElementDef :=
  if docs.isSome then { d with docs := docs } else d

/-- `Root::with_docs` (ast/root.rs:27-37). -/
def Root.withDocs (r : Root) (docs : Option Str) : Root :=
  if docs.isSome then
    match r with
    | .leaf d => .leaf { d with docs := docs }
    | .enum ns => .enum ns
    | .element d => .element { d with docs := docs }
    | .choice vs v _ => .choice vs v docs
  else r

/-- A loop that parses nodes to leaves and skips some (parse/sequence.rs:22-101, parse/choice.rs:20-71). -/
def parseLeaves (f : Nd → P (Option Leaf)) : List Nd → P (List Leaf)
  | [] => pure []
  | c :: cs => do
    let l ← f c
    let ls ← parseLeaves f cs
    pure (match l with
      | some l => l :: ls
      | none => ls)

/-- Register the root of a group and make the leaf for it (parse/sequence.rs:31-56 and 64-90, parse/choice.rs:30-60,
parse/complex_type.rs:62-87): `members` name the leaf, `suffix` is added to the name of the root. -/
def addGroup (parent : Name) (members : List Leaf) (suffix : List Name) (root : Root) (docs : Option Str)
    (minOccurs : Nat) (maxOccurs : MaxOccurs) : P Leaf := do
  let leafName ← deriveVirtualName x (members.map Leaf.name) true
  let rootName ← deriveVirtualName x (parent :: leafName :: suffix) false
  addRoot rootName root
  discoverType rootName parent
  pure ⟨leafName, ⟨.named rootName, [], docs⟩, false, true, minOccurs, maxOccurs⟩

/-- The root of a group of elements (parse/sequence.rs:70-75, parse/choice.rs:40-45, parse/complex_type.rs:67-72,
parse/complex_content.rs:54-59). -/
def groupRoot (leaves : List Leaf) : Root := .element ⟨[], some (.leaves leaves), true, none⟩

mutual

/-- `root::parse` (parse/root.rs:6-23). -/
def parseRoot : Nat → Nd → Name → P Root
  | 0, _, _ => P.diverge
  | k + 1, nd, parent =>
    if nd.name = c!"element" then parseElementRoot k nd parent
    else if nd.name = c!"complexType" then parseComplexType k nd parent
    else if nd.name = c!"simpleType" then parseSimpleType x nd
    else P.fail (.unsupportedElement nd.name nd.start)

/-- `element::parse_root` (parse/element.rs:10-61). -/
def parseElementRoot : Nat → Nd → Name → P Root
  | 0, _, _ => P.diverge
  | k + 1, nd, parent => do
    let r := removeKid c!"annotation" nd.xsdKids
    let docs ← P.lift (parseAnnotation x r.1)
    match nd.attr c!"type" with
    | some attr => do
      let (content, nd) ← parseTypeAttr (nd.see c!"type") attr parent
      P.lift nd.preventUnvisitedAttributes
      P.lift (preventUnvisitedChildren nd r.2)
      pure (.leaf ⟨content, [], docs⟩)
    | none => do
      let nd := nd.see c!"type"
      P.lift nd.preventUnvisitedAttributes
      match removeKid c!"complexType" r.2 with
      | (some child, rest) => do
        let root ← parseComplexType k child parent
        P.lift (preventUnvisitedChildren nd rest)
        pure (root.withDocs docs)
      | (none, _) =>
        match removeKid c!"simpleType" r.2 with
        | (some child, rest) => do
          let root ← parseSimpleType x child
          P.lift (preventUnvisitedChildren nd rest)
          pure (root.withDocs docs)
        | (none, _) => P.fail (.missingElement c!"simpleType|complexType" nd.name nd.start)

/-- `complex_type::parse` (parse/complex_type.rs:11-134). -/
def parseComplexType : Nat → Nd → Name → P Root
  | 0, _, _ => P.diverge
  | k + 1, nd, parent => do
    if (nd.attr c!"mixed").map XAttr.value = some c!"true" then
      P.fail (.unsupportedAttributeValue c!"mixed" c!"true" nd.name nd.start)
    else do
      P.lift (nd.see c!"mixed").preventUnvisitedAttributes
      let r := removeKid c!"annotation" nd.xsdKids
      let docs ← P.lift (parseAnnotation x r.1)
      match removeKid c!"simpleContent" r.2 with
      | (some child, rest) => do
        P.lift (preventUnvisitedChildren nd rest)
        let d ← parseSimpleContent x child parent
        pure (.element (d.withDocs docs))
      | (none, _) =>
        match removeKid c!"complexContent" r.2 with
        | (some child, rest) => do
          P.lift (preventUnvisitedChildren nd rest)
          let d ← parseComplexContent k child parent
          pure (.element (d.withDocs docs))
        | (none, _) => do
          let (content, rest) ← parseParticle k r.2 parent
          let kids := removeKids c!"attribute" rest
          let attributes ← parseAttributes x parent kids.1
          P.lift (preventUnvisitedChildren nd kids.2)
          pure (.element ⟨attributes, content, false, docs⟩)

/-- The particle of a complex type (parse/complex_type.rs:47-116): the content, and the remaining children. -/
def parseParticle : Nat → List Nd → Name → P (Option ElementContent × List Nd)
  | 0, _, _ => P.diverge
  | k + 1, kids, parent =>
    match (match removeKid c!"sequence" kids with
      | (some c, rest) => (some c, rest)
      | (none, _) => removeKid c!"all" kids) with
    | (some child, rest) => do
      let isUnordered := decide (child.name = c!"all")
      let minOccurs ← P.lift (parseMinOccurs (child.attr c!"minOccurs"))
      let maxOccurs ← P.lift (parseMaxOccurs (child.attr c!"maxOccurs"))
      let child := (child.see c!"minOccurs").see c!"maxOccurs"
      let leaves ← parseSequence k child parent
      let leaves := if isUnordered then leaves.map (fun l => { l with isUnordered := true }) else leaves
      if maxOccurs.isVec = true ∨ minOccurs ≠ 1 then do
        let leaf ← addGroup x parent leaves [] (groupRoot leaves) none minOccurs maxOccurs
        pure (some (.leaves [leaf]), rest)
      else pure (some (.leaves leaves), rest)
    | (none, _) =>
      match removeKid c!"choice" kids with
      | (some child, rest) => do
        let variants ← parseChoice k child parent
        let data ← nodeName c!"Data"
        let rootName ← deriveVirtualName x [parent, data] false
        addRoot rootName (.choice variants false none)
        discoverType rootName parent
        pure (some (.leaf rootName ⟨.named rootName, [], none⟩), rest)
      | (none, _) => pure (none, kids)

/-- `complex_content::parse` (parse/complex_content.rs:11-118). -/
def parseComplexContent : Nat → Nd → Name → P ElementDef
  | 0, _, _ => P.diverge
  | k + 1, nd, parent => do
    P.lift nd.preventUnvisitedAttributes
    let (extension, rest) ← P.lift (tryRemoveKid nd c!"extension" nd.xsdKids)
    P.lift (preventUnvisitedChildren nd rest)
    let base ← P.lift (extension.tryAttr c!"base")
    let content ← getTypeName base
    match content with
    | .named baseName => do
      discoverType baseName parent
      let r := removeKid c!"sequence" extension.xsdKids
      let virtualLeaves ← parseExtension k r.1 baseName parent
      let kids := removeKids c!"attribute" (if r.1.isSome then r.2 else extension.xsdKids)
      let attributes ← parseAttributes x parent kids.1
      P.lift (preventUnvisitedChildren extension kids.2)
      if virtualLeaves = [] then
        pure ⟨attributes, some (.leaf baseName ⟨.named baseName, [], none⟩), false, none⟩
      else do
        let b ← nodeName c!"base"
        pure ⟨attributes, some (.leaves (⟨b, ⟨.named baseName, [], none⟩, false, true, 1, .number 1⟩ :: virtualLeaves)), false, none⟩
    | _ => P.fail (.unsupportedAttributeValue c!"base" base.value c!"extension" base.start)

/-- The sequence of an extension (parse/complex_content.rs:45-75). -/
def parseExtension : Nat → Option Nd → Name → Name → P (List Leaf)
  | 0, _, _, _ => P.diverge
  | _ + 1, none, _, _ => pure []
  | k + 1, some child, baseName, parent => do
    let minOccurs ← P.lift (parseMinOccurs (child.attr c!"minOccurs"))
    let leaves ← parseSequence k (child.see c!"minOccurs") parent
    let leafName ← nodeName baseName.name
    let rootName ← deriveVirtualName x [parent, leafName] false
    addRoot rootName (groupRoot leaves)
    discoverType rootName parent
    pure [⟨leafName, ⟨.named rootName, [], none⟩, false, true, minOccurs, .number 1⟩]

/-- `sequence::parse` (parse/sequence.rs:12-104). -/
def parseSequence : Nat → Nd → Name → P (List Leaf)
  | 0, _, _ => P.diverge
  | k + 1, nd, parent => do
    P.lift nd.preventUnvisitedAttributes
    parseLeaves (fun child =>
      if child.name = c!"element" then do
        let l ← parseElementChild k child parent
        pure (some l)
      else if child.name = c!"choice" then do
        let minOccurs ← P.lift (parseMinOccurs (child.attr c!"minOccurs"))
        let maxOccurs ← P.lift (parseMaxOccurs (child.attr c!"maxOccurs"))
        let variants ← parseChoice k ((child.see c!"minOccurs").see c!"maxOccurs") parent
        let l ← addGroup x parent variants [] (.choice variants true none) none minOccurs maxOccurs
        pure (some l)
      else if child.name = c!"sequence" then do
        let docs ← P.lift (parseAnnotation x (child.child c!"annotation"))
        let minOccurs ← P.lift (parseMinOccurs (child.attr c!"minOccurs"))
        let leaves ← parseSequence k (child.see c!"minOccurs") parent
        let l ← addGroup x parent leaves [] (groupRoot leaves) docs minOccurs (.number 1)
        pure (some l)
      else if child.name = c!"annotation" then pure none
      else P.fail (.unsupportedElement child.name child.start)) nd.xsdKids

/-- `choice::parse` (parse/choice.rs:10-74). -/
def parseChoice : Nat → Nd → Name → P (List Leaf)
  | 0, _, _ => P.diverge
  | k + 1, nd, parent => do
    P.lift nd.preventUnvisitedAttributes
    parseLeaves (fun child =>
      if child.name = c!"element" then do
        let l ← parseElementChild k child parent
        pure (some l)
      else if child.name = c!"sequence" then do
        let docs ← P.lift (parseAnnotation x (child.child c!"annotation"))
        let minOccurs ← P.lift (parseMinOccurs (child.attr c!"minOccurs"))
        let maxOccurs ← P.lift (parseMaxOccurs (child.attr c!"maxOccurs"))
        let leaves ← parseSequence k ((child.see c!"minOccurs").see c!"maxOccurs") parent
        let v ← nodeName c!"Variant"
        let l ← addGroup x parent leaves [v] (groupRoot leaves) docs minOccurs maxOccurs
        pure (some l)
      else if child.name = c!"annotation" then pure none
      else P.fail (.unsupportedElement child.name child.start)) nd.xsdKids

/-- `element::parse_child` (parse/element.rs:63-184). -/
def parseElementChild : Nat → Nd → Name → P Leaf
  | 0, _, _ => P.diverge
  | k + 1, nd, parent => do
    let minOccurs ← P.lift (parseMinOccurs (nd.attr c!"minOccurs"))
    let maxOccurs ← P.lift (parseMaxOccurs (nd.attr c!"maxOccurs"))
    let nd := ((nd.see c!"minOccurs").see c!"maxOccurs").see c!"ref"
    match nd.attr c!"ref" with
    | some attr => do
      P.lift nd.preventUnvisitedAttributes
      let content ← getTypeName attr
      match content with
      | .named n => do
        discoverType n parent
        pure ⟨n, ⟨.named n, [], none⟩, false, false, minOccurs, maxOccurs⟩
      | _ => P.fail (.unsupportedAttributeValue c!"ref" attr.value c!"element" attr.start)
    | none => do
      let nameAttr ← P.lift (nd.tryAttr c!"name")
      let name ← nodeName nameAttr.value
      let nd := (((nd.see c!"name").see c!"default").see c!"form").see c!"type"
      let docs ← P.lift (parseAnnotation x (nd.child c!"annotation"))
      match nd.attr c!"type" with
      | some attr => do
        let (content, nd) ← parseTypeAttr nd attr parent
        P.lift nd.preventUnvisitedAttributes
        pure ⟨name, ⟨content, [], docs⟩, false, false, minOccurs, maxOccurs⟩
      | none =>
        if (nd.child c!"simpleType").isNone ∧ (nd.child c!"complexType").isNone then do
          P.lift nd.preventUnvisitedAttributes
          pure ⟨name, ⟨.literal .any, [], docs⟩, false, false, minOccurs, maxOccurs⟩
        else do
          P.lift nd.preventUnvisitedAttributes
          let data ← nodeName c!"Data"
          let vname ← deriveVirtualName x [parent, name, data] false
          let root ← parseRoot k nd vname
          addRoot vname root
          discoverType vname parent
          pure ⟨name, ⟨.named vname, [], docs⟩, false, false, minOccurs, maxOccurs⟩

end

end

end Xsd
