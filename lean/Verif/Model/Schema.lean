import Verif.Model.Parse
import Verif.Model.Codegen
/-!
# `xsd-internal/src/xsd/schema.rs`: schema files, includes, and what is generated for which names
-/
namespace Xsd

mutual
/-- Nesting depth of an XML node (for `Nd.fuel`; not in the code). -/
def XNode.depth : XNode → Nat
  | .elem _ cs => kidsDepth cs + 1
  | .text _ => 0
  | .other => 0
/-- Nesting depth of a list of XML nodes (for `Nd.fuel`; not in the code). -/
def kidsDepth : List XNode → Nat
  | [] => 0
  | n :: ns => max n.depth (kidsDepth ns)
end

/-- A parsed document: root element and `Document::text_pos_at` (roxmltree), which turns an offset into row
and column (xsd/schema.rs:57, 77). -/
structure XDoc where
  root : Elem
  pos : Nat → Nat × Nat

/-- A file: a document, or text that `Document::parse` rejects at a position (xsd/schema.rs:57-68). -/
inductive FileContent where
  | doc (d : XDoc)
  | malformed (row col : Nat)

/-- The file system, and the functions of `std::path` that are used (xsd/schema.rs:34, 70, 119-120). -/
structure Files where
  /-- `read_to_string`; `none` is an error -/
  read : Str → Option FileContent
  /-- `path.parent().unwrap_or(path)` -/
  parent : Str → Str
  /-- `base.push(location)` -/
  push : Str → Str → Str

/-- `SchemaError` (xsd/schema.rs:329-347). The `io::Error` is not modelled. -/
inductive SErr where
  | xsd (err : XErr) (file : Str) (row col : Nat)
  | openFile (file : Str)
  | notFound (name : Str)
  deriving Repr, DecidableEq

/-- `Schema` (xsd/schema.rs:18-21). -/
structure PSchema where
  context : SchemaContext
  deps : List (Name × List Name)
  deriving Repr, DecidableEq

/-- `Context::into_schema` (xsd/context.rs:75-85). -/
def PCtx.intoSchema (s : PCtx) : PSchema := ⟨⟨s.roots, s.target, s.isQualified, s.nss⟩, s.deps⟩

/-- `ParseError` (xsd/schema.rs). -/
inductive PErr where
  | schema (e : SErr)
  | xsd (e : XErr)
  deriving Repr, DecidableEq

section
variable (x : Ext)

/-- Fuel for parsing one top-level definition; `Verif/Props/Terminates.lean` shows that it is always enough
(bounds the recursion of xsd/parse/*.rs; not in the code). -/
def Nd.fuel (nd : Nd) : Nat := 3 * kidsDepth nd.kids + 3

/-- The result of a step of the parser as a result of `parse_schema_with_context`: `From<XsdError> for ParseError`
(the conversions at xsd/schema.rs:103, 118, 132-134). -/
def liftX {α : Type} : Res XErr α → Res PErr α
  | .ok a => .ok a
  | .err e => .err (.xsd e)
  | .panic => .panic
  | .diverge => .diverge

/-- `From<SchemaError> for ParseError` (the conversion at xsd/schema.rs:123). -/
def liftS {α : Type} : Res SErr α → Res PErr α
  | .ok a => .ok a
  | .err e => .err (.schema e)
  | .panic => .panic
  | .diverge => .diverge

/-- One top-level child of a schema (xsd/schema.rs:114-136). `incl` is `parse_file_with_context`. The roots of an
included schema are added in hash order; the model takes the order of the list. -/
def parseItem (F : Files) (incl : Str → Namespaces → List (Name × List Name) → Res SErr PSchema) (base : Str)
    (child : Nd) (s : PCtx) : Res PErr PCtx :=
  if child.name = c!"include" ∨ child.name = c!"import" then do
    let location ← liftX (child.tryAttr c!"schemaLocation")
    let schema ← liftS (incl (F.push base location.value) s.nss s.deps)
    let s := schema.context.elements.foldl (fun s p => s.addRoot p.1 p.2) s
    pure { s with nss := schema.context.namespaces, deps := schema.deps }
  else do
    let nameAttr ← liftX (child.tryAttr c!"name")
    let name : Name := ⟨nameAttr.value, s.target⟩
    let (root, s) ← liftX (parseRoot x child.fuel (child.see c!"name") name s)
    pure (s.addRoot name root)

/-- The loop over the top-level children (xsd/schema.rs:114-136). -/
def parseItems (F : Files) (incl : Str → Namespaces → List (Name × List Name) → Res SErr PSchema) (base : Str) :
    List Nd → PCtx → Res PErr PCtx
  | [], s => .ok s
  | c :: cs, s => do
    let s ← parseItem x F incl base c s
    parseItems F incl base cs s

/-- `Schema::parse_schema_with_context` (xsd/schema.rs:93-139). -/
def parseSchemaRoot (F : Files) (incl : Str → Namespaces → List (Name × List Name) → Res SErr PSchema) (base : Str)
    (root : Nd) (nss : Namespaces) (deps : List (Name × List Name)) : Res PErr PSchema :=
  if root.info.name.ns ≠ some nsXsd ∨ root.name ≠ c!"schema" then
    .err (.xsd (.unsupportedElement root.name root.start))
  else do
    let s := PCtx.new root.info ((root.attr c!"targetNamespace").map XAttr.value) nss deps
    let s ← parseItems x F incl base root.xsdKids s
    pure s.intoSchema

/-- The error mapping of `parse_with_context` (xsd/schema.rs:72-86). -/
def locate (path : Str) (d : XDoc) : PErr → SErr
  | .schema e => e
  | .xsd e =>
    let p := match e.start with
      | some n => d.pos n
      | none => (0, 0)
    .xsd e path p.1 p.2

/-- `Schema::parse_with_context` (xsd/schema.rs:51-87) for a document. -/
def parseDoc (F : Files) (incl : Str → Namespaces → List (Name × List Name) → Res SErr PSchema) (path : Str) (d : XDoc)
    (nss : Namespaces) (deps : List (Name × List Name)) : Res SErr PSchema :=
  match parseSchemaRoot x F incl (F.parent path) (Nd.of d.root) nss deps with
  | .ok s => .ok s
  | .err e => .err (locate path d e)
  | .panic => .panic
  | .diverge => .diverge

/-- `Schema::parse_file_with_context` (xsd/schema.rs:28-45). The fuel bounds the depth of includes. -/
def parseFileWith (F : Files) : Nat → Str → Namespaces → List (Name × List Name) → Res SErr PSchema
  | 0, _, _, _ => .diverge
  | k + 1, path, nss, deps =>
    match F.read path with
    | none => .err (.openFile path)
    | some (.malformed row col) => .err (.xsd .xml path row col)
    | some (.doc d) => parseDoc x F (parseFileWith F k) path d nss deps

/-- `Schema::parse_file` (xsd/schema.rs:24-26). -/
def parseFile (F : Files) (k : Nat) (path : Str) : Res SErr PSchema := parseFileWith x F k path Namespaces.empty []

/-! ## Generating code for a name and what it depends on -/

/-- One round of the loop (xsd/schema.rs:178-187): the dependencies of the new names that are neither collected nor new.
`HashSet`s are lists without repetitions. -/
def nextNames (deps : List (Name × List Name)) (names new : List Name) : List Name → List Name → List Name
  | [], acc => acc
  | n :: ns, acc =>
    nextNames deps names new ns
      (((alookup deps n).getD []).foldl (fun acc d => if d ∉ names ∧ d ∉ new then sinsert acc d else acc) acc)

/-- The loop of `generate_element_and_dependencies` (xsd/schema.rs:173-191), with fuel. -/
def collectNames (deps : List (Name × List Name)) : Nat → List Name → List Name → Res SErr (List Name)
  | 0, _, _ => .diverge
  | k + 1, names, new =>
    if new = [] then .ok names
    else collectNames deps k (new.foldl sinsert names) (nextNames deps names new new [])

/-- The second loop (xsd/schema.rs:193-199): generate every name that was not generated before. -/
def emitNames (S : SchemaContext) : List Name → List Name → Res Str (List TypeDef × List Name)
  | [], already => .ok ([], already)
  | n :: ns, already =>
    if n ∈ already then emitNames S ns already
    else do
      let d ← generateElement x S n
      let r ← emitNames S ns (sinsert already n)
      pure (d :: r.1, r.2)

/-- Fuel for `collectNames`; `Verif/Props/Dependencies.lean` shows that it is always enough
(bounds the loop at xsd/schema.rs:173-191; not in the code). -/
def depsFuel (deps : List (Name × List Name)) : Nat := (deps.flatMap Prod.snd).length + 3

/-- `Schema::generate_element_and_dependencies` (xsd/schema.rs:162-202): the generated items and the set of generated
names afterwards. The loop over the collected names runs in hash order; the model takes the order of the list. -/
def generateWithDeps (P : PSchema) (n : Name) (already : List Name) : Res SErr (List TypeDef × List Name) := do
  let names ← collectNames P.deps (depsFuel P.deps) [] [n]
  match emitNames x P.context names already with
  | .ok r => .ok r
  | .err m => .err (.notFound m)
  | .panic => .panic
  | .diverge => .diverge

end

end Xsd
