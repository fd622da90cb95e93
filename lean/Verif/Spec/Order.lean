import Verif.Model.Schema
import Verif.Model.Exec
/-!
# Specification: runs of the parser with any iteration order of its maps

The only loop over a map that a successful parse has is the one that adds the definitions of an included file. (The other one
looks for attributes that are not supported, and only matters for which of them the error names.)
-/
namespace Xsd

/-- The same schema, with the definitions in another order; or the same failure. -/
def Shuffled (r r' : Res SErr PSchema) : Prop :=
  r = r' ∨ ∃ P E, r = .ok P ∧ E.Perm P.context.elements ∧ r' = .ok { P with context := { P.context with elements := E } }

/-- The loop over the top-level children, where included files may be read in any of the ways `R`, and the definitions of
each are handed over in any order. -/
inductive RunsItems (x : Ext) (F : Files) (R : Str → Namespaces → List (Name × List Name) → Res SErr PSchema → Prop) (base : Str) :
    List Nd → PCtx → Res PErr PCtx → Prop where
  | nil {s} : RunsItems x F R base [] s (.ok s)
  | step {c cs s s1 r} (incl) (hi : ∀ q n d, ∃ r, R q n d r ∧ Shuffled r (incl q n d))
      (h : parseItem x F incl base c s = .ok s1) (hs : RunsItems x F R base cs s1 r) : RunsItems x F R base (c :: cs) s r
  | stop {c cs s r} (incl) (hi : ∀ q n d, ∃ r, R q n d r ∧ Shuffled r (incl q n d))
      (h : parseItem x F incl base c s = r) (hr : ∀ s1, r ≠ .ok s1) : RunsItems x F R base (c :: cs) s r

/-- The result of a document whose children were processed. -/
def docResult (path : Str) (d : XDoc) : Res PErr PCtx → Res SErr PSchema
  | .ok s => .ok s.intoSchema
  | .err e => .err (locate path d e)
  | .panic => .panic
  | .diverge => .diverge

/-- The possible results of reading a file. -/
def Runs (x : Ext) (F : Files) : Nat → Str → Namespaces → List (Name × List Name) → Res SErr PSchema → Prop
  | 0, _, _, _, r => r = .diverge
  | k + 1, path, nss, deps, r =>
    match F.read path with
    | none => r = .err (.openFile path)
    | some (.malformed row col) => r = .err (.xsd .xml path row col)
    | some (.doc d) =>
      if d.root.1.name = ⟨c!"schema", some nsXsd⟩ then
        ∃ r', RunsItems x F (Runs x F k) (F.parent path) (Nd.of d.root).xsdKids
          (PCtx.new d.root.1 (((Nd.of d.root).attr c!"targetNamespace").map XAttr.value) nss deps) r' ∧ r = docResult path d r'
      else r = .err (locate path d (.xsd (.unsupportedElement (Nd.of d.root).name (Nd.of d.root).start)))

/-- The loop of `prevent_unvisited_attributes` (xsd/node.rs:174-187), over the map of attributes in the order `m`. -/
def unvisitedIn (m : List XAttr) (nd : Nd) : Res XErr Unit :=
  match m.find? (fun a => a.ns = none ∧ a.loc ∉ nd.seen) with
  | some a => .err (.unsupportedAttribute a.loc nd.name a.start)
  | none => .ok ()

/-! ## Generated code

The generator goes through the definitions (`generate_all`, schema.rs:152-160), the namespaces (`Namespaces::iter`, used at
schema.rs:247-253) and the variants of an enumeration (root.rs:421-464 returns a map). -/

/-- The schema with its definitions and its namespaces in another order. -/
def SchemaContext.reordered (S : SchemaContext) (E : List (Name × Root)) (B : List (Nat × NsDef)) : SchemaContext :=
  { S with elements := E, namespaces := { S.namespaces with byId := B } }

/-- `rootDecl`, with the variants of an enumeration in the order `ord`. -/
def rootDeclIn (x : Ext) (S : SchemaContext) (ord : List (Str × Str) → List (Str × Str)) : Root → Res Str Decl
  | .enum ns => do
    let m ← escapeEnumNames x ns
    let vs ← mapRes (fun (p : Str × Str) => do let v ← formatIdent x p.1; pure (v, p.2)) (ord m)
    pure (.enum vs)
  | r => rootDecl x S r

/-- `generateElement`, with the variants of an enumeration in the order `ord`. -/
def generateElementIn (x : Ext) (S : SchemaContext) (ord : List (Str × Str) → List (Str × Str)) (n : Name) : Res Str TypeDef :=
  match S.get n with
  | none => .err n.name
  | some r => do
    let ident ← typeIdent x n
    let decl ← rootDeclIn x S ord r
    let toXml ← rootWrite x S r
    let xmlName ← S.xmlName n
    let nss ← schemaNss S
    let rootName ← S.qname n
    let fromXml ← rootRead x S r
    let look ← rootLook x S r
    pure ⟨ident, decl, xmlName, nss, toXml, rootName, fromXml, look⟩

/-- `generateAll`, each enumeration in an order of its own. -/
def generateAllIn (x : Ext) (S : SchemaContext) (ords : Name → List (Str × Str) → List (Str × Str)) : Res Str (List TypeDef) :=
  mapRes (fun n => generateElementIn x S (ords n) n) (S.elements.map Prod.fst)

/-- The same declaration up to the order of the variants of an enumeration. -/
inductive SameDecl : Decl → Decl → Prop where
  | same (d : Decl) : SameDecl d d
  | enum {vs vs' : List (Str × Str)} (h : vs'.Perm vs) : SameDecl (.enum vs) (.enum vs')

/-- The same generated code up to the order of variants and of namespace declarations. -/
structure SameDef (d d' : TypeDef) : Prop where
  decl : SameDecl d.decl d'.decl
  nss : d'.nss.Perm d.nss
  rest : { d' with decl := d.decl, nss := d.nss } = d

/-- Two lists whose elements are pairwise the same code. -/
inductive SameDefs : List TypeDef → List TypeDef → Prop where
  | nil : SameDefs [] []
  | cons {d d' ds ds'} (h : SameDef d d') (t : SameDefs ds ds') : SameDefs (d :: ds) (d' :: ds')

/-- The same generated code, in any order. -/
def SameCode (ds ds' : List TypeDef) : Prop := ∃ es : List TypeDef, es.Perm ds ∧ SameDefs es ds'

/-- The same event: the namespace declarations of a start tag are the same, in any order, and are for different prefixes.
(xml-rs keeps them in a sorted map, so that the order in which they were put is not visible in what it writes.) -/
inductive SameEv : Ev → Ev → Prop where
  | same (e : Ev) : SameEv e e
  | start {n : Str} {as ns ns' : List (Str × Str)} (hn : (ns.map Prod.fst).Nodup) (h : ns'.Perm ns) : SameEv (.start n as ns) (.start n as ns')

/-- The same events. -/
inductive SameEvs : List Ev → List Ev → Prop where
  | nil : SameEvs [] []
  | cons {e e' es es'} (h : SameEv e e') (t : SameEvs es es') : SameEvs (e :: es) (e' :: es')

/-- The same output, or the same failure. -/
inductive SameOut : Res Unit (List Ev) → Res Unit (List Ev) → Prop where
  | ok {es es'} (h : SameEvs es es') : SameOut (.ok es) (.ok es')
  | fail {r} (h : ∀ es, r ≠ .ok es) : SameOut r r

end Xsd
