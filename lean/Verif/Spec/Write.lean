import Verif.Spec.Det
import Verif.Model.Writer
/-!
# Schemas that are written back faithfully

`writeOK x S W` is a decidable condition on a schema: none of the shapes occurs for which the generated writer is
known to lose tags, attributes or namespaces (each of them is exhibited in `Verif/Props/Defects.lean`). `W` is a
certificate; for each type
* `attrs`: the attribute names written on its element, by the type itself and by the type its content is taken from,
* `seg`: the type may be written inside the element of another type (as a group or as the base of an extension).
-/
namespace Xsd

structure WCert where
  attrs : Name → List Str
  seg : Name → Bool

/-- A definition whose writer leaves the tags to the enclosing element. -/
def Root.isVirtual : Root → Bool
  | .leaf _ => false
  | .enum _ => false
  | .element d => d.isVirtual
  | .choice _ b _ => b

section
variable (x : Ext) (S : SchemaContext) (W : WCert) (N : List (Str × Str))

/-- The name `w` stands, with the namespaces `N` declared, for the expanded name `q`. -/
def nameOK (w : Res Str Str) (q : Res Str QName) : Bool :=
  match w, q with
  | .ok w, .ok q => decide (resolveName N w = some q)
  | _, _ => false

/-- The type writes an element of its own. -/
def tagged (n : Name) : Bool :=
  match S.get n with
  | some r => !r.isVirtual
  | none => false

/-- Content taken over from a type must come from one that writes its element. -/
def contentOK (c : LeafContent) : Bool :=
  match c with
  | .named _ =>
    match inlined S c with
    | .ok (.named m) => tagged S m
    | _ => false
  | _ => true

def leafOK (l : Leaf) : Bool :=
  if l.isVirtual then
    match l.target with
    | some m => isGroup S m && W.seg m
    | none => false
  else nameOK N (S.xmlName l.name) (S.expanded l.name) &&
    match inlined S l.definition.content with
    | .ok (.literal _) => true
    | .ok (.fixed _) => (match l.definition.content with | .fixed _ => true | _ => false)
    | .ok (.named m) => tagged S m
    | _ => false

def variantOK (l : Leaf) : Bool :=
  if l.isVirtual then
    !l.repeats &&
    match l.target with
    | some m => isGroup S m && !tagged S m && W.seg m
    | none => false
  else nameOK N (.ok l.name.name) (S.expanded l.name) &&
    match l.definition.content with
    | .literal _ => true
    | .fixed _ => false
    | .named _ => contentOK S l.definition.content

def isEnum (n : Name) : Bool :=
  match S.get n with
  | some (.enum _) => true
  | _ => false

def attrOK (a : Attribute) : Bool :=
  decide (S.xmlName a.name = .ok a.name.name) && (splitColon a.name.name).isNone && a.name.name != c!"xmlns" &&
  match a.content with
  | .named _ =>
    match inlined S a.content with
    | .ok (.literal t) => decide (t.prim = .string)
    | .ok (.named n) => isEnum S n
    | _ => false
  | _ => true

/-- The attributes written by the type that content is taken from. -/
def chainAttrs (c : LeafContent) : List Str :=
  match c with
  | .named _ =>
    match inlined S c with
    | .ok (.named m) => W.attrs m
    | _ => []
  | _ => []

/-- The identifiers of the fields of a struct. -/
def fieldIdents (d : ElementDef) : List (Res Str Str) :=
  (match d.content with
   | none => []
   | some (.leaf n _) => [fieldIdent x n]
   | some (.leaves ls) => ls.map (fun l => fieldIdent x l.name)) ++ d.attributes.map (fun a => fieldIdent x a.name)

def segContentOK (d : ElementDef) : Bool :=
  match d.content with
  | none => true
  | some (.leaves _) => true
  | some (.leaf _ c) => !d.isVirtual &&
    match c.content with
    | .named _ =>
      match inlined S c.content with
      | .ok (.named m) => isGroup S m && W.seg m
      | _ => false
    | _ => false

def rootOK (n : Name) (r : Root) : Bool :=
  decide (W.attrs n).Nodup &&
  match r with
  | .leaf d => contentOK S d.content && decide (W.attrs n = chainAttrs S W d.content) && !W.seg n
  | .enum _ => decide (W.attrs n = []) && !W.seg n
  | .element d => d.attributes.all (attrOK S) && decide (fieldIdents x d).Nodup &&
      (match d.content with
       | none => decide (W.attrs n = d.attributes.map (fun a => a.name.name))
       | some (.leaf _ c) => contentOK S c.content &&
          decide (W.attrs n = d.attributes.map (fun a => a.name.name) ++ chainAttrs S W c.content)
       | some (.leaves ls) => ls.all (leafOK S W N) && decide (W.attrs n = d.attributes.map (fun a => a.name.name))) &&
      (!W.seg n || (d.attributes.isEmpty && segContentOK S W d))
  | .choice vs _ _ => vs.all (variantOK S W N) && decide (vs.map (fun l => pascalIdent x l.name)).Nodup &&
      decide (W.attrs n = [])

/-- Every declaration has its own prefix, and a namespace. -/
def nssOK : Bool := decide (N.map Prod.fst).Nodup && N.all (fun b => b.2 != [])

/-- See the head of this file. -/
def writeOK : Bool :=
  match schemaNss S with
  | .ok N => nssOK N && S.elements.all (fun p => rootOK x S W N p.1 p.2)
  | _ => false

end

/-- One round of the computation of a certificate. -/
def WCert.step (S : SchemaContext) (C : List (Name × (List Str × Bool))) : List (Name × (List Str × Bool)) :=
  let get (n : Name) := (alookup C n).getD ([], false)
  let W : WCert := ⟨fun n => (get n).1, fun n => (get n).2⟩
  S.elements.map (fun p => (p.1, (match p.2 with
    | .leaf d => chainAttrs S W d.content
    | .enum _ => []
    | .element d => d.attributes.map (fun a => a.name.name) ++
      (match d.content with | some (.leaf _ c) => chainAttrs S W c.content | _ => [])
    | .choice _ _ _ => []),
    match p.2 with
    | .leaf _ => false
    | .enum _ => false
    | .element d => d.attributes.isEmpty && segContentOK S W d
    | .choice _ _ _ => true))

/-- A certificate, if the schema is small enough for the number of rounds. -/
def WCert.compute (S : SchemaContext) : WCert :=
  let C := iter (WCert.step S) (S.elements.length + 2) []
  ⟨fun n => ((alookup C n).getD ([], false)).1, fun n => ((alookup C n).getD ([], false)).2⟩

/-- No shape occurs for which the writer is known to lose something. -/
def Faithful (x : Ext) (S : SchemaContext) : Prop := ∃ W, writeOK x S W = true

end Xsd
