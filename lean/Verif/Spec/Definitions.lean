import Verif.Spec.Grammar
import Verif.Props.Namespaces
/-!
# Specification: the types that a set of schema files defines
-/
namespace Xsd

/-- A particle occurs exactly once, or at most zero times: `minOccurs` is 1 and `maxOccurs` is at most 1. -/
def OccursOnce (c : Nd) : Prop :=
  (∀ v, c.value c!"minOccurs" = some v → Unsigned 4294967295 v 1) ∧
  (∀ v, c.value c!"maxOccurs" = some v → ∃ n, Unsigned 4294967295 v n ∧ n ≤ 1)

/-- The child `c` of a node becomes a type of its own although it has no name. -/
inductive Anonymous : Kind → Nd → Nd → Prop where
  | complexType {nd c} (hc : c ∈ nd.xsdKids) (hr : nd.attr c!"ref" = none) (ht : nd.attr c!"type" = none)
      (hn : c.name = c!"complexType") : Anonymous .localElement nd c
  | simpleType {nd c} (hc : c ∈ nd.xsdKids) (hr : nd.attr c!"ref" = none) (ht : nd.attr c!"type" = none)
      (hn : c.name = c!"simpleType") : Anonymous .localElement nd c
  | repeated {nd c t} (hc : c ∈ nd.xsdKids) (hn : c.name = c!"sequence" ∨ c.name = c!"all") (ho : ¬ OccursOnce c) :
      Anonymous (.complexType t) nd c
  | choice {nd c t} (hc : c ∈ nd.xsdKids) (hn : c.name = c!"choice") : Anonymous (.complexType t) nd c
  | extension {nd c} (hc : c ∈ nd.xsdKids) (hn : c.name = c!"sequence") : Anonymous .complexExtension nd c
  | seqChoice {nd c occ} (hc : c ∈ nd.xsdKids) (hn : c.name = c!"choice") : Anonymous (.sequence occ) nd c
  | seqSequence {nd c occ} (hc : c ∈ nd.xsdKids) (hn : c.name = c!"sequence") : Anonymous (.sequence occ) nd c
  | choiceSequence {nd c occ} (hc : c ∈ nd.xsdKids) (hn : c.name = c!"sequence") : Anonymous (.choice occ) nd c
  | enumeration {nd c r v} (hc : c ∈ nd.xsdKids) (hn : c.name = c!"simpleType") (hr : r ∈ c.xsdKids)
      (hrn : r.name = c!"restriction") (hv : v ∈ r.xsdKids) (hvn : v.name = c!"enumeration") : Anonymous .attribute nd c

/-- The nodes below a node that become types of their own. -/
def AnonymousWithin (k : Kind) (nd c : Nd) : Prop := ∃ k' d, Within k nd k' d ∧ Anonymous k' d c

/-- The definition is what the parser makes of the node, under the name `n`, in a document with the environment `e`; the
namespaces in it are entries of the table `t`. What the parser makes of a node is the subject of the other properties; here
only that it belongs to this node. -/
inductive Interpreted (x : Ext) (e : Env) (t : Namespaces) (c : Nd) (n : Name) : Root → Prop where
  | element {k seen s r s'} (hn : c.name = c!"element") (he : s.env = e) (hi : s.nss.Reachable) (ht : s'.nss.Extends t)
      (h : parseElementRoot x k { c with seen := seen } n s = .ok (r, s')) : Interpreted x e t c n r
  | complexType {k seen s r s' docs} (hn : c.name = c!"complexType") (he : s.env = e) (hi : s.nss.Reachable) (ht : s'.nss.Extends t)
      (h : parseComplexType x k { c with seen := seen } n s = .ok (r, s')) : Interpreted x e t c n (r.withDocs docs)
  | simpleType {seen s r s' docs} (hn : c.name = c!"simpleType") (he : s.env = e) (hi : s.nss.Reachable) (ht : s'.nss.Extends t)
      (h : parseSimpleType x { c with seen := seen } s = .ok (r, s')) : Interpreted x e t c n (r.withDocs docs)
  | sequence {k seen parent s ls s'} (hn : c.name = c!"sequence") (he : s.env = e) (hi : s.nss.Reachable) (ht : s'.nss.Extends t)
      (h : parseSequence x k { c with seen := seen } parent s = .ok (ls, s')) : Interpreted x e t c n (groupRoot ls)
  | all {k seen parent s ls s'} (hn : c.name = c!"all") (he : s.env = e) (hi : s.nss.Reachable) (ht : s'.nss.Extends t)
      (h : parseSequence x k { c with seen := seen } parent s = .ok (ls, s')) :
      Interpreted x e t c n (groupRoot (ls.map (fun l => { l with isUnordered := true })))
  | choice {k seen parent s ls s' b} (hn : c.name = c!"choice") (he : s.env = e) (hi : s.nss.Reachable) (ht : s'.nss.Extends t)
      (h : parseChoice x k { c with seen := seen } parent s = .ok (ls, s')) : Interpreted x e t c n (.choice ls b none)

/-- A node of a schema file, and the name and definition of its type. -/
structure Entry where
  node : Nd
  name : Name
  root : Root

mutual
/-- The types that a file defines, in the order in which they are processed: those of an included or imported file where it
is included, those of anonymous types before the definition around them. -/
inductive FileLog (x : Ext) (F : Files) (t : Namespaces) : Str → List Entry → Prop where
  | mk {path d e log} (h : F.read path = some (.doc d)) (he : EnvOf d.root.1 e)
      (ht : Stands t e.target (targetOf d))
      (hs : ItemsLog x F t path e (Nd.of d.root).xsdKids log) : FileLog x F t path log
/-- The types that the children of a schema node define. -/
inductive ItemsLog (x : Ext) (F : Files) (t : Namespaces) : Str → Env → List Nd → List Entry → Prop where
  | nil {path e} : ItemsLog x F t path e [] []
  | include {path e c cs location log log'} (hn : c.name = c!"include" ∨ c.name = c!"import")
      (hl : c.value c!"schemaLocation" = some location) (h : FileLog x F t (F.push (F.parent path) location) log)
      (hs : ItemsLog x F t path e cs log') : ItemsLog x F t path e (c :: cs) (log ++ log')
  | definition {path e c cs k v r log log'} (hk : topKind c.name = some k) (hv : c.value c!"name" = some v)
      (hr : Interpreted x e t c ⟨v, e.target⟩ r)
      (hc : ∀ a, AnonymousWithin k c a ↔ ∃ b ∈ log, b.node = a)
      (hl : ∀ b ∈ log, Interpreted x e t b.node b.name b.root ∧ b.name.ns = if e.isQualified then e.target else .none)
      (hs : ItemsLog x F t path e cs log') : ItemsLog x F t path e (c :: cs) (log ++ ⟨c, ⟨v, e.target⟩, r⟩ :: log')
end

/-- The last type with a name. -/
def lastNamed (n : Name) : List Entry → Option Root
  | [] => none
  | b :: log =>
    match lastNamed n log with
    | some r => some r
    | none => if b.name = n then some b.root else none

end Xsd
