import Verif.Spec.Typing
import Verif.Spec.Types
import Verif.Spec.Api
/-!
# Specification: schemas with additional optional members

`Wider S S' N`: the schema `S'` has all definitions of `S`; records may have additional elements and attributes, all of which may be
missing, choices may have additional alternatives, enumerations additional values, and there may be additional types. `N` lists what was added.
`Upgrade P P'` relates values of the types generated for `S` and for `S'`.
-/
namespace Xsd

/-- The second list is the first one with elements inserted for which `p` holds. -/
inductive Inserts {α : Type} (p : α → Prop) : List α → List α → Prop where
  | nil : Inserts p [] []
  | keep {a : α} {as bs : List α} (h : Inserts p as bs) : Inserts p (a :: as) (a :: bs)
  | new {b : α} {as bs : List α} (hb : p b) (h : Inserts p as bs) : Inserts p as (b :: bs)

/-- The names of added elements and attributes, and the added values of enumerations. -/
structure Additions where
  elems : List QName
  attrs : List Str
  values : List Str

/-- An added alternative of a choice: an element. -/
def NewMember (S : SchemaContext) (N : Additions) (l : Leaf) : Prop := l.isVirtual = false ∧ ∃ q ∈ N.elems, S.expanded l.name = .ok q

/-- An added member of a record: an element that may be missing. -/
def NewOptional (S : SchemaContext) (N : Additions) (l : Leaf) : Prop := NewMember S N l ∧ l.mayMiss = true

/-- An added attribute: it may be missing. -/
def NewAttribute (N : Additions) (a : Attribute) : Prop := a.isOptional = true ∧ a.name.name ∈ N.attrs

/-- The content of a record, with additional elements anywhere. -/
inductive ContentWider (S : SchemaContext) (N : Additions) : Option ElementContent → Option ElementContent → Prop where
  | same (c : Option ElementContent) : ContentWider S N c c
  | first {ls : List Leaf} (h : Inserts (NewOptional S N) [] ls) : ContentWider S N none (some (.leaves ls))
  | more {ls ls' : List Leaf} (h : Inserts (NewOptional S N) ls ls') : ContentWider S N (some (.leaves ls)) (some (.leaves ls'))

/-- A definition with additional members. -/
inductive RootWider (S : SchemaContext) (N : Additions) : Root → Root → Prop where
  | leaf (d : LeafDef) : RootWider S N (.leaf d) (.leaf d)
  | enum (ns : List Name) : RootWider S N (.enum ns) (.enum ns)
  | values {ns ns' : List Name} (h : Inserts (fun n => n.name ∈ N.values) ns ns') (hd : (ns'.map Name.name).Nodup) :
      RootWider S N (.enum ns) (.enum ns')
  | element {d d' : ElementDef} (hc : ContentWider S N d.content d'.content) (ha : Inserts (NewAttribute N) d.attributes d'.attributes)
      (hv : d'.isVirtual = d.isVirtual) : RootWider S N (.element d) (.element d')
  | choice {vs vs' : List Leaf} {b : Bool} {docs docs' : Option Str} (h : Inserts (NewMember S N) vs vs') :
      RootWider S N (.choice vs b docs) (.choice vs' b docs')

/-- The schema with additional optional members, alternatives, values and types. -/
structure Wider (S S' : SchemaContext) (N : Additions) : Prop where
  target : S'.target = S.target
  qualified : S'.isQualified = S.isQualified
  namespaces : S'.namespaces = S.namespaces
  types : ∀ n r, S.get n = some r → ∃ r', S'.get n = some r' ∧ RootWider S' N r r'

/-- The element itself, its children, their children, … -/
inductive Nests : Elem → Elem → Prop where
  | self (e : Elem) : Nests e e
  | child {e c d : Elem} (hc : c ∈ elemKids e.2) (h : Nests c d) : Nests e d

/-- Nothing that was added occurs in the element: no such element or attribute, and neither a text nor an attribute that is such a
value. -/
def Without (N : Additions) (e : Elem) : Prop :=
  ∀ d, Nests e d → d.1.name ∉ N.elems ∧ (∀ a ∈ d.1.attrs, a.ns = none → a.loc ∉ N.attrs ∧ a.value ∉ N.values) ∧
    (d.2 = [] → [] ∉ N.values) ∧ ∀ s ns, d.2 = .text s :: ns → s ∉ N.values

mutual
/-- `v'` is the value `v`, in which all fields that were added are `None`. `v` is of a type of the module `P`, `v'` is of the type
with the same name of the module `P'`. -/
inductive Upgrade (P P' : List TypeDef) : Ty → Val → Val → Prop where
  | prim {p : Prim} {v : Val} (h : PrimVal p v) : Upgrade P P' (.prim p) v v
  | unit : Upgrade P P' .unit .unit .unit
  | none {t : Ty} : Upgrade P P' (.option t) .none .none
  | some {t : Ty} {v v' : Val} (h : Upgrade P P' t v v') : Upgrade P P' (.option t) (.some v) (.some v')
  | vec {t : Ty} {vs vs' : List Val} (h : UpgradeAll P P' t vs vs') : Upgrade P P' (.vec t) (.vec vs) (.vec vs')
  | named {i : Str} {t t' : TypeDef} {v v' : Val} (hf : findType P i = .some t) (hf' : findType P' i = .some t')
      (h : UpgradeDecl P P' t.decl t'.decl v v') : Upgrade P P' (.named i) v v'
/-- The same for lists. -/
inductive UpgradeAll (P P' : List TypeDef) : Ty → List Val → List Val → Prop where
  | nil {t : Ty} : UpgradeAll P P' t [] []
  | cons {t : Ty} {v v' : Val} {vs vs' : List Val} (h : Upgrade P P' t v v') (hs : UpgradeAll P P' t vs vs') :
      UpgradeAll P P' t (v :: vs) (v' :: vs')
/-- The same for values of declared types. -/
inductive UpgradeDecl (P P' : List TypeDef) : Decl → Decl → Val → Val → Prop where
  | newtype {t : Ty} {o : Option LiteralType} {v v' : Val} (h : Upgrade P P' t v v') :
      UpgradeDecl P P' (.newtype t o) (.newtype t o) (.newtype v) (.newtype v')
  | enum {vs : List (Str × Str)} {n : Str} (h : n ∈ vs.map Prod.fst) : UpgradeDecl P P' (.enum vs) (.enum vs) (.enumv n) (.enumv n)
  | values {vs vs' : List (Str × Str)} {n n' s : Str} (h : (n, s) ∈ vs) (h' : (n', s) ∈ vs') (hu : ∀ m, (m, s) ∈ vs' → m = n') :
      UpgradeDecl P P' (.enum vs) (.enum vs') (.enumv n) (.enumv n')
  | struct {ds ds' : List (Str × Ty)} {fs fs' : List (Str × Val)} (h : UpgradeFields P P' ds ds' fs fs') :
      UpgradeDecl P P' (.struct ds) (.struct ds') (.struct fs) (.struct fs')
  | choice {ds ds' : List (Str × Ty)} {n : Str} {t : Ty} {v v' : Val} (hm : (n, t) ∈ ds) (hm' : (n, t) ∈ ds') (h : Upgrade P P' t v v') :
      UpgradeDecl P P' (.choice ds) (.choice ds') (.variant n v) (.variant n v')
/-- The same for fields: all of `fs` are kept, and what else there is in `fs'` is `None`. -/
inductive UpgradeFields (P P' : List TypeDef) : List (Str × Ty) → List (Str × Ty) → List (Str × Val) → List (Str × Val) → Prop where
  | nil : UpgradeFields P P' [] [] [] []
  | keep {f : Str} {t : Ty} {v v' : Val} {ds ds' : List (Str × Ty)} {fs fs' : List (Str × Val)} (h : Upgrade P P' t v v')
      (hs : UpgradeFields P P' ds ds' fs fs') : UpgradeFields P P' ((f, t) :: ds) ((f, t) :: ds') ((f, v) :: fs) ((f, v') :: fs')
  | new {f : Str} {t : Ty} {ds ds' : List (Str × Ty)} {fs fs' : List (Str × Val)} (hs : UpgradeFields P P' ds ds' fs fs') :
      UpgradeFields P P' ds ((f, .option t) :: ds') fs ((f, .none) :: fs')
end

end Xsd
