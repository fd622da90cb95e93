import Verif.Spec.Typing
import Verif.Spec.Repr
/-!
# Specification: schemas whose generated code compiles
-/
namespace Xsd

/-- The names that become fields of the struct for an element definition. -/
def ElementDef.fieldNames (e : ElementDef) : List Name :=
  (match e.content with
    | none => []
    | some (.leaf n _) => [n]
    | some (.leaves ls) => ls.map Leaf.name) ++ e.attributes.map Attribute.name

/-- The contents of a definition. -/
def Root.allContents : Root → List LeafContent
  | .leaf d => [d.content]
  | .enum _ => []
  | .element d => (match d.content with
    | none => []
    | some (.leaf _ d) => [d.content]
    | some (.leaves ls) => ls.map (fun l => l.definition.content)) ++ d.attributes.map Attribute.content
  | .choice vs _ _ => vs.map (fun l => l.definition.content)

/-- The contents of which a value of the definition has one inside, not in a list. -/
def Root.inlineContents : Root → List LeafContent
  | .leaf d => [d.content]
  | .enum _ => []
  | .element d => (match d.content with
    | none => []
    | some (.leaf _ d) => [d.content]
    | some (.leaves ls) => (ls.filter (fun l => !l.repeats)).map (fun l => l.definition.content)) ++ d.attributes.map Attribute.content
  | .choice vs _ _ => (vs.filter (fun l => !l.repeats)).map (fun l => l.definition.content)

/-- A value of type `n` has one of type `m` inside. -/
def HoldsA (S : SchemaContext) (n m : Name) : Prop := ∃ r, S.get n = some r ∧ ∃ c ∈ r.inlineContents, Means S c (.named m)

/-- A type that attributes can have: a builtin one or a fixed value, or by name a string type or an enumeration. -/
def AttrTypeOK (S : SchemaContext) : LeafContent → Prop
  | .named n => ∃ c, Means S (.named n) c ∧ ((∃ t, c = .literal t ∧ t.prim = .string) ∨ ∃ m vs, c = .named m ∧ S.get m = some (.enum vs))
  | _ => True

/-- The conditions on a schema under which its generated code compiles. -/
structure Buildable (x : Ext) (S : SchemaContext) : Prop where
  /-- no two types have the same name in Pascal case -/
  unique : ∀ n m, (S.get n).isSome = true → (S.get m).isSome = true → x.pascal n.name = x.pascal m.name → n = m
  /-- what a definition refers to is defined, also after following simple types -/
  closed : ∀ n r, S.get n = some r → ∀ c ∈ r.allContents, ∀ m, Means S c (.named m) → (S.get m).isSome = true
  /-- no type is called like a keyword, or hides a type of the prelude -/
  types : ∀ n r, S.get n = some r → x.pascal n.name ∉ rustKeywords ∧ x.pascal n.name ∉ preludeTypes
  /-- no simple type hides a function of the prelude -/
  newtypes : ∀ n d, S.get n = some (.leaf d) → x.pascal n.name ∉ preludeConstructors
  /-- the fields of a struct have different names, and none is a keyword that is not escaped -/
  fields : ∀ n e, S.get n = some (.element e) →
    (e.fieldNames.map (fun m => x.snake m.name)).Nodup ∧ ∀ m ∈ e.fieldNames, x.snake m.name ∉ missedKeywords
  /-- the types of attributes can be converted to and from strings -/
  attrs : ∀ n e, S.get n = some (.element e) → ∀ a ∈ e.attributes, AttrTypeOK S a.content
  /-- the alternatives of a choice have different names, none is a keyword, none is a repeated group, and there is one -/
  choices : ∀ n vs b d, S.get n = some (.choice vs b d) → vs ≠ [] ∧ (vs.map (fun l => x.pascal l.name.name)).Nodup ∧
    ∀ l ∈ vs, x.pascal l.name.name ∉ rustKeywords ∧ ¬ (l.isVirtual = true ∧ l.repeats = true)
  /-- an enumeration has values, and no variant is a keyword -/
  enums : ∀ n vs, S.get n = some (.enum vs) → vs ≠ [] ∧ ∀ tab, escapeEnumNames x vs = .ok tab → ∀ p ∈ tab, p.1 ∉ rustKeywords
  /-- no type has itself inside -/
  sized : WellFounded (fun m n => HoldsA S n m)

/-- Laws of identifiers: they contain neither `#` nor a space, and in Pascal case the first letter is not a small one, so that `Self`
is the only keyword. -/
structure Ext.NameLaws (x : Ext) : Prop where
  chars : ∀ s, x.identOk s = true → '#' ∉ s ∧ ' ' ∉ s
  pascal : ∀ s, x.pascal s ∈ rustKeywords → x.pascal s = c!"Self"

end Xsd
