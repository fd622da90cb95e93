import Verif.Model.Codegen
/-!
# The documentation attributes in generated code
-/
namespace Xsd

/-- `.filter(|docs| !docs.is_empty())`: the text of the `#[doc = …]` attribute, if there is one (ast/leaf.rs:59-65,
ast/attribute.rs:24-29, ast/element_content.rs:20-25, xsd/schema.rs:223-227). -/
def docAttr : Option Str → Option Str
  | some (c :: cs) => some (c :: cs)
  | _ => none

/-- `Root::docs` (ast/root.rs:43-50). -/
def Root.docs : Root → Option Str
  | .leaf d => d.docs
  | .enum _ => none
  | .element d => d.docs
  | .choice _ _ docs => docs

/-- The `#[doc]` of the fields for the content: `ElementContent::to_impl` (ast/element_content.rs:16-37) and
`Leaf::to_impl` (ast/leaf.rs:50-70). -/
def contentDocs : Option ElementContent → List (Option Str)
  | none => []
  | some (.leaf _ d) => [docAttr d.docs]
  | some (.leaves ls) => ls.map (fun l => docAttr l.definition.docs)

/-- The `#[doc]` of the fields or variants of a declaration, in the order of the declaration: `Root::to_declaration`
(ast/root.rs:52-151), `ElementDefinition::to_impl` (ast/element_definition.rs:25-34), `Attribute::to_impl`
(ast/attribute.rs:18-34). The variants of an enumeration are in hash order and have none, so only their number matters. -/
def Root.fieldDocs : Root → List (Option Str)
  | .leaf _ => [none]
  | .enum ns => ns.map (fun _ => none)
  | .element d => contentDocs d.content ++ d.attributes.map (fun a => docAttr a.docs)
  | .choice vs _ _ => vs.map (fun _ => none)

/-- The `#[doc]` of the item generated for a definition (`Schema::generate_element`, xsd/schema.rs:223-231). -/
def Root.itemDoc (r : Root) : Option Str := docAttr r.docs

end Xsd
