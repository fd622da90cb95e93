import Verif.Props.Particles
/-!
# A small schema, as nodes of the parser, for the examples
-/
namespace Xsd
namespace SchemaSample

/-- An XSD element. -/
def xe (n : Str) (attrs : List (Str × Str)) (kids : List XNode) : XNode :=
  .elem ⟨⟨n, some nsXsd⟩, attrs.map (fun p => ⟨p.1, none, p.2, 0⟩), [], 0⟩ kids

/-- An XSD element as a node of the parser. -/
def xn (n : Str) (attrs : List (Str × Str)) (kids : List XNode) : Nd :=
  ⟨⟨⟨n, some nsXsd⟩, attrs.map (fun p => ⟨p.1, none, p.2, 0⟩), [], 0⟩, kids, []⟩

/-- A context with the prefixes `xs` and `t`; the target namespace is `urn:t`. -/
def ctx : PCtx :=
  { roots := [], defaultNs := none, target := .id 1, docNss := [(c!"xs", nsXsd), (c!"t", c!"urn:t")], isQualified := true,
    nss := ⟨[(c!"urn:t", 1)], [(1, ⟨c!"urn:t", c!"ns1"⟩)]⟩, deps := [] }

/-- An enumeration. -/
def color : Nd := xn c!"simpleType" [] [xe c!"restriction" [(c!"base", c!"xs:string")]
  [xe c!"enumeration" [(c!"value", c!"red")] [], xe c!"enumeration" [(c!"value", c!"green")] []]]

example : parseSimpleType sampleExt color ctx = .ok (.enum [⟨c!"red", .none⟩, ⟨c!"green", .none⟩], ctx) := by decide +kernel

/-- Facets. -/
def code : Nd := xn c!"simpleType" [] [xe c!"restriction" [(c!"base", c!"xs:string")]
  [xe c!"minLength" [(c!"value", c!"2")] [], xe c!"maxLength" [(c!"value", c!"4")] []]]

example : parseSimpleType sampleExt code ctx = .ok (.leaf ⟨.literal .string, [.minLength 2, .maxLength 4], none⟩, ctx) := by
  decide +kernel

example : parseSimpleType sampleExt (xn c!"simpleType" [] [xe c!"restriction" [(c!"base", c!"t:Code")] []]) ctx =
    .err (.unsupportedAttributeValue c!"base" c!"t:Code" c!"restriction" 0) := by decide +kernel

/-- Attribute declarations. -/
def attrDecls : List Nd :=
  [xn c!"attribute" [(c!"name", c!"id"), (c!"type", c!"xs:int"), (c!"use", c!"required")] [],
   xn c!"attribute" [(c!"name", c!"old"), (c!"type", c!"xs:int"), (c!"use", c!"prohibited")] [],
   xn c!"attribute" [(c!"name", c!"lang"), (c!"type", c!"xs:string"), (c!"default", c!"en")] []]

example : parseAttributes sampleExt ⟨c!"Person", .id 1⟩ attrDecls ctx =
    .ok ([⟨⟨c!"id", .none⟩, .literal .int32, none, false, none⟩, ⟨⟨c!"lang", .none⟩, .literal .string, some c!"en", true, none⟩],
      ctx) := by decide +kernel

example : parseAttribute sampleExt
    (xn c!"attribute" [(c!"name", c!"id"), (c!"type", c!"xs:int"), (c!"use", c!"required"), (c!"default", c!"1")] [])
    ⟨c!"Person", .id 1⟩ ctx = .err (.unexpectedAttribute c!"default" c!"attribute" 0) := by decide +kernel

/-- A complex type with elements, an anonymous type, and a choice with a nested sequence. -/
def person : Nd := xn c!"complexType" []
  [xe c!"sequence" []
     [xe c!"element" [(c!"name", c!"name"), (c!"type", c!"xs:string")] [],
      xe c!"element" [(c!"name", c!"age"), (c!"type", c!"xs:int"), (c!"minOccurs", c!"0")] [],
      xe c!"choice" [(c!"maxOccurs", c!"unbounded")]
        [xe c!"element" [(c!"name", c!"mail"), (c!"type", c!"xs:string")] [],
         xe c!"sequence" []
           [xe c!"element" [(c!"name", c!"street"), (c!"type", c!"xs:string")] [],
            xe c!"element" [(c!"name", c!"city"), (c!"type", c!"t:City")] []]],
      xe c!"element" [(c!"name", c!"job")]
        [xe c!"complexType" [] [xe c!"sequence" [] [xe c!"element" [(c!"name", c!"title"), (c!"type", c!"xs:string")] []]]]],
   xe c!"attribute" [(c!"name", c!"id"), (c!"type", c!"xs:int"), (c!"use", c!"required")] []]

/-- Kinds of a result, to show results in short. -/
def leafNames : Root → List Str
  | .element ⟨_, some (.leaves ls), _, _⟩ => ls.map (fun l => l.name.name)
  | .choice ls _ _ => ls.map (fun l => l.name.name)
  | _ => []

/-- The result of parsing `person`. -/
def parsedPerson : Res XErr (Root × PCtx) := parseComplexType sampleExt 20 person ⟨c!"Person", .id 1⟩ ctx

example : (match parsedPerson with
    | .ok (r, s) => (leafNames r, s.roots.map (fun p => (p.1.name, leafNames p.2)))
    | _ => ([], [])) =
    ([c!"name", c!"age", c!"MailStreetCity", c!"job"],
     [(c!"PersonStreetCityVariant", [c!"street", c!"city"]),
      (c!"PersonMailStreetCity", [c!"mail", c!"StreetCity"]),
      (c!"PersonJobData", [c!"title"])]) := by decide +kernel

end SchemaSample
end Xsd
