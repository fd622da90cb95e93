import Verif.Props.SchemaSample
/-!
# Two schema files, one including the other, for the examples
-/
namespace Xsd
namespace SchemaSample

/-- A schema element: namespace declarations, attributes, children. -/
def schemaElem (nss : List (Option Str × Str)) (attrs : List (Str × Str)) (kids : List XNode) : Elem :=
  (⟨⟨c!"schema", some nsXsd⟩, attrs.map (fun p => ⟨p.1, none, p.2, 0⟩), nss, 0⟩, kids)

/-- A document; positions are rows. -/
def xdoc (e : Elem) : XDoc := ⟨e, fun n => (n, 1)⟩

/-- `main.xsd`: imports `types.xsd`, and has an element and a type that refer to it. -/
def mainDoc : XDoc := xdoc (schemaElem [(some c!"xs", nsXsd), (some c!"t", c!"urn:t"), (some c!"m", c!"urn:m")]
  [(c!"targetNamespace", c!"urn:m"), (c!"elementFormDefault", c!"qualified")]
  [xe c!"import" [(c!"schemaLocation", c!"types.xsd")] [],
   xe c!"element" [(c!"name", c!"order"), (c!"type", c!"m:Order")] [],
   xe c!"complexType" [(c!"name", c!"Order")]
     [xe c!"sequence" []
        [xe c!"element" [(c!"name", c!"to"), (c!"type", c!"t:City")] [],
         xe c!"element" [(c!"name", c!"note")] [xe c!"simpleType" [] [xe c!"restriction" [(c!"base", c!"xs:string")]
           [xe c!"enumeration" [(c!"value", c!"a")] [], xe c!"enumeration" [(c!"value", c!"b")] []]]]]]])

/-- `types.xsd`: another target namespace, unqualified. -/
def typesDoc : XDoc := xdoc (schemaElem [(some c!"xs", nsXsd), (some c!"u", c!"urn:t")] [(c!"targetNamespace", c!"urn:t")]
  [xe c!"complexType" [(c!"name", c!"City")]
     [xe c!"sequence" [] [xe c!"element" [(c!"name", c!"zip"), (c!"type", c!"xs:string")] []],
      xe c!"attribute" [(c!"name", c!"country"), (c!"type", c!"u:Country")] []],
   xe c!"simpleType" [(c!"name", c!"Country")] [xe c!"restriction" [(c!"base", c!"xs:string")]
     [xe c!"enumeration" [(c!"value", c!"de")] [], xe c!"enumeration" [(c!"value", c!"fr")] []]]])

/-- The two files, in one directory. -/
def files : Files where
  read p := if p = c!"main.xsd" then some (.doc mainDoc) else if p = c!"types.xsd" then some (.doc typesDoc) else none
  parent _ := []
  push _ l := l

/-- The schema. -/
def parsedFiles : Res SErr PSchema := parseFile sampleExt files 2 c!"main.xsd"

/-- The schema, when it was parsed. -/
def parsedSchema : PSchema := match parsedFiles with | .ok P => P | _ => ⟨⟨[], .none, false, .empty⟩, []⟩

example : parsedFiles = .ok parsedSchema := by decide +kernel

/-- The definitions and the table of the schema. -/
example : parsedSchema.context.elements.map Prod.fst =
    [⟨c!"City", .id 2⟩, ⟨c!"Country", .id 2⟩, ⟨c!"order", .id 1⟩, ⟨c!"OrderNoteData", .id 1⟩, ⟨c!"Order", .id 1⟩] ∧
    parsedSchema.context.target = .id 1 ∧ parsedSchema.context.namespaces.byUri = [(c!"urn:m", 1), (c!"urn:t", 2)] := by
  decide +kernel

/-- Its dependencies. -/
example : parsedSchema.deps =
    [(⟨c!"City", .id 2⟩, [⟨c!"Country", .id 2⟩]), (⟨c!"order", .id 1⟩, [⟨c!"Order", .id 1⟩]),
     (⟨c!"Order", .id 1⟩, [⟨c!"City", .id 2⟩, ⟨c!"OrderNoteData", .id 1⟩])] := by decide +kernel

end SchemaSample
end Xsd
