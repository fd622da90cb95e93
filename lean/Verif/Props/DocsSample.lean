import Verif.Props.Docs
import Verif.Props.SchemaSample
/-!
# Cases for the theorems about documentation (C42, C62)
-/
namespace Xsd
namespace DocsSample
open SchemaSample

/-- `<xs:annotation><xs:documentation>…</xs:documentation></xs:annotation>`. -/
def note (t : Str) : XNode := xe c!"annotation" [] [xe c!"documentation" [] [.text t]]

/-- The annotation is a child of the declaration. -/
theorem note_text (n : Str) (attrs : List (Str × Str)) (t : Str) (kids : List XNode) : DocText (xn n attrs (note t :: kids)) t := by
  refine ⟨xn c!"annotation" [] [xe c!"documentation" [] [.text t]], xn c!"documentation" [] [.text t], [],
    ⟨[], (xn n attrs kids).xsdKids, ?_, rfl, by simp⟩, ⟨[], [], rfl, rfl, by simp⟩, rfl⟩
  rfl

/-- A documented type with a documented element, an element with an empty documentation, a reference, and a documented attribute. -/
def citizen : Nd := xn c!"complexType" []
  [note c!" A\n  person. ",
   xe c!"sequence" [] [
     xe c!"element" [(c!"name", c!"age"), (c!"type", c!"xs:int")] [note c!"In\tyears"],
     xe c!"element" [(c!"name", c!"size"), (c!"type", c!"xs:int")] [note c!"  "],
     xe c!"element" [(c!"ref", c!"t:b")] []],
   xe c!"attribute" [(c!"name", c!"lang"), (c!"type", c!"xs:string")] [note c!"A  language"]]

/-- The definition for it. -/
def citizenRoot : Root := .element
  ⟨[⟨⟨c!"lang", .none⟩, .literal .string, none, true, some c!"A language"⟩],
   some (.leaves [⟨⟨c!"age", .id 1⟩, ⟨.literal .int32, [], some c!"In years"⟩, false, false, 1, .number 1⟩,
     ⟨⟨c!"size", .id 1⟩, ⟨.literal .int32, [], some []⟩, false, false, 1, .number 1⟩,
     ⟨⟨c!"b", .id 1⟩, ⟨.named ⟨c!"b", .id 1⟩, [], none⟩, false, false, 1, .number 1⟩]), false, some c!"A person."⟩

/-- `C62_complexType` and `C62_partial`. -/
theorem citizen_parsed : ∃ s', parseRoot sampleExt 9 citizen ⟨c!"Person", .id 1⟩ ctx = .ok (citizenRoot, s') := ⟨_, rfl⟩

/-- The attributes on the item and on its fields. -/
theorem citizen_docs : citizenRoot.itemDoc = some c!"A person." ∧
    citizenRoot.fieldDocs = [some c!"In years", none, none, some c!"A language"] := by decide +kernel

example : DocShown sampleExt citizen (some c!"A person.") := by
  obtain ⟨s', h⟩ := citizen_parsed
  rcases C62_partial sampleExt 9 citizen _ ctx s' citizenRoot h (by nofun) with h | ⟨h, _⟩
  · exact h
  · exact absurd h (by decide)

/-- `C38_complexType`. -/
example : ∃ s', parseComplexType sampleExt 8 citizen ⟨c!"Person", .id 1⟩ ctx = .ok (citizenRoot, s') ∧ citizen.attrDecls.length = 1 :=
  ⟨_, rfl, rfl⟩

/-- `C42_annotation`. -/
example : parseAnnotation sampleExt (citizen.child c!"annotation") = .ok (some c!"A person.") := by decide +kernel

/-- A documented enumeration. -/
def shade : Nd := xn c!"simpleType" []
  [note c!"A shade", xe c!"restriction" [(c!"base", c!"xs:string")] [xe c!"enumeration" [(c!"value", c!"dark")] []]]

/-- A choice with a documented alternative. -/
def pet : Nd := xn c!"complexType" []
  [xe c!"choice" [] [xe c!"element" [(c!"name", c!"dog"), (c!"type", c!"xs:string")] [note c!"A pet"]]]

end DocsSample

open DocsSample SchemaSample in
/-- C62 is false: the documentation of an enumeration is dropped. -/
theorem C62_false : ∃ (nd : Nd) (s' : PCtx) (r : Root), parseRoot sampleExt 9 nd ⟨c!"Shade", .id 1⟩ ctx = .ok (r, s') ∧
    DocText nd c!"A shade" ∧ r.itemDoc = none := by
  refine ⟨shade, _, .enum [⟨c!"dark", .none⟩], rfl, note_text _ _ _ _, rfl⟩

open DocsSample SchemaSample in
/-- C62 is false: the documentation of the alternatives of a choice is dropped. -/
theorem C62_variants_false : ∃ (nd c : Nd) (s' : PCtx) (r q : Root) (n : Name),
    parseRoot sampleExt 9 nd ⟨c!"Pet", .id 1⟩ ctx = .ok (r, s') ∧ nd.xsdKids = [c] ∧ c.name = c!"choice" ∧
    (∀ a ∈ c.particles, DocText a c!"A pet") ∧ c.particles.length = 1 ∧ alookup s'.roots n = some q ∧ q.fieldDocs = [none] := by
  refine ⟨pet, xn c!"choice" [] [xe c!"element" [(c!"name", c!"dog"), (c!"type", c!"xs:string")] [note c!"A pet"]], _, _,
    .choice [⟨⟨c!"dog", .id 1⟩, ⟨.literal .string, [], some c!"A pet"⟩, false, false, 1, .number 1⟩] false none,
    ⟨c!"PetData", .id 1⟩, rfl, rfl, rfl, ?_, rfl, rfl, rfl⟩
  intro a ha
  obtain rfl := List.mem_singleton.1 (show a ∈ [xn c!"element" [(c!"name", c!"dog"), (c!"type", c!"xs:string")] [note c!"A pet"]] from ha)
  exact note_text _ _ _ _

end Xsd
