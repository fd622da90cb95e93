import Verif.Props.Annotations
import Verif.Props.DocsSample
/-!
# Concrete cases for C78
-/
namespace Xsd
namespace AnnSample
open SchemaSample DocsSample

/-- A schema document with these definitions. -/
def tSchema (start : Nat) (kids : List XNode) : XDoc where
  root := (⟨⟨c!"schema", some nsXsd⟩, [⟨c!"targetNamespace", none, c!"urn:t", start⟩, ⟨c!"elementFormDefault", none, c!"qualified", start⟩],
    [(some c!"xs", nsXsd), (some c!"t", c!"urn:t")], start⟩, kids)
  pos n := (n, n)

/-- A documented type, with documented elements, groups and attributes, indented. -/
def documented : XDoc := tSchema 7 [.text c!"\n", xe c!"complexType" [(c!"name", c!"A")] [
  note c!"A  type",
  xe c!"sequence" [] [.text c!"\n", note c!"The members",
    xe c!"element" [(c!"name", c!"age"), (c!"type", c!"xs:int")] [note c!"In years"],
    xe c!"sequence" [(c!"minOccurs", c!"0")] [note c!"Seldom",
      xe c!"element" [(c!"name", c!"kind")] [note c!"Which", xe c!"simpleType" [] [note c!"Kinds",
        xe c!"restriction" [(c!"base", c!"xs:string")] [xe c!"enumeration" [(c!"value", c!"dark")] [note c!"None"]]]]]],
  xe c!"attribute" [(c!"name", c!"lang"), (c!"type", c!"xs:string")] [note c!"A language"]]]

/-- The same without documentation. -/
def undocumented : XDoc := tSchema 1 [xe c!"complexType" [(c!"name", c!"A")] [
  xe c!"sequence" [] [
    xe c!"element" [(c!"name", c!"age"), (c!"type", c!"xs:int")] [], .other,
    xe c!"sequence" [(c!"minOccurs", c!"0")] [
      xe c!"element" [(c!"name", c!"kind")] [xe c!"simpleType" [] [
        xe c!"restriction" [(c!"base", c!"xs:string")] [xe c!"enumeration" [(c!"value", c!"dark")] []]]]]],
  xe c!"attribute" [(c!"name", c!"lang"), (c!"type", c!"xs:string")] []]]

/-- One file. -/
def oneFile (d : XDoc) : Files where
  read p := if p = c!"a.xsd" then some (.doc d) else none
  parent _ := []
  push _ l := l

theorem same_bare : Ann.bareFiles (oneFile documented) = Ann.bareFiles (oneFile undocumented) := by
  unfold Ann.bareFiles
  congr 1
  funext p
  show (if p = c!"a.xsd" then _ else _ : Option FileContent).map _ = (if p = c!"a.xsd" then _ else _ : Option FileContent).map _
  split
  · simp [Ann.bareFile, Ann.bareDoc, documented, undocumented, tSchema, xe, note, Ann.bareKids, Ann.placeless, Ann.placelessAttr]
  · rfl

/-- The roots of the schema. -/
def rootsOf (d : XDoc) : Option (List (Name × Root)) :=
  match parseFile sampleExt (oneFile d) 1 c!"a.xsd" with
  | .ok P => some P.context.elements
  | _ => none

/-- Both are accepted; what is read is different, -/
theorem documented_ok : (rootsOf documented).isSome ∧ (rootsOf undocumented).isSome ∧ rootsOf documented ≠ rootsOf undocumented ∧
    (rootsOf undocumented).map (fun rs => rs.map Prod.fst) = some [⟨c!"AKindData", .id 1⟩, ⟨c!"AKind", .id 1⟩, ⟨c!"A", .id 1⟩] := by decide +kernel

/-- and the code is the same. -/
example : ∃ P P', parseFile sampleExt (oneFile documented) 1 c!"a.xsd" = .ok P ∧ parseFile sampleExt (oneFile undocumented) 1 c!"a.xsd" = .ok P' ∧
    P ≠ P' ∧ generateAll sampleExt P.context = generateAll sampleExt P'.context := by
  obtain ⟨h1, h2, h3, _⟩ := documented_ok
  unfold rootsOf at h1 h2 h3
  cases hp : parseFile sampleExt (oneFile documented) 1 c!"a.xsd" with
  | ok P =>
    cases hp' : parseFile sampleExt (oneFile undocumented) 1 c!"a.xsd" with
    | ok P' =>
      refine ⟨P, P', rfl, rfl, ?_, (Ann.C78_code sampleExt same_bare 1 1 _ hp hp').1⟩
      rintro rfl
      rw [hp, hp'] at h3
      exact h3 rfl
    | err e => rw [hp'] at h2; cases h2
    | panic => rw [hp'] at h2; cases h2
    | diverge => rw [hp'] at h2; cases h2
  | err e => rw [hp] at h1; cases h1
  | panic => rw [hp] at h1; cases h1
  | diverge => rw [hp] at h1; cases h1

/-- There is code: three items. -/
example : (match parseFile sampleExt (oneFile documented) 1 c!"a.xsd" with
    | .ok P => (match generateAll sampleExt P.context with | .ok ds => ds.length | _ => 0)
    | _ => 0) = 3 := by decide +kernel

/-- `C78_toplevel`: an annotation of the schema itself. -/
example : parseFile sampleExt (oneFile (tSchema 1 [note c!"A schema"])) 1 c!"a.xsd" =
    .err (.xsd (.missingAttribute c!"name" c!"annotation" 0) c!"a.xsd" 0 0) := by decide +kernel

end AnnSample
end Xsd
