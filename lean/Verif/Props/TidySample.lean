import Verif.Props.Tidy
import Verif.Props.AgainSample
/-!
# Concrete cases for C81
-/
namespace Xsd
namespace TidySample
open SchemaSample Tidy

/-- An element of XML Schema at this place with these attributes. -/
def el (start : Nat) (name : Str) (attrs : List (Str × Option Str × Str)) (kids : List XNode) : XNode :=
  .elem ⟨⟨name, some nsXsd⟩, attrs.map (fun a => ⟨a.1, a.2.1, a.2.2, start⟩), [(some c!"xs", nsXsd), (some c!"t", c!"urn:t")], start⟩ kids

/-- An element of another language. -/
def foreign (name : Str) (kids : List XNode) : XNode := .elem ⟨⟨name, some c!"urn:doc"⟩, [⟨c!"name", none, c!"x", 0⟩, ⟨c!"name", none, c!"y", 0⟩], [], 0⟩ kids

/-- A schema document with these attributes of the root. -/
def doc (start : Nat) (attrs : List (Str × Option Str × Str)) (kids : List XNode) : XDoc where
  root := (⟨⟨c!"schema", some nsXsd⟩, attrs.map (fun a => ⟨a.1, a.2.1, a.2.2, start⟩), [(some c!"xs", nsXsd), (some c!"t", c!"urn:t")], start⟩, kids)
  pos n := (n, start)

/-- A schema with nothing but definitions. -/
def neat : XDoc :=
  doc 1 [(c!"targetNamespace", none, c!"urn:t"), (c!"elementFormDefault", none, c!"qualified")]
    [el 2 c!"complexType" [(c!"name", none, c!"City")]
       [el 3 c!"annotation" [] [el 4 c!"documentation" [] [.text c!"A city."]],
        el 5 c!"sequence" [] [el 6 c!"element" [(c!"name", none, c!"zip"), (c!"minOccurs", none, c!"0"), (c!"type", none, c!"xs:int")] []],
        el 7 c!"attribute" [(c!"name", none, c!"id"), (c!"type", none, c!"xs:string"), (c!"use", none, c!"required")] []],
     el 8 c!"element" [(c!"name", none, c!"home"), (c!"type", none, c!"t:City")] []]

/-- The same schema with the attributes in reverse, with comments and with elements and attributes of another language. -/
def messy : XDoc :=
  doc 100 [(c!"elementFormDefault", none, c!"qualified"), (c!"author", some c!"urn:doc", c!"me"), (c!"targetNamespace", none, c!"urn:t")]
    [.text c!" ", .other, foreign c!"element" [el 101 c!"element" [] []],
     el 102 c!"complexType" [(c!"name", none, c!"City"), (c!"table", some c!"urn:doc", c!"CITY")]
       [.text c!" ", foreign c!"sequence" [],
        el 103 c!"annotation" [] [.other, el 104 c!"documentation" [(c!"status", some c!"urn:doc", c!"new")] [.text c!"A city.", foreign c!"b" [], .text c!"!"]],
        el 105 c!"sequence" [] [.text c!"?", foreign c!"element" [],
          el 106 c!"element" [(c!"type", none, c!"xs:int"), (c!"minOccurs", none, c!"0"), (c!"name", none, c!"zip")] [foreign c!"complexType" []]],
        el 107 c!"attribute" [(c!"use", none, c!"required"), (c!"column", some c!"urn:doc", c!"ID"), (c!"type", none, c!"xs:string"), (c!"name", none, c!"id")] []],
     el 108 c!"element" [(c!"type", none, c!"t:City"), (c!"name", none, c!"home")] [], .other]

/-- The order of the document. -/
def inOrder : Order := ⟨plainAttrs, fun _ => .refl _⟩

/-- The reverse order. -/
def backwards : Order := ⟨fun i => (plainAttrs i).reverse, fun _ => List.reverse_perm _⟩

/-- One file. -/
def only (d : XDoc) : Files where
  read p := if p = c!"a.xsd" then some (.doc d) else none
  parent _ := []
  push _ l := l

theorem tidied : tidyFiles (fun _ => backwards) (only neat) = tidyFiles (fun _ => inOrder) (only messy) := by
  have h : tidyDoc backwards neat = tidyDoc inOrder messy := by
    simp only [tidyDoc, neat, messy, doc, el, foreign, tidyKids]
    rfl
  unfold tidyFiles
  have : (fun p => ((only neat).read p).map (tidyFile backwards)) = fun p => ((only messy).read p).map (tidyFile inOrder) := by
    funext p
    show (if p = c!"a.xsd" then _ else _ : Option FileContent).map _ = (if p = c!"a.xsd" then _ else _ : Option FileContent).map _
    split
    · exact congrArg (fun d => some (FileContent.doc d)) h
    · rfl
  simp only [this]
  rfl

/-- Whether the element is clear. -/
def isClear (i : ElemInfo) : Bool :=
  decide ((plainAttrs i).map XAttr.loc).Nodup && i.attrs.all fun a => decide (a.ns = none) || (decide (a.loc ∉ known) && (plainAttrs i).all fun b => decide (b.loc ≠ a.loc))

theorem clear_of {i : ElemInfo} (h : isClear i = true) : Clear i := by
  unfold isClear at h
  rw [Bool.and_eq_true, decide_eq_true_eq, List.all_eq_true] at h
  refine ⟨h.1, fun a ha hn => ?_⟩
  have := h.2 a ha
  rw [Bool.or_eq_true, decide_eq_true_eq, Bool.and_eq_true, decide_eq_true_eq, List.all_eq_true] at this
  rcases this with h' | h'
  · exact absurd h' hn
  · exact ⟨h'.1, fun b hb => of_decide_eq_true (h'.2 b hb)⟩

theorem clear_only {d : XDoc} (h : (isClear d.root.1 && (schemaInfos d.root.2).all isClear) = true) : ClearFiles (only d) := by
  rw [Bool.and_eq_true, List.all_eq_true] at h
  intro p e he
  have he : (if p = c!"a.xsd" then some (FileContent.doc d) else none) = some (.doc e) := he
  split at he
  · cases he
    exact ⟨clear_of h.1, fun i hi => clear_of (h.2 i hi)⟩
  · cases he

theorem clear_neat : ClearFiles (only neat) := by
  refine clear_only ?_
  simp only [neat, doc, el, schemaInfos]
  decide +kernel

theorem clear_messy : ClearFiles (only messy) := by
  refine clear_only ?_
  simp only [messy, doc, el, foreign, schemaInfos]
  decide +kernel

/-- The schema in the file. -/
def schemaIn (d : XDoc) : Option PSchema :=
  match parseFile sampleExt (only d) 1 c!"a.xsd" with
  | .ok P => some P
  | _ => none

/-- The schema is accepted, so C81 says something about it. -/
example : ∃ P, parseFile sampleExt (only messy) 1 c!"a.xsd" = .ok P ∧ parseFile sampleExt (only neat) 1 c!"a.xsd" = .ok P ∧
    P.context.elements.map Prod.fst = [⟨c!"City", .id 1⟩, ⟨c!"home", .id 1⟩] := by
  have h : (schemaIn neat).map (fun P => P.context.elements.map Prod.fst) = some [⟨c!"City", .id 1⟩, ⟨c!"home", .id 1⟩] := by decide +kernel
  unfold schemaIn at h
  cases hp : parseFile sampleExt (only neat) 1 c!"a.xsd" with
  | ok P =>
    rw [hp] at h
    exact ⟨P, (C81 sampleExt clear_neat clear_messy tidied 1 _ P).2 hp, rfl, Option.some.inj h⟩
  | err e => rw [hp] at h; cases h
  | panic => rw [hp] at h; cases h
  | diverge => rw [hp] at h; cases h

/-- A definition with an attribute of another language. -/
def annotated (name : Str) : XDoc :=
  doc 1 [(c!"targetNamespace", none, c!"urn:t")] [el 8 c!"element" [(c!"name", none, c!"home"), (c!"type", none, c!"xs:int"), (name, some c!"urn:doc", c!"xs:string")] []]

/-- Attributes of other languages do matter if they are named like those of XML Schema. -/
theorem C81_named_false : tidyFiles (fun _ => inOrder) (only (annotated c!"type")) = tidyFiles (fun _ => inOrder) (only (annotated c!"kind")) ∧
    schemaIn (annotated c!"type") ≠ schemaIn (annotated c!"kind") ∧ (schemaIn (annotated c!"type")).isSome = true := by
  refine ⟨?_, by decide +kernel, by decide +kernel⟩
  have h : tidyDoc inOrder (annotated c!"type") = tidyDoc inOrder (annotated c!"kind") := by
    simp only [tidyDoc, annotated, doc, el, tidyKids]
    rfl
  unfold tidyFiles
  have : (fun p => ((only (annotated c!"type")).read p).map (tidyFile inOrder)) = fun p => ((only (annotated c!"kind")).read p).map (tidyFile inOrder) := by
    funext p
    show (if p = c!"a.xsd" then _ else _ : Option FileContent).map _ = (if p = c!"a.xsd" then _ else _ : Option FileContent).map _
    split
    · exact congrArg (fun d => some (FileContent.doc d)) h
    · rfl
  simp only [this]
  rfl

end TidySample
end Xsd
