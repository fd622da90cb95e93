import Verif.Props.Literals
import Verif.Spec.Det
import Verif.Spec.Api
/-!
# A concrete schema, for non-vacuity examples

The AST that the parser builds for

    <xs:schema targetNamespace="urn:a" elementFormDefault="qualified">
      <xs:simpleType name="Lang"> enumeration en, de </xs:simpleType>
      <xs:simpleType name="Text"> restriction of xs:string </xs:simpleType>
      <xs:complexType name="User"><xs:sequence>
        <xs:element name="name" type="xs:string"/> <xs:element name="age" type="xs:int" minOccurs="0"/>
      </xs:sequence></xs:complexType>
      <xs:element name="Article"><xs:complexType>
        <xs:sequence>
          <xs:element name="title" type="a:Text"/>
          <xs:element name="tag" type="xs:string" minOccurs="0" maxOccurs="unbounded"/>
          <xs:choice minOccurs="0">
            <xs:element name="user" type="a:User"/> <xs:element name="bot" type="xs:string"/>
          </xs:choice>
          <xs:element name="kind" fixed="news"/>
        </xs:sequence>
        <xs:attribute name="id" type="xs:nonNegativeInteger" use="required"/>
        <xs:attribute name="lang" type="a:Lang"/>
      </xs:complexType></xs:element>
    </xs:schema>
-/
namespace Xsd

/-- Decidable form of `Closed`. -/
def closedB (S : SchemaContext) : Bool :=
  S.elements.all (fun p => p.2.contents.all (fun c =>
    match inlined S c with
    | .ok (.named n) => (S.get n).isSome
    | .ok _ => true
    | _ => false))

theorem closedB_sound {S : SchemaContext} (h : closedB S = true) : Closed S := by
  intro p hp c hc n hm
  have h := List.all_eq_true.1 (List.all_eq_true.1 h p hp) c hc
  split at h
  · next m hi => have := (inlined_means hi).functional hm; cases this; exact h
  · next c' hne hi => exact absurd ((inlined_means hi).functional hm) (hne n)
  · cases h

/-- The generated module, `[]` if generation fails. -/
def moduleOf (x : Ext) (S : SchemaContext) : List TypeDef :=
  match generateAll x S with
  | .ok P => P
  | _ => []

def generatesB (x : Ext) (S : SchemaContext) : Bool :=
  (match generateAll x S with | .ok _ => true | _ => false) &&
    decide (((moduleOf x S).map TypeDef.ident).Nodup) && closedB S

theorem generatesB_sound {x : Ext} {S : SchemaContext} (h : generatesB x S = true) :
    Generated x S (moduleOf x S) := by
  simp only [generatesB, Bool.and_eq_true, decide_eq_true_eq] at h
  obtain ⟨⟨h1, h2⟩, h3⟩ := h
  refine ⟨?_, h2, closedB_sound h3⟩
  unfold moduleOf
  split at h1
  · next P hP => rw [hP]
  · cases h1

namespace Sample

/-- A name in the target namespace. -/
def nm (s : Str) : Name := ⟨s, .id 1⟩

def leaf (s : Str) (c : LeafContent) (mn : Nat) (mx : MaxOccurs) (virt : Bool := false) : Leaf :=
  ⟨nm s, ⟨c, [], none⟩, false, virt, mn, mx⟩

/-- Namespace table with the target namespace `urn:a`. -/
def nss : Namespaces := (Namespaces.empty.getOrInsert c!"urn:a").2

def article : Root := .element
  ⟨[⟨⟨c!"id", .none⟩, .literal .uint64, none, false, none⟩, ⟨⟨c!"lang", .none⟩, .named (nm c!"Lang"), none, true, none⟩],
   some (.leaves [leaf c!"title" (.named (nm c!"Text")) 1 (.number 1), leaf c!"tag" (.literal .string) 0 .unbounded,
     leaf c!"author" (.named (nm c!"ArticleAuthor")) 0 (.number 1) true, leaf c!"kind" (.fixed c!"news") 1 (.number 1)]),
   false, none⟩

def sch : SchemaContext where
  elements :=
    [(nm c!"Lang", .enum [nm c!"en", nm c!"de"]),
     (nm c!"Text", .leaf ⟨.literal .string, [], none⟩),
     (nm c!"User", .element ⟨[], some (.leaves [leaf c!"name" (.literal .string) 1 (.number 1),
        leaf c!"age" (.literal .int32) 0 (.number 1)]), false, none⟩),
     (nm c!"ArticleAuthor", .choice [leaf c!"user" (.named (nm c!"User")) 1 (.number 1),
        leaf c!"bot" (.literal .string) 1 (.number 1)] true none),
     (nm c!"Article", article)]
  target := .id 1
  isQualified := true
  namespaces := nss

def pgm : List TypeDef := moduleOf sampleExt sch

theorem generated : Generated sampleExt sch pgm := generatesB_sound (by decide +kernel)

def q (s : Str) : QName := ⟨s, some c!"urn:a"⟩

def el (s : Str) (cs : List XNode) (as : List XAttr := []) : XNode := .elem ⟨q s, as, [], 0⟩ cs
def at' (n v : Str) : XAttr := ⟨n, none, v, 0⟩

/-- A document of the schema. -/
def doc : Elem := (⟨q c!"Article", [at' c!"id" c!"7", at' c!"lang" c!"de"], [], 0⟩,
  [el c!"title" [.text c!"Hi"], el c!"tag" [.text c!"a"], el c!"tag" [],
   el c!"user" [el c!"name" [.text c!"Bo"], el c!"age" [.text c!"-3"]], el c!"kind" [.text c!"news"]])

/-- Its value. -/
def val : Val := .struct
  [(c!"title", .str c!"Hi"), (c!"tag", .some (.vec [.str c!"a", .str []])),
   (c!"author", .some (.variant c!"User" (.struct [(c!"name", .str c!"Bo"), (c!"age", .some (.int (-3)))]))),
   (c!"kind", .unit), (c!"id", .int 7), (c!"lang", .some (.enumv c!"De"))]

theorem doc_decodes : FromXml sampleExt pgm c!"Article" ⟨doc⟩ (.ok val) :=
  ⟨(by intro h; cases h), 9, by rfl⟩

theorem deterministic : Deterministic sampleExt sch := ⟨Cert.compute sampleExt sch, by decide +kernel⟩

end Sample

end Xsd
