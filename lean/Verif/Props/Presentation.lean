import Verif.Lemmas.PresentationParse
import Verif.Props.SchemaTextSample
/-!
# C71: what is generated does not depend on how a schema is written down
-/
namespace Xsd
namespace Pres

theorem SameXErr.refl (e : XErr) : SameXErr e e := by cases e <;> constructor

theorem SameErr.refl (e : SErr) : SameErr e e := by
  cases e with
  | xsd e f r c => exact .xsd (.refl e) f r c r c
  | openFile f => exact .openFile f
  | notFound n => exact .notFound n

theorem Agree.same {α : Type} {r r' : Res SErr α} (h : Agree Eq r r') : SameOutcome r r' := by
  cases h with
  | ok h => subst h; exact .ok _
  | err h => exact .err h
  | panic => exact .panic
  | diverge => exact .diverge

/-- C71: if two sets of files say the same, then `Schema::parse_file` returns the same schema for both, or fails for both, with
errors of the same kind that name the same file and the same things. The files may differ in their prefixes, the order of attributes, comments, white space, foreign elements and attributes, and
positions. Missing: a default namespace other than that of schemas, declarations of namespaces below the root, and foreign attributes
with the name of a schema attribute; see `C71_default_false`, `C71_nested_false` and `C52_false`. -/
theorem C71_partial (x : Ext) (F F' : Files) (hparent : F.parent = F'.parent) (hpush : F.push = F'.push)
    (hsame : ∀ p, SameFile (F.read p) (F'.read p)) (hF : ∀ p d, F.read p = some (.doc d) → PlainDoc d)
    (hF' : ∀ p d, F'.read p = some (.doc d) → PlainDoc d) (k : Nat) (path : Str) :
    SameOutcome (parseFile x F k path) (parseFile x F' k path) :=
  (file_agree x hparent hpush hsame hF hF' k path _ _).same

/-- C71 for the generated code: it is the same, or there is none for both, with errors that say the same. -/
theorem C71_code_partial (x : Ext) (F F' : Files) (hparent : F.parent = F'.parent) (hpush : F.push = F'.push)
    (hsame : ∀ p, SameFile (F.read p) (F'.read p)) (hF : ∀ p d, F.read p = some (.doc d) → PlainDoc d)
    (hF' : ∀ p d, F'.read p = some (.doc d) → PlainDoc d) (k : Nat) (path : Str) (n : Name) (already : List Name) :
    SameOutcome (do let S ← parseFile x F k path; generateWithDeps x S n already)
      (do let S ← parseFile x F' k path; generateWithDeps x S n already) := by
  have h := C71_partial x F F' hparent hpush hsame hF hF' k path
  revert h
  generalize parseFile x F k path = r
  generalize parseFile x F' k path = r'
  intro h
  cases h with
  | ok S =>
    show SameOutcome (generateWithDeps x S n already) (generateWithDeps x S n already)
    cases generateWithDeps x S n already with
    | ok a => exact .ok a
    | err e => exact .err (.refl e)
    | panic => exact .panic
    | diverge => exact .diverge
  | err h => exact .err h
  | panic => exact .panic
  | diverge => exact .diverge

/-! ## Checking that documents say the same -/

/-- `SameValue`, as a check. -/
def sameValueB (nss nss' : List (Option Str × Str)) (n : Str) : Option Str → Option Str → Bool
  | none, none => true
  | some v, some v' => if n ∈ refAttrs then decide (meaning nss v = meaning nss' v') else decide (v = v')
  | _, _ => false

/-- `SameTag`, as a check. -/
def sameTagB (i i' : ElemInfo) : Bool :=
  decide (i.name = i'.name) && decide ((i.nss.map Prod.fst).Nodup) && decide ((i'.nss.map Prod.fst).Nodup) &&
    (i.attrs ++ i'.attrs).all (fun a => sameValueB i.nss i'.nss a.loc (attrOf i a.loc) (attrOf i' a.loc))

theorem attrOf_none {i : ElemInfo} {n : Str} (h : ∀ a ∈ i.attrs, a.loc ≠ n) : attrOf i n = none := by
  unfold attrOf
  rw [Option.map_eq_none_iff, List.find?_eq_none]
  intro a ha hp
  exact h a ha (of_decide_eq_true hp).2

theorem sameTagB_sound {i i' : ElemInfo} (h : sameTagB i i' = true) : SameTag i i' := by
  unfold sameTagB at h
  simp only [Bool.and_eq_true, decide_eq_true_eq, List.all_eq_true] at h
  obtain ⟨⟨⟨h1, h2⟩, h3⟩, h4⟩ := h
  refine ⟨h1, fun n => ?_⟩
  by_cases hn : ∃ a ∈ i.attrs ++ i'.attrs, a.loc = n
  · obtain ⟨a, ha, rfl⟩ := hn
    have := h4 a ha
    revert this
    generalize attrOf i a.loc = o
    generalize attrOf i' a.loc = o'
    intro this
    cases o <;> cases o'
    · trivial
    · cases this
    · cases this
    · rename_i v v'
      simp only [sameValueB] at this
      refine ⟨fun hr => ?_, fun hr => ?_⟩
      · rw [if_pos hr] at this
        have := of_decide_eq_true this
        intro q
        rw [means_iff h2, means_iff h3, this]
      · rw [if_neg hr] at this
        exact of_decide_eq_true this
  · rw [attrOf_none fun a ha he => hn ⟨a, List.mem_append_left _ ha, he⟩, attrOf_none fun a ha he => hn ⟨a, List.mem_append_right _ ha, he⟩]
    trivial

/-- `All2`, as a check. -/
def all2B {α β : Type} (r : α → β → Bool) : List α → List β → Bool
  | [], [] => true
  | a :: as, b :: bs => r a b && all2B r as bs
  | _, _ => false

theorem all2B_sound {α β : Type} {r : α → β → Bool} {R : α → β → Prop} (hr : ∀ a b, r a b = true → R a b) :
    ∀ {as : List α} {bs : List β}, all2B r as bs = true → All2 R as bs
  | [], [], _ => .nil
  | a :: as, b :: bs, h => by
    unfold all2B at h
    rw [Bool.and_eq_true] at h
    exact .cons (hr a b h.1) (all2B_sound hr h.2)
  | [], b :: bs, h => by cases h
  | a :: as, [], h => by cases h

/-- `SameElem`, as a check to a depth. -/
def sameElemB : Nat → Elem → Elem → Bool
  | 0, _, _ => false
  | k + 1, e, e' => sameTagB e.1 e'.1 && (decide (e.1.name ≠ ⟨c!"documentation", some nsXsd⟩) || decide (leadingText e.2 = leadingText e'.2)) &&
    all2B (sameElemB k) (xsdElems e.2) (xsdElems e'.2)

theorem sameElemB_sound : ∀ {k : Nat} {e e' : Elem}, sameElemB k e e' = true → SameElem e e'
  | k + 1, (i, cs), (i', cs'), h => by
    unfold sameElemB at h
    simp only [Bool.and_eq_true, Bool.or_eq_true, decide_eq_true_eq] at h
    obtain ⟨⟨h1, h2⟩, h3⟩ := h
    exact .mk (sameTagB_sound h1) (fun hd => h2.resolve_left fun hn => hn hd) (all2B_sound (fun a b hab => sameElemB_sound hab) h3)

/-- `PlainElem`, as a check to a depth. -/
def plainElemB (D : List (Option Str × Str)) : Nat → Elem → Bool
  | 0, _ => false
  | k + 1, e => e.1.attrs.all (fun a => e.1.attrs.all (fun b => decide (a.loc = b.loc → a.ns = b.ns → a = b))) &&
    e.1.attrs.all (fun a => decide (a.ns = none) || (decide (a.loc ∉ schemaAttrs) && e.1.attrs.all (fun b => decide (b.ns = none → b.loc ≠ a.loc)))) &&
    decide (e.1.nss = D) && (xsdElems e.2).all (plainElemB D k)

theorem plainElemB_sound {D : List (Option Str × Str)} : ∀ {k : Nat} {e : Elem}, plainElemB D k e = true → PlainElem D e
  | k + 1, (i, cs), h => by
    unfold plainElemB at h
    simp only [Bool.and_eq_true, Bool.or_eq_true, decide_eq_true_eq, List.all_eq_true] at h
    obtain ⟨⟨⟨h1, h2⟩, h3⟩, h4⟩ := h
    exact .mk ⟨h1, fun a ha hn => (h2 a ha).resolve_left hn⟩ h3 fun e he => plainElemB_sound (h4 e he)

/-- `PlainDoc`, as a check to a depth. -/
def plainDocB (k : Nat) (e : Elem) : Bool :=
  decide ((e.1.nss.map Prod.fst).Nodup) && e.1.nss.all (fun p => decide (p.1 = none → p.2 = nsXsd)) && plainElemB e.1.nss k e

theorem plainDocB_sound {k : Nat} {d : XDoc} (h : plainDocB k d.root = true) : PlainDoc d := by
  unfold plainDocB at h
  simp only [Bool.and_eq_true, decide_eq_true_eq, List.all_eq_true] at h
  exact ⟨⟨h.1.1, fun u hu => h.1.2 _ hu rfl⟩, plainElemB_sound h.2⟩

end Pres

namespace PresSample
open Pres

/-- A schema with the prefixes `xs` and `t`. -/
def text1 : Str := c!"<xs:schema xmlns:xs=\"http://www.w3.org/2001/XMLSchema\" xmlns:t=\"urn:t\" targetNamespace=\"urn:t\">
  <xs:complexType name=\"A\">
    <xs:annotation><xs:documentation>An A</xs:documentation></xs:annotation>
    <xs:sequence>
      <xs:element name=\"b\" type=\"t:B\" minOccurs=\"0\"/>
      <xs:element name=\"c\" type=\"xs:int\"/>
    </xs:sequence>
  </xs:complexType>
  <xs:simpleType name=\"B\"><xs:restriction base=\"xs:string\"/></xs:simpleType>
</xs:schema>"

/-- The same schema: schemas have the default namespace, the prefix is `me`, with comments, foreign elements and attributes, and
attributes in another order. -/
def text2 : Str := c!"<?xml version=\"1.0\"?><!-- A and B -->
<schema targetNamespace='urn:t' xmlns:me='urn:t' xmlns='http://www.w3.org/2001/XMLSchema' xmlns:f='urn:f' f:by='me'>
<f:note><f:deep><f:deeper/></f:deep></f:note>
<complexType name='A'><annotation><documentation>An A</documentation></annotation><sequence>
<!-- optional --><element minOccurs='0' f:x='1' type='me:B' name='b'/><element type='int' name='c'/>
</sequence></complexType>
<simpleType name='B'> <restriction base='string'/> </simpleType></schema>"

/-- One file. -/
def file (t : Str) : TextFiles where
  read p := if p = c!"a.xsd" then some t else none
  parent _ := []
  push _ l := l
  err _ := (1, 1)

/-- The roots of the schema. -/
def rootsOf (t : Str) : Option (List (Name × Root)) :=
  match parseFile sampleExt (file t).files 1 c!"a.xsd" with
  | .ok S => some S.context.elements
  | _ => none

/-- The check for two texts. -/
def sameTextB (t t' : Str) : Bool :=
  match XmlText.readXmlAt t, XmlText.readXmlAt t' with
  | some e, some e' => sameElemB 9 e e'
  | _, _ => false

/-- The check for a text. -/
def plainTextB (t : Str) : Bool :=
  match XmlText.readXmlAt t with
  | some e => plainDocB 9 e
  | none => false

theorem sameText_sound {t t' : Str} (h : sameTextB t t' = true) (p : Str) : SameFile ((file t).files.read p) ((file t').files.read p) := by
  show SameFile ((if p = c!"a.xsd" then some t else none).map _) ((if p = c!"a.xsd" then some t' else none).map _)
  split
  · simp only [Option.map_some]
    unfold sameTextB at h
    unfold fileContent
    split at h
    · rename_i e e' h1 h2
      rw [h1, h2]
      exact .doc (sameElemB_sound h)
    · cases h
  · exact .missing

theorem plainText_sound {t : Str} (h : plainTextB t = true) {p : Str} {d : XDoc} (hd : (file t).files.read p = some (.doc d)) : PlainDoc d := by
  replace hd : (if p = c!"a.xsd" then some t else none).map (fileContent (file t).err) = some (.doc d) := hd
  split at hd
  · rw [Option.map_some] at hd
    unfold plainTextB at h
    unfold fileContent at hd
    split at h
    · rename_i e h1
      rw [h1] at hd
      cases hd
      exact plainDocB_sound h
    · cases h
  · cases hd

set_option maxRecDepth 100000 in
theorem texts_same : sameTextB text1 text2 = true := by decide +kernel
theorem text1_plain : plainTextB text1 = true := by decide +kernel
set_option maxRecDepth 100000 in
theorem text2_plain : plainTextB text2 = true := by decide +kernel

set_option maxRecDepth 100000 in
/-- The two texts meet the hypotheses of C71, -/
example (k : Nat) (path : Str) : SameOutcome (parseFile sampleExt (file text1).files k path) (parseFile sampleExt (file text2).files k path) :=
  C71_partial sampleExt (file text1).files (file text2).files rfl rfl (sameText_sound texts_same) (fun _ _ h => plainText_sound text1_plain h)
    (fun _ _ h => plainText_sound text2_plain h) k path

set_option maxRecDepth 100000 in
/-- and are accepted, with two definitions. -/
example : (rootsOf text2).map (fun rs => rs.map Prod.fst) = some [⟨c!"A", .id 1⟩, ⟨c!"B", .id 1⟩] := by decide +kernel

/-- A schema with a value that is not supported, -/
def wrong1 : Str := c!"<xs:schema xmlns:xs=\"http://www.w3.org/2001/XMLSchema\" xmlns:t=\"urn:t\">
<xs:complexType name=\"A\" mixed=\"true\" id=\"a\"/></xs:schema>"

/-- and the same written another way. -/
def wrong2 : Str := c!"<schema xmlns=\"http://www.w3.org/2001/XMLSchema\">

<!-- A --><complexType id=\"a\" mixed=\"true\" name=\"A\"/></schema>"

/-- The error. -/
def errorOf (t : Str) : Option SErr :=
  match parseFile sampleExt (file t).files 1 c!"a.xsd" with
  | .err e => some e
  | _ => none

set_option maxRecDepth 100000 in
/-- Both are rejected, for the same reason at different places. -/
example : SameOutcome (parseFile sampleExt (file wrong1).files 1 c!"a.xsd") (parseFile sampleExt (file wrong2).files 1 c!"a.xsd") ∧
    errorOf wrong1 = some (.xsd (.unsupportedAttributeValue c!"mixed" c!"true" c!"complexType" 72) c!"a.xsd" 2 1) ∧
    errorOf wrong2 = some (.xsd (.unsupportedAttributeValue c!"mixed" c!"true" c!"complexType" 61) c!"a.xsd" 3 11) := by
  have h1 : sameTextB wrong1 wrong2 = true := by decide +kernel
  have h2 : plainTextB wrong1 = true := by decide +kernel
  have h3 : plainTextB wrong2 = true := by decide +kernel
  exact ⟨C71_partial sampleExt (file wrong1).files (file wrong2).files rfl rfl (sameText_sound h1) (fun _ _ h => plainText_sound h2 h)
    (fun _ _ h => plainText_sound h3 h) 1 _, by decide +kernel, by decide +kernel⟩

/-- A schema that refers to its type with a prefix, -/
def prefixed : Str := c!"<xs:schema xmlns:xs=\"http://www.w3.org/2001/XMLSchema\" xmlns:t=\"urn:t\" targetNamespace=\"urn:t\">
<xs:element name=\"a\" type=\"t:B\"/><xs:simpleType name=\"B\"><xs:restriction base=\"xs:string\"/></xs:simpleType></xs:schema>"

/-- as the default namespace, -/
def defaulted : Str := c!"<xs:schema xmlns:xs=\"http://www.w3.org/2001/XMLSchema\" xmlns=\"urn:t\" targetNamespace=\"urn:t\">
<xs:element name=\"a\" type=\"B\"/><xs:simpleType name=\"B\"><xs:restriction base=\"xs:string\"/></xs:simpleType></xs:schema>"

/-- and with a prefix that is declared where it is used. -/
def nested : Str := c!"<xs:schema xmlns:xs=\"http://www.w3.org/2001/XMLSchema\" targetNamespace=\"urn:t\">
<xs:element xmlns:t=\"urn:t\" name=\"a\" type=\"t:B\"/><xs:simpleType name=\"B\"><xs:restriction base=\"xs:string\"/></xs:simpleType></xs:schema>"

theorem defaulted_same : sameTextB prefixed defaulted = true := by decide +kernel
theorem nested_same : sameTextB prefixed nested = true := by decide +kernel
theorem prefixed_roots : (rootsOf prefixed).map (fun rs => alookup rs ⟨c!"a", .id 1⟩) =
    some (some (.leaf ⟨.named ⟨c!"B", .id 1⟩, [], none⟩)) := by decide +kernel
theorem defaulted_roots : (rootsOf defaulted).map (fun rs => alookup rs ⟨c!"a", .id 1⟩) =
    some (some (.leaf ⟨.named ⟨c!"B", .none⟩, [], none⟩)) := by decide +kernel
theorem nested_roots : rootsOf nested = none := by decide +kernel

theorem roots_same {t t' : Str} (h : SameOutcome (parseFile sampleExt (file t).files 1 c!"a.xsd") (parseFile sampleExt (file t').files 1 c!"a.xsd")) :
    rootsOf t = rootsOf t' := by
  unfold rootsOf
  revert h
  generalize parseFile sampleExt (file t).files 1 c!"a.xsd" = r
  generalize parseFile sampleExt (file t').files 1 c!"a.xsd" = r'
  intro h
  cases h <;> rfl

end PresSample

namespace Pres
open PresSample

/-- C71 does not hold for a default namespace other than that of schemas: a reference without a prefix is taken for a name without
a namespace. -/
theorem C71_default_false : ¬ ∀ (x : Ext) (F F' : Files) (k : Nat) (path : Str), F.parent = F'.parent → F.push = F'.push →
    (∀ p, SameFile (F.read p) (F'.read p)) → (∀ p d, F.read p = some (.doc d) → PlainElem d.root.1.nss d.root) →
    (∀ p d, F'.read p = some (.doc d) → PlainElem d.root.1.nss d.root) →
    SameOutcome (parseFile x F k path) (parseFile x F' k path) := by
  intro h
  have h1 : plainTextB prefixed = true := by decide +kernel
  have h2 : (match XmlText.readXmlAt defaulted with | some e => plainElemB e.1.nss 9 e | none => false) = true := by decide +kernel
  have := roots_same (h sampleExt (file prefixed).files (file defaulted).files 1 c!"a.xsd" rfl rfl (sameText_sound defaulted_same)
    (fun _ _ h => (plainText_sound h1 h).2) ?_)
  · have h3 := prefixed_roots
    rw [this, defaulted_roots] at h3
    exact absurd h3 (by decide)
  · intro p d hd
    replace hd : (if p = c!"a.xsd" then some defaulted else none).map (fileContent (file defaulted).err) = some (.doc d) := hd
    split at hd
    · rw [Option.map_some] at hd
      unfold fileContent at hd
      cases he : XmlText.readXmlAt defaulted with
      | none => rw [he] at h2; cases h2
      | some e =>
        rw [he] at h2 hd
        cases hd
        exact plainElemB_sound h2
    · cases hd

/-- C71 does not hold for prefixes that are declared below the root: they are not found. -/
theorem C71_nested_false : ¬ ∀ (x : Ext) (F F' : Files) (k : Nat) (path : Str), F.parent = F'.parent → F.push = F'.push →
    (∀ p, SameFile (F.read p) (F'.read p)) → (∀ p d, F.read p = some (.doc d) → PlainDoc d) →
    (∀ p d, F'.read p = some (.doc d) → PlainDecls d.root.1.nss) →
    SameOutcome (parseFile x F k path) (parseFile x F' k path) := by
  intro h
  have h1 : plainTextB prefixed = true := by decide +kernel
  have h2 : (match XmlText.readXmlAt nested with
    | some e => decide ((e.1.nss.map Prod.fst).Nodup) && e.1.nss.all (fun p => decide (p.1 = none → p.2 = nsXsd))
    | none => false) = true := by decide +kernel
  have := roots_same (h sampleExt (file prefixed).files (file nested).files 1 c!"a.xsd" rfl rfl (sameText_sound nested_same)
    (fun _ _ h => plainText_sound h1 h) ?_)
  · have h3 := prefixed_roots
    rw [this, nested_roots] at h3
    exact absurd h3 (by decide)
  · intro p d hd
    replace hd : (if p = c!"a.xsd" then some nested else none).map (fileContent (file nested).err) = some (.doc d) := hd
    split at hd
    · rw [Option.map_some] at hd
      unfold fileContent at hd
      cases he : XmlText.readXmlAt nested with
      | none => rw [he] at h2; cases h2
      | some e =>
        rw [he] at h2 hd
        cases hd
        simp only [Bool.and_eq_true, decide_eq_true_eq, List.all_eq_true] at h2
        exact ⟨h2.1, fun u hu => h2.2 _ hu rfl⟩
    · cases hd

end Pres
end Xsd
