import Verif.Props.Definitions
import Verif.Props.GrammarSample
/-!
# Concrete cases for `Verif/Props/Definitions.lean`, and the limits of C45
-/
namespace Xsd
namespace SchemaSample

/-- The hypotheses of C39, C45 and `C39_available` are met by two files: the type `City` of the imported file is found. -/
example : ∃ P, parseFile sampleExt files 2 c!"main.xsd" = .ok P ∧ Reads files c!"main.xsd" c!"types.xsd" typesDoc ∧
    (xn c!"simpleType" [(c!"name", c!"Country")] [xe c!"restriction" [(c!"base", c!"xs:string")]
     [xe c!"enumeration" [(c!"value", c!"de")] [], xe c!"enumeration" [(c!"value", c!"fr")] []]]) ∈
      (Nd.of typesDoc.root).xsdKids ∧
    P.context.get ⟨c!"Country", .id 2⟩ = some (.enum [⟨c!"de", .none⟩, ⟨c!"fr", .none⟩]) := by
  refine ⟨parsedSchema, by decide +kernel, ?_, .tail _ (.head _), by decide +kernel⟩
  exact .there (c := ⟨⟨⟨c!"import", some nsXsd⟩, [⟨c!"schemaLocation", none, c!"types.xsd", 0⟩], [], 0⟩, [], []⟩)
    (l := c!"types.xsd") (.here rfl) (.head _) (.inr rfl) rfl rfl

/-- An anonymous type of `main.xsd`. -/
example : Defines files c!"main.xsd" (xn c!"simpleType" [] [xe c!"restriction" [(c!"base", c!"xs:string")]
           [xe c!"enumeration" [(c!"value", c!"a")] [], xe c!"enumeration" [(c!"value", c!"b")] []]]) := by
  refine ⟨_, mainDoc, xn c!"complexType" [(c!"name", c!"Order")]
     [xe c!"sequence" []
        [xe c!"element" [(c!"name", c!"to"), (c!"type", c!"t:City")] [],
         xe c!"element" [(c!"name", c!"note")] [xe c!"simpleType" [] [xe c!"restriction" [(c!"base", c!"xs:string")]
           [xe c!"enumeration" [(c!"value", c!"a")] [], xe c!"enumeration" [(c!"value", c!"b")] []]]]]],
    .complexType true, .here rfl, .tail _ (.tail _ (.head _)), rfl, .inr ⟨.localElement, xn c!"element" [(c!"name", c!"note")] [xe c!"simpleType" [] [xe c!"restriction" [(c!"base", c!"xs:string")]
           [xe c!"enumeration" [(c!"value", c!"a")] [], xe c!"enumeration" [(c!"value", c!"b")] []]]], ?_, .simpleType (.head _) rfl rfl rfl⟩⟩
  exact .step (.complexSequence (.head _) rfl) (.step (.seqElement (.tail _ (.head _)) rfl) (.refl _ _))

/-- Two definitions with one name: the later one is found. -/
def twice : Files := oneFile (tDoc
  [xe c!"simpleType" [(c!"name", c!"A")] [xe c!"restriction" [(c!"base", c!"xs:string")] []],
   xe c!"simpleType" [(c!"name", c!"A")] [xe c!"restriction" [(c!"base", c!"xs:int")] []]])

example : (match parseFile sampleExt twice 1 c!"a.xsd" with | .ok P => P.context.get ⟨c!"A", .id 1⟩ | _ => none) =
    some (.leaf ⟨.literal .int32, [], none⟩) := by decide +kernel

/-- An element and a type may have the same name in XML Schema: `<xs:element name="A" type="xs:string"/>`. -/
def elementA : Nd := xn c!"element" [(c!"name", c!"A"), (c!"type", c!"xs:string")] []

/-- `<xs:complexType name="A"/>`. -/
def typeA : Nd := xn c!"complexType" [(c!"name", c!"A")] []

/-- The file with both. -/
def sameName : Files := oneFile (tDoc [xe c!"element" [(c!"name", c!"A"), (c!"type", c!"xs:string")] [],
  xe c!"complexType" [(c!"name", c!"A")] []])

/-- The schema that is parsed from it. -/
def sameNameSchema : PSchema := match parseFile sampleExt sameName 1 c!"a.xsd" with | .ok P => P | _ => ⟨⟨[], .none, false, .empty⟩, []⟩

theorem sameName_parsed : parseFile sampleExt sameName 1 c!"a.xsd" = .ok sameNameSchema ∧
    sameNameSchema.context.elements.map Prod.fst = [⟨c!"A", .id 1⟩] := by decide +kernel

/-- An anonymous type, whose type is named `ABData`. -/
def anonymousB : Nd := xn c!"complexType" [] []

/-- A named type with that name. -/
def typeABData : Nd := xn c!"complexType" [(c!"name", c!"ABData")] []

/-- `A`, with an element `b` that has the anonymous type. -/
def typeAB : Nd := xn c!"complexType" [(c!"name", c!"A")]
  [xe c!"sequence" [] [xe c!"element" [(c!"name", c!"b")] [xe c!"complexType" [] []]]]

/-- The file with both, without a target namespace. -/
def derivedName : Files := oneFile (xdoc (schemaElem [(some c!"xs", nsXsd)] []
  [xe c!"complexType" [(c!"name", c!"ABData")] [],
   xe c!"complexType" [(c!"name", c!"A")]
    [xe c!"sequence" [] [xe c!"element" [(c!"name", c!"b")] [xe c!"complexType" [] []]]]]))

/-- The schema that is parsed from it. -/
def derivedNameSchema : PSchema :=
  match parseFile sampleExt derivedName 1 c!"a.xsd" with | .ok P => P | _ => ⟨⟨[], .none, false, .empty⟩, []⟩

theorem derivedName_parsed : parseFile sampleExt derivedName 1 c!"a.xsd" = .ok derivedNameSchema ∧
    derivedNameSchema.context.elements.map Prod.fst = [⟨c!"ABData", .none⟩, ⟨c!"A", .none⟩] := by decide +kernel

end SchemaSample

/-- C45 as it is stated: every definition and every anonymous type keeps a type of its own. -/
def OwnTypes (F : Files) (path : Str) (P : PSchema) : Prop :=
  ∃ f : Nd → Name, ∀ c, Defines F path c → P.context.get (f c) ≠ none ∧ ∀ c', Defines F path c' → f c = f c' → c = c'

theorem get_ne_none {P : PSchema} {n : Name} (h : P.context.get n ≠ none) : n ∈ P.context.elements.map Prod.fst := by
  false_or_by_contra
  next hn => exact h ((alookup_eq_none_iff _ _).2 hn)

open SchemaSample in
/-- C45 is false: an element and a type with one name, which XML Schema allows, become one type. -/
theorem C45_false : ¬ ∀ (x : Ext) (F : Files) (k : Nat) (path : Str) (P : PSchema), parseFile x F k path = .ok P →
    OwnTypes F path P := by
  intro h
  obtain ⟨f, hf⟩ := h _ _ _ _ _ sameName_parsed.1
  have h1 : Defines sameName c!"a.xsd" elementA := ⟨_, _, elementA, _, .here rfl, .head _, rfl, .inl rfl⟩
  have h2 : Defines sameName c!"a.xsd" typeA := ⟨_, _, typeA, .complexType true, .here rfl, .tail _ (.head _), rfl, .inl rfl⟩
  have g1 := get_ne_none (hf _ h1).1
  have g2 := get_ne_none (hf _ h2).1
  rw [sameName_parsed.2, List.mem_singleton] at g1 g2
  have := (hf _ h1).2 _ h2 (by rw [g1, g2])
  exact absurd (congrArg Nd.name this) (by decide)

open SchemaSample in
/-- C45 is also false for files in which no two top-level definitions have the same name: the name made up for an anonymous
type may be that of another type. -/
theorem C45_anonymous_false : ¬ ∀ (x : Ext) (F : Files) (k : Nat) (path : Str) (P : PSchema), parseFile x F k path = .ok P →
    (∀ q d, Reads F path q d → (((Nd.of d.root).xsdKids).map (fun c => c.value c!"name")).Nodup) → OwnTypes F path P := by
  intro h
  obtain ⟨f, hf⟩ := h _ _ _ _ _ derivedName_parsed.1 (fun q d hr => by
    have : ∀ q d, derivedName.read q = some (.doc d) → (((Nd.of d.root).xsdKids).map (fun c => c.value c!"name")).Nodup := by
      intro q d hd
      have : (if q = c!"a.xsd" then some (FileContent.doc _) else none) = some (.doc d) := hd
      split at this
      · cases this
        decide
      · cases this
    exact this q d hr.read)
  have h1 : Defines derivedName c!"a.xsd" typeABData := ⟨_, _, typeABData, .complexType true, .here rfl, .head _, rfl, .inl rfl⟩
  have h2 : Defines derivedName c!"a.xsd" typeAB := ⟨_, _, typeAB, .complexType true, .here rfl, .tail _ (.head _), rfl, .inl rfl⟩
  have h3 : Defines derivedName c!"a.xsd" anonymousB :=
    ⟨_, _, typeAB, .complexType true, .here rfl, .tail _ (.head _), rfl, .inr ⟨.localElement, _,
      .step (.complexSequence (.head _) rfl) (.step (.seqElement (.head _) rfl) (.refl _ _)), .complexType (.head _) rfl rfl rfl⟩⟩
  have g1 := get_ne_none (hf _ h1).1
  have g2 := get_ne_none (hf _ h2).1
  have g3 := get_ne_none (hf _ h3).1
  rw [derivedName_parsed.2] at g1 g2 g3
  have n12 : f typeABData ≠ f typeAB := fun e => by
    have := (hf _ h1).2 _ h2 e
    exact absurd (congrArg (fun c => c.kids.length) this) (by decide)
  have n13 : f typeABData ≠ f anonymousB := fun e => by
    have := (hf _ h1).2 _ h3 e
    exact absurd (congrArg (fun c => c.value c!"name") this) (by decide)
  have n23 : f typeAB ≠ f anonymousB := fun e => by
    have := (hf _ h2).2 _ h3 e
    exact absurd (congrArg (fun c => c.kids.length) this) (by decide)
  simp only [List.mem_cons, List.not_mem_nil, or_false] at g1 g2 g3
  rcases g1 with g1 | g1 <;> rcases g2 with g2 | g2 <;> rcases g3 with g3 | g3 <;>
    first
      | exact n12 (g1.trans g2.symm)
      | exact n13 (g1.trans g3.symm)
      | exact n23 (g2.trans g3.symm)

end Xsd
