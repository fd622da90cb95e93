import Verif.Props.SchemaSample
import Verif.Props.Grammar
import Verif.Props.Unenforced
/-!
# Cases for the theorems about parts of a schema (C29, C30, C33, C34, C37, C38, C51, C53)

Each example applies the theorem it names to a concrete schema node.
-/
namespace Xsd
namespace PartsSample
open SchemaSample

/-- An attribute of a schema node. -/
def typeAttr (v : Str) : XAttr := ⟨c!"type", none, v, 5⟩

/-- A context whose default namespace is XSD. -/
def xsdCtx : PCtx := { ctx with defaultNs := some nsXsd }

/-! ## C33 -/

/-- `C33_builtin`: `type="xs:int"` and `type="xs:gYear"`. -/
example : getTypeName (typeAttr c!"xs:int") ctx = .ok (.literal .int32, ctx) ∧
    getTypeName (typeAttr c!"xs:gYear") ctx = .err (.unsupportedType c!"gYear" 5) :=
  ⟨(C33_builtin (typeAttr c!"xs:int") ctx c!"xs" c!"int" ⟨rfl, by decide⟩ rfl).1 .int32 (by decide),
   (C33_builtin (typeAttr c!"xs:gYear") ctx c!"xs" c!"gYear" ⟨rfl, by decide⟩ rfl).2 (by intro t; cases t <;> decide)⟩

/-- `C33_undeclared`: `type="u:A"`. -/
example : getTypeName (typeAttr c!"u:A") ctx = .err (.missingNamespace c!"u" 5) :=
  C33_undeclared _ ctx c!"u" c!"A" ⟨rfl, by decide⟩ (by decide)

/-- `C33_named`: `type="t:A"`. -/
example : ∃ id nss, getTypeName (typeAttr c!"t:A") ctx = .ok (.named ⟨c!"A", .id id⟩, { ctx with nss }) ∧
    alookup nss.byUri c!"urn:t" = some id := by
  obtain ⟨id, nss, h1, h2, _⟩ := C33_named (typeAttr c!"t:A") ctx c!"t" c!"A" c!"urn:t" ⟨rfl, by decide⟩ rfl (by decide)
  exact ⟨id, nss, h1, h2⟩

/-- `C33_default_builtin`: `type="int"` where XSD is the default namespace. -/
example : getTypeName (typeAttr c!"int") xsdCtx = .ok (.literal .int32, xsdCtx) :=
  (C33_default_builtin (typeAttr c!"int") xsdCtx (by decide) rfl).1 .int32 (by decide)

/-- `C33_unqualified`: `type="A"` without a default namespace. -/
example : getTypeName (typeAttr c!"A") ctx = .ok (.named ⟨c!"A", .none⟩, ctx) := C33_unqualified (typeAttr c!"A") ctx (by decide) rfl

/-- `C33_declared`: `xmlns="urn:t" xmlns:xs="…"`. -/
example : (PCtx.new ⟨⟨c!"schema", some nsXsd⟩, [], [(none, c!"urn:t"), (some c!"xs", nsXsd)], 0⟩ none .empty []).defaultNs =
      some c!"urn:t" ∧
    (c!"xs", nsXsd) ∈ (PCtx.new ⟨⟨c!"schema", some nsXsd⟩, [], [(none, c!"urn:t"), (some c!"xs", nsXsd)], 0⟩ none .empty []).docNss := by
  have h := C33_declared ⟨⟨c!"schema", some nsXsd⟩, [], [(none, c!"urn:t"), (some c!"xs", nsXsd)], 0⟩ none .empty [] (by decide)
  exact ⟨(h.2.2 _).2 (by decide), (h.2.1 _ _).2 (by decide)⟩

/-! ## C34 and C37 -/

/-- `<xs:element name="tag" type="xs:string" minOccurs="0" maxOccurs="unbounded"/>`. -/
def tags : Nd :=
  xn c!"element" [(c!"name", c!"tag"), (c!"type", c!"xs:string"), (c!"minOccurs", c!"0"), (c!"maxOccurs", c!"unbounded")] []

/-- The field for it. -/
def tagsLeaf : Leaf := ⟨⟨c!"tag", .id 1⟩, ⟨.literal .string, [], none⟩, false, false, 0, .unbounded⟩

theorem tags_parsed : parseElementChild sampleExt 9 tags ⟨c!"A", .id 1⟩ ctx = .ok (tagsLeaf, ctx) := by decide +kernel

/-- `C34_leaf`. -/
example : MinOf tags 0 ∧ MaxOf tags .unbounded := C34_leaf sampleExt 9 tags ⟨c!"A", .id 1⟩ ctx ctx tagsLeaf tags_parsed

/-- `C34_min_occurs`, `C34_max_occurs`: a number, and something that is none. -/
example : parseMinOccurs (some ⟨c!"minOccurs", none, c!"12", 7⟩) = .ok 12 ∧
    parseMaxOccurs (some ⟨c!"maxOccurs", none, c!"12", 7⟩) = .ok (.number 12) ∧
    parseMaxOccurs (some ⟨c!"maxOccurs", none, c!"unbounded", 7⟩) = .ok .unbounded :=
  have h : Unsigned 4294967295 c!"12" 12 :=
    ⟨by decide, c!"12", .snoc c!"1" 1 2 (.digit 1 (by decide)) (by decide), .inl rfl⟩
  ⟨(((C34_min_occurs _).2 _ rfl).1 12).2 h, (((C34_max_occurs _).2 _ rfl).2.1 12).2 h, ((C34_max_occurs _).2 _ rfl).1.2 rfl⟩

/-- `C34_field_type`: the field is `Option<Vec<String>>`. -/
example : leafDecl sampleExt ⟨[], .id 1, true, ctx.nss⟩ tagsLeaf = .ok (c!"tag", .option (.vec (.prim .string))) ∧
    (∃ u, Ty.option (.vec (.prim .string)) = .option u) := by
  have h : leafDecl sampleExt ⟨[], .id 1, true, ctx.nss⟩ tagsLeaf = .ok (c!"tag", .option (.vec (.prim .string))) := by decide +kernel
  exact ⟨h, (C34_field_type _ _ _ _ _ h).1.2 rfl⟩

/-- A sequence with an element, a repeated choice and an optional sequence. -/
def group : List XNode :=
  [xe c!"element" [(c!"name", c!"name"), (c!"type", c!"xs:string")] [],
   xe c!"choice" [(c!"maxOccurs", c!"unbounded")]
     [xe c!"element" [(c!"name", c!"mail"), (c!"type", c!"xs:string")] [],
      xe c!"sequence" [] [xe c!"element" [(c!"name", c!"street"), (c!"type", c!"xs:string")] []]],
   xe c!"annotation" [] [],
   xe c!"sequence" [(c!"minOccurs", c!"0")] [xe c!"element" [(c!"name", c!"job"), (c!"type", c!"xs:string")] []]]

/-- The result of parsing it. -/
def groupLeaves : List Leaf :=
  match parseSequence sampleExt 9 (xn c!"sequence" [] group) ⟨c!"A", .id 1⟩ ctx with | .ok (ls, _) => ls | _ => []

/-- The state after that. -/
def groupCtx : PCtx :=
  match parseSequence sampleExt 9 (xn c!"sequence" [] group) ⟨c!"A", .id 1⟩ ctx with | .ok (_, s) => s | _ => ctx

theorem group_parsed : parseSequence sampleExt 9 (xn c!"sequence" [] group) ⟨c!"A", .id 1⟩ ctx = .ok (groupLeaves, groupCtx) := by
  decide +kernel

/-- `C37_sequence`: three fields, for the element, the choice and the sequence. -/
example : Each (ParticleOf sampleExt ⟨c!"A", .id 1⟩) (xn c!"sequence" [] group).particles groupLeaves ∧
    groupLeaves.map (fun l => (l.isVirtual, l.minOccurs, l.maxOccurs)) =
      [(false, 1, .number 1), (true, 1, .unbounded), (true, 0, .number 1)] :=
  ⟨C37_sequence sampleExt 9 _ _ ctx groupCtx groupLeaves group_parsed, by decide +kernel⟩

/-- `C37_choice`: two alternatives. -/
example : ∃ ls s', parseChoice sampleExt 9 (xn c!"choice" []
      [xe c!"element" [(c!"name", c!"mail"), (c!"type", c!"xs:string")] [],
       xe c!"sequence" [] [xe c!"element" [(c!"name", c!"street"), (c!"type", c!"xs:string")] []]]) ⟨c!"A", .id 1⟩ ctx = .ok (ls, s') ∧
    ls.length = 2 := ⟨_, _, rfl, by decide +kernel⟩

/-- `C37_complexType`, first case: the fields of the type. -/
example : ∃ s', parseParticle sampleExt 10 [xn c!"sequence" [] group] ⟨c!"A", .id 1⟩ ctx =
    .ok ((some (.leaves groupLeaves), []), s') := ⟨groupCtx, rfl⟩

/-- Second case: one virtual field. -/
example : ∃ l s', parseParticle sampleExt 10 [xn c!"sequence" [(c!"maxOccurs", c!"2")] group] ⟨c!"A", .id 1⟩ ctx =
    .ok ((some (.leaves [l]), []), s') ∧ l.isVirtual = true ∧ l.maxOccurs = .number 2 := ⟨_, _, rfl, by decide +kernel⟩

/-- Third case: a choice. -/
example : ∃ n d s', parseParticle sampleExt 10
    [xn c!"choice" [] [xe c!"element" [(c!"name", c!"mail"), (c!"type", c!"xs:string")] []]] ⟨c!"A", .id 1⟩ ctx =
    .ok ((some (.leaf n d), []), s') := ⟨_, _, _, rfl⟩

/-- `C37_fields`. -/
example : (match rootDecl sampleExt ⟨groupCtx.roots, .id 1, true, groupCtx.nss⟩
      (.element ⟨[⟨⟨c!"id", .none⟩, .literal .int32, none, false, none⟩], some (.leaves groupLeaves), false, none⟩) with
    | .ok (.struct fs) => fs.map Prod.fst
    | _ => []) = [c!"name", c!"mailstreet", c!"job", c!"id"] := by decide +kernel

/-! ## C38 -/

/-- `C38`: `<xs:attribute name="id" type="xs:int" use="required"/>`. -/
example : ∃ a, parseAttribute sampleExt (xn c!"attribute" [(c!"name", c!"id"), (c!"type", c!"xs:int"), (c!"use", c!"required")] [])
    ⟨c!"A", .id 1⟩ ctx = .ok (some a, ctx) ∧ a.isOptional = false := by
  refine ⟨⟨⟨c!"id", .none⟩, .literal .int32, none, false, none⟩, by decide +kernel, ?_⟩
  exact (((C38 sampleExt _ ⟨c!"A", .id 1⟩ ctx ctx _ (show parseAttribute sampleExt
    (xn c!"attribute" [(c!"name", c!"id"), (c!"type", c!"xs:int"), (c!"use", c!"required")] []) ⟨c!"A", .id 1⟩ ctx =
      .ok (some ⟨⟨c!"id", .none⟩, .literal .int32, none, false, none⟩, ctx) by decide +kernel)).2.2 _ rfl).2.2.2.1).2 rfl

/-- `C38_kept`: three declarations, of which one is prohibited. -/
example : ∃ as s', parseAttributes sampleExt ⟨c!"Person", .id 1⟩ attrDecls ctx = .ok (as, s') ∧ as.length = 2 ∧
    (attrDecls.filter (fun c => c.value c!"use" ≠ some c!"prohibited")).length = 2 := ⟨_, _, rfl, by decide +kernel, by decide +kernel⟩

/-- `C38_field_type`. -/
example : attrDecl sampleExt ⟨[], .id 1, true, ctx.nss⟩ ⟨⟨c!"lang", .none⟩, .literal .string, some c!"en", true, none⟩ =
    .ok (c!"lang", .option (.prim .string)) := by decide +kernel

/-- `C38_generated`: the struct for three declarations, of which one is prohibited, one required and one optional. -/
example : ∃ as s' d, parseAttributes sampleExt ⟨c!"Person", .id 1⟩ attrDecls ctx = .ok (as, s') ∧
    rootDecl sampleExt ⟨[], .id 1, true, ctx.nss⟩ (.element ⟨as, none, false, none⟩) = .ok d ∧
    (match d with | .struct fs => fs.length | _ => 0) = 2 := ⟨_, _, _, rfl, rfl, by decide +kernel⟩

/-! ## C51 -/

/-- `C51_local`: the name is in the target namespace if local elements are qualified. -/
example : ∃ n, tags.value c!"name" = some n ∧ tagsLeaf.name = ⟨n, .id 1⟩ := C51_local sampleExt 9 tags ⟨c!"A", .id 1⟩ ctx ctx tagsLeaf tags_parsed rfl

/-- `C51_ref`: `<xs:element ref="t:B"/>`. -/
example : ∃ l s' s1, parseElementChild sampleExt 9 (xn c!"element" [(c!"ref", c!"t:B")] []) ⟨c!"A", .id 1⟩ ctx = .ok (l, s') ∧
    getTypeName ⟨c!"ref", none, c!"t:B", 0⟩ ctx = .ok (.named l.name, s1) := by
  obtain ⟨l, s', h⟩ : ∃ l s', parseElementChild sampleExt 9 (xn c!"element" [(c!"ref", c!"t:B")] []) ⟨c!"A", .id 1⟩ ctx = .ok (l, s') :=
    ⟨_, _, rfl⟩
  obtain ⟨s1, h1⟩ := C51_ref sampleExt 9 _ _ _ _ l ⟨c!"ref", none, c!"t:B", 0⟩ h rfl
  exact ⟨l, s', s1, h, h1⟩

/-- `C51_attribute`. -/
example : ∃ a, parseAttribute sampleExt (xn c!"attribute" [(c!"name", c!"id"), (c!"type", c!"xs:int")] []) ⟨c!"A", .id 1⟩ ctx =
    .ok (some a, ctx) ∧ a.name = ⟨c!"id", .none⟩ := ⟨_, rfl, by decide +kernel⟩

/-! ## C53 -/

/-- `C53`: two enumeration values; two facets. -/
example : ∃ restriction ∈ code.xsdKids, ∃ fs, Each (FacetOf sampleExt) restriction.xsdKids fs ∧ fs.length = 2 := by
  obtain ⟨r, b, t, fs, h1, h2, h3, h4, _, h5, h6, h7⟩ := C53 sampleExt code ctx ctx (.leaf ⟨.literal .string, [.minLength 2, .maxLength 4], none⟩)
    (by decide +kernel)
  refine ⟨r, h1, fs, h5, ?_⟩
  have hl : ∀ {as bs}, Each (FacetOf sampleExt) as bs → as.length = bs.length := by
    intro as bs h
    induction h with
    | nil => rfl
    | cons _ _ ih => simp [ih]
  rw [← hl h5]
  have : code.xsdKids = [xn c!"restriction" [(c!"base", c!"xs:string")]
    [xe c!"minLength" [(c!"value", c!"2")] [], xe c!"maxLength" [(c!"value", c!"4")] []]] := by rfl
  rw [this] at h1
  cases List.mem_singleton.1 h1
  rfl

/-- `C53_base`: a restriction of a type of the schema is not accepted. -/
example (r : Root) (s' : PCtx) :
    parseSimpleType sampleExt (xn c!"simpleType" [] [xe c!"restriction" [(c!"base", c!"t:Code")] []]) ctx ≠ .ok (r, s') := by
  apply C53_base
  intro c hc hn base hb
  have : (xn c!"simpleType" [] [xe c!"restriction" [(c!"base", c!"t:Code")] []]).xsdKids =
    [xn c!"restriction" [(c!"base", c!"t:Code")] []] := by rfl
  rw [this] at hc
  cases List.mem_singleton.1 hc
  cases Option.some.inj hb
  rintro t (⟨p, n, h1, h2, _⟩ | ⟨h1, _⟩)
  · rw [← splitn2_prefixed] at h1
    cases h1
    exact absurd h2 (by decide)
  · exact h1 (by decide)

/-! ## C29, C30 -/

/-- `C29_C30_no_effect`: taking away the length facets of a type does not change the code for it. -/
example : (⟨fun _ => [], fun a => a.default, id, Leaf.minOccurs, Leaf.maxOccurs, fun _ => .rfl, fun _ => .rfl⟩ : Decoration).facets ⟨.literal .string, [.minLength 2], none⟩ = [] ∧
    generateAll sampleExt ⟨[(⟨c!"Code", .none⟩, .leaf ⟨.literal .string, [.minLength 2], none⟩)], .none, false, .empty⟩ =
      generateAll sampleExt ⟨[(⟨c!"Code", .none⟩, .leaf ⟨.literal .string, [], none⟩)], .none, false, .empty⟩ :=
  ⟨rfl, (C29_C30_no_effect ⟨fun _ => [], fun a => a.default, id, Leaf.minOccurs, Leaf.maxOccurs, fun _ => .rfl, fun _ => .rfl⟩ sampleExt
    ⟨[(⟨c!"Code", .none⟩, .leaf ⟨.literal .string, [.minLength 2], none⟩)], .none, false, .empty⟩).symm⟩

/-- `C22_bounds_no_effect`: a list of two or three items and one of five or more give the same code. -/
example :
    let S (a : Nat) (b : MaxOccurs) : SchemaContext := ⟨[(⟨c!"List", .none⟩, .element ⟨[], some (.leaves
      [⟨⟨c!"item", .none⟩, ⟨.literal .string, [], none⟩, false, false, a, b⟩]), false, none⟩)], .none, false, .empty⟩
    generateAll sampleExt (S 5 .unbounded) = generateAll sampleExt (S 2 (.number 3)) :=
  C22_bounds_no_effect sampleExt ⟨[(⟨c!"List", .none⟩, .element ⟨[], some (.leaves
      [⟨⟨c!"item", .none⟩, ⟨.literal .string, [], none⟩, false, false, 2, .number 3⟩]), false, none⟩)], .none, false, .empty⟩
    (fun l => if l.minOccurs = 0 then 0 else 5)
    (fun l => if l.maxOccurs = .number 0 ∨ l.maxOccurs = .number 1 then .number 1 else .unbounded)
    (fun l => by split <;> simp_all) (fun l => by split <;> simp_all)

end PartsSample
end Xsd
