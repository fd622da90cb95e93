import Verif.Props.Compiles
import Verif.Props.TypeSafety
import Verif.Props.ReadTerminatesSample
/-!
# Concrete cases for `Verif/Props/Compiles.lean` and `Verif/Props/TypeSafety.lean`, and schemas whose code does not compile
-/
namespace Xsd

/-! ## Decidable forms -/

/-- Decidable form of `AttrTypeOK`. -/
def attrTypeB (S : SchemaContext) : LeafContent → Bool
  | .named n => match inlined S (.named n) with
    | .ok (.literal t) => decide (t.prim = .string)
    | .ok (.named m) => match S.get m with | some (.enum _) => true | _ => false
    | _ => false
  | _ => true

/-- Decidable form of the conditions on one definition. -/
def buildableAt (x : Ext) (S : SchemaContext) (n : Name) : Root → Bool
  | .leaf _ => decide (x.pascal n.name ∉ preludeConstructors)
  | .enum vs => !vs.isEmpty && match escapeEnumNames x vs with | .ok tab => tab.all (fun p => decide (p.1 ∉ rustKeywords)) | _ => false
  | .element e => decide (e.fieldNames.map (fun m => x.snake m.name)).Nodup && e.fieldNames.all (fun m => decide (x.snake m.name ∉ missedKeywords)) &&
      e.attributes.all (fun a => attrTypeB S a.content)
  | .choice vs _ _ => !vs.isEmpty && decide (vs.map (fun l => x.pascal l.name.name)).Nodup &&
      vs.all (fun l => decide (x.pascal l.name.name ∉ rustKeywords) && !(l.isVirtual && l.repeats))

/-- Decidable form of `Buildable`, given ranks for what is inside of what. -/
def buildableB (x : Ext) (S : SchemaContext) (rank : Name → Nat) : Bool :=
  S.elements.all (fun p => decide (x.pascal p.1.name ∉ rustKeywords) && decide (x.pascal p.1.name ∉ preludeTypes) && buildableAt x S p.1 p.2 &&
    S.elements.all (fun q => decide (x.pascal p.1.name = x.pascal q.1.name → p.1 = q.1)) &&
    p.2.inlineContents.all (fun c => match inlined S c with
      | .ok (.named m) => decide (rank m < rank p.1)
      | .ok _ => true
      | _ => false)) && closedB S

theorem buildableB_sound {x : Ext} {S : SchemaContext} {rank : Name → Nat} (h : buildableB x S rank = true) :
    Buildable x S := by
  simp only [buildableB, Bool.and_eq_true] at h
  obtain ⟨h, hcl⟩ := h
  have hcl := closedB_sound hcl
  have all : ∀ n r, S.get n = some r → _ := fun n r hr => List.all_eq_true.1 h (n, r) (alookup_mem hr)
  simp only [Bool.and_eq_true, decide_eq_true_eq] at all
  refine ⟨?_, ?_, ?_, ?_, ?_, ?_, ?_, ?_, ?_⟩
  · intro n m hn hm he
    obtain ⟨r, hr⟩ := Option.isSome_iff_exists.1 hn
    obtain ⟨r', hr'⟩ := Option.isSome_iff_exists.1 hm
    exact of_decide_eq_true (List.all_eq_true.1 (all n r hr).1.2 (m, r') (alookup_mem hr')) he
  · intro n r hr c hc m hm
    exact hcl _ (alookup_mem hr) c (Root.allContents_eq r ▸ hc) m hm
  · intro n r hr
    exact (all n r hr).1.1.1
  · intro n d hr
    have := (all n _ hr).1.1.2
    simpa only [buildableAt, decide_eq_true_eq] using this
  · intro n e hr
    have := (all n _ hr).1.1.2
    simp only [buildableAt, Bool.and_eq_true, decide_eq_true_eq, List.all_eq_true] at this
    exact this.1
  · intro n e hr a ha
    have := (all n _ hr).1.1.2
    simp only [buildableAt, Bool.and_eq_true, decide_eq_true_eq, List.all_eq_true] at this
    have := this.2 a ha
    cases hc : a.content with
    | literal t => trivial
    | fixed s => trivial
    | named m =>
      rw [hc] at this
      simp only [attrTypeB] at this
      split at this
      · next t hi => exact ⟨_, inlined_means hi, .inl ⟨t, rfl, of_decide_eq_true this⟩⟩
      · next m' hi =>
        split at this
        · next vs hg => exact ⟨_, inlined_means hi, .inr ⟨m', vs, rfl, hg⟩⟩
        · cases this
      · cases this
  · intro n vs b d hr
    have := (all n _ hr).1.1.2
    simp only [buildableAt, Bool.and_eq_true, decide_eq_true_eq, List.all_eq_true, Bool.not_eq_true', Bool.and_eq_false_iff] at this
    obtain ⟨⟨h1, h2⟩, h3⟩ := this
    refine ⟨(by rintro rfl; cases h1), h2, fun l hl => ⟨(h3 l hl).1, fun hv => ?_⟩⟩
    rcases (h3 l hl).2 with h | h
    · rw [hv.1] at h; cases h
    · rw [hv.2] at h; cases h
  · intro n vs hr
    have := (all n _ hr).1.1.2
    simp only [buildableAt, Bool.and_eq_true, Bool.not_eq_true'] at this
    obtain ⟨h1, h2⟩ := this
    refine ⟨(by rintro rfl; cases h1), fun tab htab p hp => ?_⟩
    rw [htab] at h2
    exact of_decide_eq_true (List.all_eq_true.1 h2 p hp)
  · refine Subrelation.wf ?_ (InvImage.wf rank Nat.lt_wfRel.wf)
    intro m n ⟨r, hr, c, hc, hm⟩
    show rank m < rank n
    have h := List.all_eq_true.1 (all n r hr).2 c hc
    split at h
    · next m' hi => have := (inlined_means hi).functional hm; cases this; exact of_decide_eq_true h
    · next c' hne hi => exact absurd ((inlined_means hi).functional hm) (hne m)
    · cases h

/-- Decidable form of `RefsDistinct`. -/
def refsDistinctB (x : Ext) (S : SchemaContext) : Bool :=
  S.elements.all (fun p => p.2.allContents.all (fun c => match inlined S c with
    | .ok (.named m) => S.elements.all (fun q => decide (x.pascal q.1.name = x.pascal m.name → q.1 = m))
    | .ok _ => true
    | _ => false))

theorem refsDistinctB_sound {x : Ext} {S : SchemaContext} (h : refsDistinctB x S = true) : RefsDistinct x S := by
  intro n r hr c hc m hm k hk he
  have h := List.all_eq_true.1 (List.all_eq_true.1 h (n, r) (alookup_mem hr)) c hc
  obtain ⟨r', hr'⟩ := Option.isSome_iff_exists.1 hk
  split at h
  · next m' hi =>
    have := (inlined_means hi).functional hm
    cases this
    exact of_decide_eq_true (List.all_eq_true.1 h (k, r') (alookup_mem hr')) he
  · next c' hne hi => exact absurd ((inlined_means hi).functional hm) (hne m)
  · cases h

/-! ## The laws of names can be met -/

theorem toUpper_not_lower (c : Char) : ¬ ('a' ≤ c.toUpper ∧ c.toUpper ≤ 'z') := by
  intro ⟨h1, h2⟩
  unfold Char.toUpper at h1 h2
  split at h1
  · next h =>
    have h2' : 97 ≤ c.val ∧ c.val ≤ 122 := h
    rw [dif_pos h] at h2
    simp only [Char.le_def] at h1 h2
    have e1 := UInt32.le_iff_toNat_le.1 h1
    have e2 := UInt32.le_iff_toNat_le.1 h2'.1
    have e3 := UInt32.le_iff_toNat_le.1 h2'.2
    simp at e1 e2 e3
    omega
  · next h =>
    rw [dif_neg h] at h2
    exact h ⟨h1, h2⟩

theorem sampleExt_nameLaws : sampleExt.NameLaws := by
  refine ⟨fun s hs => ?_, fun s hs => ?_⟩
  · have hs : (s != [] && s.all (fun c => c.isAlphanum || c == '_')) = true := hs
    simp only [Bool.and_eq_true, List.all_eq_true] at hs
    exact ⟨fun h => absurd (hs.2 _ h) (by decide), fun h => absurd (hs.2 _ h) (by decide)⟩
  · have key : ∀ k ∈ rustKeywords, k = c!"Self" ∨ ∃ c, k.head? = some c ∧ ('a' ≤ c ∧ c ≤ 'z') := by
      have : ∀ k ∈ rustKeywords, k = c!"Self" ∨ (match k.head? with | some c => decide ('a' ≤ c ∧ c ≤ 'z') | none => false) = true := by
        decide +kernel
      intro k hk
      rcases this k hk with h | h
      · exact .inl h
      · split at h
        · next c hc => exact .inr ⟨c, hc, of_decide_eq_true h⟩
        · cases h
    cases s with
    | nil => exact absurd hs (by decide +kernel)
    | cons c cs =>
      rcases key _ hs with h | ⟨d, hd, hl⟩
      · exact h
      · have hd : some c.toUpper = some d := hd
        cases hd
        exact absurd hl (toUpper_not_lower c)

/-! ## A module that compiles -/

/-- What is inside of what in the sample. -/
def sampleRank (n : Name) : Nat := if n.name = c!"Article" then 2 else if n.name = c!"ArticleAuthor" then 1 else 0

theorem Sample.buildable : Buildable sampleExt Sample.sch := buildableB_sound (rank := sampleRank) (by decide +kernel)

/-- The hypotheses of C58 are met by the sample, which has a struct with attributes and a group, an enumeration, a simple type and a
choice. -/
theorem Sample.compiles : Compiles sampleExt Sample.pgm :=
  (C58_exact_partial sampleExt_nameLaws (by decide +kernel) Sample.generated.gen (refsDistinctB_sound (by decide +kernel))).2 Sample.buildable

/-- The hypotheses of C59 are met by the sample module: what the reader returns has the declared type, and is written. -/
example : HasTy Sample.pgm (.named c!"Article") Sample.val ∧ ∃ evs, ToXml sampleExt Sample.pgm c!"Article" Sample.val (.ok evs) := by
  have h := (C59_reads Sample.compiles (i := c!"Article") (by decide +kernel : ∃ t ∈ Sample.pgm, t.ident = c!"Article") Sample.doc_decodes).2 _ rfl
  exact ⟨h, C59_writes Sample.compiles h⟩

/-! ## Schemas whose code does not compile -/

namespace SchemaSample

/-- A schema file with the given definitions. -/
def withDefs (defs : List XNode) : Files := oneFile (xdoc (schemaElem [(some c!"xs", nsXsd)] [] defs))

/-- The schema that is parsed from it. -/
def parsedDefs (defs : List XNode) : PSchema :=
  match parseFile sampleExt (withDefs defs) 1 c!"a.xsd" with | .ok P => P | _ => ⟨⟨[], .none, false, .empty⟩, []⟩

/-- The schema is parsed and code is generated, but the code does not compile. -/
def NotCompiled (defs : List XNode) : Prop :=
  ∃ S M, parseFile sampleExt (withDefs defs) 1 c!"a.xsd" = .ok S ∧ generateAll sampleExt S.context = .ok M ∧ ¬ Compiles sampleExt M

/-- Everything but the last condition, decided. -/
def acceptedB (defs : List XNode) : Bool :=
  (match parseFile sampleExt (withDefs defs) 1 c!"a.xsd" with
    | .ok S => decide (S.context.elements.map Prod.fst).Nodup && (match generateAll sampleExt S.context with | .ok _ => true | _ => false) &&
      refsDistinctB sampleExt S.context
    | _ => false)

theorem notCompiled_of {defs : List XNode} (h : acceptedB defs = true) (hb : ¬ Buildable sampleExt (parsedDefs defs).context) : NotCompiled defs := by
  unfold acceptedB at h
  unfold parsedDefs at hb
  split at h
  · next S hS =>
    simp only [Bool.and_eq_true, decide_eq_true_eq] at h
    obtain ⟨⟨h1, h2⟩, h3⟩ := h
    rw [hS] at hb
    split at h2
    · next M hM =>
      exact ⟨S, M, hS, hM, fun H => hb ((C58_exact_partial sampleExt_nameLaws h1 hM (refsDistinctB_sound h3)).1 H)⟩
    · cases h2
  · cases h

/-- A string element. -/
def strElem (n : Str) : XNode := xe c!"element" [(c!"name", n), (c!"type", c!"xs:string")] []

/-- A complex type. -/
def complexOf (n : Str) (kids : List XNode) : XNode := xe c!"complexType" [(c!"name", n)] kids

/-- A simple type with the base and facets. -/
def simpleOf (n base : Str) (facets : List XNode) : XNode :=
  xe c!"simpleType" [(c!"name", n)] [xe c!"restriction" [(c!"base", base)] facets]

/-- Unqualified name. -/
def un (s : Str) : Name := ⟨s, .none⟩

/-- A choice with a repeated sequence: the variant is declared with a `Vec`, and read as one value. -/
def repeatedAlternative : List XNode :=
  [complexOf c!"A" [xe c!"choice" [] [xe c!"sequence" [(c!"maxOccurs", c!"unbounded")] [strElem c!"b", strElem c!"c"], strElem c!"d"]]]

/-- An attribute whose type is a restriction of `xs:int`: `from_str` has an error that `?` cannot convert. -/
def numberAttribute : List XNode :=
  [simpleOf c!"Count" c!"xs:int" [], complexOf c!"A" [xe c!"attribute" [(c!"name", c!"n"), (c!"type", c!"Count")] []]]

/-- A type with an optional element of the same type: `struct A { a: Option<A> }` is infinite. -/
def recursiveType : List XNode :=
  [complexOf c!"A" [xe c!"sequence" [] [xe c!"element" [(c!"name", c!"a"), (c!"type", c!"A"), (c!"minOccurs", c!"0")] []]]]

/-- A choice of nothing: `match self {}`. -/
def emptyChoice : List XNode := [complexOf c!"A" [xe c!"choice" [] []]]

/-- A type called `option` hides `Option`. -/
def optionType : List XNode := [complexOf c!"option" [xe c!"sequence" [] [strElem c!"b"]]]

/-- A simple type called `some` hides `Some`. -/
def someType : List XNode := [simpleOf c!"some" c!"xs:string" []]

/-- An element and an attribute with the same name. -/
def sameField : List XNode :=
  [complexOf c!"A" [xe c!"sequence" [] [strElem c!"b"], xe c!"attribute" [(c!"name", c!"b"), (c!"type", c!"xs:string")] []]]

/-- An element called `try`. -/
def keywordField : List XNode := [complexOf c!"A" [xe c!"sequence" [] [strElem c!"try"]]]

/-- Two alternatives with the same name. -/
def sameVariant : List XNode := [complexOf c!"A" [xe c!"choice" [] [strElem c!"b", strElem c!"B"]]]

/-- An alternative called `self`. -/
def selfVariant : List XNode := [complexOf c!"A" [xe c!"choice" [] [strElem c!"self"]]]

/-- An enumeration with the value `self`. -/
def selfValue : List XNode := [simpleOf c!"E" c!"xs:string" [xe c!"enumeration" [(c!"value", c!"self")] []]]

/-- A reference to a type that is not there. -/
def missingType : List XNode := [complexOf c!"A" [xe c!"sequence" [] [xe c!"element" [(c!"name", c!"b"), (c!"type", c!"B")] []]]]

/-- Two types with the same name in Pascal case. -/
def sameType : List XNode := [simpleOf c!"item" c!"xs:string" [], simpleOf c!"Item" c!"xs:string" []]

theorem wf_irrefl {α : Type} {r : α → α → Prop} (h : WellFounded r) (a : α) : ¬ r a a := by
  induction h.apply a with
  | intro a _ ih => exact fun ha => ih a ha ha

end SchemaSample

open SchemaSample in
/-- **C58** is false of the code: schemas that are accepted, and for which code is generated that does not compile. Each violates
one condition of `Buildable`. -/
theorem C58_false : NotCompiled repeatedAlternative ∧ NotCompiled numberAttribute ∧ NotCompiled recursiveType ∧ NotCompiled emptyChoice ∧
    NotCompiled optionType ∧ NotCompiled someType ∧ NotCompiled sameField ∧ NotCompiled keywordField ∧ NotCompiled sameVariant ∧
    NotCompiled selfVariant ∧ NotCompiled selfValue ∧ NotCompiled missingType ∧ NotCompiled sameType := by
  refine ⟨?_, ?_, ?_, ?_, ?_, ?_, ?_, ?_, ?_, ?_, ?_, ?_, ?_⟩ <;> refine notCompiled_of (by decide +kernel) (fun B => ?_)
  · exact ((B.choices (un c!"AData") _ _ _ (by rfl)).2.2 _ (List.mem_cons_self ..)).2 (by decide +kernel)
  · obtain ⟨c, hm, h⟩ := B.attrs (un c!"A") _ (by rfl) _ (List.mem_cons_self ..)
    have := hm.functional (inlined_means (c' := .literal .int32) (by rfl))
    subst this
    rcases h with ⟨t, ht, h⟩ | ⟨_, _, h, _⟩
    · cases ht; cases h
    · cases h
  · refine wf_irrefl B.sized (un c!"A") ⟨_, by rfl, _, List.mem_cons_self .., inlined_means (by rfl)⟩
  · exact (B.choices (un c!"AData") _ _ _ (by rfl)).1 rfl
  · exact (B.types (un c!"option") _ (by rfl)).2 (by decide +kernel)
  · exact B.newtypes (un c!"some") _ (by rfl) (by decide +kernel)
  · exact absurd (B.fields (un c!"A") _ (by rfl)).1 (by decide +kernel)
  · exact (B.fields (un c!"A") _ (by rfl)).2 (un c!"try") (by decide +kernel) (by decide +kernel)
  · exact absurd (B.choices (un c!"AData") _ _ _ (by rfl)).2.1 (by decide +kernel)
  · exact ((B.choices (un c!"AData") _ _ _ (by rfl)).2.2 _ (List.mem_cons_self ..)).1 (by decide +kernel)
  · exact (B.enums (un c!"E") _ (by rfl)).2 _ (by rfl) _ (List.mem_cons_self ..) (by decide +kernel)
  · exact absurd (B.closed (un c!"A") _ (by rfl) _ (List.mem_cons_self ..) (un c!"B") (inlined_means (by rfl))) (by decide +kernel)
  · exact absurd (B.unique (un c!"item") (un c!"Item") (by decide +kernel) (by decide +kernel) (by decide +kernel)) (by decide +kernel)

/-! ## The value of the ill-typed reader -/

namespace SchemaSample

/-- The module generated for `repeatedAlternative`. -/
def alternativeCode : List TypeDef := moduleOf sampleExt (parsedDefs repeatedAlternative).context

/-- `<A><b>x</b><c>y</c></A>`. -/
def alternativeDoc : Doc := ⟨(⟨⟨c!"A", none⟩, [], [], 0⟩,
  [.elem ⟨⟨c!"b", none⟩, [], [], 0⟩ [.text c!"x"], .elem ⟨⟨c!"c", none⟩, [], [], 0⟩ [.text c!"y"]])⟩

/-- One value, where the variant is declared with a list. -/
def alternativeVal : Val := .struct [(c!"adata", .variant c!"BC" (.struct [(c!"b", .str c!"x"), (c!"c", .str c!"y")]))]

theorem alternative_reads : FromXml sampleExt alternativeCode c!"A" alternativeDoc (.ok alternativeVal) :=
  ⟨(by intro h; cases h), 9, by rfl⟩

end SchemaSample

open SchemaSample in
/-- **C18** is false of the reader as it is generated: the reader for a choice with a repeated sequence, which rustc rejects, returns
a value that does not have the declared type. -/
theorem C18_false : ∃ S P d v, parseFile sampleExt (withDefs repeatedAlternative) 1 c!"a.xsd" = .ok S ∧ Generated sampleExt S.context P ∧
    FromXml sampleExt P c!"A" d (.ok v) ∧ ¬ HasTy P (.named c!"A") v := by
  refine ⟨parsedDefs repeatedAlternative, alternativeCode, alternativeDoc, alternativeVal, by decide +kernel, generatesB_sound (by decide +kernel),
    alternative_reads, fun h => ?_⟩
  cases h with
  | named hf h =>
    cases hf
    cases h with
    | struct h =>
      cases h with
      | cons h _ =>
        cases h with
        | named hf h =>
          cases hf
          cases h with
          | choice hm h =>
            have : ∀ ty, (c!"BC", ty) ∈ [(c!"BC", Ty.vec (.named c!"ABCVariant")), (c!"D", .prim .string)] → ty = .vec (.named c!"ABCVariant") := by
              intro ty h
              rcases List.mem_cons.1 h with h | h
              · cases h; rfl
              · rcases List.mem_cons.1 h with h | h
                · cases h
                · cases h
            cases this _ hm
            cases h

end Xsd
