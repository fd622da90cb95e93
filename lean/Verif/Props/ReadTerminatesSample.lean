import Verif.Props.ReadTerminates
import Verif.Props.DefinitionsSample
import Verif.Props.Sample
/-!
# Concrete cases for `Verif/Props/ReadTerminates.lean`, and the limit of C17
-/
namespace Xsd

/-- The contents that are read from the same element. -/
def Root.inner : Root → List LeafContent
  | .leaf d => [d.content]
  | .enum _ => []
  | .element d => match d.content with
    | none => []
    | some (.leaf _ d) => [d.content]
    | some (.leaves ls) => (ls.filter Leaf.isVirtual).map (fun l => l.definition.content)
  | .choice vs _ _ => (vs.filter Leaf.isVirtual).map (fun l => l.definition.content)

/-- Types are finite if they can be ranked. -/
def rankB (S : SchemaContext) (rank : Name → Nat) : Bool :=
  S.elements.all (fun p => p.2.inner.all (fun c =>
    match inlined S c with
    | .ok (.named m) => decide (rank m < rank p.1)
    | .ok _ => true
    | _ => false))

theorem rankB_sound {S : SchemaContext} {rank : Name → Nat} (h : rankB S rank = true) : FiniteTypes S := by
  have key : ∀ {n r c m}, S.get n = some r → c ∈ r.inner → Means S c (.named m) → rank m < rank n := by
    intro n r c m hr hc hm
    have h := List.all_eq_true.1 (List.all_eq_true.1 h (n, r) (alookup_mem hr)) c hc
    split at h
    · next m' hi => have := (inlined_means hi).functional hm; cases this; exact of_decide_eq_true h
    · next c' hne hi => exact absurd ((inlined_means hi).functional hm) (hne m)
    · cases h
  refine Subrelation.wf ?_ (InvImage.wf rank Nat.lt_wfRel.wf)
  intro m n hmn
  show rank m < rank n
  cases hmn with
  | simple h hm => exact key h (List.mem_singleton.2 rfl) hm
  | base h hc hm => exact key h (by simp only [Root.inner, hc]; exact List.mem_singleton.2 rfl) hm
  | @group r l h hl hv hm =>
    refine key h ?_ hm
    cases r with
    | leaf d => cases hl
    | enum vs => cases hl
    | choice vs a b => exact List.mem_map.2 ⟨l, List.mem_filter.2 ⟨hl, hv⟩, rfl⟩
    | element d =>
      simp only [Root.leaves] at hl
      split at hl
      · next ls hc => simp only [Root.inner, hc]; exact List.mem_map.2 ⟨l, List.mem_filter.2 ⟨hl, hv⟩, rfl⟩
      · cases hl

/-- Decidable form of `GroupsAreGroups`. -/
def groupsB (x : Ext) (S : SchemaContext) : Bool :=
  S.elements.all (fun p => p.2.leaves.all (fun l => !l.isVirtual ||
    match l.definition.content with
    | .named m => isGroup S m && decide (pascalIdent x m = typeIdent x m)
    | _ => false))

theorem groupsB_sound {x : Ext} {S : SchemaContext} (h : groupsB x S = true) : GroupsAreGroups x S := by
  intro n r hr l hl hv
  have h := List.all_eq_true.1 (List.all_eq_true.1 h (n, r) (alookup_mem hr)) l hl
  rw [hv] at h
  split at h
  · next m hm =>
    simp only [Bool.not_true, Bool.false_or, Bool.and_eq_true, decide_eq_true_eq] at h
    exact ⟨m, hm, h.1, h.2⟩
  · cases h

namespace SchemaSample

/-- A recursive type with a repeated choice:

    <xs:complexType name="A"><xs:sequence><xs:choice maxOccurs="unbounded">
      <xs:element name="b" type="xs:string"/> <xs:element name="c" type="A"/>
    </xs:choice></xs:sequence></xs:complexType>

followed by the other definitions. -/
def repeatedChoice (others : List XNode) : Files := oneFile (xdoc (schemaElem [(some c!"xs", nsXsd)] []
  (xe c!"complexType" [(c!"name", c!"A")]
    [xe c!"sequence" [] [xe c!"choice" [(c!"maxOccurs", c!"unbounded")]
      [xe c!"element" [(c!"name", c!"b"), (c!"type", c!"xs:string")] [],
       xe c!"element" [(c!"name", c!"c"), (c!"type", c!"A")] []]]] :: others)))

/-- The schema that is parsed from it. -/
def choiceSchema (others : List XNode) : PSchema :=
  match parseFile sampleExt (repeatedChoice others) 1 c!"a.xsd" with | .ok P => P | _ => ⟨⟨[], .none, false, .empty⟩, []⟩

/-- `A` contains the type `ABC` of the choice. -/
def choiceRank (n : Name) : Nat := if n.name = c!"A" then 1 else 0

/-- The hypotheses of C17 are met by a recursive type with a repeated choice. -/
example : parseFile sampleExt (repeatedChoice []) 1 c!"a.xsd" = .ok (choiceSchema []) ∧
    (∃ vs, (choiceSchema []).context.get ⟨c!"ABC", .none⟩ = some (.choice vs true none) ∧ vs.length = 2) ∧
    Generated sampleExt (choiceSchema []).context (moduleOf sampleExt (choiceSchema []).context) ∧
    FiniteTypes (choiceSchema []).context ∧ GroupsAreGroups sampleExt (choiceSchema []).context :=
  ⟨by decide +kernel, ⟨match (choiceSchema []).context.get ⟨c!"ABC", .none⟩ with | some (.choice vs _ _) => vs | _ => [],
    by decide +kernel⟩, generatesB_sound (by decide +kernel), rankB_sound (rank := choiceRank) (by decide +kernel),
    groupsB_sound (by decide +kernel)⟩

/-- `<xs:simpleType name="ABC">`, a string: the name made up for the choice. -/
def stringABC : XNode := xe c!"simpleType" [(c!"name", c!"ABC")] [xe c!"restriction" [(c!"base", c!"xs:string")] []]

/-- The schema with both. -/
def endless : PSchema := choiceSchema [stringABC]

/-- The module generated for it. -/
def endlessCode : List TypeDef := moduleOf sampleExt endless.context

/-- `<A>x</A>`. -/
def endlessDoc : Doc := ⟨(⟨⟨c!"A", none⟩, [], [], 0⟩, [.text c!"x"])⟩

/-- `while ABC::lookahead(node)`. -/
theorem endless_loop {cF : Str → Queue → DRes Queue Val} {cL : Str → Queue → DRes Queue Bool} {i : Str} {v : ValRead} {s : Queue} {w : Val}
    (hL : cL i s = .diverge ∨ cL i s = .ok (true, s)) (hv : readVal sampleExt queueOps cF v s = .ok (w, s)) (k : Nat) :
    loopLook sampleExt queueOps cF cL i v k s = .diverge := by
  induction k with
  | zero => rfl
  | succ k ih =>
    unfold loopLook
    rcases hL with h | h
    · rw [h]; rfl
    · rw [h]
      simp only [Res.bind_ok, if_true, hv, ih]
      rfl

theorem endless_parsed : parseFile sampleExt (repeatedChoice [stringABC]) 1 c!"a.xsd" = .ok endless := by decide +kernel

theorem endless_generated : Generated sampleExt endless.context endlessCode := generatesB_sound (by decide +kernel)

theorem endless_finite : FiniteTypes endless.context := rankB_sound (rank := choiceRank) (by decide +kernel)

theorem endless_read : (findType endlessCode c!"A").map TypeDef.fromXml =
    some (.element (.leaves [(c!"bc", .whileLookahead c!"ABC" (.text .string) false)]) []) := by decide +kernel

theorem endless_look : (findType endlessCode c!"ABC").map TypeDef.look = some .always := by decide +kernel

theorem endless_lookahead (k : Nat) (s : Queue) :
    lookahead queueOps endlessCode k c!"ABC" s = .diverge ∨ lookahead queueOps endlessCode k c!"ABC" s = .ok (true, s) := by
  cases k with
  | zero => exact .inl rfl
  | succ k =>
    obtain ⟨t, ht, hl⟩ := Option.map_eq_some_iff.1 endless_look
    exact .inr (by simp only [lookahead, ht, hl])

theorem endless_diverges (k : Nat) : fromXml sampleExt queueOps endlessCode k c!"A" endlessDoc = .diverge := by
  obtain ⟨t, ht, hr⟩ := Option.map_eq_some_iff.1 endless_read
  have hq : t.rootName = ⟨c!"A", none⟩ := by
    have : (findType endlessCode c!"A").map TypeDef.rootName = some ⟨c!"A", none⟩ := by decide +kernel
    rw [ht] at this
    exact Option.some.inj this
  have hn : fromNode sampleExt queueOps endlessCode k c!"A" (queueOps.mkNode endlessDoc.root) = .diverge := by
    cases k with
    | zero => rfl
    | succ k =>
      simp only [fromNode, ht, runFrom, hr, readContent, readLeaves, readLeaf]
      rw [endless_loop (w := .str c!"x") (endless_lookahead k _) rfl]
      rfl
  have he : endlessDoc.tryChild ⟨c!"A", none⟩ = .ok endlessDoc.root := rfl
  simp only [fromXml, ht, hq, he, ofExcept, Res.bind_ok, hn]
  rfl

end SchemaSample

open SchemaSample in
/-- C17 as it is stated is false: if a simple type has the name that is made up for a repeated choice, `from_xml` does not return. -/
theorem C17_false : ¬ ∀ (x : Ext) (F : Files) (k : Nat) (path : Str) (P : PSchema) (C : List TypeDef), parseFile x F k path = .ok P →
    Generated x P.context C → FiniteTypes P.context → ∀ i d, ∃ r, FromXml x C i d r := by
  intro h
  obtain ⟨r, hr, k, hk⟩ := h _ _ _ _ _ _ endless_parsed endless_generated endless_finite c!"A" endlessDoc
  rw [← fromXml_hom cursor_hom, endless_diverges] at hk
  exact hr hk.symm

end Xsd
