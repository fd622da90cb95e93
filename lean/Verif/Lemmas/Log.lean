import Verif.Lemmas.Grammar
import Verif.Spec.Definitions
import Verif.Props.SchemaNames
/-!
# The types that parsing a node adds to the schema
-/
namespace Xsd

/-- Add the types to a map, in order. -/
def applyLog (log : List Entry) (roots : List (Name × Root)) : List (Name × Root) :=
  log.foldl (fun m b => ainsert m b.name b.root) roots

theorem applyLog_append (l l' : List Entry) (m : List (Name × Root)) : applyLog (l ++ l') m = applyLog l' (applyLog l m) :=
  List.foldl_append ..

theorem alookup_applyLog (log : List Entry) (m : List (Name × Root)) (n : Name) :
    alookup (applyLog log m) n = (lastNamed n log).or (alookup m n) := by
  induction log generalizing m with
  | nil => rfl
  | cons b log ih =>
    show alookup (applyLog log _) n = _
    rw [ih, alookup_ainsert]
    show _ = (match lastNamed n log with | some r => some r | none => if b.name = n then some b.root else none).or _
    cases lastNamed n log with
    | some r => rfl
    | none =>
      show (if b.name = n then some b.root else alookup m n) = (if b.name = n then some b.root else none).or _
      split <;> rfl

theorem lastNamed_append (n : Name) (l l' : List Entry) : lastNamed n (l ++ l') = (lastNamed n l').or (lastNamed n l) := by
  induction l with
  | nil => rw [List.nil_append]; cases lastNamed n l' <;> rfl
  | cons b l ih =>
    show (match lastNamed n (l ++ l') with | some r => some r | none => _) = _
    rw [ih]
    cases lastNamed n l' with
    | some r => rfl
    | none => rfl

variable (x : Ext)

/-- The context after parsing part of a document. -/
structure Later (s s' : PCtx) : Prop where
  env : s'.env = s.env
  nss : s.nss.Reachable → s.nss.Extends s'.nss ∧ s'.nss.Reachable

/-- The definition is what is made of the node between two contexts. -/
def Makes (s s' : PCtx) (c : Nd) (n : Name) (r : Root) : Prop :=
  ∀ t, s.nss.Reachable → s'.nss.Extends t → Interpreted x s.env t c n r

/-- The types added between two contexts are those of the nodes in `S`. -/
structure Logs (S : Nd → Prop) (s s' : PCtx) : Prop extends Later s s' where
  log : ∃ log, s'.roots = applyLog log s.roots ∧ (∀ a, S a ↔ ∃ b ∈ log, b.node = a) ∧
    ∀ b ∈ log, Makes x s s' b.node b.name b.root ∧ b.name.ns = if s.env.isQualified then s.env.target else .none

variable {x} {S T : Nd → Prop} {s s' s'' : PCtx}

theorem Later.refl : Later s s := ⟨rfl, fun h => ⟨.refl _, h⟩⟩

theorem Later.trans (h : Later s s') (h' : Later s' s'') : Later s s'' :=
  ⟨h'.env.trans h.env, fun hs => ⟨(h.nss hs).1.trans (h'.nss (h.nss hs).2).1, (h'.nss (h.nss hs).2).2⟩⟩

theorem Later.nodeName (h : Later s s') (v : Str) : s'.nodeName v false = s.nodeName v false := by
  have h1 : s'.target = s.target := congrArg Env.target h.env
  have h2 : s'.isQualified = s.isQualified := congrArg Env.isQualified h.env
  unfold PCtx.nodeName
  rw [h1, h2]

theorem Logs.nil (he : Later s s') (hr : s'.roots = s.roots) (hS : ∀ a, ¬ S a) : Logs x S s s' :=
  ⟨he, [], hr, fun a => ⟨fun h => absurd h (hS a), fun ⟨b, hb, _⟩ => by cases hb⟩, nofun⟩

theorem Logs.congr (h : Logs x S s s') (hS : ∀ a, S a ↔ T a) : Logs x T s s' := by
  obtain ⟨he, log, h1, h2, h3⟩ := h
  exact ⟨he, log, h1, fun a => (hS a).symm.trans (h2 a), h3⟩

theorem Logs.trans (h : Logs x S s s') (h' : Logs x T s' s'') : Logs x (fun a => S a ∨ T a) s s'' := by
  obtain ⟨he, log, h1, h2, h3⟩ := h
  obtain ⟨he', log', h1', h2', h3'⟩ := h'
  refine ⟨he.trans he', log ++ log', by rw [applyLog_append, ← h1, h1'], fun a => ?_, fun b hb => ?_⟩
  · show S a ∨ T a ↔ _
    rw [h2, h2']
    constructor
    · rintro (⟨b, hb, h⟩ | ⟨b, hb, h⟩)
      · exact ⟨b, List.mem_append_left _ hb, h⟩
      · exact ⟨b, List.mem_append_right _ hb, h⟩
    · rintro ⟨b, hb, h⟩
      rcases List.mem_append.1 hb with hb | hb
      · exact .inl ⟨b, hb, h⟩
      · exact .inr ⟨b, hb, h⟩
  · rcases List.mem_append.1 hb with hb | hb
    · exact ⟨fun t hs ht => (h3 b hb).1 t hs ((he'.nss (he.nss hs).2).1.trans ht), (h3 b hb).2⟩
    · exact ⟨fun t hs ht => he.env ▸ (h3' b hb).1 t (he.nss hs).2 ht, he.env ▸ (h3' b hb).2⟩

/-- Adding one type. -/
theorem Logs.add {c : Nd} {v : Str} {r : Root} {p : Name} (h : Logs x S s s') (hr : Makes x s s' c (s'.nodeName v false) r) :
    Logs x (fun a => S a ∨ c = a) s ((s'.addRoot (s'.nodeName v false) r).discoverType (s'.nodeName v false) p) := by
  obtain ⟨he, log, h1, h2, h3⟩ := h
  refine ⟨⟨he.env, he.nss⟩, log ++ [⟨c, s'.nodeName v false, r⟩], by rw [applyLog_append, ← h1]; rfl, fun a => ?_, fun b hb => ?_⟩
  · show S a ∨ c = a ↔ _
    rw [h2]
    simp only [List.mem_append, List.mem_singleton, or_and_right, exists_or, exists_eq_left]
  · rcases List.mem_append.1 hb with hb | hb
    · exact h3 b hb
    · cases List.mem_singleton.1 hb
      refine ⟨hr, ?_⟩
      show (s'.nodeName v false).ns = _
      rw [he.nodeName]
      show (if s.isQualified || false then s.target else .none) = if s.isQualified then s.target else .none
      rw [Bool.or_false]

/-! ## The nodes below a node -/

theorem aw_iff {k : Kind} {nd a : Nd} : AnonymousWithin k nd a ↔
    Anonymous k nd a ∨ ∃ k' d, Step k nd k' d ∧ AnonymousWithin k' d a := by
  constructor
  · rintro ⟨k', d, hw, ha⟩
    cases hw with
    | refl => exact .inl ha
    | step h hs => exact .inr ⟨_, _, h, _, _, hs, ha⟩
  · rintro (h | ⟨k', d, hs, k'', d', hw, ha⟩)
    · exact ⟨_, _, .refl .., h⟩
    · exact ⟨_, _, .step hs hw, ha⟩

theorem aw_annotation {nd a : Nd} : ¬ AnonymousWithin .annotation nd a := by
  rw [aw_iff]
  rintro (h | ⟨_, _, h, _⟩) <;> cases h

theorem aw_restriction {nd a : Nd} : ¬ AnonymousWithin .restriction nd a := by
  rw [aw_iff]
  rintro (h | ⟨_, _, h, _⟩) <;> cases h

theorem aw_simpleType {t : Bool} {nd a : Nd} : ¬ AnonymousWithin (.simpleType t) nd a := by
  rw [aw_iff]
  rintro (h | ⟨_, _, h, h'⟩)
  · cases h
  · cases h with
    | simpleRestriction => exact aw_restriction h'
    | simpleAnnotation => exact aw_annotation h'

theorem aw_attribute {nd a : Nd} : AnonymousWithin .attribute nd a ↔ Anonymous .attribute nd a := by
  rw [aw_iff]
  constructor
  · rintro (h | ⟨_, _, h, h'⟩)
    · exact h
    · cases h with
      | attrSimpleType => exact absurd h' aw_simpleType
      | attrAnnotation => exact absurd h' aw_annotation
  · exact .inl

/-- The types below a child of a sequence. -/
def SeqSub (d a : Nd) : Prop :=
  (d.name = c!"element" ∧ AnonymousWithin .localElement d a) ∨
  (d.name = c!"choice" ∧ (AnonymousWithin (.choice minMax) d a ∨ d = a)) ∨
  (d.name = c!"sequence" ∧ (AnonymousWithin (.sequence [c!"minOccurs"]) d a ∨ d = a))

theorem aw_sequence {occ : List Str} {nd a : Nd} : AnonymousWithin (.sequence occ) nd a ↔ ∃ d ∈ nd.xsdKids, SeqSub d a := by
  rw [aw_iff]
  constructor
  · rintro (h | ⟨_, d, h, h'⟩)
    · cases h with
      | seqChoice hc hn => exact ⟨a, hc, .inr (.inl ⟨hn, .inr rfl⟩)⟩
      | seqSequence hc hn => exact ⟨a, hc, .inr (.inr ⟨hn, .inr rfl⟩)⟩
    · cases h with
      | seqElement hc hn => exact ⟨d, hc, .inl ⟨hn, h'⟩⟩
      | seqChoice hc hn => exact ⟨d, hc, .inr (.inl ⟨hn, .inl h'⟩)⟩
      | seqSequence hc hn => exact ⟨d, hc, .inr (.inr ⟨hn, .inl h'⟩)⟩
  · rintro ⟨d, hc, ⟨hn, h⟩ | ⟨hn, h | rfl⟩ | ⟨hn, h | rfl⟩⟩
    · exact .inr ⟨_, d, .seqElement hc hn, h⟩
    · exact .inr ⟨_, d, .seqChoice hc hn, h⟩
    · exact .inl (.seqChoice hc hn)
    · exact .inr ⟨_, d, .seqSequence hc hn, h⟩
    · exact .inl (.seqSequence hc hn)

/-- The types below a child of a choice. -/
def ChoiceSub (d a : Nd) : Prop :=
  (d.name = c!"element" ∧ AnonymousWithin .localElement d a) ∨
  (d.name = c!"sequence" ∧ (AnonymousWithin (.sequence minMax) d a ∨ d = a))

theorem aw_choice {occ : List Str} {nd a : Nd} : AnonymousWithin (.choice occ) nd a ↔ ∃ d ∈ nd.xsdKids, ChoiceSub d a := by
  rw [aw_iff]
  constructor
  · rintro (h | ⟨_, d, h, h'⟩)
    · cases h with
      | choiceSequence hc hn => exact ⟨a, hc, .inr ⟨hn, .inr rfl⟩⟩
    · cases h with
      | choiceElement hc hn => exact ⟨d, hc, .inl ⟨hn, h'⟩⟩
      | choiceSequence hc hn => exact ⟨d, hc, .inr ⟨hn, .inl h'⟩⟩
  · rintro ⟨d, hc, ⟨hn, h⟩ | ⟨hn, h | rfl⟩⟩
    · exact .inr ⟨_, d, .choiceElement hc hn, h⟩
    · exact .inr ⟨_, d, .choiceSequence hc hn, h⟩
    · exact .inl (.choiceSequence hc hn)

/-- The types below a child of a complex type. -/
def ComplexSub (d a : Nd) : Prop :=
  (d.name = c!"simpleContent" ∧ AnonymousWithin .simpleContent d a) ∨
  (d.name = c!"complexContent" ∧ AnonymousWithin .complexContent d a) ∨
  ((d.name = c!"sequence" ∨ d.name = c!"all") ∧ (AnonymousWithin (.sequence minMax) d a ∨ (¬ OccursOnce d ∧ d = a))) ∨
  (d.name = c!"choice" ∧ (AnonymousWithin (.choice []) d a ∨ d = a)) ∨
  (d.name = c!"attribute" ∧ AnonymousWithin .attribute d a)

theorem aw_complexType {t : Bool} {nd a : Nd} : AnonymousWithin (.complexType t) nd a ↔ ∃ d ∈ nd.xsdKids, ComplexSub d a := by
  rw [aw_iff]
  constructor
  · rintro (h | ⟨_, d, h, h'⟩)
    · cases h with
      | repeated hc hn ho => exact ⟨a, hc, .inr (.inr (.inl ⟨hn, .inr ⟨ho, rfl⟩⟩))⟩
      | choice hc hn => exact ⟨a, hc, .inr (.inr (.inr (.inl ⟨hn, .inr rfl⟩)))⟩
    · cases h with
      | complexSimpleContent hc hn => exact ⟨d, hc, .inl ⟨hn, h'⟩⟩
      | complexComplexContent hc hn => exact ⟨d, hc, .inr (.inl ⟨hn, h'⟩)⟩
      | complexSequence hc hn => exact ⟨d, hc, .inr (.inr (.inl ⟨.inl hn, .inl h'⟩))⟩
      | complexAll hc hn => exact ⟨d, hc, .inr (.inr (.inl ⟨.inr hn, .inl h'⟩))⟩
      | complexChoice hc hn => exact ⟨d, hc, .inr (.inr (.inr (.inl ⟨hn, .inl h'⟩)))⟩
      | complexAttribute hc hn => exact ⟨d, hc, .inr (.inr (.inr (.inr ⟨hn, h'⟩)))⟩
      | complexAnnotation hc hn => exact absurd h' aw_annotation
  · rintro ⟨d, hc, ⟨hn, h⟩ | ⟨hn, h⟩ | ⟨hn, h | ⟨h, rfl⟩⟩ | ⟨hn, h | rfl⟩ | ⟨hn, h⟩⟩
    · exact .inr ⟨_, d, .complexSimpleContent hc hn, h⟩
    · exact .inr ⟨_, d, .complexComplexContent hc hn, h⟩
    · rcases hn with hn | hn
      · exact .inr ⟨_, d, .complexSequence hc hn, h⟩
      · exact .inr ⟨_, d, .complexAll hc hn, h⟩
    · exact .inl (.repeated hc hn h)
    · exact .inr ⟨_, d, .complexChoice hc hn, h⟩
    · exact .inl (.choice hc hn)
    · exact .inr ⟨_, d, .complexAttribute hc hn, h⟩

theorem aw_simpleExtension {nd a : Nd} : AnonymousWithin .simpleExtension nd a ↔
    ∃ d ∈ nd.xsdKids, d.name = c!"attribute" ∧ AnonymousWithin .attribute d a := by
  rw [aw_iff]
  constructor
  · rintro (h | ⟨_, d, h, h'⟩)
    · cases h
    · cases h with
      | simpleExtAttribute hc hn => exact ⟨d, hc, hn, h'⟩
  · rintro ⟨d, hc, hn, h⟩
    exact .inr ⟨_, d, .simpleExtAttribute hc hn, h⟩

theorem aw_simpleContent {nd a : Nd} : AnonymousWithin .simpleContent nd a ↔
    ∃ d ∈ nd.xsdKids, d.name = c!"extension" ∧ AnonymousWithin .simpleExtension d a := by
  rw [aw_iff]
  constructor
  · rintro (h | ⟨_, d, h, h'⟩)
    · cases h
    · cases h with
      | simpleExtension hc hn => exact ⟨d, hc, hn, h'⟩
  · rintro ⟨d, hc, hn, h⟩
    exact .inr ⟨_, d, .simpleExtension hc hn, h⟩

theorem aw_complexExtension {nd a : Nd} : AnonymousWithin .complexExtension nd a ↔
    ∃ d ∈ nd.xsdKids, (d.name = c!"attribute" ∧ AnonymousWithin .attribute d a) ∨
      (d.name = c!"sequence" ∧ (AnonymousWithin (.sequence [c!"minOccurs"]) d a ∨ d = a)) := by
  rw [aw_iff]
  constructor
  · rintro (h | ⟨_, d, h, h'⟩)
    · cases h with
      | extension hc hn => exact ⟨a, hc, .inr ⟨hn, .inr rfl⟩⟩
    · cases h with
      | complexExtAttribute hc hn => exact ⟨d, hc, .inl ⟨hn, h'⟩⟩
      | complexExtSequence hc hn => exact ⟨d, hc, .inr ⟨hn, .inl h'⟩⟩
  · rintro ⟨d, hc, ⟨hn, h⟩ | ⟨hn, h | rfl⟩⟩
    · exact .inr ⟨_, d, .complexExtAttribute hc hn, h⟩
    · exact .inr ⟨_, d, .complexExtSequence hc hn, h⟩
    · exact .inl (.extension hc hn)

theorem aw_complexContent {nd a : Nd} : AnonymousWithin .complexContent nd a ↔
    ∃ d ∈ nd.xsdKids, d.name = c!"extension" ∧ AnonymousWithin .complexExtension d a := by
  rw [aw_iff]
  constructor
  · rintro (h | ⟨_, d, h, h'⟩)
    · cases h
    · cases h with
      | complexExtension hc hn => exact ⟨d, hc, hn, h'⟩
  · rintro ⟨d, hc, hn, h⟩
    exact .inr ⟨_, d, .complexExtension hc hn, h⟩

theorem aw_topElement {nd a : Nd} : AnonymousWithin .topElement nd a ↔
    nd.attr c!"type" = none ∧ ∃ d ∈ nd.xsdKids, d.name = c!"complexType" ∧ AnonymousWithin (.complexType false) d a := by
  rw [aw_iff]
  constructor
  · rintro (h | ⟨_, d, h, h'⟩)
    · cases h
    · cases h with
      | topComplexType hc ht hn => exact ⟨ht, d, hc, hn, h'⟩
      | topSimpleType hc ht hn => exact absurd h' aw_simpleType
      | topAnnotation hc hn => exact absurd h' aw_annotation
  · rintro ⟨ht, d, hc, hn, h⟩
    exact .inr ⟨_, d, .topComplexType hc ht hn, h⟩

theorem aw_localElement {nd a : Nd} : AnonymousWithin .localElement nd a ↔
    nd.attr c!"ref" = none ∧ nd.attr c!"type" = none ∧
    (AnonymousWithin .topElement nd a ∨ ∃ d ∈ nd.xsdKids, (d.name = c!"complexType" ∨ d.name = c!"simpleType") ∧ d = a) := by
  rw [aw_iff, aw_topElement]
  constructor
  · rintro (h | ⟨_, d, h, h'⟩)
    · cases h with
      | complexType hc hr ht hn => exact ⟨hr, ht, .inr ⟨a, hc, .inl hn, rfl⟩⟩
      | simpleType hc hr ht hn => exact ⟨hr, ht, .inr ⟨a, hc, .inr hn, rfl⟩⟩
    · cases h with
      | localComplexType hc hr ht hn => exact ⟨hr, ht, .inl ⟨ht, d, hc, hn, h'⟩⟩
      | localSimpleType hc hr ht hn => exact absurd h' aw_simpleType
  · rintro ⟨hr, ht, ⟨_, d, hc, hn, h⟩ | ⟨d, hc, hn | hn, rfl⟩⟩
    · exact .inr ⟨_, d, .localComplexType hc hr ht hn, h⟩
    · exact .inl (.complexType hc hr ht hn)
    · exact .inl (.simpleType hc hr ht hn)

/-! ## Steps of the parser -/

theorem getTypeName_roots {a : XAttr} {c : LeafContent} (h : getTypeName a s = .ok (c, s')) : s'.roots = s.roots := by
  rcases getTypeName_nss h with ⟨rfl, _⟩ | ⟨n, u, _, rfl⟩ <;> rfl

theorem getTypeName_later {a : XAttr} {c : LeafContent} (h : getTypeName a s = .ok (c, s')) : Later s s' := by
  refine ⟨getTypeName_env h, fun hs => ?_⟩
  rcases getTypeName_nss h with ⟨rfl, _⟩ | ⟨n, u, _, rfl⟩
  · exact ⟨.refl _, hs⟩
  · exact ⟨hs.inv.getOrInsert_extends u, hs.getOrInsert u⟩

theorem Later.discover (h : Later s s') {n p : Name} : Later s (s'.discoverType n p) := ⟨h.env, h.nss⟩

theorem typeAttr_roots {nd nd' : Nd} {a : XAttr} {parent : Name} {c : LeafContent} (h : TypeAttrRun nd a parent s c nd' s') :
    s'.roots = s.roots ∧ Later s s' := by
  cases h with
  | named n s1 h => exact ⟨(getTypeName_roots h : s1.roots = _), (getTypeName_later h).discover⟩
  | fixed t s1 f h hf => exact ⟨getTypeName_roots h, getTypeName_later h⟩
  | literal t s1 h hf => exact ⟨getTypeName_roots h, getTypeName_later h⟩

theorem SimpleTypeRun.parse {nd : Nd} {r : Root} (h : SimpleTypeRun x nd s r s') : parseSimpleType x nd s = .ok (r, s') := by
  cases h with
  | mk docs restriction rest attr t s' fs hp hd hr ha ht hc hf =>
    subst hc
    have h1 : tryRemoveKid nd c!"restriction" (removeKid c!"annotation" nd.xsdKids).2 = .ok (restriction, []) :=
      tryRemoveKid_ok.2 hr
    have h2 : restriction.tryAttr c!"base" = .ok attr := tryAttr_ok.2 ha
    unfold parseSimpleType
    refine P.bind_ok.2 ⟨_, _, P.lift_ok.2 ⟨hp, rfl⟩, ?_⟩
    refine P.bind_ok.2 ⟨_, _, P.lift_ok.2 ⟨hd, rfl⟩, ?_⟩
    refine P.bind_ok.2 ⟨_, _, P.lift_ok.2 ⟨h1, rfl⟩, ?_⟩
    refine P.bind_ok.2 ⟨_, _, P.lift_ok.2 ⟨h2, rfl⟩, ?_⟩
    refine P.bind_ok.2 ⟨_, _, ht, ?_⟩
    refine P.bind_ok.2 ⟨(), _, P.lift_ok.2 ⟨preventUnvisitedChildren_ok.2 rfl, rfl⟩, ?_⟩
    refine P.bind_ok.2 ⟨_, _, P.lift_ok.2 ⟨hf, rfl⟩, ?_⟩
    exact P.pure_ok.2 ⟨rfl, rfl⟩

theorem simpleType_roots {nd : Nd} {r : Root} (h : SimpleTypeRun x nd s r s') : s'.roots = s.roots ∧ Later s s' := by
  cases h with
  | mk docs restriction rest attr t s' fs hp hd hr ha ht hc hf => exact ⟨getTypeName_roots ht, getTypeName_later ht⟩

/-- Enumeration values come from `enumeration` children. -/
theorem facets_enumeration {cs : List Nd} {fs : List Str × List Restriction} (h : parseFacets x cs = .ok fs) :
    fs.1 = [] ↔ ∀ c ∈ cs, c.name ≠ c!"enumeration" := by
  induction cs generalizing fs with
  | nil => unfold parseFacets at h; cases h; simp
  | cons c cs ih =>
    unfold parseFacets at h
    obtain ⟨f, h1, h⟩ := Res.bind_eq_ok.1 h
    obtain ⟨r, h2, h⟩ := Res.bind_eq_ok.1 h
    have hf : (∃ v, f = .inl v) ↔ c.name = c!"enumeration" := by
      clear ih h h2
      unfold parseFacet at h1
      split at h1
      · next hn =>
        obtain ⟨a, _, h⟩ := Res.bind_eq_ok.1 h1
        cases h
        simp [hn]
      · next hn =>
        simp only [hn, iff_false]
        rintro ⟨v, rfl⟩
        repeat' split at h1
        all_goals first
          | (cases h1; done)
          | (obtain ⟨_, _, h⟩ := Res.bind_eq_ok.1 h1; cases h; done)
          | (obtain ⟨_, _, h⟩ := Res.bind_eq_ok.1 h1; obtain ⟨_, _, h⟩ := Res.bind_eq_ok.1 h; cases h; done)
    cases h
    cases f with
    | inl v =>
      have := hf.1 ⟨v, rfl⟩
      simp [this]
    | inr q =>
      have : c.name ≠ c!"enumeration" := fun h => by obtain ⟨v, hv⟩ := hf.2 h; cases hv
      simp only [List.forall_mem_cons]
      exact (ih h2).trans ⟨fun h => ⟨this, h⟩, fun h => h.2⟩

theorem simpleType_enumeration {nd : Nd} {r : Root} (h : SimpleTypeRun x nd s r s') :
    (∃ t rs docs, r = .leaf ⟨.literal t, rs, docs⟩) ↔
      ¬ ∃ q v, q ∈ nd.xsdKids ∧ q.name = c!"restriction" ∧ v ∈ q.xsdKids ∧ v.name = c!"enumeration" := by
  cases h with
  | mk docs restriction rest attr t s' fs hp hd hr ha ht hc hf =>
    subst hc
    have hq : ∀ q ∈ nd.xsdKids, q.name = c!"restriction" → q = restriction := fun q hq hn =>
      (rk_only hr (rk_keep hq (by rw [hn]; decide))).1
    have hres := rk_name (by rw [hr] : (removeKid c!"restriction" (removeKid c!"annotation" nd.xsdKids).2).1 = some restriction)
    have hin := rk_rest hres.2
    have hfe := facets_enumeration hf
    by_cases hfs : fs.1 = []
    · rw [if_pos hfs]
      refine ⟨fun _ => ?_, fun _ => ⟨_, _, _, rfl⟩⟩
      rintro ⟨q, v, h1, h2, h3, h4⟩
      cases hq q h1 h2
      exact hfe.1 hfs v h3 h4
    · rw [if_neg hfs]
      refine ⟨(fun hh => by obtain ⟨_, _, _, h⟩ := hh; cases h), fun h => absurd ?_ hfs⟩
      refine hfe.2 (fun c hc hn => h ⟨restriction, c, hin, name_of_info hres.1, hc, hn⟩)

theorem attribute_log {nd : Nd} {parent : Name} {r : Option Attribute} (h : AttributeRun x nd parent s r s') :
    Logs x (AnonymousWithin .attribute nd) s s' := by
  have key : ∀ {docs nameAttr content nd' s'} (_ : parseAnnotation x (removeKid c!"annotation" nd.xsdKids).1 = .ok docs)
      (_ : AttrContentRun x (nd.see c!"name") ⟨nameAttr, .none⟩ parent s
        (removeKid c!"simpleType" (removeKid c!"annotation" nd.xsdKids).2).1 content nd' s')
      (_ : (removeKid c!"simpleType" (removeKid c!"annotation" nd.xsdKids).2).2 = []),
      Logs x (AnonymousWithin .attribute nd) s s' := by
    intro docs nameAttr content nd' s' hd hcr hk
    -- the only child
    have honly : ∀ c ∈ nd.xsdKids, c.name = c!"simpleType" →
        (removeKid c!"simpleType" (removeKid c!"annotation" nd.xsdKids).2).1 = some c := by
      intro c hc hn
      rcases rk_mem c!"simpleType" (rk_keep (n := c!"annotation") hc (by rw [hn]; decide)) with h | h
      · exact h
      · rw [hk] at h; cases h
    have hname := fun c => rk_name (n := c!"simpleType") (ks := (removeKid c!"annotation" nd.xsdKids).2) (c := c)
    generalize (removeKid c!"simpleType" (removeKid c!"annotation" nd.xsdKids).2).1 = o at hcr honly hname
    cases hcr with
    | plain c t rs docs s' h =>
      refine .nil (simpleType_roots h).2 (simpleType_roots h).1 (fun a ha => ?_)
      rw [aw_attribute] at ha
      cases ha with
      | enumeration hc hn hr hrn hv hvn =>
        cases honly _ hc hn
        exact (simpleType_enumeration h).1 ⟨_, _, _, rfl⟩ ⟨_, _, hr, hrn, hv, hvn⟩
    | inline c root s1 v h hv hne =>
      have hen : ∃ q v, q ∈ c.xsdKids ∧ q.name = c!"restriction" ∧ v ∈ q.xsdKids ∧ v.name = c!"enumeration" :=
        Classical.byContradiction (fun hh => by
          obtain ⟨t, rs, docs, hr⟩ := (simpleType_enumeration h).2 hh
          exact hne _ _ _ hr)
      obtain ⟨q, w, h1, h2, h3, h4⟩ := hen
      obtain ⟨hcn, hcm⟩ := hname c rfl
      have hcn := name_of_info hcn
      have hcm := rk_rest hcm
      have hs := simpleType_roots h
      have hint : Makes x s s1 c (s1.nodeName v false) root := fun t hi ht =>
        Interpreted.simpleType (n := s1.nodeName v false) (seen := c.seen) (docs := none) hcn rfl hi ht h.parse
      refine ((Logs.nil (S := fun _ => False) hs.2 hs.1 (fun _ h => h)).add (p := parent) hint).congr (fun a => ?_)
      rw [aw_attribute, false_or]
      constructor
      · rintro rfl
        exact .enumeration hcm hcn h1 h2 h3 h4
      · intro ha
        cases ha with
        | enumeration hc hn hr hrn hv hvn => exact Option.some.inj (honly _ hc hn)
    | typed a c nd' s' ha h =>
      refine .nil (typeAttr_roots h).2 (typeAttr_roots h).1 (fun a ha => ?_)
      rw [aw_attribute] at ha
      cases ha with
      | enumeration hc hn hr hrn hv hvn => cases honly _ hc hn
  cases h with
  | prohibited nameAttr docs content nd' s' hn hd hc hk' hu => exact key hd hc hk'
  | some nameAttr docs content nd' s' hn hd hc hk' hu hx hp => exact key hd hc hk'

theorem attributes_log {parent : Name} {cs : List Nd} {as : List Attribute} (h : AttributesRun x parent cs s as s') :
    Logs x (fun a => ∃ c ∈ cs, AnonymousWithin .attribute c a) s s' := by
  induction h with
  | nil s => exact .nil .refl rfl (by simp)
  | skip c cs s s1 as s' h hs ih =>
    exact ((attribute_log (parseAttribute_run x h)).trans ih).congr (by simp)
  | cons c cs s s1 a as s' h hs ih =>
    exact ((attribute_log (parseAttribute_run x h)).trans ih).congr (by simp)

theorem leaves_log {Q : Nd → PCtx → Option Leaf → PCtx → Prop} {T : Nd → Nd → Prop} {cs : List Nd} {ls : List Leaf}
    (hq : ∀ c ∈ cs, ∀ s l s', Q c s l s' → Logs x (T c) s s') (h : LeavesRun Q cs s ls s') :
    Logs x (fun a => ∃ c ∈ cs, T c a) s s' := by
  induction h with
  | nil s => exact .nil .refl rfl (by simp)
  | skip c cs s s1 ls s' h hs ih =>
    exact ((hq c (by simp) _ _ _ h).trans (ih (fun c hc => hq c (by simp [hc])))).congr (by simp)
  | cons c cs s s1 l ls s' h hs ih =>
    exact ((hq c (by simp) _ _ _ h).trans (ih (fun c hc => hq c (by simp [hc])))).congr (by simp)

theorem addGroup_log {parent : Name} {members : List Leaf} {suffix : List Name} {root : Root} {docs : Option Str} {mn : Nat}
    {mx : MaxOccurs} {l : Leaf} {c : Nd} (hl : Logs x S s s') (hr : ∀ n, Makes x s s' c n root)
    (h : addGroup x parent members suffix root docs mn mx s' = .ok (l, s'')) : Logs x (fun a => S a ∨ c = a) s s'' := by
  obtain ⟨ln, rn, h1, h2, rfl, rfl⟩ := addGroup_ok h
  rw [deriveVirtualName_ok] at h1 h2
  obtain ⟨v1, _, rfl, _⟩ := h1
  obtain ⟨v2, _, rfl, _⟩ := h2
  exact hl.add (hr _)

theorem occursOnce_iff {c : Nd} {mn : Nat} {mx : MaxOccurs} (hmn : parseMinOccurs (c.attr c!"minOccurs") = .ok mn)
    (hmx : parseMaxOccurs (c.attr c!"maxOccurs") = .ok mx) : ¬ OccursOnce c ↔ (mx.isVec = true ∨ mn ≠ 1) := by
  have h1 : (∀ v, c.value c!"minOccurs" = some v → Unsigned 4294967295 v 1) ↔ mn = 1 := by
    unfold Nd.value
    cases ha : c.attr c!"minOccurs" with
    | none =>
      rw [ha] at hmn
      cases hmn
      simp
    | some a =>
      rw [ha] at hmn
      simp only [Option.map_some, Option.some.injEq, forall_eq']
      rw [← parseU32_ok]
      have hmn : parseU32 a = .ok mn := hmn
      rw [hmn]
      simp
  have h2 : (∀ v, c.value c!"maxOccurs" = some v → ∃ n, Unsigned 4294967295 v n ∧ n ≤ 1) ↔ mx.isVec = false := by
    unfold Nd.value
    cases ha : c.attr c!"maxOccurs" with
    | none =>
      rw [ha] at hmx
      cases hmx
      simp [MaxOccurs.isVec]
    | some a =>
      simp only [Option.map_some, Option.some.injEq, forall_eq']
      obtain ⟨hu, hn, _⟩ := (C34_max_occurs (c.attr c!"maxOccurs")).2 a ha
      cases mx with
      | unbounded =>
        rw [hu.1 hmx]
        simp only [MaxOccurs.isVec, Bool.true_eq_false, iff_false]
        rintro ⟨n, h, _⟩
        exact not_unsigned_unbounded h
      | number m =>
        have := (hn m).1 hmx
        simp only [MaxOccurs.isVec]
        constructor
        · rintro ⟨n, h, hle⟩
          have h' := (hn n).2 h
          rw [hmx] at h'
          cases h'
          simpa using hle
        · intro h
          exact ⟨m, this, by simpa using h⟩
  unfold OccursOnce
  rw [h1, h2]
  cases mx.isVec <;> simp

/-! ## All nodes -/

/-- The anonymous type of an element, if it has one, and what it becomes. -/
def ElementType (x : Ext) (s s' : PCtx) (nd : Nd) (n : Name) (r : Root) : Prop :=
  nd.attr c!"type" ≠ none ∨
  ∃ d ∈ nd.xsdKids, (d.name = c!"complexType" ∨ d.name = c!"simpleType") ∧
    (∀ c ∈ nd.xsdKids, c.name = c!"complexType" ∨ c.name = c!"simpleType" → c = d) ∧ Makes x s s' d n r

/-- The statement of the induction. -/
structure LogAll (x : Ext) (k : Nat) : Prop where
  root : ∀ {nd parent s r s'}, parseRoot x k nd parent s = .ok (r, s') →
    (nd.name = c!"element" ∧ Logs x (AnonymousWithin .topElement nd) s s' ∧ ElementType x s s' nd parent r ∧
      Makes x s s' nd parent r) ∨
    (nd.name = c!"complexType" ∧ Logs x (AnonymousWithin (.complexType true) nd) s s' ∧ Makes x s s' nd parent r) ∨
    (nd.name = c!"simpleType" ∧ Logs x (AnonymousWithin (.simpleType true) nd) s s' ∧ Makes x s s' nd parent r)
  elementRoot : ∀ {nd parent s r s'}, parseElementRoot x k nd parent s = .ok (r, s') →
    Logs x (AnonymousWithin .topElement nd) s s' ∧ ElementType x s s' nd parent r
  complexType : ∀ {nd parent s r s'}, parseComplexType x k nd parent s = .ok (r, s') →
    Logs x (fun a => ∃ d ∈ nd.xsdKids, ComplexSub d a) s s'
  particle : ∀ {kids parent s c rest s'}, parseParticle x k kids parent s = .ok ((c, rest), s') →
    ∃ o : Option Nd, (∀ d ∈ kids, d ∈ rest ∨ o = some d) ∧ (∀ d ∈ rest, d ∈ kids) ∧ (∀ d, o = some d → d ∈ kids) ∧
      Logs x (fun a => ∃ d, o = some d ∧ ComplexSub d a) s s'
  complexContent : ∀ {nd parent s d s'}, parseComplexContent x k nd parent s = .ok (d, s') →
    Logs x (AnonymousWithin .complexContent nd) s s'
  extension : ∀ {child base parent s ls s'}, parseExtension x k child base parent s = .ok (ls, s') →
    (∀ d, child = some d → d.name = c!"sequence") →
    Logs x (fun a => ∃ d, child = some d ∧ (AnonymousWithin (.sequence [c!"minOccurs"]) d a ∨ d = a)) s s'
  sequence : ∀ {nd parent s ls s'}, parseSequence x k nd parent s = .ok (ls, s') →
    Logs x (fun a => ∃ d ∈ nd.xsdKids, SeqSub d a) s s'
  choice : ∀ {nd parent s ls s'}, parseChoice x k nd parent s = .ok (ls, s') →
    Logs x (fun a => ∃ d ∈ nd.xsdKids, ChoiceSub d a) s s'
  child : ∀ {nd parent s l s'}, nd.name = c!"element" → parseElementChild x k nd parent s = .ok (l, s') →
    Logs x (AnonymousWithin .localElement nd) s s'

theorem logAll (x : Ext) (k : Nat) : LogAll x k := by
  induction k with
  | zero =>
    constructor
    case extension => intro child base parent s ls s' h; unfold parseExtension at h; cases h
    case child => intro nd parent s l s' _ h; cases h
    all_goals (intros; rename_i h; cases h)
  | succ k ih =>
    constructor
    case root =>
      intro nd parent s r s' h
      have h' := parseRoot_run x h
      cases h' with
      | element hn h =>
        exact .inl ⟨hn, (ih.elementRoot h).1, (ih.elementRoot h).2, fun t hi ht => .element (seen := nd.seen) hn rfl hi ht h⟩
      | complexType hn h =>
        exact .inr (.inl ⟨hn, (ih.complexType h).congr (fun a => aw_complexType.symm),
          fun t hi ht => .complexType (seen := nd.seen) (docs := none) hn rfl hi ht h⟩)
      | simpleType hn h =>
        exact .inr (.inr ⟨hn, .nil (simpleType_roots h).2 (simpleType_roots h).1 (fun a => aw_simpleType),
          fun t hi ht => .simpleType (seen := nd.seen) (docs := none) hn rfl hi ht h.parse⟩)
    case elementRoot =>
      intro nd parent s r s' h
      replace h := parseElementRoot_run x h
      cases h with
      | typed docs a c nd' s' hd ht hc hp hk =>
        have ht : nd.attr c!"type" = some a := ht
        refine ⟨.nil (typeAttr_roots hc).2 (typeAttr_roots hc).1 (fun a ha => ?_), .inl (by rw [ht]; simp)⟩
        rw [aw_topElement, ht] at ha
        cases ha.1
      | complexType docs child root s' hd ht hp hk h =>
        have hch := rk_name (by rw [hk] :
          (removeKid c!"complexType" (removeKid c!"annotation" nd.xsdKids).2).1 = some child)
        have hcn := name_of_info hch.1
        have hcm := rk_rest hch.2
        have hon : ∀ c ∈ nd.xsdKids, c.name = c!"complexType" ∨ c.name = c!"simpleType" → c = child := by
          intro c hc hn
          exact (rk_only hk (rk_keep hc (by rcases hn with hn | hn <;> rw [hn] <;> decide))).1
        refine ⟨(ih.complexType h).congr (fun a => ?_), .inr ⟨child, hcm, .inl hcn, hon,
          fun t hi ht => .complexType (seen := child.seen) hcn rfl hi ht h⟩⟩
        rw [aw_topElement, ← aw_complexType (t := false)]
        constructor
        · intro ha
          exact ⟨ht, child, hcm, hcn, ha⟩
        · rintro ⟨_, d, hd, hn, ha⟩
          rw [← hon d hd (.inl hn)]
          exact ha
      | simpleType docs child root s' hd ht hp hn hk h =>
        have hch := rk_name (by rw [hk] :
          (removeKid c!"simpleType" (removeKid c!"annotation" nd.xsdKids).2).1 = some child)
        have hcn := name_of_info hch.1
        have hcm := rk_rest hch.2
        have hon : ∀ c ∈ nd.xsdKids, c.name = c!"complexType" ∨ c.name = c!"simpleType" → c = child := by
          intro c hc hn
          exact (rk_only hk (rk_keep hc (by rcases hn with hn | hn <;> rw [hn] <;> decide))).1
        refine ⟨.nil (simpleType_roots h).2 (simpleType_roots h).1 (fun a ha => ?_), .inr ⟨child, hcm, .inr hcn, hon,
          fun t hi ht => .simpleType (seen := child.seen) hcn rfl hi ht h.parse⟩⟩
        rw [aw_topElement] at ha
        obtain ⟨_, d, hd, hn, _⟩ := ha
        rw [hon d hd (.inl hn)] at hn
        exact absurd (hn.symm.trans hcn) (by decide)
    case complexType =>
      intro nd parent s r s' h
      replace h := parseComplexType_run x h
      have only : ∀ {n child} (_ : removeKid n (removeKid c!"annotation" nd.xsdKids).2 = (some child, [])) (a : Nd),
          (∃ d ∈ nd.xsdKids, ComplexSub d a) ↔ ComplexSub child a := by
        intro n child hk a
        have hch := rk_name (by rw [hk] : (removeKid n (removeKid c!"annotation" nd.xsdKids).2).1 = some child)
        constructor
        · rintro ⟨d, hd, h⟩
          have : d.name ≠ c!"annotation" := by
            rcases h with ⟨h, _⟩ | ⟨h, _⟩ | ⟨h | h, _⟩ | ⟨h, _⟩ | ⟨h, _⟩ <;> rw [h] <;> decide
          rw [← (rk_only hk (rk_keep hd this)).1]
          exact h
        · intro h
          exact ⟨child, rk_rest hch.2, h⟩
      cases h with
      | simpleContent docs child d s' hm hp hd hk h =>
        have hcn : child.name = c!"simpleContent" := name_of_info (rk_name (by rw [hk] :
          (removeKid c!"simpleContent" (removeKid c!"annotation" nd.xsdKids).2).1 = some child)).1
        have sub : ∀ a, ComplexSub child a ↔ AnonymousWithin .simpleContent child a := by
          intro a
          constructor
          · rintro (⟨h, h'⟩ | ⟨h, _⟩ | ⟨h | h, _⟩ | ⟨h, _⟩ | ⟨h, _⟩)
            · exact h'
            all_goals exact absurd (h.symm.trans hcn) (by decide)
          · exact fun h => .inl ⟨hcn, h⟩
        have att : ∀ {extension attributes s1}, removeKid c!"extension" child.xsdKids = (some extension, []) →
            (removeKids c!"attribute" extension.xsdKids).2 = [] → Later s s1 → s1.roots = s.roots →
            AttributesRun x parent (removeKids c!"attribute" extension.xsdKids).1 s1 attributes s' →
            Logs x (fun a => ∃ d ∈ nd.xsdKids, ComplexSub d a) s s' := by
          intro extension attributes s1 hr hk' he hrt ha
          obtain ⟨hq, hq'⟩ := removeKids_rest hk'
          rw [hq] at ha
          have hex := rk_name (by rw [hr] : (removeKid c!"extension" child.xsdKids).1 = some extension)
          refine ((Logs.nil (S := fun _ => False) he hrt (fun _ h => h)).trans (attributes_log ha)).congr (fun a => ?_)
          rw [only hk, sub, aw_simpleContent, false_or]
          constructor
          · rintro ⟨c, hc, h⟩
            exact ⟨extension, hex.2, name_of_info hex.1, aw_simpleExtension.2 ⟨c, hc, name_of_info (hq' c hc), h⟩⟩
          · rintro ⟨e, he, hn, h⟩
            rw [(rk_only hr he).1] at h
            obtain ⟨d, hd, hn, h⟩ := aw_simpleExtension.1 h
            exact ⟨d, hd, h⟩
        cases h with
        | named extension base n s1 attributes s' hp hr hb ht ha hk' =>
          exact att (s1 := s1.discoverType n parent) hr hk' (getTypeName_later ht).discover (getTypeName_roots ht : s1.roots = _) ha
        | literal extension base t s1 attributes s' hp hr hb ht ha hk' =>
          exact att hr hk' (getTypeName_later ht) (getTypeName_roots ht : s1.roots = _) ha
      | complexContent docs child d s' hm hp hd hn hk h =>
        have hcn : child.name = c!"complexContent" := name_of_info (rk_name (by rw [hk] :
          (removeKid c!"complexContent" (removeKid c!"annotation" nd.xsdKids).2).1 = some child)).1
        refine (ih.complexContent h).congr (fun a => ?_)
        rw [only hk]
        constructor
        · exact fun h => .inr (.inl ⟨hcn, h⟩)
        · rintro (⟨h, _⟩ | ⟨h, h'⟩ | ⟨h | h, _⟩ | ⟨h, _⟩ | ⟨h, _⟩)
          · exact absurd (h.symm.trans hcn) (by decide)
          · exact h'
          all_goals exact absurd (h.symm.trans hcn) (by decide)
      | particle docs content rest s1 attributes s' hm hp hd hn hn2 h ha hk =>
        obtain ⟨o, h1, h2, h3, h4⟩ := ih.particle h
        obtain ⟨hq, hq'⟩ := removeKids_rest hk
        rw [hq] at ha
        refine (h4.trans (attributes_log ha)).congr (fun a => ?_)
        constructor
        · rintro (⟨d, rfl, h⟩ | ⟨d, hd, h⟩)
          · exact ⟨d, rk_rest (h3 d rfl), h⟩
          · exact ⟨d, rk_rest (h2 d hd), .inr (.inr (.inr (.inr ⟨name_of_info (hq' d hd), h⟩)))⟩
        · rintro ⟨d, hd, h⟩
          have hna : d.name ≠ c!"annotation" := by
            rcases h with ⟨h, _⟩ | ⟨h, _⟩ | ⟨h | h, _⟩ | ⟨h, _⟩ | ⟨h, _⟩ <;> rw [h] <;> decide
          rcases h1 d (rk_keep hd hna) with hr | hr
          · have hat := name_of_info (hq' d hr)
            rcases h with ⟨h, _⟩ | ⟨h, _⟩ | ⟨h | h, _⟩ | ⟨h, _⟩ | ⟨h, h'⟩
            · exact absurd (h.symm.trans hat) (by decide)
            · exact absurd (h.symm.trans hat) (by decide)
            · exact absurd (h.symm.trans hat) (by decide)
            · exact absurd (h.symm.trans hat) (by decide)
            · exact absurd (h.symm.trans hat) (by decide)
            · exact .inr ⟨d, hr, h'⟩
          · exact .inl ⟨d, hr, h⟩
    case particle =>
      intro kids parent s c rest s' h
      have hrun := parseParticle_run x h
      clear h
      -- the sequence or all
      have hsa : ∀ {child rest}, sequenceOrAll kids = (some child, rest) →
          (∀ d ∈ kids, d ∈ rest ∨ some child = some d) ∧ (∀ d ∈ rest, d ∈ kids) ∧ (∀ d, some child = some d → d ∈ kids) ∧
          (child.name = c!"sequence" ∨ child.name = c!"all") := by
        intro child rest hk
        unfold sequenceOrAll at hk
        have key : ∀ {n}, removeKid n kids = (some child, rest) → 
            (∀ d ∈ kids, d ∈ rest ∨ some child = some d) ∧ (∀ d ∈ rest, d ∈ kids) ∧ (∀ d, some child = some d → d ∈ kids) ∧
            child.name = n := by
          intro n hk
          have hch := rk_name (by rw [hk] : (removeKid n kids).1 = some child)
          refine ⟨fun d hd => ?_, fun d hd => rk_rest (n := n) (by rw [hk]; exact hd),
            fun d hd => Option.some.inj hd ▸ hch.2, name_of_info hch.1⟩
          have := rk_mem n hd
          rw [hk] at this
          exact this.symm
        split at hk
        · next c' r' hk' =>
          cases hk
          obtain ⟨h1, h2, h3, h4⟩ := key hk'
          exact ⟨h1, h2, h3, .inl h4⟩
        · next hk' =>
          obtain ⟨h1, h2, h3, h4⟩ := key hk
          exact ⟨h1, h2, h3, .inr h4⟩
      have sub : ∀ {child a}, child.name = c!"sequence" ∨ child.name = c!"all" → (ComplexSub child a ↔
          (∃ d ∈ child.xsdKids, SeqSub d a) ∨ (¬ OccursOnce child ∧ child = a)) := by
        intro child a hn
        rw [← aw_sequence (occ := minMax)]
        constructor
        · rintro (⟨h, _⟩ | ⟨h, _⟩ | ⟨_, h⟩ | ⟨h, _⟩ | ⟨h, _⟩)
          · rcases hn with hn | hn <;> exact absurd (h.symm.trans hn) (by decide)
          · rcases hn with hn | hn <;> exact absurd (h.symm.trans hn) (by decide)
          · exact h
          · rcases hn with hn | hn <;> exact absurd (h.symm.trans hn) (by decide)
          · rcases hn with hn | hn <;> exact absurd (h.symm.trans hn) (by decide)
        · exact fun h => .inr (.inr (.inl ⟨hn, h⟩))
      cases hrun with
      | group child rest mn mx leaves s1 leaf s' hk hmn hmx h hg hl =>
        obtain ⟨h1, h2, h3, h4⟩ := hsa hk
        have hlog := ih.sequence h
        refine ⟨some child, h1, h2, h3, (addGroup_log (c := child) hlog (fun n => ?_) hl).congr (fun a => ?_)⟩
        · unfold markUnordered
          intro t hi ht
          rcases h4 with h4 | h4
          · rw [if_neg (by rw [h4]; decide)]
            exact .sequence h4 rfl hi ht h
          · rw [if_pos h4]
            exact .all h4 rfl hi ht h
        · have := (occursOnce_iff hmn hmx).2 hg
          simp only [Option.some.injEq, exists_eq_left', sub h4, this, not_false_eq_true, true_and]
          exact Iff.rfl
      | sequence child rest mn mx leaves s' hk hmn hmx h hg =>
        obtain ⟨h1, h2, h3, h4⟩ := hsa hk
        refine ⟨some child, h1, h2, h3, (ih.sequence h).congr (fun a => ?_)⟩
        have : ¬ ¬ OccursOnce child := fun hh => hg ((occursOnce_iff hmn hmx).1 hh)
        simp only [Option.some.injEq, exists_eq_left', sub h4, this, false_and, or_false]
        exact Iff.rfl
      | choice child rest variants s1 v hn hk h hv =>
        have hlog := ih.choice h
        have hch := rk_name (by rw [hk] : (removeKid c!"choice" kids).1 = some child)
        have hcn := name_of_info hch.1
        refine ⟨some child, fun d hd => ?_, fun d hd => rk_rest (n := c!"choice") (by rw [hk]; exact hd),
          fun d hd => Option.some.inj hd ▸ hch.2, (hlog.add (c := child) ?_).congr (fun a => ?_)⟩
        · have := rk_mem c!"choice" hd
          rw [hk] at this
          exact this.symm
        · exact fun t hi ht => .choice (seen := child.seen) hcn rfl hi ht h
        · simp only [Option.some.injEq, exists_eq_left']
          rw [← aw_choice (occ := [])]
          constructor
          · exact fun h => .inr (.inr (.inr (.inl ⟨hcn, h⟩)))
          · rintro (⟨h, _⟩ | ⟨h, _⟩ | ⟨h | h, _⟩ | ⟨_, h⟩ | ⟨h, _⟩)
            · exact absurd (h.symm.trans hcn) (by decide)
            · exact absurd (h.symm.trans hcn) (by decide)
            · exact absurd (h.symm.trans hcn) (by decide)
            · exact absurd (h.symm.trans hcn) (by decide)
            · exact h
            · exact absurd (h.symm.trans hcn) (by decide)
      | none hn hk => exact ⟨none, fun d hd => .inl hd, fun d hd => hd, nofun, .nil .refl rfl (by simp)⟩
    case complexContent =>
      intro nd parent s d s' h
      replace h := parseComplexContent_run x h
      cases h with
      | mk extension base n s1 vl s2 attributes s' hp hr hb ht h ha hk =>
        have hex := rk_name (by rw [hr] : (removeKid c!"extension" nd.xsdKids).1 = some extension)
        obtain ⟨hq, hq'⟩ := removeKids_rest hk
        rw [hq] at ha
        have hsn := fun d => rk_name (n := c!"sequence") (ks := extension.xsdKids) (c := d)
        have h1 := ih.extension h (fun d hd => name_of_info (hsn d hd).1)
        have h0 : Logs x (fun _ => False) s (s1.discoverType n parent) :=
          .nil (getTypeName_later ht).discover (getTypeName_roots ht : s1.roots = _) (fun _ h => h)
        refine ((h0.trans h1).trans (attributes_log ha)).congr (fun a => ?_)
        rw [aw_complexContent, false_or]
        constructor
        · rintro (⟨d, hd, h⟩ | ⟨d, hd, h⟩)
          · obtain ⟨hd1, hd2⟩ := hsn d hd
            exact ⟨extension, hex.2, name_of_info hex.1, aw_complexExtension.2 ⟨d, hd2, .inr ⟨name_of_info hd1, h⟩⟩⟩
          · exact ⟨extension, hex.2, name_of_info hex.1,
              aw_complexExtension.2 ⟨d, rk_rest hd, .inl ⟨name_of_info (hq' d hd), h⟩⟩⟩
        · rintro ⟨e, he, hn, h⟩
          rw [(rk_only hr he).1] at h
          obtain ⟨d, hd, ⟨hn, h⟩ | ⟨hn, h⟩⟩ := aw_complexExtension.1 h
          · exact .inr ⟨d, rk_keep hd (by rw [hn]; decide), h⟩
          · rcases rk_mem c!"sequence" hd with h' | h'
            · exact .inl ⟨d, h', h⟩
            · exact absurd ((name_of_info (hq' d h')).symm.trans hn) (by decide)
    case extension =>
      intro child base parent s ls s' h hn
      replace h := parseExtension_run x h
      cases h with
      | none => exact .nil .refl rfl (by simp)
      | some child mn leaves s1 v hmn h hv =>
        have hlog := ih.sequence h
        refine (hlog.add (c := child) ?_).congr (fun a => ?_)
        · exact fun t hi ht => .sequence (hn child rfl) rfl hi ht h
        · simp only [Option.some.injEq, exists_eq_left']
          rw [← aw_sequence (occ := [c!"minOccurs"]) (nd := child.see c!"minOccurs")]
          rw [aw_sequence, aw_sequence]
          exact Iff.rfl
    case sequence =>
      intro nd parent s ls s' h
      refine leaves_log ?_ (parseSequence_run x h).2
      clear h
      intro c hc s l s' h
      cases h with
      | element l s' hn h =>
        refine (ih.child hn h).congr (fun a => ⟨fun h => .inl ⟨hn, h⟩, ?_⟩)
        rintro (⟨_, h⟩ | ⟨h, _⟩ | ⟨h, _⟩)
        · exact h
        all_goals exact absurd (h.symm.trans hn) (by decide)
      | choice mn mx variants s1 l s' hn hmn hmx h hl =>
        have hlog := ih.choice h
        refine (addGroup_log (c := c) hlog (fun n => ?_) hl).congr (fun a => ?_)
        · exact fun t hi ht => .choice hn rfl hi ht h
        · show ((∃ d ∈ c.xsdKids, ChoiceSub d a) ∨ c = a) ↔ _
          rw [← aw_choice (occ := minMax)]
          constructor
          · exact fun h => .inr (.inl ⟨hn, h⟩)
          · rintro (⟨h, _⟩ | ⟨_, h⟩ | ⟨h, _⟩)
            · exact absurd (h.symm.trans hn) (by decide)
            · exact h
            · exact absurd (h.symm.trans hn) (by decide)
      | sequence docs mn leaves s1 l s' hn hd hmn h hl =>
        have hlog := ih.sequence h
        refine (addGroup_log (c := c) hlog (fun n => ?_) hl).congr (fun a => ?_)
        · exact fun t hi ht => .sequence hn rfl hi ht h
        · show ((∃ d ∈ c.xsdKids, SeqSub d a) ∨ c = a) ↔ _
          rw [← aw_sequence (occ := [c!"minOccurs"])]
          constructor
          · exact fun h => .inr (.inr ⟨hn, h⟩)
          · rintro (⟨h, _⟩ | ⟨h, _⟩ | ⟨_, h⟩)
            · exact absurd (h.symm.trans hn) (by decide)
            · exact absurd (h.symm.trans hn) (by decide)
            · exact h
      | annotation hn =>
        refine .nil .refl rfl (fun a h => ?_)
        rcases h with ⟨h, _⟩ | ⟨h, _⟩ | ⟨h, _⟩ <;> exact absurd (h.symm.trans hn) (by decide)
    case choice =>
      intro nd parent s ls s' h
      refine leaves_log ?_ (parseChoice_run x h).2
      clear h
      intro c hc s l s' h
      cases h with
      | element l s' hn h =>
        refine (ih.child hn h).congr (fun a => ⟨fun h => .inl ⟨hn, h⟩, ?_⟩)
        rintro (⟨_, h⟩ | ⟨h, _⟩)
        · exact h
        · exact absurd (h.symm.trans hn) (by decide)
      | sequence docs mn mx leaves s1 l s' hn hd hmn hmx h hl =>
        have hlog := ih.sequence h
        refine (addGroup_log (c := c) hlog (fun n => ?_) hl).congr (fun a => ?_)
        · exact fun t hi ht => .sequence hn rfl hi ht h
        · show ((∃ d ∈ c.xsdKids, SeqSub d a) ∨ c = a) ↔ _
          rw [← aw_sequence (occ := minMax)]
          constructor
          · exact fun h => .inr ⟨hn, h⟩
          · rintro (⟨h, _⟩ | ⟨_, h⟩)
            · exact absurd (h.symm.trans hn) (by decide)
            · exact h
      | annotation hn =>
        refine .nil .refl rfl (fun a h => ?_)
        rcases h with ⟨h, _⟩ | ⟨h, _⟩ <;> exact absurd (h.symm.trans hn) (by decide)
    case child =>
      intro nd parent s l s' hel h
      replace h := parseElementChild_run x h
      cases h with
      | ref mn mx a n s1 hmn hmx hr hp ht =>
        refine .nil (getTypeName_later ht).discover (getTypeName_roots ht : s1.roots = _) (fun a ha => ?_)
        rw [aw_localElement, hr] at ha
        cases ha.1
      | typed mn mx na docs a c nd' s' hmn hmx hr hn hd ht hc hp =>
        refine .nil (typeAttr_roots hc).2 (typeAttr_roots hc).1 (fun a ha => ?_)
        rw [aw_localElement, ht] at ha
        cases ha.2.1
      | any mn mx na docs hmn hmx hr hn hd ht hs hc hp =>
        refine .nil .refl rfl (fun a ha => ?_)
        rw [aw_localElement, aw_topElement] at ha
        rcases ha.2.2 with ⟨_, d, hd, h, _⟩ | ⟨d, hd, h | h, _⟩
        · exact child_none hc d hd h
        · exact child_none hc d hd h
        · exact child_none hs d hd h
      | inline mn mx na docs v root s1 hmn hmx hr hn hd ht hsc hp hv hroot =>
        rcases ih.root hroot with ⟨_, hlog, hty, _⟩ | ⟨h, _⟩ | ⟨h, _⟩
        · rcases hty with hty | ⟨d, hd, hdn, hon, hint⟩
          · exact absurd ht hty
          · have hnm : s1.nodeName v false = s.nodeName v false := hlog.nodeName v
            have := hlog.add (p := parent) (hnm ▸ hint : Makes x s s1 d (s1.nodeName v false) root)
            rw [hnm] at this
            refine this.congr (fun a => ?_)
            rw [aw_localElement]
            have hts : AnonymousWithin .topElement (nd.sees childSeen) a ↔ AnonymousWithin .topElement nd a := by
              rw [aw_topElement, aw_topElement]; exact Iff.rfl
            rw [hts]
            constructor
            · rintro (h | rfl)
              · exact ⟨hr, ht, .inl h⟩
              · exact ⟨hr, ht, .inr ⟨d, hd, hdn, rfl⟩⟩
            · rintro ⟨_, _, h | ⟨c, hc, hcn, rfl⟩⟩
              · exact .inl h
              · exact .inr (hon c hc hcn).symm
        · exact absurd (h.symm.trans hel) (by decide)
        · exact absurd (h.symm.trans hel) (by decide)

end Xsd
