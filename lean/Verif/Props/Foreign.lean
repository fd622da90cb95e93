import Verif.Lemmas.StripParse
import Verif.Props.GrammarSample
/-!
# Foreign attributes in schema documents
-/
namespace Xsd

section
variable (x : Ext)

/-- Every function of the parser gives the same result, with fuel `k`. -/
structure StripOK (k : Nat) : Prop where
  root : ∀ nd parent, nd.Harmless → parseRoot x k nd.strip parent = parseRoot x k nd parent
  element : ∀ nd parent, nd.Harmless → parseElementRoot x k nd.strip parent = parseElementRoot x k nd parent
  complexType : ∀ nd parent, nd.Harmless → parseComplexType x k nd.strip parent = parseComplexType x k nd parent
  particle : ∀ ks parent, (∀ c ∈ ks, Nd.Harmless c) → parseParticle x k (ks.map Nd.strip) parent =
    (do let r ← parseParticle x k ks parent; pure (r.1, r.2.map Nd.strip))
  complexContent : ∀ nd parent, nd.Harmless → parseComplexContent x k nd.strip parent = parseComplexContent x k nd parent
  extension : ∀ o base parent, (∀ c, o = some c → Nd.Harmless c) →
    parseExtension x k (o.map Nd.strip) base parent = parseExtension x k o base parent
  sequence : ∀ nd parent, nd.Harmless → parseSequence x k nd.strip parent = parseSequence x k nd parent
  choice : ∀ nd parent, nd.Harmless → parseChoice x k nd.strip parent = parseChoice x k nd parent
  child : ∀ nd parent, nd.Harmless → parseElementChild x k nd.strip parent = parseElementChild x k nd parent

theorem P.map_diverge {α β : Type} (g : α → β) : (do let a ← (P.diverge : P α); pure (g a) : P β) = P.diverge := rfl

theorem stripOK_zero : StripOK x 0 := by
  refine ⟨?_, ?_, ?_, ?_, ?_, ?_, ?_, ?_, ?_⟩
  · intros; unfold parseRoot; rfl
  · intros; unfold parseElementRoot; rfl
  · intros; unfold parseComplexType; rfl
  · intros; unfold parseParticle; rfl
  · intros; unfold parseComplexContent; rfl
  · intros; unfold parseExtension; rfl
  · intros; unfold parseSequence; rfl
  · intros; unfold parseChoice; rfl
  · intros; unfold parseElementChild; rfl

variable {x}

theorem strip_root_succ {k : Nat} (ih : StripOK x k) {nd : Nd} (h : nd.Harmless) (parent : Name) :
    parseRoot x (k + 1) nd.strip parent = parseRoot x (k + 1) nd parent := by
  unfold parseRoot
  rw [ih.element nd parent h, ih.complexType nd parent h, strip_simpleType x h]
  rfl

theorem strip_elementRoot_succ {k : Nat} (ih : StripOK x k) {nd : Nd} (h : nd.Harmless) (parent : Name) :
    parseElementRoot x (k + 1) nd.strip parent = parseElementRoot x (k + 1) nd parent := by
  unfold parseElementRoot
  have hk := removeKid_harmless (n := c!"annotation") h.kids
  simp only [strip_xsdKids, strip_removeKid, strip_annotation x hk.1, strip_attr h (show c!"type" ∈ knownAttrs by decide)]
  refine P.bind_congr rfl fun docs => ?_
  generalize hrest : (removeKid c!"annotation" nd.xsdKids).2 = rest
  rw [hrest] at hk
  cases nd.attr c!"type" with
  | some a =>
    simp only
    rw [← strip_see, strip_typeAttr (h.see c!"type"), P.bind_map]
    refine P.bind_congr_of (typeAttr_harmless (h.see c!"type") _ _) fun r hr => ?_
    obtain ⟨content, nd'⟩ := r
    simp only [strip_prevent hr, strip_preventChildren]
  | none =>
    have h2 : (nd.see c!"type").Harmless := h
    simp only [← strip_see, strip_prevent h2]
    refine P.bind_congr rfl fun _ => ?_
    have hc := removeKid_harmless (n := c!"complexType") hk.2
    obtain ⟨o, r, hr⟩ : ∃ o r, removeKid c!"complexType" rest = (o, r) := ⟨_, _, rfl⟩
    rw [hr] at hc ⊢
    cases o with
    | some c =>
      simp only [Option.map_some]
      refine P.bind_congr (ih.complexType c parent (hc.1 c rfl)) fun root => ?_
      simp only [strip_preventChildren]
    | none =>
      simp only [Option.map_none]
      have hc := removeKid_harmless (n := c!"simpleType") hk.2
      obtain ⟨o, r, hr⟩ : ∃ o r, removeKid c!"simpleType" rest = (o, r) := ⟨_, _, rfl⟩
      rw [hr] at hc ⊢
      cases o with
      | some c =>
        simp only [Option.map_some]
        refine P.bind_congr (strip_simpleType x (hc.1 c rfl)) fun root => ?_
        simp only [strip_preventChildren]
      | none => rfl

theorem sequenceOrAll_harmless {ks rest : List Nd} {o : Option Nd} (h : ∀ c ∈ ks, c.Harmless) (hk : sequenceOrAll ks = (o, rest)) :
    (∀ c, o = some c → c.Harmless) ∧ ∀ c ∈ rest, c.Harmless := by
  unfold sequenceOrAll at hk
  have h1 := removeKid_harmless (n := c!"sequence") h
  have h2 := removeKid_harmless (n := c!"all") h
  obtain ⟨o', r, hr⟩ : ∃ o r, removeKid c!"sequence" ks = (o, r) := ⟨_, _, rfl⟩
  rw [hr] at hk h1
  cases o' with
  | some c => cases hk; exact h1
  | none => simp only at hk; rw [hk] at h2; exact h2

theorem sequenceOrAll_strip (ks : List Nd) :
    sequenceOrAll (ks.map Nd.strip) = ((sequenceOrAll ks).1.map Nd.strip, (sequenceOrAll ks).2.map Nd.strip) := by
  unfold sequenceOrAll
  rw [strip_removeKid]
  obtain ⟨o', r, hr⟩ : ∃ o r, removeKid c!"sequence" ks = (o, r) := ⟨_, _, rfl⟩
  rw [hr]
  cases o' with
  | some c => rfl
  | none => exact strip_removeKid _ _

theorem particle_harmless {k : Nat} {ks : List Nd} {parent : Name} (h : ∀ c ∈ ks, c.Harmless) :
    (parseParticle x k ks parent).Gives (fun r => ∀ c ∈ r.2, c.Harmless) := by
  intro s r s' hr
  cases k with
  | zero => unfold parseParticle at hr; cases hr
  | succ k =>
    obtain ⟨c, rest⟩ := r
    replace hr := parseParticle_run x hr
    cases hr with
    | group child rest mn mx leaves s1 leaf s' hk => exact (sequenceOrAll_harmless h hk).2
    | sequence child rest mn mx leaves s' hk => exact (sequenceOrAll_harmless h hk).2
    | choice child rest variants s1 v hn hk =>
      have := (removeKid_harmless (n := c!"choice") h).2
      rw [hk] at this
      exact this
    | none => exact h

theorem strip_complexType_succ {k : Nat} (ih : StripOK x k) {nd : Nd} (h : nd.Harmless) (parent : Name) :
    parseComplexType x (k + 1) nd.strip parent = parseComplexType x (k + 1) nd parent := by
  unfold parseComplexType
  have hk := removeKid_harmless (n := c!"annotation") h.kids
  have h2 : (nd.see c!"mixed").Harmless := h
  simp only [strip_xsdKids, strip_removeKid, strip_annotation x hk.1, strip_attr h (show c!"mixed" ∈ knownAttrs by decide),
    ← strip_see, strip_prevent h2, strip_name, strip_start]
  generalize hrest : (removeKid c!"annotation" nd.xsdKids).2 = rest
  rw [hrest] at hk
  by_cases hm : (nd.attr c!"mixed").map XAttr.value = some c!"true"
  · rw [if_pos hm, if_pos hm]
  · rw [if_neg hm, if_neg hm]
    refine P.bind_congr rfl fun _ => P.bind_congr rfl fun docs => ?_
    have hc := removeKid_harmless (n := c!"simpleContent") hk.2
    obtain ⟨o, r, hr⟩ : ∃ o r, removeKid c!"simpleContent" rest = (o, r) := ⟨_, _, rfl⟩
    rw [hr] at hc ⊢
    cases o with
    | some c => simp only [Option.map_some, strip_preventChildren, strip_simpleContent x (hc.1 c rfl)]
    | none =>
      simp only [Option.map_none]
      have hc := removeKid_harmless (n := c!"complexContent") hk.2
      obtain ⟨o, r, hr⟩ : ∃ o r, removeKid c!"complexContent" rest = (o, r) := ⟨_, _, rfl⟩
      rw [hr] at hc ⊢
      cases o with
      | some c => simp only [Option.map_some, strip_preventChildren, ih.complexContent c parent (hc.1 c rfl)]
      | none =>
        simp only [Option.map_none]
        rw [ih.particle rest parent hk.2, P.bind_map]
        refine P.bind_congr_of (particle_harmless hk.2) fun r hr => ?_
        obtain ⟨content, rest'⟩ := r
        simp only [strip_removeKids, strip_attributes x parent (removeKids_harmless hr).1, strip_preventChildren]

theorem strip_particle_succ {k : Nat} (ih : StripOK x k) {ks : List Nd} (h : ∀ c ∈ ks, c.Harmless) (parent : Name) :
    parseParticle x (k + 1) (ks.map Nd.strip) parent =
      (do let r ← parseParticle x (k + 1) ks parent; pure (r.1, r.2.map Nd.strip)) := by
  unfold parseParticle
  change (match sequenceOrAll (ks.map Nd.strip) with | (some child, rest) => _ | (Option.none, _) => _ : P _) =
    ((match sequenceOrAll ks with | (some child, rest) => _ | (Option.none, _) => _ : P (Option ElementContent × List Nd)) >>= _)
  rw [sequenceOrAll_strip]
  obtain ⟨o, rest, hk⟩ : ∃ o r, sequenceOrAll ks = (o, r) := ⟨_, _, rfl⟩
  have hh := sequenceOrAll_harmless h hk
  rw [hk]
  cases o with
  | some c =>
    have hc := hh.1 c rfl
    have h2 : ((c.see c!"minOccurs").see c!"maxOccurs").Harmless := hc
    simp only [Option.map_some, strip_attr hc (show c!"minOccurs" ∈ knownAttrs by decide),
      strip_attr hc (show c!"maxOccurs" ∈ knownAttrs by decide), ← strip_see, ih.sequence _ parent h2, strip_name]
    funext s
    simp only [bind, P.bnd]
    cases P.lift (parseMinOccurs (c.attr c!"minOccurs")) s with
    | err e => rfl
    | panic => rfl
    | diverge => rfl
    | ok r =>
      dsimp only
      cases P.lift (parseMaxOccurs (c.attr c!"maxOccurs")) r.2 with
      | err e => rfl
      | panic => rfl
      | diverge => rfl
      | ok r' =>
        dsimp only
        cases parseSequence x k ((c.see c!"minOccurs").see c!"maxOccurs") parent r'.2 with
        | err e => rfl
        | panic => rfl
        | diverge => rfl
        | ok q =>
          dsimp only
          by_cases hg : r'.1.isVec = true ∨ r.1 ≠ 1
          · rw [if_pos hg, if_pos hg]
            exact (congrFun (P.bind_map (addGroup x parent _ [] _ none r.1 r'.1)
              (fun leaf => (some (ElementContent.leaves [leaf]), rest)) (fun r => pure (r.1, r.2.map Nd.strip))) q.2).symm
          · rw [if_neg hg, if_neg hg]
            rfl
  | none =>
    simp only [Option.map_none, strip_removeKid]
    obtain ⟨o, rest, hk⟩ : ∃ o r, removeKid c!"choice" ks = (o, r) := ⟨_, _, rfl⟩
    have hh := removeKid_harmless (n := c!"choice") h
    rw [hk] at hh ⊢
    cases o with
    | none => rfl
    | some c =>
      simp only [Option.map_some, ih.choice c parent (hh.1 c rfl)]
      funext s
      simp only [bind, P.bnd]
      cases parseChoice x k c parent s with
      | err e => rfl
      | panic => rfl
      | diverge => rfl
      | ok r =>
        dsimp only [nodeName]
        generalize deriveVirtualName x _ _ _ = z
        cases z <;> rfl

theorem strip_complexContent_succ {k : Nat} (ih : StripOK x k) {nd : Nd} (h : nd.Harmless) (parent : Name) :
    parseComplexContent x (k + 1) nd.strip parent = parseComplexContent x (k + 1) nd parent := by
  unfold parseComplexContent
  rw [strip_prevent h, strip_xsdKids]
  refine P.bind_congr rfl fun _ => ?_
  rcases strip_try (nd := nd) (n := c!"extension") h.kids with ⟨c, rest, h1, h2, hc, hrest⟩ | ⟨e, h1, h2⟩
  · rw [h1, h2, lift_ok_bind, lift_ok_bind]
    have hk := removeKid_harmless (n := c!"sequence") hc.kids
    simp only [strip_tryAttr hc (show c!"base" ∈ knownAttrs by decide), strip_preventChildren, strip_xsdKids, strip_removeKid,
      Option.isSome_map]
    refine P.bind_congr rfl fun _ => P.bind_congr rfl fun b => P.bind_congr rfl fun content => ?_
    cases content with
    | named n =>
      simp only [ih.extension _ n parent hk.1, ← apply_ite (List.map Nd.strip), strip_removeKids, strip_preventChildren]
      have hi : ∀ c' ∈ (if (removeKid c!"sequence" c.xsdKids).1.isSome = true then (removeKid c!"sequence" c.xsdKids).2 else c.xsdKids),
          c'.Harmless := by
        split
        · exact hk.2
        · exact hc.kids
      simp only [strip_attributes x parent (removeKids_harmless hi).1]
    | literal t => rfl
    | fixed f => rfl
  · rw [h1, h2]
    rfl

theorem strip_extension_succ {k : Nat} (ih : StripOK x k) {o : Option Nd} (h : ∀ c, o = some c → c.Harmless) (base parent : Name) :
    parseExtension x (k + 1) (o.map Nd.strip) base parent = parseExtension x (k + 1) o base parent := by
  cases o with
  | none => rfl
  | some c =>
    have hc := h c rfl
    have h2 : (c.see c!"minOccurs").Harmless := hc
    simp only [Option.map_some]
    unfold parseExtension
    simp only [strip_attr hc (show c!"minOccurs" ∈ knownAttrs by decide), ← strip_see, ih.sequence _ parent h2]

theorem strip_child_annotation {nd : Nd} (h : nd.Harmless) :
    parseAnnotation x (nd.strip.child c!"annotation") = parseAnnotation x (nd.child c!"annotation") := by
  rw [strip_child]
  exact strip_annotation x (fun c hc => h.child hc)

theorem strip_sequence_succ {k : Nat} (ih : StripOK x k) {nd : Nd} (h : nd.Harmless) (parent : Name) :
    parseSequence x (k + 1) nd.strip parent = parseSequence x (k + 1) nd parent := by
  unfold parseSequence
  rw [strip_prevent h, strip_xsdKids]
  refine P.bind_congr rfl fun _ => strip_leaves fun c hc => ?_
  have hh := h.kids c hc
  have h2 : ((c.see c!"minOccurs").see c!"maxOccurs").Harmless := hh
  have h3 : (c.see c!"minOccurs").Harmless := hh
  simp only [strip_name, strip_start, ih.child c parent hh, strip_attr hh (show c!"minOccurs" ∈ knownAttrs by decide),
    strip_attr hh (show c!"maxOccurs" ∈ knownAttrs by decide), ← strip_see, ih.choice _ parent h2, strip_child_annotation hh,
    ih.sequence _ parent h3]
  rfl

theorem strip_choice_succ {k : Nat} (ih : StripOK x k) {nd : Nd} (h : nd.Harmless) (parent : Name) :
    parseChoice x (k + 1) nd.strip parent = parseChoice x (k + 1) nd parent := by
  unfold parseChoice
  rw [strip_prevent h, strip_xsdKids]
  refine P.bind_congr rfl fun _ => strip_leaves fun c hc => ?_
  have hh := h.kids c hc
  have h2 : ((c.see c!"minOccurs").see c!"maxOccurs").Harmless := hh
  simp only [strip_name, strip_start, ih.child c parent hh, strip_attr hh (show c!"minOccurs" ∈ knownAttrs by decide),
    strip_attr hh (show c!"maxOccurs" ∈ knownAttrs by decide), ← strip_see, strip_child_annotation hh, ih.sequence _ parent h2]
  rfl

theorem strip_child_succ {k : Nat} (ih : StripOK x k) {nd : Nd} (h : nd.Harmless) (parent : Name) :
    parseElementChild x (k + 1) nd.strip parent = parseElementChild x (k + 1) nd parent := by
  unfold parseElementChild
  simp only [strip_attr h (show c!"minOccurs" ∈ knownAttrs by decide), strip_attr h (show c!"maxOccurs" ∈ knownAttrs by decide),
    ← strip_see, attr_see]
  have h2 : (((nd.see c!"minOccurs").see c!"maxOccurs").see c!"ref").Harmless := h
  have h3 : (((((((nd.see c!"minOccurs").see c!"maxOccurs").see c!"ref").see c!"name").see c!"default").see c!"form").see c!"type").Harmless := h
  simp only [strip_attr h2 (show c!"ref" ∈ knownAttrs by decide), strip_prevent h2, strip_tryAttr h2 (show c!"name" ∈ knownAttrs by decide),
    strip_child_annotation h3, strip_attr h3 (show c!"type" ∈ knownAttrs by decide), strip_prevent h3, attr_see]
  refine P.bind_congr rfl fun _ => P.bind_congr rfl fun _ => ?_
  cases nd.attr c!"ref" with
  | some a => rfl
  | none =>
    refine P.bind_congr rfl fun _ => P.bind_congr rfl fun name => P.bind_congr rfl fun docs => ?_
    cases nd.attr c!"type" with
    | some a =>
      simp only
      rw [strip_typeAttr h3, P.bind_map]
      refine P.bind_congr_of (typeAttr_harmless h3 _ _) fun r hr => ?_
      obtain ⟨content, nd'⟩ := r
      simp only [strip_prevent hr]
    | none =>
      simp only [strip_child, Option.isNone_map]
      split
      · rfl
      · refine P.bind_congr rfl fun _ => P.bind_congr rfl fun data => P.bind_congr rfl fun v => ?_
        rw [ih.root _ v h3]

theorem stripOK (x : Ext) (k : Nat) : StripOK x k := by
  induction k with
  | zero => exact stripOK_zero x
  | succ k ih =>
    exact ⟨fun _ p h => strip_root_succ ih h p, fun _ p h => strip_elementRoot_succ ih h p, fun _ p h => strip_complexType_succ ih h p,
      fun _ p h => strip_particle_succ ih h p, fun _ p h => strip_complexContent_succ ih h p,
      fun _ b p h => strip_extension_succ ih h b p, fun _ p h => strip_sequence_succ ih h p, fun _ p h => strip_choice_succ ih h p,
      fun _ p h => strip_child_succ ih h p⟩

/-! ## Files -/

/-- The document without the attributes that have a namespace. -/
def XDoc.strip (d : XDoc) : XDoc := ⟨(d.root.1.strip, stripKids d.root.2), d.pos⟩

/-- The file without the attributes that have a namespace. -/
def FileContent.strip : FileContent → FileContent
  | .doc d => .doc d.strip
  | .malformed r c => .malformed r c

/-- The files without the attributes that have a namespace. -/
def Files.strip (F : Files) : Files := { F with read := fun p => (F.read p).map FileContent.strip }

/-- The document is harmless. -/
def XDoc.Harmless (d : XDoc) : Prop := (Nd.of d.root).Harmless

theorem strip_fuel (nd : Nd) : nd.strip.fuel = nd.fuel := by
  unfold Nd.fuel Nd.strip
  rw [stripKids_depth]

theorem strip_item (F : Files) (incl : Str → Namespaces → List (Name × List Name) → Res SErr PSchema) (base : Str) {c : Nd}
    (h : c.Harmless) (s : PCtx) : parseItem x F.strip incl base c.strip s = parseItem x F incl base c s := by
  unfold parseItem
  have h2 : (c.see c!"name").Harmless := h
  rw [strip_tryAttr h (show c!"schemaLocation" ∈ knownAttrs by decide), strip_tryAttr h (show c!"name" ∈ knownAttrs by decide),
    strip_name, strip_fuel]
  simp only [← strip_see, (stripOK x c.fuel).root _ _ h2]
  rfl

theorem strip_items (F : Files) (incl : Str → Namespaces → List (Name × List Name) → Res SErr PSchema) (base : Str) {cs : List Nd}
    (h : ∀ c ∈ cs, c.Harmless) (s : PCtx) : parseItems x F.strip incl base (cs.map Nd.strip) s = parseItems x F incl base cs s := by
  induction cs generalizing s with
  | nil => rfl
  | cons c cs ih =>
    simp only [List.map_cons, parseItems]
    rw [strip_item F incl base (h c (.head _)) s]
    simp only [ih (fun d hd => h d (.tail _ hd))]

theorem new_strip {i : ElemInfo} (target : Option Str) (t : Namespaces) (deps : List (Name × List Name)) :
    PCtx.new i.strip target t deps = PCtx.new i target t deps := by
  unfold PCtx.new
  have : attrOf i.strip c!"elementFormDefault" = attrOf i c!"elementFormDefault" := by
    unfold attrOf ElemInfo.strip
    simp only
    rw [find?_filter_of]
    intro a _ h
    exact decide_eq_true (of_decide_eq_true h).1
  rw [this]
  rfl

theorem strip_doc (F : Files) (incl : Str → Namespaces → List (Name × List Name) → Res SErr PSchema) (path : Str) {d : XDoc}
    (h : d.Harmless) (t : Namespaces) (deps : List (Name × List Name)) :
    parseDoc x F.strip incl path d.strip t deps = parseDoc x F incl path d t deps := by
  unfold parseDoc
  have : parseSchemaRoot x F.strip incl (F.strip.parent path) (Nd.of d.strip.root) t deps =
      parseSchemaRoot x F incl (F.parent path) (Nd.of d.root) t deps := by
    show parseSchemaRoot x F.strip incl (F.parent path) (Nd.of d.root).strip t deps = _
    unfold parseSchemaRoot
    rw [strip_attr h (show c!"targetNamespace" ∈ knownAttrs by decide), strip_name, strip_start, strip_infoName, strip_xsdKids]
    simp only [strip_items F incl (F.parent path) h.kids, show (Nd.of d.root).strip.info = (Nd.of d.root).info.strip from rfl, new_strip]
  rw [this]
  rfl

theorem strip_file (F : Files) (h : ∀ p d, F.read p = some (.doc d) → d.Harmless) (k : Nat) (path : Str) (t : Namespaces)
    (deps : List (Name × List Name)) : parseFileWith x F.strip k path t deps = parseFileWith x F k path t deps := by
  induction k generalizing path t deps with
  | zero => rfl
  | succ k ih =>
    unfold parseFileWith
    have hi : parseFileWith x F.strip k = parseFileWith x F k := by
      funext p t deps
      exact ih p t deps
    rw [hi]
    show (match (F.read path).map FileContent.strip with | none => _ | some (.malformed r c) => _ | some (.doc d) => _) = _
    cases hr : F.read path with
    | none => rfl
    | some f =>
      cases f with
      | malformed r c => rfl
      | doc d => exact strip_doc F _ path (h path d hr) t deps

end

/-- C52, for foreign attributes that are followed by an attribute with the same local name, or whose local name is neither that of
an attribute the parser looks at, nor that of an attribute without a namespace on the same element: leaving them out anywhere in
any of the files does not change the result. That they may have any other local name is missing: see `C52_false`. -/
theorem C52_partial (x : Ext) (F : Files) (h : ∀ p d, F.read p = some (.doc d) → d.Harmless) (k : Nat) (path : Str) :
    parseFile x F.strip k path = parseFile x F k path := strip_file F h k path _ _

/-- C52, adding and changing such attributes: files that differ in nothing else give the same result. -/
theorem C52_added_partial (x : Ext) (F G : Files) (hF : ∀ p d, F.read p = some (.doc d) → d.Harmless)
    (hG : ∀ p d, G.read p = some (.doc d) → d.Harmless) (he : F.strip = G.strip) (k : Nat) (path : Str) :
    parseFile x F k path = parseFile x G k path := by
  rw [← C52_partial x F hF, ← C52_partial x G hG, he]

namespace SchemaSample

/-- `<xs:element name="b" type="xs:int" f:…="…"/>` in a sequence of a type. -/
def decorated (extra : List XAttr) : Files := oneFile (tDoc [.elem ⟨⟨c!"complexType", some nsXsd⟩,
    ⟨c!"id", some c!"urn:f", c!"1", 0⟩ :: [⟨c!"name", none, c!"A", 0⟩], [], 0⟩
    [xe c!"sequence" [] [.elem ⟨⟨c!"element", some nsXsd⟩,
      [⟨c!"name", none, c!"b", 0⟩, ⟨c!"type", none, c!"xs:int", 0⟩] ++ extra, [], 0⟩ []]]])

/-- A foreign attribute that is harmless. -/
def note : XAttr := ⟨c!"note", some c!"urn:f", c!"x", 0⟩

/-- A foreign attribute that is not. -/
def foreignMin : XAttr := ⟨c!"minOccurs", some c!"urn:f", c!"0", 0⟩

/-- The minimal occurrences of the element. -/
def minsOf (r : Res SErr PSchema) : List Nat :=
  match r with
  | .ok P => P.context.elements.flatMap (fun p =>
    match p.2 with
    | .element ⟨_, some (.leaves ls), _, _⟩ => ls.map Leaf.minOccurs
    | _ => [])
  | _ => []

theorem decorated_min : minsOf (parseFile sampleExt (decorated [foreignMin]) 1 c!"a.xsd") = [0] ∧
    minsOf (parseFile sampleExt (decorated [foreignMin]).strip 1 c!"a.xsd") = [1] := by decide +kernel

/-- The hypotheses of C52 are met by a file with foreign attributes at two levels. -/
example : (∀ p d, (decorated [note]).read p = some (.doc d) → d.Harmless) ∧
    minsOf (parseFile sampleExt (decorated [note]) 1 c!"a.xsd") = [1] := by
  refine ⟨?_, by decide +kernel⟩
  intro p d h
  replace h : (if p = c!"a.xsd" then _ else _) = _ := h
  split at h
  · cases h
    refine ⟨?_, ?_⟩
    · exact ElemInfo.harmless_of (by decide)
    · simp only [Nd.of, tDoc, xdoc, schemaElem, xe, List.map_nil, HarmlessKids, XNode.Harmless, and_true]
      exact ⟨ElemInfo.harmless_of (by decide), ElemInfo.harmless_of (by decide), ElemInfo.harmless_of (by decide)⟩
  · cases h

/-- The name of an element may be that of the attribute before it, if the foreign attribute comes first. -/
example : ElemInfo.Harmless ⟨⟨c!"element", some nsXsd⟩, [⟨c!"name", some c!"urn:f", c!"x", 0⟩, ⟨c!"name", none, c!"b", 0⟩], [], 0⟩ ∧
    ¬ ElemInfo.Harmless ⟨⟨c!"element", some nsXsd⟩, [⟨c!"name", none, c!"b", 0⟩, ⟨c!"name", some c!"urn:f", c!"x", 0⟩], [], 0⟩ := by
  refine ⟨ElemInfo.harmless_of (by decide), fun h => ?_⟩
  exact (h [_] _ [] rfl (by nofun) (by nofun)).1 (by decide)

end SchemaSample

open SchemaSample in
/-- C52 does not hold for all foreign attributes: `f:minOccurs` is taken for `minOccurs`. -/
theorem C52_false : ¬ ∀ (x : Ext) (F : Files) (k : Nat) (path : Str), parseFile x F.strip k path = parseFile x F k path := by
  intro h
  have h1 := decorated_min
  rw [h] at h1
  rw [h1.1] at h1
  exact absurd h1.2 (by decide)

end Xsd
