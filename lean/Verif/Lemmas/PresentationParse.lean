import Verif.Lemmas.PresentationSim
import Verif.Props.Terminates
/-!
# The parser on documents that say the same
-/
namespace Xsd
namespace Pres

theorem PSim.ite {D D' : List (Option Str × Str)} {α β : Type} {R : α → β → Prop} {c : Prop} [Decidable c] {a b : P α} {a' b' : P β}
    (h : PSim D D' R a a') (h' : PSim D D' R b b') : PSim D D' R (if c then a else b) (if c then a' else b') := by
  split
  · exact h
  · exact h'

/-- What the functions of the parser do with fuel `k` on one document, they do with any fuel on the other. -/
structure PresOK (x : Ext) (D D' : List (Option Str × Str)) (k : Nat) : Prop where
  root : ∀ k' nd nd' p, NdSim D D' nd nd' → PSim D D' Eq (parseRoot x k nd p) (parseRoot x k' nd' p)
  element : ∀ k' nd nd' p, NdSim D D' nd nd' → PSim D D' Eq (parseElementRoot x k nd p) (parseElementRoot x k' nd' p)
  complexType : ∀ k' nd nd' p, NdSim D D' nd nd' → PSim D D' Eq (parseComplexType x k nd p) (parseComplexType x k' nd' p)
  particle : ∀ k' ks ks' p, All2 (NdSim D D') ks ks' →
    PSim D D' (fun a b => a.1 = b.1 ∧ All2 (NdSim D D') a.2 b.2) (parseParticle x k ks p) (parseParticle x k' ks' p)
  complexContent : ∀ k' nd nd' p, NdSim D D' nd nd' → PSim D D' Eq (parseComplexContent x k nd p) (parseComplexContent x k' nd' p)
  extension : ∀ k' o o' b p, OptSim (NdSim D D') o o' → PSim D D' Eq (parseExtension x k o b p) (parseExtension x k' o' b p)
  sequence : ∀ k' nd nd' p, NdSim D D' nd nd' → PSim D D' Eq (parseSequence x k nd p) (parseSequence x k' nd' p)
  choice : ∀ k' nd nd' p, NdSim D D' nd nd' → PSim D D' Eq (parseChoice x k nd p) (parseChoice x k' nd' p)
  child : ∀ k' nd nd' p, NdSim D D' nd nd' → PSim D D' Eq (parseElementChild x k nd p) (parseElementChild x k' nd' p)

theorem presOK_zero (x : Ext) (D D' : List (Option Str × Str)) : PresOK x D D' 0 := by
  refine ⟨?_, ?_, ?_, ?_, ?_, ?_, ?_, ?_, ?_⟩
  · intros; unfold parseRoot; exact .left
  · intros; unfold parseElementRoot; exact .left
  · intros; unfold parseComplexType; exact .left
  · intros; unfold parseParticle; exact .left
  · intros; unfold parseComplexContent; exact .left
  · intros; unfold parseExtension; exact .left
  · intros; unfold parseSequence; exact .left
  · intros; unfold parseChoice; exact .left
  · intros; unfold parseElementChild; exact .left

section
variable {x : Ext} {D D' : List (Option Str × Str)} (hD : PlainDecls D) (hD' : PlainDecls D') {k : Nat} (ih : PresOK x D D' k)
  {nd nd' : Nd}
include hD hD' ih

theorem root_pres (k' : Nat) (h : NdSim D D' nd nd') (p : Name) :
    PSim D D' Eq (parseRoot x (k + 1) nd p) (parseRoot x k' nd' p) := by
  cases k' with
  | zero => unfold parseRoot; exact .right
  | succ k' =>
    unfold parseRoot
    rw [h.name]
    exact .ite (ih.element k' nd nd' p h) (.ite (ih.complexType k' nd nd' p h) (.ite (simpleType_sim x hD hD' h) (.fail (.unsupportedElement _ _ _))))

theorem element_pres (k' : Nat) (h : NdSim D D' nd nd') (p : Name) :
    PSim D D' Eq (parseElementRoot x (k + 1) nd p) (parseElementRoot x k' nd' p) := by
  cases k' with
  | zero => unfold parseElementRoot; exact .right
  | succ k' =>
    unfold parseElementRoot
    have hk := removeKid_sim h.kids c!"annotation"
    simp only
    refine .bind (.lift (annotation_sim x hk.1)) fun docs docs' hd => ?_
    subst hd
    have hty := h.attr (n := c!"type") (by decide)
    revert hty
    generalize nd.attr c!"type" = o
    generalize nd'.attr c!"type" = o'
    intro hty
    cases hty with
    | some ha =>
      refine .bind (typeAttr_sim hD hD' (h.see _) ha p) fun r r' hr => ?_
      obtain ⟨c, n⟩ := r
      obtain ⟨c', n'⟩ := r'
      obtain ⟨hc, hn⟩ := hr
      simp only at hc hn ⊢
      subst hc
      exact .bind (.lift (prevent_sim hn)) fun _ _ _ => .bind (.lift (preventKids_sim hk.2 hn.name)) fun _ _ _ => .pure rfl
    | none =>
      refine .bind (.lift (prevent_sim (h.see _))) fun _ _ _ => ?_
      have hc := removeKid_sim hk.2 c!"complexType"
      have hs := removeKid_sim hk.2 c!"simpleType"
      rcases e1 : removeKid c!"complexType" (removeKid c!"annotation" nd.xsdKids).2 with ⟨o1, r1⟩
      rcases e2 : removeKid c!"complexType" (removeKid c!"annotation" nd'.xsdKids).2 with ⟨o2, r2⟩
      rw [e1, e2] at hc
      obtain ⟨ho, hr⟩ := hc
      cases ho with
      | some hcc =>
        refine .bind (ih.complexType k' _ _ p hcc) fun r r' hr' => ?_
        subst hr'
        exact .bind (.lift (preventKids_sim hr h.name)) fun _ _ _ => .pure rfl
      | none =>
        simp only
        rcases e1 : removeKid c!"simpleType" (removeKid c!"annotation" nd.xsdKids).2 with ⟨o1, r1⟩
        rcases e2 : removeKid c!"simpleType" (removeKid c!"annotation" nd'.xsdKids).2 with ⟨o2, r2⟩
        rw [e1, e2] at hs
        obtain ⟨ho, hr⟩ := hs
        cases ho with
        | some hcc =>
          refine .bind (simpleType_sim x hD hD' hcc) fun r r' hr' => ?_
          subst hr'
          exact .bind (.lift (preventKids_sim hr h.name)) fun _ _ _ => .pure rfl
        | none =>
          simp only [(h.see c!"type").name]
          exact .fail (.missingElement _ _ _ _)

theorem complexType_pres (k' : Nat) (h : NdSim D D' nd nd') (p : Name) :
    PSim D D' Eq (parseComplexType x (k + 1) nd p) (parseComplexType x k' nd' p) := by
  cases k' with
  | zero => unfold parseComplexType; exact .right
  | succ k' =>
    unfold parseComplexType
    have hk := removeKid_sim h.kids c!"annotation"
    simp only [optVal_eq h (n := c!"mixed") (by decide) (by decide)]
    refine .ite (by rw [h.name]; exact .fail (.unsupportedValue _ _ _ _ _)) (.bind (.lift (prevent_sim (h.see _))) fun _ _ _ => .bind (.lift (annotation_sim x hk.1)) fun docs docs' hd => ?_)
    subst hd
    have hs := removeKid_sim hk.2 c!"simpleContent"
    have hc := removeKid_sim hk.2 c!"complexContent"
    rcases e1 : removeKid c!"simpleContent" (removeKid c!"annotation" nd.xsdKids).2 with ⟨o1, r1⟩
    rcases e2 : removeKid c!"simpleContent" (removeKid c!"annotation" nd'.xsdKids).2 with ⟨o2, r2⟩
    rw [e1, e2] at hs
    obtain ⟨ho, hr⟩ := hs
    cases ho with
    | some hcc =>
      refine .bind (.lift (preventKids_sim hr h.name)) fun _ _ _ => .bind (simpleContent_sim x hD hD' hcc p) fun r r' hr' => ?_
      subst hr'
      exact .pure rfl
    | none =>
      simp only
      rcases e1 : removeKid c!"complexContent" (removeKid c!"annotation" nd.xsdKids).2 with ⟨o1, r1⟩
      rcases e2 : removeKid c!"complexContent" (removeKid c!"annotation" nd'.xsdKids).2 with ⟨o2, r2⟩
      rw [e1, e2] at hc
      obtain ⟨ho, hr⟩ := hc
      cases ho with
      | some hcc =>
        refine .bind (.lift (preventKids_sim hr h.name)) fun _ _ _ => .bind (ih.complexContent k' _ _ p hcc) fun r r' hr' => ?_
        subst hr'
        exact .pure rfl
      | none =>
        refine .bind (ih.particle k' _ _ p hk.2) fun r r' hr' => ?_
        obtain ⟨c, rest⟩ := r
        obtain ⟨c', rest'⟩ := r'
        obtain ⟨h1, h2⟩ := hr'
        simp only at h1 h2 ⊢
        subst h1
        have hks := removeKids_sim h2 c!"attribute"
        refine .bind (attributes_sim x hD hD' p hks.1) fun as as' has => ?_
        subst has
        exact .bind (.lift (preventKids_sim hks.2 h.name)) fun _ _ _ => .pure rfl

omit hD hD' ih in
theorem sequenceOrAll_sim {ks ks' : List Nd} (h : All2 (NdSim D D') ks ks') :
    OptSim (NdSim D D') (sequenceOrAll ks).1 (sequenceOrAll ks').1 ∧ All2 (NdSim D D') (sequenceOrAll ks).2 (sequenceOrAll ks').2 := by
  unfold sequenceOrAll
  have hs := removeKid_sim h c!"sequence"
  rcases e1 : removeKid c!"sequence" ks with ⟨o1, r1⟩
  rcases e2 : removeKid c!"sequence" ks' with ⟨o2, r2⟩
  rw [e1, e2] at hs
  obtain ⟨ho, hr⟩ := hs
  cases ho with
  | some hc => exact ⟨.some hc, hr⟩
  | none => exact removeKid_sim h c!"all"

omit hD hD' in
theorem particle_pres (k' : Nat) {ks ks' : List Nd} (h : All2 (NdSim D D') ks ks') (p : Name) :
    PSim D D' (fun a b => a.1 = b.1 ∧ All2 (NdSim D D') a.2 b.2) (parseParticle x (k + 1) ks p) (parseParticle x k' ks' p) := by
  cases k' with
  | zero => unfold parseParticle; exact .right
  | succ k' =>
    unfold parseParticle
    change PSim D D' _ (match sequenceOrAll ks with | (some child, rest) => _ | (Option.none, _) => _ : P _)
      (match sequenceOrAll ks' with | (some child, rest) => _ | (Option.none, _) => _ : P _)
    have hs := sequenceOrAll_sim h
    have hc := removeKid_sim h c!"choice"
    rcases e1 : sequenceOrAll ks with ⟨o1, r1⟩
    rcases e2 : sequenceOrAll ks' with ⟨o2, r2⟩
    rw [e1, e2] at hs
    obtain ⟨ho, hr⟩ := hs
    cases ho with
    | @some c c' hcc =>
      simp only [hcc.name]
      refine .bind (.lift (minOccurs_sim hcc)) fun mn mn' h1 => ?_
      subst h1
      refine .bind (.lift (maxOccurs_sim hcc)) fun mx mx' h1 => ?_
      subst h1
      refine .bind (ih.sequence k' _ _ p ((hcc.see _).see _)) fun ls ls' h1 => ?_
      subst h1
      refine .ite ?_ (.pure ⟨rfl, hr⟩)
      refine .bind (addGroup_sim x p _ _ _ _ _ _) fun l l' h1 => ?_
      subst h1
      exact .pure ⟨rfl, hr⟩
    | none =>
      simp only
      rcases e1 : removeKid c!"choice" ks with ⟨o1, r1⟩
      rcases e2 : removeKid c!"choice" ks' with ⟨o2, r2⟩
      rw [e1, e2] at hc
      obtain ⟨ho, hr⟩ := hc
      cases ho with
      | some hcc =>
        refine .bind (ih.choice k' _ _ p hcc) fun vs vs' h1 => ?_
        subst h1
        refine .bind (.nodeName _) fun d d' h1 => ?_
        subst h1
        refine .bind (.virtual x _ _) fun v v' h1 => ?_
        subst h1
        exact .bind (.addRoot _ _) fun _ _ _ => .bind (.discoverType _ _) fun _ _ _ => .pure ⟨rfl, hr⟩
      | none => exact .pure ⟨rfl, h⟩

theorem complexContent_pres (k' : Nat) (h : NdSim D D' nd nd') (p : Name) :
    PSim D D' Eq (parseComplexContent x (k + 1) nd p) (parseComplexContent x k' nd' p) := by
  cases k' with
  | zero => unfold parseComplexContent; exact .right
  | succ k' =>
    unfold parseComplexContent
    refine .bind (.lift (prevent_sim h)) fun _ _ _ => .bind (.lift (tryRemove_sim h.kids _ _ _)) fun r r' hr => ?_
    obtain ⟨c, rest⟩ := r
    obtain ⟨c', rest'⟩ := r'
    obtain ⟨hc, hrest⟩ := hr
    simp only at hc hrest ⊢
    refine .bind (.lift (preventKids_sim hrest h.name)) fun _ _ _ => .bind (.lift (tryAttr_sim hc (n := c!"base") (by decide))) fun a a' ha =>
      .bind (.getTypeName hD hD' (ha.1 (by decide))) fun t t' ht => ?_
    subst ht
    cases t with
    | literal t => exact .fail (.unsupportedRef _ _ _ _ _ _ (by decide))
    | fixed f => exact .fail (.unsupportedRef _ _ _ _ _ _ (by decide))
    | named n =>
      refine .bind (.discoverType _ _) fun _ _ _ => ?_
      have hs := removeKid_sim hc.kids c!"sequence"
      refine .bind (ih.extension k' _ _ n p hs.1) fun ls ls' h1 => ?_
      subst h1
      have hks : All2 (NdSim D D') (if (removeKid c!"sequence" c.xsdKids).1.isSome = true then (removeKid c!"sequence" c.xsdKids).2 else c.xsdKids)
          (if (removeKid c!"sequence" c'.xsdKids).1.isSome = true then (removeKid c!"sequence" c'.xsdKids).2 else c'.xsdKids) := by
        obtain ⟨ho, hr⟩ := hs
        revert ho
        generalize (removeKid c!"sequence" c.xsdKids).1 = o
        generalize (removeKid c!"sequence" c'.xsdKids).1 = o'
        intro ho
        cases ho with
        | none => exact hc.kids
        | some _ => exact hr
      have hks := removeKids_sim hks c!"attribute"
      refine .bind (attributes_sim x hD hD' p hks.1) fun as as' has => ?_
      subst has
      refine .bind (.lift (preventKids_sim hks.2 hc.name)) fun _ _ _ => .ite (.pure rfl) (.bind (.nodeName _) fun b b' hb => ?_)
      subst hb
      exact .pure rfl

omit hD hD' in
theorem extension_pres (k' : Nat) {o o' : Option Nd} (h : OptSim (NdSim D D') o o') (b p : Name) :
    PSim D D' Eq (parseExtension x (k + 1) o b p) (parseExtension x k' o' b p) := by
  cases k' with
  | zero => unfold parseExtension; exact .right
  | succ k' =>
    cases h with
    | none => unfold parseExtension; exact .pure rfl
    | some hc =>
      unfold parseExtension
      refine .bind (.lift (minOccurs_sim hc)) fun mn mn' h1 => ?_
      subst h1
      refine .bind (ih.sequence k' _ _ p (hc.see _)) fun ls ls' h1 => ?_
      subst h1
      refine .bind (.nodeName _) fun l l' h1 => ?_
      subst h1
      refine .bind (.virtual x _ _) fun v v' h1 => ?_
      subst h1
      exact .bind (.addRoot _ _) fun _ _ _ => .bind (.discoverType _ _) fun _ _ _ => .pure rfl

omit hD hD' in
theorem sequence_pres (k' : Nat) (h : NdSim D D' nd nd') (p : Name) :
    PSim D D' Eq (parseSequence x (k + 1) nd p) (parseSequence x k' nd' p) := by
  cases k' with
  | zero => unfold parseSequence; exact .right
  | succ k' =>
    unfold parseSequence
    refine .bind (.lift (prevent_sim h)) fun _ _ _ => leaves_sim h.kids fun c c' hc => ?_
    simp only [hc.name]
    refine .ite ?_ (.ite ?_ (.ite ?_ (.ite (.pure rfl) (.fail (.unsupportedElement _ _ _)))))
    · refine .bind (ih.child k' _ _ p hc) fun l l' h1 => ?_
      subst h1
      exact .pure rfl
    · refine .bind (.lift (minOccurs_sim hc)) fun mn mn' h1 => ?_
      subst h1
      refine .bind (.lift (maxOccurs_sim hc)) fun mx mx' h1 => ?_
      subst h1
      refine .bind (ih.choice k' _ _ p ((hc.see _).see _)) fun ls ls' h1 => ?_
      subst h1
      refine .bind (addGroup_sim x p _ _ _ _ _ _) fun l l' h1 => ?_
      subst h1
      exact .pure rfl
    · refine .bind (.lift (annotation_sim x (hc.child _))) fun docs docs' h1 => ?_
      subst h1
      refine .bind (.lift (minOccurs_sim hc)) fun mn mn' h1 => ?_
      subst h1
      refine .bind (ih.sequence k' _ _ p (hc.see _)) fun ls ls' h1 => ?_
      subst h1
      refine .bind (addGroup_sim x p _ _ _ _ _ _) fun l l' h1 => ?_
      subst h1
      exact .pure rfl

omit hD hD' in
theorem choice_pres (k' : Nat) (h : NdSim D D' nd nd') (p : Name) :
    PSim D D' Eq (parseChoice x (k + 1) nd p) (parseChoice x k' nd' p) := by
  cases k' with
  | zero => unfold parseChoice; exact .right
  | succ k' =>
    unfold parseChoice
    refine .bind (.lift (prevent_sim h)) fun _ _ _ => leaves_sim h.kids fun c c' hc => ?_
    simp only [hc.name]
    refine .ite ?_ (.ite ?_ (.ite (.pure rfl) (.fail (.unsupportedElement _ _ _))))
    · refine .bind (ih.child k' _ _ p hc) fun l l' h1 => ?_
      subst h1
      exact .pure rfl
    · refine .bind (.lift (annotation_sim x (hc.child _))) fun docs docs' h1 => ?_
      subst h1
      refine .bind (.lift (minOccurs_sim hc)) fun mn mn' h1 => ?_
      subst h1
      refine .bind (.lift (maxOccurs_sim hc)) fun mx mx' h1 => ?_
      subst h1
      refine .bind (ih.sequence k' _ _ p ((hc.see _).see _)) fun ls ls' h1 => ?_
      subst h1
      refine .bind (.nodeName _) fun v v' h1 => ?_
      subst h1
      refine .bind (addGroup_sim x p _ _ _ _ _ _) fun l l' h1 => ?_
      subst h1
      exact .pure rfl

omit hD hD' ih in
theorem isNone_eq {o o' : Option Nd} (h : OptSim (NdSim D D') o o') : o.isNone = o'.isNone := by cases h <;> rfl

theorem child_pres (k' : Nat) (h : NdSim D D' nd nd') (p : Name) :
    PSim D D' Eq (parseElementChild x (k + 1) nd p) (parseElementChild x k' nd' p) := by
  cases k' with
  | zero => unfold parseElementChild; exact .right
  | succ k' =>
    unfold parseElementChild
    refine .bind (.lift (minOccurs_sim h)) fun mn mn' h1 => ?_
    subst h1
    refine .bind (.lift (maxOccurs_sim h)) fun mx mx' h1 => ?_
    subst h1
    replace h := ((h.see c!"minOccurs").see c!"maxOccurs").see c!"ref"
    simp only
    revert h
    generalize ((nd.see c!"minOccurs").see c!"maxOccurs").see c!"ref" = n1
    generalize ((nd'.see c!"minOccurs").see c!"maxOccurs").see c!"ref" = n1'
    intro h
    have href := h.attr (n := c!"ref") (by decide)
    revert href
    generalize n1.attr c!"ref" = o
    generalize n1'.attr c!"ref" = o'
    intro href
    cases href with
    | some ha =>
      refine .bind (.lift (prevent_sim h)) fun _ _ _ => .bind (.getTypeName hD hD' (ha.1 (by decide))) fun t t' ht => ?_
      subst ht
      cases t with
      | named n => exact .bind (.discoverType _ _) fun _ _ _ => .pure rfl
      | literal t => exact .fail (.unsupportedRef _ _ _ _ _ _ (by decide))
      | fixed f => exact .fail (.unsupportedRef _ _ _ _ _ _ (by decide))
    | none =>
      refine .bind (.lift (tryAttr_sim h (n := c!"name") (by decide))) fun a a' ha => ?_
      rw [ha.2 (by decide)]
      refine .bind (.nodeName _) fun name name' h1 => ?_
      subst h1
      replace h := (((h.see c!"name").see c!"default").see c!"form").see c!"type"
      revert h
      generalize (((n1.see c!"name").see c!"default").see c!"form").see c!"type" = n2
      generalize (((n1'.see c!"name").see c!"default").see c!"form").see c!"type" = n2'
      intro h
      refine .bind (.lift (annotation_sim x (h.child _))) fun docs docs' h1 => ?_
      subst h1
      have hty := h.attr (n := c!"type") (by decide)
      revert hty
      generalize n2.attr c!"type" = o
      generalize n2'.attr c!"type" = o'
      intro hty
      cases hty with
      | some ha =>
        refine .bind (typeAttr_sim hD hD' h ha p) fun r r' hr => ?_
        obtain ⟨c, n⟩ := r
        obtain ⟨c', n'⟩ := r'
        obtain ⟨hc, hn⟩ := hr
        simp only at hc hn ⊢
        subst hc
        exact .bind (.lift (prevent_sim hn)) fun _ _ _ => .pure rfl
      | none =>
        simp only [isNone_eq (h.child c!"simpleType"), isNone_eq (h.child c!"complexType")]
        refine .ite (.bind (.lift (prevent_sim h)) fun _ _ _ => .pure rfl) (.bind (.lift (prevent_sim h)) fun _ _ _ => ?_)
        refine .bind (.nodeName _) fun d d' h1 => ?_
        subst h1
        refine .bind (.virtual x _ _) fun v v' h1 => ?_
        subst h1
        refine .bind (ih.root k' _ _ v h) fun r r' h1 => ?_
        subst h1
        exact .bind (.addRoot _ _) fun _ _ _ => .bind (.discoverType _ _) fun _ _ _ => .pure rfl

end

theorem presOK (x : Ext) {D D' : List (Option Str × Str)} (hD : PlainDecls D) (hD' : PlainDecls D') (k : Nat) : PresOK x D D' k := by
  induction k with
  | zero => exact presOK_zero x D D'
  | succ k ih =>
    exact ⟨fun k' _ _ p h => root_pres hD hD' ih k' h p, fun k' _ _ p h => element_pres hD hD' ih k' h p,
      fun k' _ _ p h => complexType_pres hD hD' ih k' h p, fun k' _ _ p h => particle_pres ih k' h p,
      fun k' _ _ p h => complexContent_pres hD hD' ih k' h p, fun k' _ _ b p h => extension_pres ih k' h b p,
      fun k' _ _ p h => sequence_pres ih k' h p, fun k' _ _ p h => choice_pres ih k' h p,
      fun k' _ _ p h => child_pres hD hD' ih k' h p⟩

/-! ## Files -/

/-- Errors of a file that say the same. -/
inductive SamePErr : PErr → PErr → Prop
  | schema {e e' : SErr} (h : SameErr e e') : SamePErr (.schema e) (.schema e')
  | xsd {e e' : XErr} (h : SameXErr e e') : SamePErr (.xsd e) (.xsd e')

instance : Kin SErr := ⟨SameErr⟩

instance : Kin PErr := ⟨SamePErr⟩

/-- Outcomes that agree, with related results. -/
inductive Agree {ε α β : Type} [Kin ε] (R : α → β → Prop) : Res ε α → Res ε β → Prop
  | ok {a : α} {b : β} (h : R a b) : Agree R (.ok a) (.ok b)
  | err {e e' : ε} (h : Kin.kin e e') : Agree R (.err e) (.err e')
  | panic : Agree R .panic .panic
  | diverge : Agree R .diverge .diverge

theorem Agree.bind {ε α β γ δ : Type} [Kin ε] {R : α → β → Prop} {S : γ → δ → Prop} {m : Res ε α} {m' : Res ε β} {f : α → Res ε γ}
    {f' : β → Res ε δ} (h : Agree R m m') (hf : ∀ a b, R a b → Agree S (f a) (f' b)) : Agree S (m >>= f) (m' >>= f') := by
  cases h with
  | ok h => exact hf _ _ h
  | err h => exact .err h
  | panic => exact .panic
  | diverge => exact .diverge

theorem Sim.agree {ε α β : Type} [Kin ε] {R : α → β → Prop} {r : Res ε α} {r' : Res ε β} (h : Sim R r r') (h1 : r ≠ .diverge)
    (h2 : r' ≠ .diverge) : Agree R r r' := by
  cases h with
  | ok h => exact .ok h
  | err h => exact .err h
  | panic => exact .panic
  | left => exact absurd rfl h1
  | right => exact absurd rfl h2

theorem liftX_agree {α β : Type} {R : α → β → Prop} {r : Res XErr α} {r' : Res XErr β} (h : Agree R r r') : Agree R (liftX r) (liftX r') := by
  cases h with
  | ok h => exact .ok h
  | err h => exact .err (.xsd h)
  | panic => exact .panic
  | diverge => exact .diverge

theorem liftS_agree {α β : Type} {R : α → β → Prop} {r : Res SErr α} {r' : Res SErr β} (h : Agree R r r') : Agree R (liftS r) (liftS r') := by
  cases h with
  | ok h => exact .ok h
  | err h => exact .err (.schema h)
  | panic => exact .panic
  | diverge => exact .diverge

/-- The type of `parse_file_with_context`. -/
abbrev Incl := Str → Namespaces → List (Name × List Name) → Res SErr PSchema

section
variable (x : Ext) {F F' : Files} (hpush : F.push = F'.push) {incl incl' : Incl}
  (hi : ∀ p t deps, Agree Eq (incl p t deps) (incl' p t deps)) {D D' : List (Option Str × Str)} (hD : PlainDecls D) (hD' : PlainDecls D')

theorem tryAttr_agree {nd nd' : Nd} (h : NdSim D D' nd nd') {n : Str} (hn : n ∈ schemaAttrs) :
    Agree (AttrSim D D' n) (nd.tryAttr n) (nd'.tryAttr n) :=
  (tryAttr_sim h hn).agree (tryAttr_tot nd n) (tryAttr_tot nd' n)

theorem addRoots_sim (rs : List (Name × Root)) {s s' : PCtx} (hs : CtxSim D D' s s') :
    CtxSim D D' (rs.foldl (fun s p => s.addRoot p.1 p.2) s) (rs.foldl (fun s p => s.addRoot p.1 p.2) s') := by
  induction rs generalizing s s' with
  | nil => exact hs
  | cons r rs ih =>
    refine ih ⟨?_, hs.target, hs.isQualified, hs.nss, hs.deps, hs.doc, hs.doc', hs.dflt, hs.dflt'⟩
    show ainsert s.roots _ _ = ainsert s'.roots _ _
    rw [hs.roots]

include hpush hi hD hD'

theorem item_agree (base : Str) {c c' : Nd} (h : NdSim D D' c c') {s s' : PCtx} (hs : CtxSim D D' s s') :
    Agree (CtxSim D D') (parseItem x F incl base c s) (parseItem x F' incl' base c' s') := by
  unfold parseItem
  rw [h.name]
  by_cases hc : c'.name = c!"include" ∨ c'.name = c!"import"
  · rw [if_pos hc, if_pos hc]
    refine .bind (liftX_agree (tryAttr_agree h (n := c!"schemaLocation") (by decide))) fun a a' ha => ?_
    rw [ha.2 (by decide), hpush, hs.nss, hs.deps]
    refine .bind (liftS_agree (hi _ _ _)) fun S S' hS => ?_
    subst hS
    have := addRoots_sim S.context.elements hs
    exact .ok ⟨this.roots, this.target, this.isQualified, rfl, rfl, this.doc, this.doc', this.dflt, this.dflt'⟩
  · rw [if_neg hc, if_neg hc]
    refine .bind (liftX_agree (tryAttr_agree h (n := c!"name") (by decide))) fun a a' ha => ?_
    rw [ha.2 (by decide), hs.target]
    have hr := (presOK x hD hD' c.fuel).root c'.fuel _ _ ⟨a'.value, s'.target⟩ (h.see c!"name") s s' hs
    have h1 : parseRoot x c.fuel (c.see c!"name") ⟨a'.value, s'.target⟩ s ≠ .diverge := C40_definition x (c.see c!"name") _ _
    have h2 : parseRoot x c'.fuel (c'.see c!"name") ⟨a'.value, s'.target⟩ s' ≠ .diverge := C40_definition x (c'.see c!"name") _ _
    refine .bind (liftX_agree (hr.agree h1 h2)) fun r r' hr => ?_
    obtain ⟨root, t⟩ := r
    obtain ⟨root', t'⟩ := r'
    obtain ⟨h1, ht⟩ := hr
    simp only at h1 ht ⊢
    subst h1
    exact .ok (addRoots_sim [(⟨a'.value, s'.target⟩, root)] ht)

theorem items_agree (base : Str) {cs cs' : List Nd} (h : All2 (NdSim D D') cs cs') {s s' : PCtx} (hs : CtxSim D D' s s') :
    Agree (CtxSim D D') (parseItems x F incl base cs s) (parseItems x F' incl' base cs' s') := by
  induction h generalizing s s' with
  | nil => exact .ok hs
  | cons h t ih =>
    unfold parseItems
    exact .bind (item_agree x hpush hi hD hD' base h hs) fun s s' hs => ih hs

omit hD hD' in
theorem schemaRoot_agree (base : Str) {e e' : Elem} (hD : PlainDecls e.1.nss) (hD' : PlainDecls e'.1.nss) (hs : SameElem e e')
    (hp : PlainElem e.1.nss e) (hp' : PlainElem e'.1.nss e') (t : Namespaces) (deps : List (Name × List Name)) :
    Agree Eq (parseSchemaRoot x F incl base (Nd.of e) t deps) (parseSchemaRoot x F' incl' base (Nd.of e') t deps) := by
  have h : NdSim e.1.nss e'.1.nss (Nd.of e) (Nd.of e') := ⟨hs, hp, hp', rfl⟩
  unfold parseSchemaRoot
  rw [h.name, h.infoName]
  split
  · exact .err (.xsd (.unsupportedElement _ _ _))
  · have hq : attrOf e.1 c!"elementFormDefault" = attrOf e'.1 c!"elementFormDefault" := by
      have := h.tag.attrs c!"elementFormDefault"
      unfold SameValue at this
      revert this
      show (match attrOf e.1 _, attrOf e'.1 _ with | none, none => _ | some v, some v' => _ | _, _ => _) → _
      generalize attrOf e.1 _ = o
      generalize attrOf e'.1 _ = o'
      intro this
      cases o <;> cases o'
      · rfl
      · exact this.elim
      · exact this.elim
      · exact congrArg some (this.2 (by decide))
    rw [optVal_eq h (n := c!"targetNamespace") (by decide) (by decide)]
    refine .bind (items_agree x hpush hi hD hD' base h.kids ?_) fun s s' hs => ?_
    · refine ⟨rfl, rfl, ?_, rfl, rfl, rfl, rfl, rfl, rfl⟩
      exact congrArg (fun o => decide (o = some c!"qualified")) hq
    · refine .ok ?_
      unfold PCtx.intoSchema
      rw [hs.roots, hs.target, hs.isQualified, hs.nss, hs.deps]

end

theorem file_agree (x : Ext) {F F' : Files} (hparent : F.parent = F'.parent) (hpush : F.push = F'.push)
    (hr : ∀ p, SameFile (F.read p) (F'.read p)) (hp : ∀ p d, F.read p = some (.doc d) → PlainDoc d)
    (hp' : ∀ p d, F'.read p = some (.doc d) → PlainDoc d) (k : Nat) (path : Str) (t : Namespaces) (deps : List (Name × List Name)) :
    Agree Eq (parseFileWith x F k path t deps) (parseFileWith x F' k path t deps) := by
  induction k generalizing path t deps with
  | zero => exact .diverge
  | succ k ih =>
    unfold parseFileWith
    have h1 := hp path
    have h2 := hp' path
    have h3 := hr path
    revert h1 h2 h3
    generalize F.read path = o
    generalize F'.read path = o'
    intro h1 h2 h3
    cases h3 with
    | missing => exact .err (.openFile _)
    | malformed => exact .err (.xsd .xml _ _ _ _ _)
    | @doc d d' hs =>
      simp only
      unfold parseDoc
      have := schemaRoot_agree x hpush ih (F.parent path) (h1 d rfl).1 (h2 d' rfl).1 hs (h1 d rfl).2 (h2 d' rfl).2 t deps
      rw [← hparent]
      revert this
      generalize parseSchemaRoot x F _ _ _ _ _ = r
      generalize parseSchemaRoot x F' _ _ _ _ _ = r'
      intro this
      cases this with
      | ok h => exact .ok h
      | err h =>
        cases h with
        | schema h => exact .err h
        | xsd h => exact .err (.xsd h _ _ _ _ _)
      | panic => exact .panic
      | diverge => exact .diverge

end Pres
end Xsd
