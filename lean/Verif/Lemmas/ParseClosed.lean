import Verif.Lemmas.Parse
/-!
# What holds of every function of the parser because it holds of its primitive steps
-/
namespace Xsd

/-- A property of parser steps that the primitive steps have and that sequencing keeps. -/
structure ParseClosed (C : ∀ {α : Type}, P α → Prop) : Prop where
  pure : ∀ {α : Type} (a : α), C (pure a : P α)
  bind : ∀ {α β : Type} {m : P α} {f : α → P β}, C m → (∀ a, C (f a)) → C (m >>= f)
  lift : ∀ {α : Type} (r : Res XErr α), C (P.lift r)
  fail : ∀ {α : Type} (e : XErr), C (P.fail e : P α)
  diverge : ∀ {α : Type}, C (P.diverge : P α)
  typeName : ∀ a : XAttr, C (getTypeName a)
  node : ∀ n : Str, C (nodeName n)
  virtual : ∀ (x : Ext) (ns : List Name) (b : Bool), C (deriveVirtualName x ns b)
  root : ∀ (n : Name) (r : Root), C (addRoot n r)
  discover : ∀ n p : Name, C (discoverType n p)

section
variable {C : ∀ {α : Type}, P α → Prop} (hC : ParseClosed @C) (x : Ext)
include hC

/-- Take a parser step apart down to the primitive steps. -/
macro "parse_steps" h:ident : tactic => `(tactic|
  repeat' first
    | assumption
    | exact ParseClosed.pure $h _
    | exact ParseClosed.lift $h _
    | exact ParseClosed.fail $h _
    | exact ParseClosed.diverge $h
    | exact ParseClosed.typeName $h _
    | exact ParseClosed.node $h _
    | exact ParseClosed.virtual $h _ _ _
    | exact ParseClosed.root $h _ _
    | exact ParseClosed.discover $h _ _
    | solve_by_elim
    | refine ParseClosed.bind $h ?_ fun _ => ?_
    | split
    | dsimp only)

theorem parseSimpleType_closed (nd : Nd) : C (parseSimpleType x nd) := by
  unfold parseSimpleType
  parse_steps hC

theorem parseTypeAttr_closed (nd : Nd) (a : XAttr) (p : Name) : C (parseTypeAttr nd a p) := by
  unfold parseTypeAttr
  parse_steps hC

theorem parseAttrContent_closed (nd : Nd) (name p : Name) (c : Option Nd) : C (parseAttrContent x nd name p c) := by
  have h1 := parseSimpleType_closed hC x
  have h2 := parseTypeAttr_closed hC
  unfold parseAttrContent
  parse_steps hC

theorem parseAttribute_closed (nd : Nd) (p : Name) : C (parseAttribute x nd p) := by
  have h1 := parseAttrContent_closed hC x
  unfold parseAttribute
  parse_steps hC

theorem parseAttributes_closed (p : Name) (l : List Nd) : C (parseAttributes x p l) := by
  have h1 := parseAttribute_closed hC x
  induction l with
  | nil => exact hC.pure _
  | cons c cs ih =>
    unfold parseAttributes
    parse_steps hC

theorem parseSimpleContent_closed (nd : Nd) (p : Name) : C (parseSimpleContent x nd p) := by
  have h1 := parseAttributes_closed hC x
  unfold parseSimpleContent
  parse_steps hC

theorem parseLeaves_closed {f : Nd → P (Option Leaf)} (hf : ∀ c, C (f c)) (l : List Nd) : C (parseLeaves f l) := by
  induction l with
  | nil => exact hC.pure _
  | cons c cs ih =>
    unfold parseLeaves
    parse_steps hC

theorem addGroup_closed (p : Name) (ms : List Leaf) (suffix : List Name) (r : Root) (docs : Option Str) (a : Nat) (b : MaxOccurs) :
    C (addGroup x p ms suffix r docs a b) := by
  unfold addGroup
  parse_steps hC

/-- The recursive functions of the parser, with fuel `k`. -/
structure ParseClosedAt (C : ∀ {α : Type}, P α → Prop) (x : Ext) (k : Nat) : Prop where
  root : ∀ nd p, C (parseRoot x k nd p)
  element : ∀ nd p, C (parseElementRoot x k nd p)
  complexType : ∀ nd p, C (parseComplexType x k nd p)
  particle : ∀ ks p, C (parseParticle x k ks p)
  complexContent : ∀ nd p, C (parseComplexContent x k nd p)
  extension : ∀ o b p, C (parseExtension x k o b p)
  sequence : ∀ nd p, C (parseSequence x k nd p)
  choice : ∀ nd p, C (parseChoice x k nd p)
  child : ∀ nd p, C (parseElementChild x k nd p)

theorem parseClosedAt (k : Nat) : ParseClosedAt @C x k := by
  induction k with
  | zero =>
    refine ⟨?_, ?_, ?_, ?_, ?_, ?_, ?_, ?_, ?_⟩
    · intros; unfold parseRoot; exact hC.diverge
    · intros; unfold parseElementRoot; exact hC.diverge
    · intros; unfold parseComplexType; exact hC.diverge
    · intros; unfold parseParticle; exact hC.diverge
    · intros; unfold parseComplexContent; exact hC.diverge
    · intros; unfold parseExtension; exact hC.diverge
    · intros; unfold parseSequence; exact hC.diverge
    · intros; unfold parseChoice; exact hC.diverge
    · intros; unfold parseElementChild; exact hC.diverge
  | succ k ih =>
    obtain ⟨i1, i2, i3, i4, i5, i6, i7, i8, i9⟩ := ih
    have h1 := parseSimpleType_closed hC x
    have h2 := parseTypeAttr_closed hC
    have h3 := parseAttributes_closed hC x
    have h4 := parseSimpleContent_closed hC x
    have h5 := addGroup_closed hC x
    refine ⟨?_, ?_, ?_, ?_, ?_, ?_, ?_, ?_, ?_⟩
    · intros; unfold parseRoot; parse_steps hC
    · intros; unfold parseElementRoot; parse_steps hC
    · intros; unfold parseComplexType; parse_steps hC
    · intros; unfold parseParticle; parse_steps hC
    · intros; unfold parseComplexContent; parse_steps hC
    · intro o b p
      cases o with
      | none => unfold parseExtension; exact hC.pure _
      | some c => unfold parseExtension; parse_steps hC
    · intros; unfold parseSequence
      refine hC.bind (hC.lift _) fun _ => parseLeaves_closed hC (fun c => ?_) _
      parse_steps hC
    · intros; unfold parseChoice
      refine hC.bind (hC.lift _) fun _ => parseLeaves_closed hC (fun c => ?_) _
      parse_steps hC
    · intros; unfold parseElementChild; parse_steps hC

theorem parseRoot_closed (k : Nat) (nd : Nd) (p : Name) : C (parseRoot x k nd p) := (parseClosedAt hC x k).root nd p

end

end Xsd
