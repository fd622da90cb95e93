import Verif.Model.Schema
import Verif.Lemmas.Deps
/-!
# The parser never looks at the definitions found so far

Running a part of the parser with other definitions in the context gives the same result, and adds the same definitions.
-/
namespace Xsd

/-- Add definitions, in order. -/
def insertAll (w R : List (Name × Root)) : List (Name × Root) := w.foldl (fun m p => ainsert m p.1 p.2) R

/-- The result with the definitions `w` added to `R`. -/
def withRoots {α : Type} (w R : List (Name × Root)) : Res XErr (α × PCtx) → Res XErr (α × PCtx)
  | .ok (a, t) => .ok (a, { t with roots := insertAll w R })
  | .err e => .err e
  | .panic => .panic
  | .diverge => .diverge

/-- The result does not depend on the definitions in the context. -/
structure RootFree {α : Type} (m : P α) : Prop where
  run : ∀ s : PCtx, ∃ w o, ∀ R, m { s with roots := R } = withRoots w R o

namespace RootFree
variable {α β : Type}

theorem ret (a : α) : RootFree (P.ret a) := .mk fun s => ⟨[], .ok (a, s), fun _ => rfl⟩

theorem pure' (a : α) : RootFree (pure a : P α) := ret a

theorem lift (r : Res XErr α) : RootFree (P.lift r) := .mk fun s => ⟨[], P.lift r s, fun R => by cases r <;> rfl⟩

theorem fail (e : XErr) : RootFree (P.fail e : P α) := .mk fun _ => ⟨[], .err e, fun _ => rfl⟩

theorem div : RootFree (P.diverge : P α) := .mk fun _ => ⟨[], .diverge, fun _ => rfl⟩

theorem bnd {m : P α} {f : α → P β} (hm : RootFree m) (hf : ∀ a, RootFree (f a)) : RootFree (m >>= f) := by
  refine ⟨fun s => ?_⟩
  obtain ⟨w, o, h⟩ := hm.run s
  cases o with
  | ok p =>
    obtain ⟨w', o', h'⟩ := (hf p.1).run p.2
    refine ⟨w ++ w', o', fun R => ?_⟩
    have h1 := h R
    have h2 := h' (insertAll w R)
    show P.bnd m f _ = _
    unfold P.bnd
    rw [h1]
    show f p.1 { p.2 with roots := insertAll w R } = _
    rw [h2]
    cases o' with
    | ok q => simp only [withRoots, insertAll, List.foldl_append]
    | _ => rfl
  | err e => exact ⟨w, .err e, fun R => by show P.bnd m f _ = _; unfold P.bnd; rw [h R]; rfl⟩
  | panic => exact ⟨w, .panic, fun R => by show P.bnd m f _ = _; unfold P.bnd; rw [h R]; rfl⟩
  | diverge => exact ⟨w, .diverge, fun R => by show P.bnd m f _ = _; unfold P.bnd; rw [h R]; rfl⟩

theorem ite {c : Prop} [Decidable c] {a b : P α} (ha : RootFree a) (hb : RootFree b) : RootFree (if c then a else b) := by
  split
  · exact ha
  · exact hb

theorem addRoot (n : Name) (r : Root) : RootFree (Xsd.addRoot n r) := .mk fun s => ⟨[(n, r)], .ok ((), s), fun _ => rfl⟩

theorem discoverType (n parent : Name) : RootFree (Xsd.discoverType n parent) :=
  .mk fun s => ⟨[], .ok ((), s.discoverType n parent), fun _ => rfl⟩

theorem nodeName (n : Str) : RootFree (Xsd.nodeName n) := .mk fun s => ⟨[], .ok (s.nodeName n false, s), fun _ => rfl⟩

theorem getTypeName (a : XAttr) : RootFree (Xsd.getTypeName a) := by
  refine ⟨fun s => ?_⟩
  refine ⟨[], Xsd.getTypeName a s, fun R => ?_⟩
  unfold Xsd.getTypeName
  split
  · split
    · rename_i h
      simp only at h
      rw [h]
      rfl
    · rename_i h
      simp only at h
      rw [h]
      simp only
      split
      · cases literalOr _ a <;> rfl
      · rfl
  · split
    · cases literalOr _ a <;> rfl
    · rfl

variable (x : Ext)

theorem deriveVirtualName (ns : List Name) (b : Bool) : RootFree (Xsd.deriveVirtualName x ns b) := by
  refine ⟨fun s => ?_⟩
  refine ⟨[], Xsd.deriveVirtualName x ns b s, fun R => ?_⟩
  unfold Xsd.deriveVirtualName
  cases virtualName x (ns.map Name.name) b <;> rfl

theorem leaves {f : Nd → P (Option Leaf)} (hf : ∀ c, RootFree (f c)) : ∀ cs, RootFree (parseLeaves f cs)
  | [] => ret _
  | c :: cs => bnd (hf c) fun _ => bnd (leaves hf cs) fun _ => ret _

end RootFree

open RootFree in
/-- Take a parser apart. -/
macro "root_free" : tactic => `(tactic| repeat' first
  | exact RootFree.ret _ | exact RootFree.pure' _ | exact RootFree.lift _ | exact RootFree.fail _ | exact RootFree.div | exact RootFree.addRoot _ _
  | exact RootFree.discoverType _ _ | exact RootFree.nodeName _ | exact RootFree.getTypeName _ | exact RootFree.deriveVirtualName _ _ _
  | assumption | apply RootFree.bnd | apply RootFree.ite | intro _ | split)

section
variable (x : Ext)

theorem parseSimpleType_free (nd : Nd) : RootFree (parseSimpleType x nd) := by
  unfold parseSimpleType
  root_free

theorem parseTypeAttr_free (nd : Nd) (a : XAttr) (parent : Name) : RootFree (parseTypeAttr nd a parent) := by
  unfold parseTypeAttr
  root_free

theorem parseAttrContent_free (nd : Nd) (name parent : Name) (c : Option Nd) : RootFree (parseAttrContent x nd name parent c) := by
  unfold parseAttrContent
  root_free

theorem parseAttribute_free (nd : Nd) (parent : Name) : RootFree (parseAttribute x nd parent) := by
  have h1 := parseAttrContent_free x
  unfold parseAttribute
  root_free
  exact h1 _ _ _ _

theorem parseAttributes_free (parent : Name) : ∀ cs, RootFree (parseAttributes x parent cs)
  | [] => .ret _
  | c :: cs => .bnd (parseAttribute_free x c parent) fun _ => .bnd (parseAttributes_free parent cs) fun _ => .ret _

theorem parseSimpleContent_free (nd : Nd) (parent : Name) : RootFree (parseSimpleContent x nd parent) := by
  have h1 := parseAttributes_free x
  unfold parseSimpleContent
  root_free
  exact h1 _ _

theorem addGroup_free (parent : Name) (ms : List Leaf) (suffix : List Name) (root : Root) (docs : Option Str) (a : Nat)
    (b : MaxOccurs) : RootFree (addGroup x parent ms suffix root docs a b) := by
  unfold addGroup
  root_free

/-- All functions of the recursion. -/
structure AllFree (k : Nat) : Prop where
  root : ∀ nd p, RootFree (parseRoot x k nd p)
  elementRoot : ∀ nd p, RootFree (parseElementRoot x k nd p)
  complexType : ∀ nd p, RootFree (parseComplexType x k nd p)
  particle : ∀ ks p, RootFree (parseParticle x k ks p)
  complexContent : ∀ nd p, RootFree (parseComplexContent x k nd p)
  extension : ∀ c b p, RootFree (parseExtension x k c b p)
  sequence : ∀ nd p, RootFree (parseSequence x k nd p)
  choice : ∀ nd p, RootFree (parseChoice x k nd p)
  child : ∀ nd p, RootFree (parseElementChild x k nd p)

theorem allFree (k : Nat) : AllFree x k := by
  induction k with
  | zero =>
    constructor <;> intros <;>
      simp only [parseRoot, parseElementRoot, parseComplexType, parseParticle, parseComplexContent, parseExtension, parseSequence,
        parseChoice, parseElementChild] <;> exact .div
  | succ k ih =>
    have h1 := parseSimpleType_free x
    have h2 := parseTypeAttr_free
    have h3 := parseAttributes_free x
    have h4 := parseSimpleContent_free x
    have h5 := addGroup_free x
    have ⟨i1, i2, i3, i4, i5, i6, i7, i8, i9⟩ := ih
    constructor
    · intro nd p
      simp only [parseRoot]
      root_free <;> first | exact i2 _ _ | exact i3 _ _ | exact h1 _
    · intro nd p
      simp only [parseElementRoot]
      root_free <;> first | exact h2 _ _ _ | exact i3 _ _ | exact h1 _
    · intro nd p
      simp only [parseComplexType]
      root_free <;> first | exact h4 _ _ | exact i5 _ _ | exact i4 _ _ | exact h3 _ _
    · intro nd p
      simp only [parseParticle]
      root_free <;> first | exact i7 _ _ | exact i8 _ _ | exact h5 _ _ _ _ _ _ _
    · intro nd p
      simp only [parseComplexContent]
      root_free <;> first | exact i6 _ _ _ | exact h3 _ _
    · intro c b p
      cases c <;> simp only [parseExtension]
      · root_free
      · root_free <;> exact i7 _ _
    · intro nd p
      simp only [parseSequence]
      refine .bnd (.lift _) fun _ => .leaves (fun c => ?_) _
      root_free <;> first | exact i7 _ _ | exact i8 _ _ | exact i9 _ _ | exact h5 _ _ _ _ _ _ _
    · intro nd p
      simp only [parseChoice]
      refine .bnd (.lift _) fun _ => .leaves (fun c => ?_) _
      root_free <;> first | exact i7 _ _ | exact i9 _ _ | exact h5 _ _ _ _ _ _ _
    · intro nd p
      simp only [parseElementChild]
      root_free <;> first | exact h2 _ _ _ | exact i1 _ _

theorem parseRoot_free (k : Nat) (nd : Nd) (p : Name) : RootFree (parseRoot x k nd p) := (allFree x k).root nd p

end

end Xsd
