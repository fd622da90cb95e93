import Verif.Model.Exec
/-! More fuel never changes an outcome other than `diverge`. -/
namespace Xsd

/-- Approximation order: `a` is `diverge` or equal to `b`. -/
def Res.le {ε α : Type} (a b : Res ε α) : Prop := a = .diverge ∨ a = b

namespace Res
variable {ε α β : Type}

theorem le_refl (a : Res ε α) : a.le a := Or.inr rfl

theorem le_trans {a b c : Res ε α} (h : a.le b) (h' : b.le c) : a.le c := by
  rcases h with h | h
  · exact Or.inl h
  · exact h ▸ h'

theorem le_bind {a b : Res ε α} {f g : α → Res ε β} (h : a.le b) (hf : ∀ x, (f x).le (g x)) :
    (a >>= f).le (b >>= g) := by
  rcases h with rfl | rfl
  · exact Or.inl rfl
  · cases a with
    | ok v => exact hf v
    | _ => exact Or.inr rfl

theorem le_ok {a b : Res ε α} {v : α} (h : a.le b) (ha : a = .ok v) : b = .ok v := by
  rcases h with h | h
  · simp [h] at ha
  · exact h ▸ ha

theorem le_eq {a b : Res ε α} (h : a.le b) (ha : a ≠ .diverge) : b = a := by
  rcases h with h | h
  · exact absurd h ha
  · exact h.symm

end Res
open Res

section
variable {σ : Type} {x : Ext} {o : Ops σ} {P : List TypeDef}
variable {cF cF' : Str → σ → DRes σ Val} {cL cL' : Str → σ → DRes σ Bool}

theorem runChecks_mono (hL : ∀ i s, (cL i s).le (cL' i s)) (cs : List Check) (s : σ) :
    (runChecks o cL cs s).le (runChecks o cL' cs s) := by
  induction cs generalizing s with
  | nil => exact le_refl _
  | cons c cs ih =>
    cases c with
    | call i =>
      simp only [runChecks]
      refine le_bind (hL i s) (fun a => ?_)
      cases a.1 <;> simp [ih, le_refl]
    | peek q =>
      simp only [runChecks]
      cases (o.peek s q).1 <;> simp [ih, le_refl]

theorem lookahead_mono_succ (k : Nat) (i : Str) (s : σ) :
    (lookahead o P k i s).le (lookahead o P (k + 1) i s) := by
  induction k generalizing i s with
  | zero => exact Or.inl rfl
  | succ k ih =>
    rw [lookahead, lookahead]
    cases findType P i with
    | none => exact le_refl _
    | some t =>
      cases ht : t.look with
      | always => simp only [ht]; exact le_refl _
      | checks cs => simp only [ht]; exact runChecks_mono ih cs s

theorem lookahead_mono {k k' : Nat} (hk : k ≤ k') (i : Str) (s : σ) :
    (lookahead o P k i s).le (lookahead o P k' i s) := by
  induction hk with
  | refl => exact le_refl _
  | step _ ih => exact le_trans ih (lookahead_mono_succ _ i s)

theorem readVal_mono (hF : ∀ i s, (cF i s).le (cF' i s)) (v : ValRead) (s : σ) :
    (readVal x o cF v s).le (readVal x o cF' v s) := by
  cases v with
  | call i => exact hF i s
  | _ => exact le_refl _

theorem readOn_mono (hF : ∀ i s, (cF i s).le (cF' i s)) (v : ValRead) (e : Elem) :
    (readOn x o cF v e).le (readOn x o cF' v e) :=
  le_bind (readVal_mono hF v _) (fun _ => le_refl _)

theorem loopNext_mono (hF : ∀ i s, (cF i s).le (cF' i s)) (q : QName) (v : ValRead) {k k' : Nat}
    (hk : k ≤ k') (s : σ) : (loopNext x o cF q v k s).le (loopNext x o cF' q v k' s) := by
  induction k generalizing k' s with
  | zero => exact Or.inl rfl
  | succ k ih =>
    obtain ⟨k', rfl⟩ : ∃ j, k' = j + 1 := ⟨k' - 1, by omega⟩
    simp only [loopNext]
    rcases o.next s q with ⟨_ | e, s'⟩
    · exact le_refl _
    · exact le_bind (readOn_mono hF v e) (fun a =>
        le_bind (ih (by omega) _) (fun _ => le_refl _))

theorem loopLook_mono (hF : ∀ i s, (cF i s).le (cF' i s)) (hL : ∀ i s, (cL i s).le (cL' i s))
    (i : Str) (v : ValRead) {k k' : Nat} (hk : k ≤ k') (s : σ) :
    (loopLook x o cF cL i v k s).le (loopLook x o cF' cL' i v k' s) := by
  induction k generalizing k' s with
  | zero => exact Or.inl rfl
  | succ k ih =>
    obtain ⟨k', rfl⟩ : ∃ j, k' = j + 1 := ⟨k' - 1, by omega⟩
    simp only [loopLook]
    refine le_bind (hL i s) (fun a => ?_)
    cases a.1
    · exact le_refl _
    · exact le_bind (readVal_mono hF v _) (fun b => le_bind (ih (by omega) _) (fun _ => le_refl _))

theorem readLeaf_mono (hF : ∀ i s, (cF i s).le (cF' i s)) (hL : ∀ i s, (cL i s).le (cL' i s))
    {k k' : Nat} (hk : k ≤ k') (l : LeafRead) (s : σ) :
    (readLeaf x o cF cL k l s).le (readLeaf x o cF' cL' k' l s) := by
  cases l with
  | plain v => exact readVal_mono hF v s
  | whileLookahead i v opt => exact le_bind (loopLook_mono hF hL i v hk s) (fun _ => le_refl _)
  | ifLookahead i v =>
    refine le_bind (hL i s) (fun a => ?_)
    cases a.1
    · exact le_refl _
    · exact le_bind (readVal_mono hF v _) (fun _ => le_refl _)
  | whileNext q v opt => exact le_bind (loopNext_mono hF q v hk s) (fun _ => le_refl _)
  | ifNext q v =>
    simp only [readLeaf]
    rcases o.next s q with ⟨_ | e, s'⟩
    · exact le_refl _
    · exact le_bind (readOn_mono hF v e) (fun _ => le_refl _)
  | tryChild q v =>
    simp only [readLeaf]
    rcases o.tryChild s q with ⟨e | e, s'⟩
    · exact le_refl _
    · exact le_bind (readOn_mono hF v e) (fun _ => le_refl _)
  | tryNext q v =>
    simp only [readLeaf]
    rcases o.tryNext s q with ⟨e | e, s'⟩
    · exact le_refl _
    · exact le_bind (readOn_mono hF v e) (fun _ => le_refl _)

theorem readLeaves_mono (hF : ∀ i s, (cF i s).le (cF' i s)) (hL : ∀ i s, (cL i s).le (cL' i s))
    {k k' : Nat} (hk : k ≤ k') (ls : List (Str × LeafRead)) (s : σ) :
    (readLeaves x o cF cL k ls s).le (readLeaves x o cF' cL' k' ls s) := by
  induction ls generalizing s with
  | nil => exact le_refl _
  | cons l ls ih =>
    exact le_bind (readLeaf_mono hF hL hk l.2 s) (fun _ => le_bind (ih _) (fun _ => le_refl _))

theorem readContent_mono (hF : ∀ i s, (cF i s).le (cF' i s)) (hL : ∀ i s, (cL i s).le (cL' i s))
    {k k' : Nat} (hk : k ≤ k') (c : ContentRead) (s : σ) :
    (readContent x o cF cL k c s).le (readContent x o cF' cL' k' c s) := by
  cases c with
  | nothing => exact le_refl _
  | single f v => exact le_bind (readVal_mono hF v s) (fun _ => le_refl _)
  | leaves ls => exact readLeaves_mono hF hL hk ls s

theorem readChoice_mono (hF : ∀ i s, (cF i s).le (cF' i s)) (hL : ∀ i s, (cL i s).le (cL' i s))
    {k k' : Nat} (hk : k ≤ k') (self : Str) (vs : List (Str × VarRead)) (s : σ) :
    (readChoice x o cF cL k self vs s).le (readChoice x o cF' cL' k' self vs s) := by
  induction vs generalizing s with
  | nil => exact le_refl _
  | cons v vs ih =>
    obtain ⟨n, v⟩ := v
    cases v with
    | virt i v =>
      refine le_bind (hL i s) (fun a => ?_)
      cases a.1
      · exact ih _
      · exact le_bind (readVal_mono hF v _) (fun _ => le_refl _)
    | vec q v =>
      simp only [readChoice]
      cases (o.peek s q).1
      · exact ih _
      · exact le_bind (loopNext_mono hF q v hk _) (fun _ => le_refl _)
    | single q v =>
      simp only [readChoice]
      rcases o.next s q with ⟨_ | e, s'⟩
      · exact ih _
      · exact le_bind (readOn_mono hF v e) (fun _ => le_refl _)

theorem runFrom_mono (hF : ∀ i s, (cF i s).le (cF' i s)) (hL : ∀ i s, (cL i s).le (cL' i s))
    {k k' : Nat} (hk : k ≤ k') (t : TypeDef) (s : σ) :
    (runFrom x o P cF cL k t s).le (runFrom x o P cF' cL' k' t s) := by
  unfold runFrom
  cases t.fromXml with
  | leaf v => exact le_bind (readVal_mono hF v s) (fun _ => le_refl _)
  | enumText => exact le_refl _
  | element c as => exact le_bind (readContent_mono hF hL hk c s) (fun _ => le_refl _)
  | choice vs => exact readChoice_mono hF hL hk _ vs s

theorem fromNode_mono_succ (k : Nat) (i : Str) (s : σ) :
    (fromNode x o P k i s).le (fromNode x o P (k + 1) i s) := by
  induction k generalizing i s with
  | zero => exact Or.inl rfl
  | succ k ih =>
    rw [fromNode, fromNode]
    cases findType P i with
    | none => exact le_refl _
    | some t => exact runFrom_mono ih (lookahead_mono_succ k) (by omega) t s

theorem fromNode_mono {k k' : Nat} (hk : k ≤ k') (i : Str) (s : σ) :
    (fromNode x o P k i s).le (fromNode x o P k' i s) := by
  induction hk with
  | refl => exact le_refl _
  | step _ ih => exact le_trans ih (fromNode_mono_succ _ i s)

theorem fromXml_mono {k k' : Nat} (hk : k ≤ k') (i : Str) (d : Doc) :
    (fromXml x o P k i d).le (fromXml x o P k' i d) := by
  unfold fromXml
  cases findType P i with
  | none => exact le_refl _
  | some t =>
    exact le_bind (le_refl _) (fun e => le_bind (fromNode_mono hk i _) (fun _ => le_refl _))

end

section
variable {x : Ext} {P : List TypeDef} {cW cW' : Str → Val → Ctx → WRes}

theorem writeVal_mono (hW : ∀ i v c, (cW i v c).le (cW' i v c)) (w : ValWrite) (v : Val) (c : Ctx) :
    (writeVal x cW w v c).le (writeVal x cW' w v c) := by
  cases w with
  | call i => exact hW i v c
  | _ => exact le_refl _

theorem withTags_mono {f g : Ctx → WRes} (h : ∀ c, (f c).le (g c)) (tags : Bool) (c : Ctx) :
    (withTags tags f c).le (withTags tags g c) := by
  unfold withTags
  cases tags
  · exact h c
  · exact le_bind (h _) (fun _ => le_refl _)

theorem forEach_mono {f g : Val → Ctx → WRes} (h : ∀ v c, (f v c).le (g v c)) (vs : List Val) (c : Ctx) :
    (forEach f vs c).le (forEach g vs c) := by
  induction vs generalizing c with
  | nil => exact le_refl _
  | cons v vs ih => exact le_bind (h v c) (fun _ => le_bind (ih _) (fun _ => le_refl _))

theorem writeItem_mono (hW : ∀ i v c, (cW i v c).le (cW' i v c)) (l : LeafWrite) (v : Val) (c : Ctx) :
    (writeItem x cW l v c).le (writeItem x cW' l v c) := by
  unfold writeItem
  cases l.newCtx <;>
  exact le_bind (withTags_mono (writeVal_mono hW _ v) _ _) (fun _ => le_refl _)

theorem writeMany_mono (hW : ∀ i v c, (cW i v c).le (cW' i v c)) (l : LeafWrite) (v : Val) (c : Ctx) :
    (writeMany x cW l v c).le (writeMany x cW' l v c) := by
  unfold writeMany
  cases l.vec
  · exact writeItem_mono hW l v c
  · cases v <;> first | exact le_refl _ | exact forEach_mono (writeItem_mono hW l) _ c

theorem writeLeaf_mono (hW : ∀ i v c, (cW i v c).le (cW' i v c)) (l : LeafWrite)
    (fs : List (Str × Val)) (c : Ctx) : (writeLeaf x cW l fs c).le (writeLeaf x cW' l fs c) := by
  unfold writeLeaf
  cases alookup fs l.field with
  | none => exact le_refl _
  | some v =>
    cases l.opt
    · exact writeMany_mono hW l v c
    · cases v <;> first | exact le_refl _ | exact writeMany_mono hW l _ c

theorem writeLeaves_mono (hW : ∀ i v c, (cW i v c).le (cW' i v c)) (fs : List (Str × Val))
    (ls : List LeafWrite) (c : Ctx) : (writeLeaves x cW fs ls c).le (writeLeaves x cW' fs ls c) := by
  induction ls generalizing c with
  | nil => exact le_refl _
  | cons l ls ih => exact le_bind (writeLeaf_mono hW l fs c) (fun _ => le_bind (ih _) (fun _ => le_refl _))

theorem writeContent_mono (hW : ∀ i v c, (cW i v c).le (cW' i v c)) (fs : List (Str × Val))
    (w : ContentWrite) (c : Ctx) : (writeContent x cW fs w c).le (writeContent x cW' fs w c) := by
  cases w with
  | nothing => exact le_refl _
  | single f v =>
    simp only [writeContent]
    cases alookup fs f with
    | none => exact le_refl _
    | some val => exact writeVal_mono hW v val c
  | leaves ls => exact writeLeaves_mono hW fs ls c

theorem writeVarItem_mono (hW : ∀ i v c, (cW i v c).le (cW' i v c)) (w : VarWrite) (v : Val) (c : Ctx) :
    (writeVarItem x cW w v c).le (writeVarItem x cW' w v c) :=
  le_bind (withTags_mono (writeVal_mono hW _ v) _ _) (fun _ => le_refl _)

theorem writeChoice_mono (hW : ∀ i v c, (cW i v c).le (cW' i v c)) (vs : List VarWrite) (v : Val)
    (c : Ctx) : (writeChoice x cW vs v c).le (writeChoice x cW' vs v c) := by
  unfold writeChoice
  split
  · split
    · exact le_refl _
    · split
      · split
        · exact forEach_mono (writeVarItem_mono hW _) _ c
        · exact le_refl _
      · exact writeVarItem_mono hW _ _ c
  · exact le_refl _

theorem runTo_mono (hW : ∀ i v c, (cW i v c).le (cW' i v c)) (t : TypeDef) (v : Val) (c : Ctx) :
    (runTo x P cW t v c).le (runTo x P cW' t v c) := by
  unfold runTo
  cases t.toXml with
  | leaf w tags => cases v <;> first | exact le_refl _ | exact withTags_mono (writeVal_mono hW w _) tags _
  | enumText => exact le_refl _
  | element as tags w =>
    cases v <;> first
      | exact le_refl _
      | exact le_bind (le_refl _) (fun _ => withTags_mono (writeContent_mono hW _ w) tags _)
  | choice vs tags => exact withTags_mono (writeChoice_mono hW vs v) tags _

theorem toXmlWriter_mono_succ (k : Nat) (i : Str) (v : Val) (c : Ctx) :
    (toXmlWriter x P k i v c).le (toXmlWriter x P (k + 1) i v c) := by
  induction k generalizing i v c with
  | zero => exact Or.inl rfl
  | succ k ih =>
    rw [toXmlWriter, toXmlWriter]
    cases findType P i with
    | none => exact le_refl _
    | some t => exact runTo_mono ih t v c

theorem toXmlWriter_mono {k k' : Nat} (hk : k ≤ k') (i : Str) (v : Val) (c : Ctx) :
    (toXmlWriter x P k i v c).le (toXmlWriter x P k' i v c) := by
  induction hk with
  | refl => exact le_refl _
  | step _ ih => exact le_trans ih (toXmlWriter_mono_succ _ i v c)

theorem toXml_mono {k k' : Nat} (hk : k ≤ k') (i : Str) (v : Val) :
    (toXml x P k i v).le (toXml x P k' i v) := by
  unfold toXml
  cases findType P i with
  | none => exact le_refl _
  | some t => exact le_bind (toXmlWriter_mono hk i v _) (fun _ => le_refl _)

end

end Xsd
