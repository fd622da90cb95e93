import Verif.Model.Exec
import Verif.Lemmas.Decode
/-! Running generated decoding code on the cursor is running it on the specification queue. -/
namespace Xsd

/-- Node operations on the specification queue. -/
def queueOps : Ops Queue where
  mkNode := Queue.new
  peek s q := (s.pending.head?.any (fun e => e.1.name = q), s)
  next s q := ((Queue.popIf q s.pending).1, ⟨s.node, (Queue.popIf q s.pending).2⟩)
  tryNext s q :=
    (Queue.orMissing q (Queue.popIf q s.pending).1, ⟨s.node, (Queue.popIf q s.pending).2⟩)
  tryChild s q :=
    (Queue.orMissing q (Queue.takeFirst q s.pending).1, ⟨s.node, (Queue.takeFirst q s.pending).2⟩)
  attr s n := Queue.attrVal s.node n
  tryAttr s n :=
    match Queue.attrVal s.node n with
    | some v => .ok v
    | none => .error (.missingAttribute n)
  text s := Queue.textVal s.node

/-- Map the node state of a result. -/
def Res.mapSt {σ τ α ε : Type} (h : σ → τ) : Res ε (α × σ) → Res ε (α × τ)
  | .ok r => .ok (r.1, h r.2)
  | .err e => .err e
  | .panic => .panic
  | .diverge => .diverge

/-- `h` commutes with every operation. -/
structure Hom {σ τ : Type} (o : Ops σ) (p : Ops τ) (h : σ → τ) : Prop where
  mkNode : ∀ e, h (o.mkNode e) = p.mkNode e
  peek : ∀ s q, p.peek (h s) q = ((o.peek s q).1, h (o.peek s q).2)
  next : ∀ s q, p.next (h s) q = ((o.next s q).1, h (o.next s q).2)
  tryNext : ∀ s q, p.tryNext (h s) q = ((o.tryNext s q).1, h (o.tryNext s q).2)
  tryChild : ∀ s q, p.tryChild (h s) q = ((o.tryChild s q).1, h (o.tryChild s q).2)
  attr : ∀ s n, p.attr (h s) n = o.attr s n
  tryAttr : ∀ s n, p.tryAttr (h s) n = o.tryAttr s n
  text : ∀ s, p.text (h s) = o.text s

theorem cursor_hom : Hom cursorOps queueOps Cursor.abs where
  mkNode e := Cursor.abs_new e
  peek s q := by
    have := Cursor.peekChild_snd s q
    simp only [cursorOps, queueOps, this, Cursor.peekChild_fst]; rfl
  next s q := by
    have := Cursor.nextChild_eq s q
    simp only [cursorOps, queueOps, this]; rfl
  tryNext s q := by
    have := Cursor.step_abs s (.tryNext q)
    simp only [Cursor.step, Queue.step] at this
    simp only [cursorOps, queueOps, Prod.mk.injEq]
    have h1 := this.1
    injection h1 with h1
    exact ⟨h1.symm, this.2.symm⟩
  tryChild s q := by
    have := Cursor.step_abs s (.tryChild q)
    simp only [Cursor.step, Queue.step] at this
    simp only [cursorOps, queueOps, Prod.mk.injEq]
    have h1 := this.1
    injection h1 with h1
    exact ⟨h1.symm, this.2.symm⟩
  attr s n := (Cursor.attr_eq s n).symm
  tryAttr s n := by
    simp only [cursorOps, queueOps, Cursor.tryAttribute, Cursor.attr_eq]
    rfl
  text s := (Cursor.text_eq s).symm

section
variable {σ τ : Type} {x : Ext} {o : Ops σ} {p : Ops τ} {h : σ → τ} {P : List TypeDef}

@[simp] theorem Res.mapSt_bind {α β ε : Type} (r : Res ε (α × σ)) (f : α × τ → Res ε β) :
    (r.mapSt h >>= f) = (r >>= fun a => f (a.1, h a.2)) := by
  cases r <;> rfl

theorem Res.mapSt_of_bind {α β ε : Type} (r : Res ε α) (f : α → Res ε (β × σ)) :
    Res.mapSt h (r >>= f) = (r >>= fun a => Res.mapSt h (f a)) := by
  cases r <;> rfl

theorem Res.bind_congr {α β ε : Type} {r : Res ε α} {f g : α → Res ε β} (hfg : ∀ a, f a = g a) :
    (r >>= f) = (r >>= g) := by
  cases r <;> simp [hfg]

variable {cF : Str → σ → DRes σ Val} {cF' : Str → τ → DRes τ Val}
variable {cL : Str → σ → DRes σ Bool} {cL' : Str → τ → DRes τ Bool}

theorem runChecks_hom (H : Hom o p h) (hL : ∀ i s, cL' i (h s) = (cL i s).mapSt h)
    (cs : List Check) (s : σ) : runChecks p cL' cs (h s) = (runChecks o cL cs s).mapSt h := by
  induction cs generalizing s with
  | nil => rfl
  | cons c cs ih =>
    cases c with
    | call i =>
      simp only [runChecks, hL, Res.mapSt_bind, Res.mapSt_of_bind]
      apply Res.bind_congr
      intro a
      cases a.1 <;> simp [ih, Res.mapSt]
    | peek q =>
      simp only [runChecks, H.peek]
      cases (o.peek s q).1 <;> simp [ih, Res.mapSt]

theorem lookahead_hom (H : Hom o p h) (k : Nat) (i : Str) (s : σ) :
    lookahead p P k i (h s) = (lookahead o P k i s).mapSt h := by
  induction k generalizing i s with
  | zero => rfl
  | succ k ih =>
    simp only [lookahead]
    cases findType P i with
    | none => rfl
    | some t =>
      cases ht : t.look with
      | always => simp [Res.mapSt, ht]
      | checks cs => simp only [ht]; exact runChecks_hom H ih cs s

theorem readVal_hom (H : Hom o p h) (hF : ∀ i s, cF' i (h s) = (cF i s).mapSt h)
    (v : ValRead) (s : σ) : readVal x p cF' v (h s) = (readVal x o cF v s).mapSt h := by
  cases v with
  | text t =>
    simp only [readVal, H.text, Res.mapSt_of_bind]
    apply Res.bind_congr; intro a
    apply Res.bind_congr; intro b
    rfl
  | fixed f =>
    simp only [readVal, H.text, Res.mapSt_of_bind]
    apply Res.bind_congr; intro a
    split <;> rfl
  | call i => exact hF i s

theorem readOn_hom (H : Hom o p h) (hF : ∀ i s, cF' i (h s) = (cF i s).mapSt h)
    (v : ValRead) (e : Elem) : readOn x p cF' v e = readOn x o cF v e := by
  simp only [readOn, ← H.mkNode, readVal_hom H hF, Res.mapSt_bind]

theorem loopNext_hom (H : Hom o p h) (hF : ∀ i s, cF' i (h s) = (cF i s).mapSt h)
    (q : QName) (v : ValRead) (k : Nat) (s : σ) :
    loopNext x p cF' q v k (h s) = (loopNext x o cF q v k s).mapSt h := by
  induction k generalizing s with
  | zero => rfl
  | succ k ih =>
    simp only [loopNext, H.next]
    rcases o.next s q with ⟨_ | e, s'⟩
    · rfl
    · simp only [readOn_hom H hF, Res.mapSt_of_bind]
      apply Res.bind_congr; intro a
      rw [ih, Res.mapSt_bind, ]
      apply Res.bind_congr; intro b
      rfl

theorem loopLook_hom (H : Hom o p h) (hF : ∀ i s, cF' i (h s) = (cF i s).mapSt h)
    (hL : ∀ i s, cL' i (h s) = (cL i s).mapSt h) (i : Str) (v : ValRead) (k : Nat) (s : σ) :
    loopLook x p cF' cL' i v k (h s) = (loopLook x o cF cL i v k s).mapSt h := by
  induction k generalizing s with
  | zero => rfl
  | succ k ih =>
    simp only [loopLook, hL, Res.mapSt_bind, Res.mapSt_of_bind]
    apply Res.bind_congr; intro a
    cases a.1
    · rfl
    · simp only [if_true, readVal_hom H hF, Res.mapSt_bind, Res.mapSt_of_bind, ih]
      apply Res.bind_congr; intro b
      apply Res.bind_congr; intro c
      rfl

theorem readLeaf_hom (H : Hom o p h) (hF : ∀ i s, cF' i (h s) = (cF i s).mapSt h)
    (hL : ∀ i s, cL' i (h s) = (cL i s).mapSt h) (k : Nat) (l : LeafRead) (s : σ) :
    readLeaf x p cF' cL' k l (h s) = (readLeaf x o cF cL k l s).mapSt h := by
  cases l with
  | plain v => exact readVal_hom H hF v s
  | whileLookahead i v opt =>
    simp only [readLeaf, loopLook_hom H hF hL, Res.mapSt_bind, Res.mapSt_of_bind]
    rfl
  | ifLookahead i v =>
    simp only [readLeaf, hL, Res.mapSt_bind, Res.mapSt_of_bind]
    apply Res.bind_congr; intro a
    cases a.1
    · rfl
    · simp only [if_true, readVal_hom H hF, Res.mapSt_bind, Res.mapSt_of_bind]
      rfl
  | whileNext q v opt =>
    simp only [readLeaf, loopNext_hom H hF, Res.mapSt_bind, Res.mapSt_of_bind]
    rfl
  | ifNext q v =>
    simp only [readLeaf, H.next]
    rcases o.next s q with ⟨_ | e, s'⟩
    · rfl
    · simp only [readOn_hom H hF, Res.mapSt_of_bind]; rfl
  | tryChild q v =>
    simp only [readLeaf, H.tryChild]
    rcases o.tryChild s q with ⟨e | e, s'⟩
    · rfl
    · simp only [readOn_hom H hF, Res.mapSt_of_bind]; rfl
  | tryNext q v =>
    simp only [readLeaf, H.tryNext]
    rcases o.tryNext s q with ⟨e | e, s'⟩
    · rfl
    · simp only [readOn_hom H hF, Res.mapSt_of_bind]; rfl

theorem readLeaves_hom (H : Hom o p h) (hF : ∀ i s, cF' i (h s) = (cF i s).mapSt h)
    (hL : ∀ i s, cL' i (h s) = (cL i s).mapSt h) (k : Nat) (ls : List (Str × LeafRead)) (s : σ) :
    readLeaves x p cF' cL' k ls (h s) = (readLeaves x o cF cL k ls s).mapSt h := by
  induction ls generalizing s with
  | nil => rfl
  | cons l ls ih =>
    simp only [readLeaves, readLeaf_hom H hF hL, Res.mapSt_bind, Res.mapSt_of_bind, ih]
    rfl

theorem readAttrs_hom (H : Hom o p h) (as : List AttrRead) (s : σ) :
    readAttrs x p P as (h s) = readAttrs x o P as s := by
  induction as with
  | nil => rfl
  | cons a as ih => simp only [readAttrs, readAttr, H.attr, H.tryAttr, ih]

theorem readContent_hom (H : Hom o p h) (hF : ∀ i s, cF' i (h s) = (cF i s).mapSt h)
    (hL : ∀ i s, cL' i (h s) = (cL i s).mapSt h) (k : Nat) (c : ContentRead) (s : σ) :
    readContent x p cF' cL' k c (h s) = (readContent x o cF cL k c s).mapSt h := by
  cases c with
  | nothing => rfl
  | single f v =>
    simp only [readContent, readVal_hom H hF, Res.mapSt_bind, Res.mapSt_of_bind]; rfl
  | leaves ls => exact readLeaves_hom H hF hL k ls s

theorem readChoice_hom (H : Hom o p h) (hF : ∀ i s, cF' i (h s) = (cF i s).mapSt h)
    (hL : ∀ i s, cL' i (h s) = (cL i s).mapSt h) (k : Nat) (self : Str) (vs : List (Str × VarRead))
    (s : σ) : readChoice x p cF' cL' k self vs (h s) = (readChoice x o cF cL k self vs s).mapSt h := by
  induction vs generalizing s with
  | nil => rfl
  | cons v vs ih =>
    obtain ⟨n, v⟩ := v
    cases v with
    | virt i v =>
      simp only [readChoice, hL, Res.mapSt_bind, Res.mapSt_of_bind]
      apply Res.bind_congr; intro a
      cases a.1
      · exact ih _
      · simp only [if_true, readVal_hom H hF, Res.mapSt_bind, Res.mapSt_of_bind]; rfl
    | vec q v =>
      simp only [readChoice, H.peek]
      cases (o.peek s q).1
      · exact ih _
      · simp only [if_true, loopNext_hom H hF, Res.mapSt_bind, Res.mapSt_of_bind]; rfl
    | single q v =>
      simp only [readChoice, H.next]
      rcases o.next s q with ⟨_ | e, s'⟩
      · exact ih _
      · simp only [readOn_hom H hF, Res.mapSt_of_bind]; rfl

theorem runFrom_hom (H : Hom o p h) (hF : ∀ i s, cF' i (h s) = (cF i s).mapSt h)
    (hL : ∀ i s, cL' i (h s) = (cL i s).mapSt h) (k : Nat) (t : TypeDef) (s : σ) :
    runFrom x p P cF' cL' k t (h s) = (runFrom x o P cF cL k t s).mapSt h := by
  unfold runFrom
  cases t.fromXml with
  | leaf v => simp only [readVal_hom H hF, Res.mapSt_bind, Res.mapSt_of_bind]; rfl
  | enumText =>
    simp only [H.text, Res.mapSt_of_bind]
    apply Res.bind_congr; intro a
    cases t.decl with
    | enum vs => simp only [Res.mapSt_of_bind]; rfl
    | _ => rfl
  | element c as =>
    simp only [readContent_hom H hF hL, Res.mapSt_bind, Res.mapSt_of_bind, readAttrs_hom H]
    rfl
  | choice vs => exact readChoice_hom H hF hL k _ vs s

theorem fromNode_hom (H : Hom o p h) (k : Nat) (i : Str) (s : σ) :
    fromNode x p P k i (h s) = (fromNode x o P k i s).mapSt h := by
  induction k generalizing i s with
  | zero => rfl
  | succ k ih =>
    simp only [fromNode]
    cases findType P i with
    | none => rfl
    | some t => exact runFrom_hom H ih (lookahead_hom H k) k t s

theorem fromXml_hom (H : Hom o p h) (k : Nat) (i : Str) (d : Doc) :
    fromXml x p P k i d = fromXml x o P k i d := by
  simp only [fromXml]
  cases findType P i with
  | none => rfl
  | some t =>
    apply Res.bind_congr; intro e
    rw [← H.mkNode, fromNode_hom H, Res.mapSt_bind]

end

end Xsd
