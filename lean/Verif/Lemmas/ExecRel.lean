import Verif.Spec.SameContent
import Verif.Lemmas.Sound
/-!
# Readers do not see what `SameDoc` leaves open
-/
namespace Xsd

variable {x : Ext} {S : SchemaContext} {P : List TypeDef} {b : Bool}

/-- Outcomes: related if the first is a success; if `strict`, the same failure otherwise. -/
def ResRel {α β ε : Type} (strict : Bool) (R : α → β → Prop) (r : Res ε α) (r' : Res ε β) : Prop :=
  match r with
  | .ok a => ∃ a', r' = .ok a' ∧ R a a'
  | .err e => strict = true → r' = .err e
  | .panic => strict = true → r' = .panic
  | .diverge => strict = true → r' = .diverge

theorem ResRel.bind {α β γ δ ε : Type} {R : α → β → Prop} {R' : γ → δ → Prop} {r : Res ε α} {r' : Res ε β}
    {f : α → Res ε γ} {f' : β → Res ε δ} (h : ResRel b R r r')
    (hf : ∀ a a', R a a' → ResRel b R' (f a) (f' a')) : ResRel b R' (r >>= f) (r' >>= f') := by
  cases r with
  | ok a => obtain ⟨a', rfl, ha⟩ := h; exact hf a a' ha
  | err e => intro hb; rw [h hb]; rfl
  | panic => intro hb; rw [h hb]; rfl
  | diverge => intro hb; rw [h hb]; rfl

theorem ResRel.okk {α β ε : Type} {R : α → β → Prop} {a : α} {a' : β} (h : R a a') :
    ResRel (ε := ε) b R (.ok a) (.ok a') := ⟨a', rfl, h⟩

theorem ResRel.self {α ε : Type} (r : Res ε α) : ResRel b (fun a a' => a' = a) r r := by
  cases r with
  | ok a => exact ⟨a, rfl, rfl⟩
  | err e => intro _; rfl
  | panic => intro _; rfl
  | diverge => intro _; rfl

/-- Related reader states. -/
def SRel (S : SchemaContext) (b : Bool) (s s' : Queue) : Prop :=
  SameTag S s.node s'.node ∧ SameKids S b s.pending s'.pending

/-- Both have a text that may be read, or the content does not read it. -/
def TextOK (S : SchemaContext) (b : Bool) (c : LeafContent) (s s' : Queue) : Prop :=
  TextRel b s.node s'.node ∨ ¬ ContentReads S c

/-- Result and state related: same value, related state on the same element. -/
def VRel {α : Type} (S : SchemaContext) (b : Bool) (s s' : Queue) (a a' : α × Queue) : Prop :=
  a'.1 = a.1 ∧ SRel S b a.2 a'.2 ∧ a.2.node = s.node ∧ a'.2.node = s'.node

theorem VRel.refl {α : Type} {s s' : Queue} (h : SRel S b s s') (a : α) : VRel S b s s' (a, s) (a, s') :=
  ⟨rfl, h, rfl, rfl⟩

theorem text_rel {s s' : Queue} (h : TextRel b s.node s'.node) :
    ResRel b (fun a a' => a' = a) (ofExcept (queueOps.text s)) (ofExcept (queueOps.text s')) := by
  simp only [queueOps]
  cases ht : Queue.textVal s.node with
  | ok t => rw [h.1 t ht]; exact ⟨t, rfl, rfl⟩
  | error er => intro hb; rw [h.2 hb er ht]; rfl

section
variable {cF : Str → Queue → DRes Queue Val} {cL : Str → Queue → DRes Queue Bool}

/-- Calls respect the relation. -/
def CallRel (x : Ext) (S : SchemaContext) (b : Bool) (cF : Str → Queue → DRes Queue Val) : Prop :=
  ∀ n i s s', typeIdent x n = .ok i → (S.get n).isSome = true → SRel S b s s' →
    (TextRel b s.node s'.node ∨ ¬ ReadsText S n) → ResRel b (VRel S b s s') (cF i s) (cF i s')

def LookRel (S : SchemaContext) (b : Bool) (cL : Str → Queue → DRes Queue Bool) : Prop :=
  ∀ i s s', SRel S b s s' → ResRel b (VRel S b s s') (cL i s) (cL i s')

theorem readVal_rel (hF : CallRel x S b cF) {c : LeafContent} {vr : ValRead} (hc : contentRead x S c = .ok vr)
    (hcl : ∀ n, Means S c (.named n) → (S.get n).isSome = true)
    {s s' : Queue} (hs : SRel S b s s') (ht : TextOK S b c s s') :
    ResRel b (VRel S b s s') (readVal x queueOps cF vr s) (readVal x queueOps cF vr s') := by
  rcases contentRead_ok hc with ⟨t, hm, rfl⟩ | ⟨f, hm, rfl⟩ | ⟨n, i, hm, hi, rfl⟩
  · have ht : TextRel b s.node s'.node := ht.resolve_right (fun h => h (.literal hm))
    simp only [readVal]
    refine (text_rel ht).bind ?_
    rintro _ a rfl
    refine (ResRel.self (parseLit x t a)).bind ?_
    rintro _ v rfl
    exact .okk (.refl hs v)
  · have ht : TextRel b s.node s'.node := ht.resolve_right (fun h => h (.fixed hm))
    simp only [readVal]
    refine (text_rel ht).bind ?_
    rintro _ a rfl
    split
    · exact .okk (.refl hs _)
    · intro _; rfl
  · simp only [readVal]
    refine hF n i s s' hi (hcl n hm) hs ?_
    rcases ht with ht | ht
    · exact .inl ht
    · exact .inr fun hr => ht (.named hm hr)

theorem SameElem.tag {e e' : Elem} (h : SameElem S b e e') : SameTag S e e' := by cases h; assumption

/-- The child element is declared by `l`. -/
theorem readOn_rel (hF : CallRel x S b cF) {c : LeafContent} {vr : ValRead} (hc : contentRead x S c = .ok vr)
    (hcl : ∀ n, Means S c (.named n) → (S.get n).isSome = true) {ch ch' : Elem}
    (h : SameElem S b ch ch') (hn : StructuredName S ch.1.name → ¬ ContentReads S c) :
    ResRel b (fun a a' => a' = a) (readOn x queueOps cF vr ch) (readOn x queueOps cF vr ch') := by
  cases h with
  | mk ht hx hk =>
    simp only [readOn]
    have hs : SRel S b (queueOps.mkNode ch) (queueOps.mkNode ch') := ⟨ht, hk⟩
    refine (readVal_rel hF hc hcl hs ?_).bind ?_
    · rcases hx with hx | hx
      · exact .inl hx
      · exact .inr (hn hx)
    · rintro a a' ⟨h1, _⟩; exact .okk h1

theorem ne_of_declares {es : List Elem} {q : QName} (h : ∀ e ∈ es, ¬ Declares S e.1.name) (hd : Declares S q) :
    ∀ e ∈ es, e.1.name ≠ q := fun e he hq => h e he (hq ▸ hd)

theorem peek_rel {s s' : Queue} (hs : SRel S b s s') {q : QName} (hd : Declares S q) :
    (queueOps.peek s' q).1 = (queueOps.peek s q).1 := by
  obtain ⟨_, hk⟩ := hs
  simp only [queueOps]
  generalize s.pending = p at *
  generalize s'.pending = p' at *
  cases hk with
  | junk h =>
    cases p' with
    | nil => rfl
    | cons e es => have := ne_of_declares h hd e (by simp); simp [this]
  | cons h _ => simp [h.tag.1]

theorem next_rel {s s' : Queue} (hs : SRel S b s s') {q : QName} (hd : Declares S q) :
    (∃ e e' t t', queueOps.next s q = (some e, t) ∧ queueOps.next s' q = (some e', t') ∧ SameElem S b e e' ∧
      e.1.name = q ∧ SRel S b t t' ∧ t.node = s.node ∧ t'.node = s'.node) ∨
    (queueOps.next s q = (none, s) ∧ queueOps.next s' q = (none, s')) := by
  obtain ⟨n, p⟩ := s
  obtain ⟨n', p'⟩ := s'
  obtain ⟨ht, hk⟩ := hs
  simp only at hk
  cases hk with
  | junk h =>
    refine .inr ⟨rfl, ?_⟩
    cases p' with
    | nil => rfl
    | cons e es => have := ne_of_declares h hd e (by simp); simp [queueOps, Queue.popIf, this]
  | @cons e e' es es' h hr =>
    have hn := h.tag.1
    by_cases hq : e.1.name = q
    · refine .inl ⟨e, e', ⟨n, es⟩, ⟨n', es'⟩, ?_, ?_, h, hq, ⟨ht, hr⟩, rfl, rfl⟩
      · simp [queueOps, Queue.popIf, hq]
      · simp [queueOps, Queue.popIf, hn, hq]
    · refine .inr ⟨?_, ?_⟩
      · simp [queueOps, Queue.popIf, hq]
      · simp [queueOps, Queue.popIf, hn, hq]

theorem loopNext_rel (hF : CallRel x S b cF) {c : LeafContent} {q : QName} {vr : ValRead}
    (hc : contentRead x S c = .ok vr) (hcl : ∀ n, Means S c (.named n) → (S.get n).isSome = true)
    (hn : StructuredName S q → ¬ ContentReads S c) (hd : Declares S q) (k : Nat) {s s' : Queue}
    (hs : SRel S b s s') : ResRel b (VRel S b s s') (loopNext x queueOps cF q vr k s) (loopNext x queueOps cF q vr k s') := by
  induction k generalizing s s' with
  | zero => intro _; rfl
  | succ k ih =>
    simp only [loopNext]
    rcases next_rel hs hd with ⟨e, e', t, t', h1, h2, he, hq, ht, hn1, hn2⟩ | ⟨h1, h2⟩
    · rw [h1, h2]
      simp only
      refine (readOn_rel hF hc hcl he (hq ▸ hn)).bind ?_
      rintro _ v rfl
      refine (ih ht).bind ?_
      rintro ⟨vs, t2⟩ ⟨vs', t2'⟩ ⟨g1, g2, g3, g4⟩
      simp only at g1; subst g1
      exact .okk ⟨rfl, g2, g3.trans hn1, g4.trans hn2⟩
    · rw [h1, h2]; exact .okk (.refl hs _)

theorem loopLook_rel (hF : CallRel x S b cF) (hL : LookRel S b cL) {c : LeafContent} {i : Str} {vr : ValRead}
    (hc : contentRead x S c = .ok vr) (hcl : ∀ n, Means S c (.named n) → (S.get n).isSome = true)
    (k : Nat) {s s' : Queue} (hs : SRel S b s s') (ht : TextOK S b c s s') :
    ResRel b (VRel S b s s') (loopLook x queueOps cF cL i vr k s) (loopLook x queueOps cF cL i vr k s') := by
  induction k generalizing s s' with
  | zero => intro _; rfl
  | succ k ih =>
    simp only [loopLook]
    refine (hL i s s' hs).bind ?_
    rintro ⟨b1, t⟩ ⟨b1', t'⟩ ⟨g1, g2, g3, g4⟩
    simp only at g1 g2 g3 g4 ⊢; subst g1
    have ht1 : TextOK S b c t t' := by unfold TextOK; rw [g3, g4]; exact ht
    split
    · refine (readVal_rel hF hc hcl g2 ht1).bind ?_
      rintro ⟨v, u⟩ ⟨v', u'⟩ ⟨f1, f2, f3, f4⟩
      simp only at f1 f2 f3 f4 ⊢; subst f1
      refine (ih f2 (by unfold TextOK; rw [f3, f4]; exact ht1)).bind ?_
      rintro ⟨vs, w⟩ ⟨vs', w'⟩ ⟨e1, e2, e3, e4⟩
      simp only at e1 e2 e3 e4; subst e1
      exact .okk ⟨rfl, e2, by simp only; rw [e3, f3, g3], by simp only; rw [e4, f4, g4]⟩
    · exact .okk ⟨rfl, g2, g3, g4⟩

theorem takeFirst_rel {p p' : List Elem} (h : SameKids S b p p') {q : QName} (hd : Declares S q) :
    (∃ e e', (Queue.takeFirst q p).1 = some e ∧ (Queue.takeFirst q p').1 = some e' ∧ SameElem S b e e' ∧
      e.1.name = q ∧ SameKids S b (Queue.takeFirst q p).2 (Queue.takeFirst q p').2) ∨
    ((Queue.takeFirst q p).1 = none ∧ (Queue.takeFirst q p').1 = none) := by
  induction p generalizing p' with
  | nil =>
    cases h with
    | junk h =>
      refine .inr ⟨rfl, ?_⟩
      simp only [Queue.takeFirst, List.find?_eq_none]
      intro e he
      simpa using ne_of_declares h hd e he
  | cons e es ih =>
    cases h with
    | @cons _ e' _ es' h hr =>
      have hn := h.tag.1
      by_cases hq : e.1.name = q
      · refine .inl ⟨e, e', ?_, ?_, h, hq, ?_⟩ <;>
          simp only [Queue.takeFirst, List.find?_cons, List.eraseP_cons, hn, hq, decide_true, cond_true]
        exact hr
      · rcases ih hr with ⟨f, f', h1, h2, h3, h4, h5⟩ | ⟨h1, h2⟩
        · refine .inl ⟨f, f', ?_, ?_, h3, h4, ?_⟩ <;>
            simp only [Queue.takeFirst, List.find?_cons, List.eraseP_cons, hn, hq, decide_false, cond_false] at *
          · exact h1
          · exact h2
          · exact .cons h h5
        · refine .inr ⟨?_, ?_⟩ <;>
            simp only [Queue.takeFirst, List.find?_cons, hn, hq, decide_false] at *
          · exact h1
          · exact h2

/-- The leaf is declared somewhere in the schema. -/
def LeafIn (S : SchemaContext) (l : Leaf) : Prop := ∃ p ∈ S.elements, l ∈ p.2.leaves

theorem LeafIn.declares {l : Leaf} (h : LeafIn S l) (hv : l.isVirtual = false) {q : QName}
    (hq : S.expanded l.name = .ok q) : Declares S q := by
  obtain ⟨p, hp, hl⟩ := h
  exact ⟨p, hp, l, hl, hv, hq⟩

theorem LeafIn.struct {l : Leaf} (h : LeafIn S l) (hv : l.isVirtual = false) {q : QName}
    (hq : S.expanded l.name = .ok q) (hs : StructuredName S q) : ¬ ContentReads S l.definition.content := by
  obtain ⟨p, hp, hl⟩ := h
  exact hs p hp l hl hv hq

theorem readLeaf_rel (hF : CallRel x S b cF) (hL : LookRel S b cL) {l : Leaf} {p : Str × LeafRead}
    (hl : leafRead x S l = .ok p)
    (hcl : ∀ n, Means S l.definition.content (.named n) → (S.get n).isSome = true)
    (hin : LeafIn S l) (k : Nat)
    {s s' : Queue} (hs : SRel S b s s') (ht : l.isVirtual = true → TextOK S b l.definition.content s s') :
    ResRel b (VRel S b s s') (readLeaf x queueOps cF cL k p.2 s) (readLeaf x queueOps cF cL k p.2 s') := by
  obtain ⟨q, vr, _, hq, hc, hcase⟩ := leafRead_ok hl
  obtain ⟨f, lr⟩ := p
  simp only at hcase ⊢
  cases hcase with
  | whileLook h1 h2 hn' hi =>
    simp only [readLeaf]
    refine (loopLook_rel hF hL hc hcl k hs (ht h1)).bind ?_
    rintro ⟨v, u⟩ ⟨v', u'⟩ ⟨f1, f2, f3, f4⟩
    simp only at f1; subst f1
    exact .okk ⟨rfl, f2, f3, f4⟩
  | whileNext h1 h2 =>
    simp only [readLeaf]
    refine (loopNext_rel hF hc hcl (hin.struct h1 hq) (hin.declares h1 hq) k hs).bind ?_
    rintro ⟨v, u⟩ ⟨v', u'⟩ ⟨f1, f2, f3, f4⟩
    simp only at f1; subst f1
    exact .okk ⟨rfl, f2, f3, f4⟩
  | ifLook h1 h2 h3 hn' hi =>
    simp only [readLeaf]
    refine (hL _ s s' hs).bind ?_
    rintro ⟨b1, t⟩ ⟨b1', t'⟩ ⟨g1, g2, g3, g4⟩
    simp only at g1 g2 g3 g4 ⊢; subst g1
    have ht1 : TextOK S b l.definition.content t t' := by unfold TextOK; rw [g3, g4]; exact ht h1
    split
    · refine (readVal_rel hF hc hcl g2 ht1).bind ?_
      rintro ⟨v, u⟩ ⟨v', u'⟩ ⟨f1, f2, f3, f4⟩
      simp only at f1 f2 f3 f4 ⊢; subst f1
      exact .okk ⟨rfl, f2, by simp only; rw [f3, g3], by simp only; rw [f4, g4]⟩
    · exact .okk ⟨rfl, g2, g3, g4⟩
  | plain h1 h2 h3 =>
    simp only [readLeaf]
    exact readVal_rel hF hc hcl hs (ht h1)
  | ifNext h1 h2 h3 =>
    simp only [readLeaf]
    rcases next_rel hs (hin.declares h1 hq) with ⟨e, e', t, t', g1, g2, he, hqe, hst, hn1, hn2⟩ | ⟨g1, g2⟩
    · rw [g1, g2]; simp only
      refine (readOn_rel hF hc hcl he (fun h => hin.struct h1 hq (hqe ▸ h))).bind ?_
      rintro _ v rfl
      exact .okk ⟨rfl, hst, hn1, hn2⟩
    · rw [g1, g2]; exact .okk (.refl hs _)
  | tryNext h1 h2 h3 h4 =>
    simp only [readLeaf]
    rcases next_rel hs (hin.declares h1 hq) with ⟨e, e', t, t', g1, g2, he, hqe, hst, hn1, hn2⟩ | ⟨g1, g2⟩
    · have e1 : queueOps.tryNext s q = (.ok e, t) := by
        simp only [queueOps, Prod.mk.injEq] at g1 ⊢; rw [g1.1]; exact ⟨rfl, g1.2⟩
      have e2 : queueOps.tryNext s' q = (.ok e', t') := by
        simp only [queueOps, Prod.mk.injEq] at g2 ⊢; rw [g2.1]; exact ⟨rfl, g2.2⟩
      rw [e1, e2]; simp only
      refine (readOn_rel hF hc hcl he (fun h => hin.struct h1 hq (hqe ▸ h))).bind ?_
      rintro _ v rfl
      exact .okk ⟨rfl, hst, hn1, hn2⟩
    · have e1 : queueOps.tryNext s q = (.error (.missingElement q.loc q.ns), s) := by
        simp only [queueOps, Prod.mk.injEq] at g1 ⊢; rw [g1.1]; exact ⟨rfl, g1.2⟩
      have e2 : queueOps.tryNext s' q = (.error (.missingElement q.loc q.ns), s') := by
        simp only [queueOps, Prod.mk.injEq] at g2 ⊢; rw [g2.1]; exact ⟨rfl, g2.2⟩
      rw [e1, e2]; intro _; rfl
  | tryChild h1 h2 h3 h4 =>
    simp only [readLeaf]
    rcases takeFirst_rel hs.2 (hin.declares h1 hq) with ⟨e, e', g1, g2, he, hqe, hst⟩ | ⟨g1, g2⟩
    · have e1 : queueOps.tryChild s q = (.ok e, ⟨s.node, (Queue.takeFirst q s.pending).2⟩) := by
        simp only [queueOps]; rw [g1]; rfl
      have e2 : queueOps.tryChild s' q = (.ok e', ⟨s'.node, (Queue.takeFirst q s'.pending).2⟩) := by
        simp only [queueOps]; rw [g2]; rfl
      rw [e1, e2]; simp only
      refine (readOn_rel hF hc hcl he (fun h => hin.struct h1 hq (hqe ▸ h))).bind ?_
      rintro _ v rfl
      exact .okk ⟨rfl, ⟨hs.1, hst⟩, rfl, rfl⟩
    · have e1 : queueOps.tryChild s q =
          (.error (.missingElement q.loc q.ns), ⟨s.node, (Queue.takeFirst q s.pending).2⟩) := by
        simp only [queueOps]; rw [g1]; rfl
      have e2 : queueOps.tryChild s' q =
          (.error (.missingElement q.loc q.ns), ⟨s'.node, (Queue.takeFirst q s'.pending).2⟩) := by
        simp only [queueOps]; rw [g2]; rfl
      rw [e1, e2]; intro _; rfl

theorem readLeaves_rel (hF : CallRel x S b cF) (hL : LookRel S b cL) (k : Nat) (ls : List Leaf)
    {rs : List (Str × LeafRead)} (hl : mapRes (leafRead x S) ls = .ok rs)
    (hcl : ∀ l ∈ ls, ∀ n, Means S l.definition.content (.named n) → (S.get n).isSome = true)
    (hin : ∀ l ∈ ls, LeafIn S l)
    {s s' : Queue} (hs : SRel S b s s')
    (ht : ∀ l ∈ ls, l.isVirtual = true → TextOK S b l.definition.content s s') :
    ResRel b (VRel S b s s') (readLeaves x queueOps cF cL k rs s) (readLeaves x queueOps cF cL k rs s') := by
  induction ls generalizing rs s s' with
  | nil => simp [mapRes] at hl; subst hl; exact .okk (.refl hs _)
  | cons l ls ih =>
    obtain ⟨⟨f, lr⟩, rs', hp, hrs, rfl⟩ := mapRes_cons_ok.1 hl
    simp only [readLeaves]
    refine (readLeaf_rel hF hL hp (hcl l (by simp)) (hin l (by simp)) k hs (ht l (by simp))).bind ?_
    rintro ⟨v, u⟩ ⟨v', u'⟩ ⟨f1, f2, f3, f4⟩
    simp only at f1 f2 f3 f4 ⊢; subst f1
    refine (ih hrs (fun l hl => hcl l (by simp [hl])) (fun l hl => hin l (by simp [hl])) f2 ?_).bind ?_
    · intro l hl hv; unfold TextOK; rw [f3, f4]; exact ht l (by simp [hl]) hv
    · rintro ⟨v2, u2⟩ ⟨v2', u2'⟩ ⟨e1, e2, e3, e4⟩
      simp only at e1 e2 e3 e4; subst e1
      exact .okk ⟨rfl, e2, by simp only; rw [e3, f3], by simp only; rw [e4, f4]⟩

theorem readChoice_rel (hF : CallRel x S b cF) (hL : LookRel S b cL) (k : Nat) (self : Str) (vs : List Leaf)
    {rs : List (Str × VarRead)} (hl : mapRes (variantRead x S) vs = .ok rs)
    (hcl : ∀ l ∈ vs, ∀ n, Means S l.definition.content (.named n) → (S.get n).isSome = true)
    (hin : ∀ l ∈ vs, LeafIn S l)
    {s s' : Queue} (hs : SRel S b s s')
    (ht : ∀ l ∈ vs, l.isVirtual = true → TextOK S b l.definition.content s s') :
    ResRel b (VRel S b s s') (readChoice x queueOps cF cL k self rs s) (readChoice x queueOps cF cL k self rs s') := by
  induction vs generalizing rs s s' with
  | nil => simp [mapRes] at hl; subst hl; intro _; rfl
  | cons l vs ih =>
    obtain ⟨p, rs', hp, hrs, rfl⟩ := mapRes_cons_ok.1 hl
    obtain ⟨q, vr, hi, hq, hc, hcase⟩ := variantRead_ok hp
    obtain ⟨i, pr⟩ := p
    simp only at hi hcase
    have ih := fun {s s' : Queue} (hs : SRel S b s s') ht =>
      ih (s := s) (s' := s') hrs (fun l hl => hcl l (by simp [hl])) (fun l hl => hin l (by simp [hl])) hs ht
    cases hcase with
    | virt h1 hn' hi' =>
      simp only [readChoice]
      refine (hL _ s s' hs).bind ?_
      rintro ⟨b1, t⟩ ⟨b1', t'⟩ ⟨g1, g2, g3, g4⟩
      simp only at g1 g2 g3 g4 ⊢; subst g1
      have ht1 : TextOK S b l.definition.content t t' := by unfold TextOK; rw [g3, g4]; exact ht l (by simp) h1
      split
      · refine (readVal_rel hF hc (hcl l (by simp)) g2 ht1).bind ?_
        rintro ⟨v, u⟩ ⟨v', u'⟩ ⟨f1, f2, f3, f4⟩
        simp only at f1 f2 f3 f4 ⊢; subst f1
        exact .okk ⟨rfl, f2, by simp only; rw [f3, g3], by simp only; rw [f4, g4]⟩
      · have := ih g2 (fun l hl hv => by unfold TextOK; rw [g3, g4]; exact ht l (by simp [hl]) hv)
        unfold VRel at this ⊢
        rw [g3, g4] at this
        exact this
    | vec h1 h2 =>
      simp only [readChoice]
      rw [peek_rel hs ((hin l (by simp)).declares h1 hq)]
      have hp1 : (queueOps.peek s q).2 = s := rfl
      have hp2 : (queueOps.peek s' q).2 = s' := rfl
      rw [hp1, hp2]
      split
      · refine (loopNext_rel hF hc (hcl l (by simp)) ((hin l (by simp)).struct h1 hq) ((hin l (by simp)).declares h1 hq) k hs).bind ?_
        rintro ⟨v, u⟩ ⟨v', u'⟩ ⟨f1, f2, f3, f4⟩
        simp only at f1; subst f1
        exact .okk ⟨rfl, f2, f3, f4⟩
      · exact ih hs (fun l hl hv => ht l (by simp [hl]) hv)
    | single h1 h2 =>
      simp only [readChoice]
      rcases next_rel hs ((hin l (by simp)).declares h1 hq) with ⟨e, e', t, t', g1, g2, he, hqe, hst, hn1, hn2⟩ | ⟨g1, g2⟩
      · rw [g1, g2]; simp only
        refine (readOn_rel hF hc (hcl l (by simp)) he (fun h => (hin l (by simp)).struct h1 hq (hqe ▸ h))).bind ?_
        rintro _ v rfl
        exact .okk ⟨rfl, hst, hn1, hn2⟩
      · rw [g1, g2]
        exact ih hs (fun l hl hv => ht l (by simp [hl]) hv)

end

theorem mapRes_leafCheck {ls : List Leaf} {cs : List Check} (h : mapRes (leafCheck x S) ls = .ok cs) {q : QName}
    (hq : Check.peek q ∈ cs) : ∃ l ∈ ls, l.isVirtual = false ∧ S.expanded l.name = .ok q := by
  obtain ⟨l, hl, h⟩ := (mapRes_ok h).2 _ hq
  refine ⟨l, hl, ?_⟩
  unfold leafCheck at h
  simp only [SchemaContext.qname_eq] at h
  split at h
  · split at h
    · simp only [Res.bind_eq_ok] at h
      obtain ⟨i, _, h⟩ := h
      cases h
    · cases h
  · next hv =>
    simp only [Res.bind_eq_ok] at h
    obtain ⟨i, hi, h⟩ := h
    cases h
    exact ⟨by simpa using hv, hi⟩

theorem lookLeaves_subset (ls : List Leaf) : ∀ l ∈ lookLeaves ls, l ∈ ls := by
  induction ls with
  | nil => simp [lookLeaves]
  | cons a ls ih =>
    intro l hl
    simp only [lookLeaves] at hl
    split at hl
    · rcases List.mem_cons.1 hl with rfl | hl
      · simp
      · exact List.mem_cons_of_mem _ (ih l hl)
    · simp at hl; simp [hl]

theorem look_declares (G : Generated x S P) {t : TypeDef} (ht : t ∈ P) {cs : List Check} (hc : t.look = .checks cs)
    {q : QName} (hq : Check.peek q ∈ cs) : Declares S q := by
  obtain ⟨n, _, h⟩ := (mapRes_ok G.gen).2 t ht
  obtain ⟨r, hr, g⟩ := generateElement_ok h
  have hl := g.look
  rw [hc] at hl
  cases r with
  | leaf d => cases hl
  | enum ns => cases hl
  | element d =>
    simp only [rootLook] at hl
    split at hl
    · next ls hd =>
      simp only [Res.bind_eq_ok] at hl
      obtain ⟨cs', hcs, hl⟩ := hl
      cases hl
      obtain ⟨l, hl, hv, hq⟩ := mapRes_leafCheck hcs hq
      exact ⟨_, alookup_mem hr, l, by simpa [Root.leaves, hd] using lookLeaves_subset ls l hl, hv, hq⟩
    · cases hl; simp at hq
  | choice vs b dd =>
    simp only [rootLook, Res.bind_eq_ok] at hl
    obtain ⟨cs', hcs, hl⟩ := hl
    cases hl
    obtain ⟨l, hl, hv, hq⟩ := mapRes_leafCheck hcs hq
    exact ⟨_, alookup_mem hr, l, by simpa [Root.leaves] using hl, hv, hq⟩

theorem lookahead_rel (G : Generated x S P) (k : Nat) : LookRel S b (lookahead queueOps P k) := by
  induction k with
  | zero => intro i s s' _; intro _; rfl
  | succ k ih =>
    have hck : ∀ cs, (∀ q, Check.peek q ∈ cs → Declares S q) → ∀ s s', SRel S b s s' →
        ResRel b (VRel S b s s') (runChecks queueOps (lookahead queueOps P k) cs s)
          (runChecks queueOps (lookahead queueOps P k) cs s') := by
      intro cs
      induction cs with
      | nil => intro _ s s' hs; exact .okk (.refl hs _)
      | cons c cs ihc =>
        intro hd s s' hs
        have ihc := ihc (fun q hq => hd q (by simp [hq]))
        cases c with
        | call i =>
          simp only [runChecks]
          refine (ih i s s' hs).bind ?_
          rintro ⟨b1, t⟩ ⟨b1', t'⟩ ⟨g1, g2, g3, g4⟩
          simp only at g1 g2 g3 g4 ⊢; subst g1
          split
          · exact .okk ⟨rfl, g2, g3, g4⟩
          · have := ihc _ _ g2
            unfold VRel at this ⊢
            rw [g3, g4] at this
            exact this
        | peek q =>
          simp only [runChecks]
          rw [peek_rel hs (hd q (by simp))]
          have hp1 : (queueOps.peek s q).2 = s := rfl
          have hp2 : (queueOps.peek s' q).2 = s' := rfl
          rw [hp1, hp2]
          split
          · exact .okk (.refl hs _)
          · exact ihc _ _ hs
    intro i s s' hs
    simp only [lookahead]
    split
    · intro _; rfl
    · next t ht =>
      have ht' : t ∈ P := List.mem_of_find?_eq_some ht
      split
      · exact .okk (.refl hs _)
      · next cs hcs => exact hck _ (fun q hq => look_declares G ht' hcs hq) _ _ hs

theorem readAttrs_rel (as : List Attribute) {rs : List AttrRead} (hrs : mapRes (attrRead x S) as = .ok rs)
    {s s' : Queue} (h : ∀ a ∈ as, attrOf s'.node.1 a.name.name = attrOf s.node.1 a.name.name) :
    readAttrs x queueOps P rs s' = readAttrs x queueOps P rs s := by
  induction as generalizing rs with
  | nil => simp [mapRes] at hrs; subst hrs; rfl
  | cons a as ih =>
    obtain ⟨r, rs', hr, hrs2, rfl⟩ := mapRes_cons_ok.1 hrs
    have := (attrRead_ok hr).2.1
    have h1 : readAttr x queueOps P r s' = readAttr x queueOps P r s := by
      have h2 := h a (by simp)
      rw [← this, ← attrVal_eq_attrOf, ← attrVal_eq_attrOf] at h2
      simp only [readAttr, queueOps, h2]
    simp only [readAttrs, ih hrs2 (fun a ha => h a (by simp [ha])), h1]

theorem fromNode_rel (G : Generated x S P) (k : Nat) : CallRel x S b (fromNode x queueOps P k) := by
  induction k with
  | zero => intro n i s s' _ _ _ _; intro _; rfl
  | succ k ih =>
    intro n i s s' hi hn hs ht
    obtain ⟨r, t, hr, hft, hid, hg⟩ := G.find' hi hn
    simp only [fromNode, hft]
    have hL := lookahead_rel (b := b) G k
    have hrd := hg.read
    have htc : ∀ c, (ContentReads S c → ReadsText S n) → TextOK S b c s s' := by
      intro c hc
      rcases ht with ht | ht
      · exact .inl ht
      · exact .inr fun h => ht (hc h)
    cases r with
    | leaf d =>
      simp only [rootRead, Res.bind_eq_ok] at hrd
      obtain ⟨vr, hvr, hrd⟩ := hrd
      simp only [runFrom, ← Res.ok.inj hrd]
      refine (readVal_rel ih hvr (fun m hm => G.closedAt hr (by simp [Root.contents]) hm) hs
        (htc _ fun h => .leaf hr h)).bind ?_
      rintro ⟨v, u⟩ ⟨v', u'⟩ ⟨f1, f2, f3, f4⟩
      simp only at f1; subst f1
      exact .okk ⟨rfl, f2, f3, f4⟩
    | enum names =>
      simp only [rootRead, Res.pure_eq] at hrd
      obtain ⟨tab, htab, hdt, _⟩ := rootDecl_enum hg.decl
      simp only [runFrom, ← Res.ok.inj hrd, hdt]
      refine (text_rel (ht.resolve_right fun h => h (.enum hr))).bind ?_
      rintro _ a rfl
      refine (ResRel.self (enumFromStr tab a)).bind ?_
      rintro _ v rfl
      exact .okk (.refl hs v)
    | element d =>
      simp only [rootRead, Res.bind_eq_ok] at hrd
      obtain ⟨c, hc, as, has, hrd⟩ := hrd
      simp only [runFrom, ← Res.ok.inj hrd]
      have hcont : ResRel b (VRel S b s s')
          (readContent x queueOps (fromNode x queueOps P k) (lookahead queueOps P k) k c s)
          (readContent x queueOps (fromNode x queueOps P k) (lookahead queueOps P k) k c s') := by
        cases hd : d.content with
        | none =>
          rw [hd] at hc; simp only [elementContentRead, Res.pure_eq] at hc
          rw [← Res.ok.inj hc]
          exact .okk (.refl hs _)
        | some ec =>
          cases ec with
          | leaf ln ld =>
            rw [hd] at hc
            simp only [elementContentRead, Res.bind_eq_ok] at hc
            obtain ⟨f, hf, vr, hvr, hc⟩ := hc
            rw [← Res.ok.inj hc]
            simp only [readContent]
            refine (readVal_rel ih hvr (fun m hm => G.closedAt hr (by simp [Root.contents, hd]) hm) hs
              (htc _ fun h => .content hr hd h)).bind ?_
            rintro ⟨v, u⟩ ⟨v', u'⟩ ⟨f1, f2, f3, f4⟩
            simp only at f1; subst f1
            exact .okk ⟨rfl, f2, f3, f4⟩
          | leaves ls =>
            rw [hd] at hc
            simp only [elementContentRead, Res.bind_eq_ok] at hc
            obtain ⟨rs, hrs, hc⟩ := hc
            rw [← Res.ok.inj hc]
            simp only [readContent]
            refine readLeaves_rel ih hL k ls hrs (fun l hl m hm => G.closedAt hr ?_ hm) ?_ hs ?_
            · simp only [Root.contents, hd, List.mem_append, List.mem_map]
              exact .inl ⟨l, hl, rfl⟩
            · intro l hl
              exact ⟨_, alookup_mem hr, by simpa [Root.leaves, hd] using hl⟩
            · intro l hl hv
              exact htc _ fun h => .leaves hr hd hl hv h
      refine hcont.bind ?_
      rintro ⟨v, u⟩ ⟨v', u'⟩ ⟨f1, f2, f3, f4⟩
      simp only at f1 f2 f3 f4 ⊢; subst f1
      rw [readAttrs_rel d.attributes has (fun a ha => f2.1.2 _ (alookup_mem hr) a (by simpa [Root.attrs] using ha))]
      refine (ResRel.self _).bind ?_
      rintro _ w rfl
      exact .okk ⟨rfl, f2, f3, f4⟩
    | choice vs virt docs =>
      simp only [rootRead, Res.bind_eq_ok] at hrd
      obtain ⟨rs, hrs, hrd⟩ := hrd
      simp only [runFrom, ← Res.ok.inj hrd]
      refine readChoice_rel ih hL k t.ident vs hrs (fun l hl m hm => G.closedAt hr ?_ hm) ?_ hs ?_
      · simp only [Root.contents, List.mem_map]; exact ⟨l, hl, rfl⟩
      · intro l hl
        exact ⟨_, alookup_mem hr, by simpa [Root.leaves] using hl⟩
      · intro l hl hv
        exact htc _ fun h => .choice hr hl hv h

end Xsd
