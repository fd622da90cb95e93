import Verif.Spec.Wider
import Verif.Props.TypeSafety
import Verif.Props.Enums
/-!
# Reading with a module for a wider schema
-/
namespace Xsd

/-- Outcomes that correspond: related values, or the same error. Panics and endless calls correspond to anything. -/
def Res.Sim {ε α β : Type} (R : α → β → Prop) : Res ε α → Res ε β → Prop
  | .ok a, r => ∃ b, r = .ok b ∧ R a b
  | .err e, r => r = .err e
  | _, _ => True

theorem Res.Sim.ok {ε α β : Type} {R : α → β → Prop} {a : α} {b : β} (h : R a b) : (Res.ok a : Res ε α).Sim R (.ok b) := ⟨b, rfl, h⟩

theorem Res.Sim.bind {ε α β γ δ : Type} {R : α → β → Prop} {Q : γ → δ → Prop} {r : Res ε α} {r' : Res ε β} {f : α → Res ε γ}
    {f' : β → Res ε δ} (h : r.Sim R r') (hf : ∀ a b, R a b → (f a).Sim Q (f' b)) : (r >>= f).Sim Q (r' >>= f') := by
  cases r with
  | ok a => obtain ⟨b, rfl, hb⟩ := h; exact hf a b hb
  | err e => cases h; exact rfl
  | panic => exact trivial
  | diverge => exact trivial

theorem Res.Sim.refl {ε α : Type} (r : Res ε α) : r.Sim Eq r := by
  cases r with
  | ok a => exact ⟨a, rfl, rfl⟩
  | err e => rfl
  | panic => trivial
  | diverge => trivial

theorem Res.Sim.mono {ε α β : Type} {R Q : α → β → Prop} {r : Res ε α} {r' : Res ε β} (h : r.Sim R r') (hq : ∀ a b, R a b → Q a b) :
    r.Sim Q r' := by
  cases r with
  | ok a => obtain ⟨b, rfl, hb⟩ := h; exact ⟨b, rfl, hq a b hb⟩
  | err e => exact h
  | panic => trivial
  | diverge => trivial

theorem Res.Sim.right {ε α β γ : Type} {R : α → β → Prop} {Q : α → γ → Prop} {r : Res ε α} {r' : Res ε β} {f : β → Res ε γ}
    (h : r.Sim R r') (hf : ∀ a b, R a b → ∃ c, f b = .ok c ∧ Q a c) : r.Sim Q (r' >>= f) := by
  cases r with
  | ok a => obtain ⟨b, rfl, hb⟩ := h; exact hf a b hb
  | err e => cases h; exact rfl
  | panic => trivial
  | diverge => trivial

variable {x : Ext} {P P' : List TypeDef} {N : Additions}

/-! ## Templates -/

/-- Reading an added member of a record. -/
def NewLeafRead (N : Additions) (p : Str × LeafRead) : Prop :=
  ∃ q v, q ∈ N.elems ∧ (p.2 = .ifNext q v ∨ p.2 = .whileNext q v true)

/-- Reading an added attribute. -/
def NewAttrRead (N : Additions) (a : AttrRead) : Prop := a.optional = true ∧ a.name ∈ N.attrs

/-- Reading an added alternative. -/
def NewVarRead (N : Additions) (p : Str × VarRead) : Prop := ∃ q v, q ∈ N.elems ∧ (p.2 = .single q v ∨ p.2 = .vec q v)

/-- Looking ahead for an added member. -/
def NewCheck (N : Additions) (c : Check) : Prop := ∃ q, q ∈ N.elems ∧ c = .peek q

inductive ContentReadWider (N : Additions) : ContentRead → ContentRead → Prop where
  | same (c : ContentRead) : ContentReadWider N c c
  | first {ls : List (Str × LeafRead)} (h : Inserts (NewLeafRead N) [] ls) : ContentReadWider N .nothing (.leaves ls)
  | more {ls ls' : List (Str × LeafRead)} (h : Inserts (NewLeafRead N) ls ls') : ContentReadWider N (.leaves ls) (.leaves ls')

inductive FromWider (N : Additions) : FromBody → FromBody → Prop where
  | leaf (v : ValRead) : FromWider N (.leaf v) (.leaf v)
  | enumText : FromWider N .enumText .enumText
  | element {c c' : ContentRead} {as as' : List AttrRead} (hc : ContentReadWider N c c') (ha : Inserts (NewAttrRead N) as as') :
      FromWider N (.element c as) (.element c' as')
  | choice {vs vs' : List (Str × VarRead)} (h : Inserts (NewVarRead N) vs vs') : FromWider N (.choice vs) (.choice vs')

inductive LookWider (N : Additions) : Look → Look → Prop where
  | always : LookWider N .always .always
  | checks {cs cs' : List Check} (h : Inserts (NewCheck N) cs cs') : LookWider N (.checks cs) (.checks cs')

/-- The variants and values of an enumeration with additional values. -/
def EnumWider (N : Additions) (vs vs' : List (Str × Str)) : Prop :=
  vs' = vs ∨ ((∀ s ∈ vs.map Prod.snd, s ∈ vs'.map Prod.snd) ∧ (∀ s ∈ vs'.map Prod.snd, s ∈ vs.map Prod.snd ∨ s ∈ N.values) ∧
    (vs'.map Prod.snd).Nodup)

/-- What a reader needs of two modules. -/
structure ReadsWider (N : Additions) (t t' : TypeDef) : Prop where
  ident : t'.ident = t.ident
  rootName : t'.rootName = t.rootName
  read : FromWider N t.fromXml t'.fromXml
  look : LookWider N t.look t'.look
  newtype : ∀ u o, t.decl = .newtype u o → t'.decl = .newtype u o
  enum : ∀ vs, t.decl = .enum vs → ∃ vs', t'.decl = .enum vs' ∧ EnumWider N vs vs'

/-- Every type has become a wider one. -/
def ModuleReadsWider (N : Additions) (P P' : List TypeDef) : Prop :=
  ∀ i t, findType P i = some t → ∃ t', findType P' i = some t' ∧ ReadsWider N t t'

/-! ## States -/

/-- Nothing that was added is seen. -/
def Queue.Free (N : Additions) (s : Queue) : Prop := Without N s.node ∧ ∀ e ∈ s.pending, Without N e

theorem Without.kid {e c : Elem} (h : Without N e) (hc : c ∈ elemKids e.2) : Without N c := fun d hd => h d (.child hc hd)

theorem Queue.Free.new {e : Elem} (h : Without N e) : Queue.Free N (Queue.new e) := ⟨h, fun _ hc => h.kid hc⟩

theorem Without.name {e : Elem} (h : Without N e) {q : QName} (hq : q ∈ N.elems) : e.1.name ≠ q := fun he => (h e (.self e)).1 (he ▸ hq)

theorem Queue.Free.peek {s : Queue} (h : s.Free N) {q : QName} (hq : q ∈ N.elems) : queueOps.peek s q = (false, s) := by
  obtain ⟨n, es⟩ := s
  cases es with
  | nil => rfl
  | cons e es =>
    simp only [queueOps, List.head?_cons, Option.any_some, Prod.mk.injEq, and_true]
    exact decide_eq_false ((h.2 e (List.mem_cons_self ..)).name hq)

theorem Queue.Free.next {s : Queue} (h : s.Free N) {q : QName} (hq : q ∈ N.elems) : queueOps.next s q = (none, s) := by
  obtain ⟨n, es⟩ := s
  cases es with
  | nil => rfl
  | cons e es =>
    simp only [queueOps, Queue.popIf, if_neg ((h.2 e (List.mem_cons_self ..)).name hq)]

theorem Queue.popIf_mem {q : QName} {es : List Elem} {e : Elem} (h : (Queue.popIf q es).1 = some e) : e ∈ es := by
  cases es with
  | nil => cases h
  | cons a es =>
    by_cases hq : a.1.name = q
    · simp only [Queue.popIf, if_pos hq, Option.some.injEq] at h; subst h; exact List.mem_cons_self ..
    · simp only [Queue.popIf, if_neg hq] at h; cases h

theorem Queue.popIf_sub {q : QName} {es : List Elem} {e : Elem} (h : e ∈ (Queue.popIf q es).2) : e ∈ es := by
  cases es with
  | nil => cases h
  | cons a es =>
    by_cases hq : a.1.name = q
    · simp only [Queue.popIf, if_pos hq] at h; exact List.mem_cons_of_mem _ h
    · simp only [Queue.popIf, if_neg hq] at h; exact h

theorem Queue.Free.popped {s : Queue} (h : s.Free N) (q : QName) : Queue.Free N ⟨s.node, (Queue.popIf q s.pending).2⟩ :=
  ⟨h.1, fun e he => h.2 e (Queue.popIf_sub he)⟩

theorem Queue.Free.taken {s : Queue} (h : s.Free N) (q : QName) : Queue.Free N ⟨s.node, (Queue.takeFirst q s.pending).2⟩ :=
  ⟨h.1, fun e he => h.2 e (List.mem_of_mem_eraseP he)⟩

theorem Queue.Free.attr {s : Queue} (h : s.Free N) {a : Str} (ha : a ∈ N.attrs) : queueOps.attr s a = none := by
  have : s.node.1.attrs.filter (fun b => b.ns = none ∧ b.loc = a) = [] := by
    rw [List.filter_eq_nil_iff]
    intro b hb hp
    have hp := of_decide_eq_true hp
    exact ((h.1 s.node (.self _)).2.1 b hb hp.1).1 (hp.2 ▸ ha)
  simp only [queueOps, Queue.attrVal, this]
  rfl

theorem Queue.Free.attrValue {s : Queue} (h : s.Free N) {a v : Str} (ha : queueOps.attr s a = some v) : v ∉ N.values := by
  obtain ⟨b, hb, rfl⟩ := Option.map_eq_some_iff.1 (show (s.node.1.attrs.filter (fun b => b.ns = none ∧ b.loc = a)).head?.map XAttr.value = some v from ha)
  obtain ⟨hb, hp⟩ := List.mem_filter.1 (List.mem_of_head? hb)
  exact ((h.1 s.node (.self _)).2.1 b hb (of_decide_eq_true hp).1).2

theorem Queue.Free.textValue {s : Queue} (h : s.Free N) {v : Str} (hv : queueOps.text s = .ok v) : v ∉ N.values := by
  have hv : Queue.textVal s.node = .ok v := hv
  have := (h.1 s.node (.self _)).2.2
  unfold Queue.textVal at hv
  split at hv
  · next hn => cases hv; exact this.1 hn
  · next hn => cases hv; exact this.2 _ _ hn
  · cases hv
  · cases hv

/-! ## Reading -/

/-- Values that correspond, in the same state. -/
def UpState (P P' : List TypeDef) (N : Additions) (ty : Ty) (a b : Val × Queue) : Prop := Upgrade P P' ty a.1 b.1 ∧ b.2 = a.2 ∧ a.2.Free N

/-- The same outcome, in the same state. -/
def SameState {α : Type} (N : Additions) (a b : α × Queue) : Prop := b = a ∧ a.2.Free N

variable {callF callF' : Str → Queue → DRes Queue Val} {callL callL' : Str → Queue → DRes Queue Bool}

def SimF (P P' : List TypeDef) (N : Additions) (callF callF' : Str → Queue → DRes Queue Val) : Prop :=
  ∀ i s, s.Free N → DeclaresType P i → (callF i s).Sim (UpState P P' N (.named i)) (callF' i s)

def SimL (P : List TypeDef) (N : Additions) (callL callL' : Str → Queue → DRes Queue Bool) : Prop :=
  ∀ i s, s.Free N → DeclaresType P i → (callL i s).Sim (SameState N) (callL' i s)

theorem runChecks_sim (hL : SimL P N callL callL') {cs cs' : List Check} (hi : Inserts (NewCheck N) cs cs')
    (hcs : ∀ i, Check.call i ∈ cs → DeclaresType P i) (s : Queue) (hs : s.Free N) :
    (runChecks queueOps callL cs s).Sim (SameState N) (runChecks queueOps callL' cs' s) := by
  induction hi generalizing s with
  | nil => exact .ok ⟨rfl, hs⟩
  | new hb h ih =>
    obtain ⟨q, hq, rfl⟩ := hb
    simp only [runChecks, hs.peek hq, Bool.false_eq_true, if_false]
    exact ih hcs s hs
  | @keep c cs cs' h ih =>
    have ih := fun s => ih (fun i hi => hcs i (List.mem_cons_of_mem _ hi)) s
    cases c with
    | call i =>
      unfold runChecks
      refine (hL i s hs (hcs i (List.mem_cons_self ..))).bind ?_
      rintro ⟨b, s1⟩ _ ⟨rfl, h1⟩
      split
      · exact .ok ⟨rfl, h1⟩
      · exact ih _ h1
    | peek q =>
      simp only [runChecks]
      have : (queueOps.peek s q).2 = s := rfl
      rw [this]
      split
      · exact .ok ⟨rfl, hs⟩
      · exact ih _ hs

theorem lookahead_sim (H : Compiles x P) (hP : ModuleReadsWider N P P') (k : Nat) :
    SimL P N (lookahead queueOps P k) (lookahead queueOps P' (k + 1)) := by
  induction k with
  | zero => intro i s _ _; exact trivial
  | succ k ih =>
    intro i s hs hi
    obtain ⟨t, ht, _, hf⟩ := hi.find H.unique
    obtain ⟨t', hf', hw⟩ := hP i t hf
    rw [lookahead, lookahead, hf, hf']
    dsimp only
    have hl := (H.typed t ht).looks
    have hlk := hw.look
    cases hlk' : t.look with
    | always =>
      rw [hlk'] at hlk
      generalize t'.look = u at hlk
      cases hlk
      exact .ok ⟨rfl, hs⟩
    | checks cs =>
      rw [hlk'] at hlk hl
      generalize t'.look = u at hlk
      cases hlk with
      | checks hi => exact runChecks_sim ih hi hl s hs

theorem parseLit_up {t : LiteralType} {s : Str} : (parseLit x t s).Sim (Upgrade P P' (.prim t.prim)) (parseLit x t s) := by
  cases h : parseLit x t s with
  | ok v =>
    refine .ok ?_
    have := (parseLit_safe (x := x) (P := P) t s).2 v h
    cases this with | prim h => exact .prim h
  | err e => rfl
  | panic => trivial
  | diverge => trivial

theorem readVal_sim (hF : SimF P P' N callF callF') {v : ValRead} {ty : Ty} (hv : v.Has P ty) {s : Queue} (hs : s.Free N) :
    (readVal x queueOps callF v s).Sim (UpState P P' N ty) (readVal x queueOps callF' v s) := by
  cases v with
  | text t =>
    cases hv
    refine (Res.Sim.refl _).bind ?_
    rintro a _ rfl
    refine (parseLit_up (P := P) (P' := P')).bind ?_
    intro w w' h
    exact .ok ⟨h, rfl, hs⟩
  | fixed f =>
    cases hv
    refine (Res.Sim.refl _).bind ?_
    rintro a _ rfl
    split
    · exact .ok ⟨.unit, rfl, hs⟩
    · exact rfl
  | call i =>
    obtain ⟨hi, rfl⟩ := hv
    exact hF i s hs hi

theorem readOn_sim (hF : SimF P P' N callF callF') {v : ValRead} {ty : Ty} (hv : v.Has P ty) {e : Elem} (he : Without N e) :
    (readOn x queueOps callF v e).Sim (Upgrade P P' ty) (readOn x queueOps callF' v e) := by
  refine (readVal_sim hF hv (Queue.Free.new he)).bind ?_
  rintro a b ⟨h, _, _⟩
  exact .ok h

/-- Lists that correspond, in the same state. -/
def UpListState (P P' : List TypeDef) (N : Additions) (ty : Ty) (a b : List Val × Queue) : Prop :=
  UpgradeAll P P' ty a.1 b.1 ∧ b.2 = a.2 ∧ a.2.Free N

theorem loopNext_sim (hF : SimF P P' N callF callF') {v : ValRead} {ty : Ty} (hv : v.Has P ty) (q : QName) {k k' : Nat} (hk : k ≤ k')
    (s : Queue) (hs : s.Free N) :
    (loopNext x queueOps callF q v k s).Sim (UpListState P P' N ty) (loopNext x queueOps callF' q v k' s) := by
  induction k generalizing s k' with
  | zero => exact trivial
  | succ k ih =>
    obtain ⟨k', rfl⟩ : ∃ j, k' = j + 1 := ⟨k' - 1, by omega⟩
    have ih := @ih k' (by omega)
    unfold loopNext
    have hp := hs.popped q
    cases hn : (Queue.popIf q s.pending).1 with
    | none =>
      simp only [queueOps, hn]
      exact .ok ⟨.nil, rfl, hp⟩
    | some e =>
      simp only [queueOps, hn]
      refine (readOn_sim hF hv (hs.2 e (Queue.popIf_mem hn))).bind ?_
      intro w w' hw
      refine (ih _ hp).bind ?_
      rintro r r' ⟨h1, h2, h3⟩
      exact .ok ⟨.cons hw h1, h2, h3⟩

theorem loopLook_sim (hF : SimF P P' N callF callF') (hL : SimL P N callL callL') {v : ValRead} {ty : Ty} (hv : v.Has P ty) {i : Str}
    (hi : DeclaresType P i) {k k' : Nat} (hk : k ≤ k') (s : Queue) (hs : s.Free N) :
    (loopLook x queueOps callF callL i v k s).Sim (UpListState P P' N ty) (loopLook x queueOps callF' callL' i v k' s) := by
  induction k generalizing s k' with
  | zero => exact trivial
  | succ k ih =>
    obtain ⟨k', rfl⟩ : ∃ j, k' = j + 1 := ⟨k' - 1, by omega⟩
    have ih := @ih k' (by omega)
    unfold loopLook
    refine (hL i s hs hi).bind ?_
    rintro b _ ⟨rfl, hb⟩
    split
    · refine (readVal_sim hF hv hb).bind ?_
      rintro w w' ⟨h1, h2, h3⟩
      rw [h2]
      refine (ih _ h3).bind ?_
      rintro r r' ⟨g1, g2, g3⟩
      exact .ok ⟨.cons h1 g1, g2, g3⟩
    · exact .ok ⟨.nil, rfl, hb⟩

theorem UpgradeAll.nil_iff {ty : Ty} {vs vs' : List Val} (h : UpgradeAll P P' ty vs vs') : vs' = [] ↔ vs = [] := by
  cases h <;> simp

theorem wrapVec_up {opt : Bool} {ty : Ty} {vs vs' : List Val} (h : UpgradeAll P P' ty vs vs') :
    Upgrade P P' (listTy opt ty) (wrapVec opt vs) (wrapVec opt vs') := by
  unfold listTy wrapVec
  cases opt
  · exact .vec h
  · simp only [if_true]
    by_cases hv : vs = []
    · rw [if_pos hv, if_pos (h.nil_iff.2 hv)]; exact .none
    · rw [if_neg hv, if_neg (fun hh => hv (h.nil_iff.1 hh))]; exact .some (.vec h)

theorem readLeaf_sim (hF : SimF P P' N callF callF') (hL : SimL P N callL callL') {k k' : Nat} (hk : k ≤ k') {r : LeafRead} {ty : Ty}
    (hr : r.Has P ty) {s : Queue} (hs : s.Free N) :
    (readLeaf x queueOps callF callL k r s).Sim (UpState P P' N ty) (readLeaf x queueOps callF' callL' k' r s) := by
  cases r with
  | plain v => exact readVal_sim hF hr hs
  | whileLookahead i v opt =>
    obtain ⟨hi, t, hv, rfl⟩ := hr
    refine (loopLook_sim hF hL hv hi hk s hs).bind ?_
    rintro r r' ⟨h1, h2, h3⟩
    exact .ok ⟨wrapVec_up h1, h2, h3⟩
  | ifLookahead i v =>
    obtain ⟨hi, t, hv, rfl⟩ := hr
    refine (hL i s hs hi).bind ?_
    rintro b _ ⟨rfl, hb⟩
    split
    · refine (readVal_sim hF hv hb).bind ?_
      rintro r r' ⟨h1, h2, h3⟩
      exact .ok ⟨.some h1, h2, h3⟩
    · exact .ok ⟨.none, rfl, hb⟩
  | whileNext q v opt =>
    obtain ⟨t, hv, rfl⟩ := hr
    refine (loopNext_sim hF hv q hk s hs).bind ?_
    rintro r r' ⟨h1, h2, h3⟩
    exact .ok ⟨wrapVec_up h1, h2, h3⟩
  | ifNext q v =>
    obtain ⟨t, hv, rfl⟩ := hr
    have hp := hs.popped q
    cases hn : (Queue.popIf q s.pending).1 with
    | none =>
      simp only [readLeaf, queueOps, hn]
      exact .ok ⟨.none, rfl, hp⟩
    | some e =>
      simp only [readLeaf, queueOps, hn]
      refine (readOn_sim hF hv (hs.2 e (Queue.popIf_mem hn))).bind ?_
      intro w w' hw
      exact .ok ⟨.some hw, rfl, hp⟩
  | tryChild q v =>
    have hp := hs.taken q
    cases hn : (Queue.takeFirst q s.pending).1 with
    | none =>
      simp only [readLeaf, queueOps, hn, Queue.orMissing]
      exact rfl
    | some e =>
      simp only [readLeaf, queueOps, hn, Queue.orMissing]
      refine (readOn_sim hF hr (hs.2 e (List.mem_of_find?_eq_some hn))).bind ?_
      intro w w' hw
      exact .ok ⟨hw, rfl, hp⟩
  | tryNext q v =>
    have hp := hs.popped q
    cases hn : (Queue.popIf q s.pending).1 with
    | none =>
      simp only [readLeaf, queueOps, hn, Queue.orMissing]
      exact rfl
    | some e =>
      simp only [readLeaf, queueOps, hn, Queue.orMissing]
      refine (readOn_sim hF hr (hs.2 e (Queue.popIf_mem hn))).bind ?_
      intro w w' hw
      exact .ok ⟨hw, rfl, hp⟩

/-- The type of a reader does not depend on the module. -/
theorem ValRead.Has.unique {v : ValRead} {ty ty' : Ty} (h : v.Has P ty) (h' : v.Has P' ty') : ty' = ty := by
  cases v with
  | text t => cases h; cases h'; rfl
  | fixed s => cases h; cases h'; rfl
  | call i => cases h.2; cases h'.2; rfl

theorem LeafRead.Has.unique {r : LeafRead} {ty ty' : Ty} (h : r.Has P ty) (h' : r.Has P' ty') : ty' = ty := by
  cases r with
  | plain v => exact ValRead.Has.unique h h'
  | whileLookahead i v opt => obtain ⟨_, t, h, rfl⟩ := h; obtain ⟨_, t', h', rfl⟩ := h'; rw [h.unique h']
  | ifLookahead i v => obtain ⟨_, t, h, rfl⟩ := h; obtain ⟨_, t', h', rfl⟩ := h'; rw [h.unique h']
  | whileNext q v opt => obtain ⟨t, h, rfl⟩ := h; obtain ⟨t', h', rfl⟩ := h'; rw [h.unique h']
  | ifNext q v => obtain ⟨t, h, rfl⟩ := h; obtain ⟨t', h', rfl⟩ := h'; rw [h.unique h']
  | tryChild q v => exact ValRead.Has.unique h h'
  | tryNext q v => exact ValRead.Has.unique h h'

theorem StrRead.Has.unique {r : StrRead} {ty ty' : Ty} (h : r.Has P ty) (h' : r.Has P' ty') : ty' = ty := by
  cases r with
  | lit t => cases h; cases h'; rfl
  | fromStr t => cases h.1; cases h'.1; rfl
  | unit => cases h; cases h'; rfl

theorem AttrRead.Has.unique {a : AttrRead} {ty ty' : Ty} (h : a.Has P ty) (h' : a.Has P' ty') : ty' = ty := by
  obtain ⟨t, h, rfl⟩ := h
  obtain ⟨t', h', rfl⟩ := h'
  rw [h.unique h']

/-- Fields that correspond, in the same state. -/
def UpFieldsState (P P' : List TypeDef) (N : Additions) (ds ds' : List (Str × Ty)) (a b : List (Str × Val) × Queue) : Prop :=
  UpgradeFields P P' ds ds' a.1 b.1 ∧ b.2 = a.2 ∧ a.2.Free N

theorem newLeafRead_none {p : Str × LeafRead} (hp : NewLeafRead N p) {ty : Ty} (ht : p.2.Has P' ty) {k : Nat} (hk : k ≠ 0) {s : Queue}
    (hs : s.Free N) : (∃ t, ty = .option t) ∧ readLeaf x queueOps callF' callL' k p.2 s = .ok (.none, s) := by
  obtain ⟨q, v, hq, h | h⟩ := hp <;> rw [h] at ht ⊢
  · obtain ⟨t, _, rfl⟩ := ht
    exact ⟨⟨t, rfl⟩, by simp only [readLeaf, hs.next hq]⟩
  · obtain ⟨t, _, rfl⟩ := ht
    obtain ⟨k, rfl⟩ : ∃ j, k = j + 1 := ⟨k - 1, by omega⟩
    exact ⟨⟨.vec t, rfl⟩, by simp only [readLeaf, loopNext, hs.next hq]; rfl⟩

theorem readLeaves_sim (hF : SimF P P' N callF callF') (hL : SimL P N callL callL') {k k' : Nat} (hk : k < k') {rs rs' : List (Str × LeafRead)}
    (hi : Inserts (NewLeafRead N) rs rs') {ds ds' : List (Str × Ty)} (hr : LeavesHave P rs ds) (hr' : LeavesHave P' rs' ds')
    (s : Queue) (hs : s.Free N) :
    (readLeaves x queueOps callF callL k rs s).Sim (UpFieldsState P P' N ds ds') (readLeaves x queueOps callF' callL' k' rs' s) := by
  induction hi generalizing s ds ds' with
  | nil => cases hr; cases hr'; exact .ok ⟨.nil, rfl, hs⟩
  | new hb h ih =>
    cases hr' with
    | cons hh hs' =>
      obtain ⟨⟨t, rfl⟩, hn⟩ := newLeafRead_none (x := x) (callF' := callF') (callL' := callL') hb hh (show k' ≠ 0 by omega) hs
      rw [readLeaves, show readLeaf x queueOps callF' callL' k' _ s = _ from hn]
      refine (ih hr hs' s hs).right ?_
      rintro a b ⟨h1, h2, h3⟩
      exact ⟨_, rfl, .new h1, h2, h3⟩
  | keep h ih =>
    cases hr with
    | cons hh hs1 =>
      cases hr' with
      | cons hh' hs1' =>
        cases hh.unique hh'
        unfold readLeaves
        refine (readLeaf_sim hF hL (Nat.le_of_lt hk) hh hs).bind ?_
        rintro w w' ⟨h1, h2, h3⟩
        rw [h2]
        refine (ih hs1 hs1' _ h3).bind ?_
        rintro r r' ⟨g1, g2, g3⟩
        exact .ok ⟨.keep h1 g1, g2, g3⟩

theorem readContent_sim (hF : SimF P P' N callF callF') (hL : SimL P N callL callL') {k k' : Nat} (hk : k < k') {c c' : ContentRead}
    (hw : ContentReadWider N c c') {ds ds' : List (Str × Ty)} (hc : c.Has P ds) (hc' : c'.Has P' ds') {s : Queue} (hs : s.Free N) :
    (readContent x queueOps callF callL k c s).Sim (UpFieldsState P P' N ds ds') (readContent x queueOps callF' callL' k' c' s) := by
  have same : ∀ {ls : List (Str × LeafRead)}, Inserts (NewLeafRead N) ls ls := by
    intro ls
    induction ls with
    | nil => exact .nil
    | cons a ls ih => exact .keep ih
  cases hw with
  | same c =>
    cases c with
    | nothing => cases hc; cases hc'; exact .ok ⟨.nil, rfl, hs⟩
    | single f v =>
      obtain ⟨ty, rfl, hv⟩ := hc
      obtain ⟨ty', rfl, hv'⟩ := hc'
      cases hv.unique hv'
      refine (readVal_sim hF hv hs).bind ?_
      rintro w w' ⟨h1, h2, h3⟩
      exact .ok ⟨.keep h1 .nil, h2, h3⟩
    | leaves ls => exact readLeaves_sim hF hL hk same hc hc' s hs
  | first h =>
    cases hc
    exact readLeaves_sim hF hL hk h .nil hc' s hs
  | more h => exact readLeaves_sim hF hL hk h hc hc' s hs

theorem snd_unique {vs : List (Str × Str)} (hn : (vs.map Prod.snd).Nodup) {v w s : Str} (h : (v, s) ∈ vs) (h' : (w, s) ∈ vs) : w = v := by
  have := (find_unique hn h').symm.trans (find_unique hn h)
  exact congrArg Prod.fst (Option.some.inj this)

theorem enumFromStr_up {vs vs' : List (Str × Str)} (hw : EnumWider N vs vs') {s : Str} (hs : s ∉ N.values) :
    (enumFromStr vs s).Sim (UpgradeDecl P P' (.enum vs) (.enum vs')) (enumFromStr vs' s) := by
  rcases hw with rfl | ⟨h1, h2, h3⟩
  · cases h : enumFromStr vs' s with
    | ok v =>
      refine .ok ?_
      have := (enumFromStr_safe (P := P) vs' s).2 v h
      cases this with | enum hn => exact .enum hn
    | err e => rfl
    | panic => trivial
    | diverge => trivial
  · unfold enumFromStr
    cases hf : vs.find? (fun p => decide (p.2 = s)) with
    | none =>
      have hn : vs'.find? (fun p => decide (p.2 = s)) = none := by
        rw [List.find?_eq_none]
        intro p hp he
        have he := of_decide_eq_true he
        rcases h2 s (List.mem_map.2 ⟨p, hp, he⟩) with h | h
        · obtain ⟨q, hq, hqs⟩ := List.mem_map.1 h
          exact List.find?_eq_none.1 hf q hq (decide_eq_true hqs)
        · exact hs h
      rw [hn]
      rfl
    | some p =>
      obtain ⟨n, t⟩ := p
      have hm := List.mem_of_find?_eq_some hf
      have hts := List.find?_some hf
      obtain rfl : t = s := of_decide_eq_true hts
      obtain ⟨⟨n', t'⟩, hq, hqs⟩ := List.mem_map.1 (h1 t (List.mem_map.2 ⟨_, hm, rfl⟩))
      obtain rfl : t' = t := hqs
      rw [find_unique h3 hq]
      exact .ok (.values hm hq fun m hm' => snd_unique h3 hq hm')

theorem readStr_sim (H : Compiles x P) (hP : ModuleReadsWider N P P') {r : StrRead} {ty : Ty} (h : r.Has P ty) {s : Str} (hs : s ∉ N.values) :
    (readStr x P r s).Sim (Upgrade P P' ty) (readStr x P' r s) := by
  cases r with
  | lit t => cases h; exact parseLit_up
  | unit => cases h; exact .ok .unit
  | fromStr ty =>
    obtain ⟨rfl, h⟩ := h
    rcases h with rfl | ⟨t, ht, rfl, h⟩
    · exact .ok (.prim ⟨s, rfl⟩)
    · have hf := findType_of_mem H.unique ht
      obtain ⟨t', hf', hw⟩ := hP _ _ hf
      simp only [readStr, fromStrAt, hf, hf']
      rcases h with ⟨u, l, hd⟩ | ⟨vs, hd⟩
      · have hl := (H.typed t ht).literal
        have hd' := hw.newtype _ _ hd
        rw [hd] at hl
        simp only [hd, hd']
        split
        · next v hv =>
          refine .ok (.named hf hf' ?_)
          rw [hd, hd']
          exact .newtype (hl ▸ .prim (parsePrim_typed hv))
        · exact rfl
      · obtain ⟨vs', hd', he⟩ := hw.enum _ hd
        simp only [hd, hd']
        refine (enumFromStr_up (P := P) (P' := P') he hs).mono fun a b hab => .named hf hf' ?_
        rw [hd, hd']
        exact hab

theorem readAttr_sim (H : Compiles x P) (hP : ModuleReadsWider N P P') {a : AttrRead} {ty : Ty} (h : a.Has P ty) {s : Queue} (hs : s.Free N) :
    (readAttr x queueOps P a s).Sim (Upgrade P P' ty) (readAttr x queueOps P' a s) := by
  obtain ⟨t, h, rfl⟩ := h
  unfold readAttr optTy
  split
  · split
    · next ha =>
      refine (readStr_sim H hP h (hs.attrValue ha)).bind ?_
      intro w w' hw
      exact .ok (.some hw)
    · exact .ok .none
  · have ht : queueOps.tryAttr s a.name = match queueOps.attr s a.name with | some v => .ok v | none => .error (.missingAttribute a.name) := rfl
    rw [ht]
    cases ha : queueOps.attr s a.name with
    | none => rfl
    | some v => exact readStr_sim H hP h (hs.attrValue ha)

theorem readAttrs_sim (H : Compiles x P) (hP : ModuleReadsWider N P P') {as as' : List AttrRead} (hi : Inserts (NewAttrRead N) as as')
    {ds ds' : List (Str × Ty)} (h : AttrsHave P as ds) (h' : AttrsHave P' as' ds') {s : Queue} (hs : s.Free N) :
    (readAttrs x queueOps P as s).Sim (UpgradeFields P P' ds ds') (readAttrs x queueOps P' as' s) := by
  induction hi generalizing ds ds' with
  | nil => cases h; cases h'; exact .ok .nil
  | @new b as as' hb _ ih =>
    cases h' with
    | cons hh hs' =>
      obtain ⟨t, _, rfl⟩ := hh
      have hn : readAttr x queueOps P' b s = .ok .none := by
        unfold readAttr
        rw [if_pos hb.1, hs.attr hb.2]
      rw [readAttrs, hn, hb.1]
      refine (ih h hs').right ?_
      intro fs fs' hf
      exact ⟨_, rfl, .new hf⟩
  | keep _ ih =>
    cases h with
    | cons hh hs1 =>
      cases h' with
      | cons hh' hs1' =>
        cases hh.unique hh'
        unfold readAttrs
        refine (readAttr_sim H hP hh hs).bind ?_
        intro w w' hw
        refine (ih hs1 hs1').bind ?_
        intro r r' hr
        exact .ok (.keep hw hr)

theorem readChoice_sim (hF : SimF P P' N callF callF') (hL : SimL P N callL callL') {k k' : Nat} (hk : k ≤ k') (self : Str)
    {ds ds' : List (Str × Ty)} {vs vs' : List (Str × VarRead)} (hi : Inserts (NewVarRead N) vs vs')
    (h : ∀ p ∈ vs, ∃ ty, (p.1, ty) ∈ ds ∧ p.2.Has P ty) (h' : ∀ p ∈ vs', ∃ ty, (p.1, ty) ∈ ds' ∧ p.2.Has P' ty) (s : Queue) (hs : s.Free N) :
    (readChoice x queueOps callF callL k self vs s).Sim
      (fun a b => UpgradeDecl P P' (.choice ds) (.choice ds') a.1 b.1 ∧ b.2 = a.2 ∧ a.2.Free N)
      (readChoice x queueOps callF' callL' k' self vs' s) := by
  induction hi generalizing s with
  | nil => exact rfl
  | @new b vs vs' hb _ ih =>
    have ih := ih h (fun p hp => h' p (List.mem_cons_of_mem _ hp)) s hs
    obtain ⟨n, r⟩ := b
    obtain ⟨q, v, hq, rfl | rfl⟩ := hb
    · simp only [readChoice, hs.next hq]; exact ih
    · simp only [readChoice, hs.peek hq, Bool.false_eq_true, if_false]; exact ih
  | @keep p vs vs' _ ih =>
    have ih := fun s => ih (fun p hp => h p (List.mem_cons_of_mem _ hp)) (fun p hp => h' p (List.mem_cons_of_mem _ hp)) s
    obtain ⟨ty, hm, hp⟩ := h p (List.mem_cons_self ..)
    obtain ⟨ty', hm', hp'⟩ := h' p (List.mem_cons_self ..)
    obtain ⟨n, r⟩ := p
    cases r with
    | virt i v =>
      cases hp.2.unique hp'.2
      unfold readChoice
      refine (hL i s hs hp.1).bind ?_
      rintro b _ ⟨rfl, hb⟩
      split
      · refine (readVal_sim hF hp.2 hb).bind ?_
        rintro w w' ⟨h1, h2, h3⟩
        exact .ok ⟨.choice hm hm' h1, h2, h3⟩
      · exact ih _ hb
    | vec q v =>
      obtain ⟨t, hv, rfl⟩ := hp
      obtain ⟨t', hv', rfl⟩ := hp'
      cases hv.unique hv'
      simp only [readChoice]
      rw [show (queueOps.peek s q).2 = s from rfl]
      split
      · refine (loopNext_sim hF hv q hk s hs).bind ?_
        rintro w w' ⟨h1, h2, h3⟩
        exact .ok ⟨.choice hm hm' (.vec h1), h2, h3⟩
      · exact ih _ hs
    | single q v =>
      cases ValRead.Has.unique hp hp'
      have hpp := hs.popped q
      cases hn : (Queue.popIf q s.pending).1 with
      | none =>
        simp only [readChoice, queueOps, hn]
        exact ih _ hpp
      | some e =>
        simp only [readChoice, queueOps, hn]
        refine (readOn_sim hF hp (hs.2 e (Queue.popIf_mem hn))).bind ?_
        intro w w' hw
        exact .ok ⟨.choice hm hm' hw, rfl, hpp⟩

theorem UpgradeFields.append {d1 d1' d2 d2' : List (Str × Ty)} {f1 f1' f2 f2' : List (Str × Val)} (h1 : UpgradeFields P P' d1 d1' f1 f1')
    (h2 : UpgradeFields P P' d2 d2' f2 f2') : UpgradeFields P P' (d1 ++ d2) (d1' ++ d2') (f1 ++ f2) (f1' ++ f2') := by
  induction d1' generalizing d1 f1 f1' with
  | nil => cases h1; exact h2
  | cons d d1' ih =>
    cases h1 with
    | keep h hs => exact .keep h (ih hs)
    | new hs => exact .new (ih hs)

theorem fromNode_sim (H : Compiles x P) (H' : Compiles x P') (hP : ModuleReadsWider N P P') (k : Nat) :
    SimF P P' N (fromNode x queueOps P k) (fromNode x queueOps P' (k + 1)) := by
  induction k with
  | zero => intro i s _ _; exact trivial
  | succ k ih =>
    intro i s hs hi
    obtain ⟨t, ht, _, hf⟩ := hi.find H.unique
    obtain ⟨t', hf', hw⟩ := hP i t hf
    have ht' := (findType_mem hf').1
    have hL := lookahead_sim H hP k
    rw [fromNode, fromNode, hf, hf']
    have hr := (H.typed t ht).reads
    have hr' := (H'.typed t' ht').reads
    have hwr := hw.read
    have key : (runFrom x queueOps P (fromNode x queueOps P k) (lookahead queueOps P k) k t s).Sim
        (fun a b => UpgradeDecl P P' t.decl t'.decl a.1 b.1 ∧ b.2 = a.2 ∧ a.2.Free N)
        (runFrom x queueOps P' (fromNode x queueOps P' (k + 1)) (lookahead queueOps P' (k + 1)) (k + 1) t' s) := by
      unfold runFrom
      generalize t.fromXml = u at hr hwr
      generalize t'.fromXml = u' at hr' hwr
      cases hwr with
      | leaf v =>
        cases hd : t.decl <;> rw [hd] at hr <;> try exact hr.elim
        rw [hw.newtype _ _ hd]
        refine (readVal_sim ih hr hs).bind ?_
        rintro a b ⟨h1, h2, h3⟩
        exact .ok ⟨.newtype h1, h2, h3⟩
      | enumText =>
        cases hd : t.decl <;> rw [hd] at hr <;> try exact hr.elim
        obtain ⟨vs', hd', he⟩ := hw.enum _ hd
        rw [hd']
        cases htx : queueOps.text s with
        | error e => rfl
        | ok v =>
          refine (enumFromStr_up (P := P) (P' := P') he (hs.textValue htx)).bind ?_
          intro a b hab
          exact .ok ⟨hab, rfl, hs⟩
      | element hc ha =>
        cases hd : t.decl <;> rw [hd] at hr <;> try exact hr.elim
        cases hd' : t'.decl <;> rw [hd'] at hr' <;> try exact hr'.elim
        obtain ⟨d1, d2, rfl, hc1, ha1⟩ := hr
        obtain ⟨d1', d2', rfl, hc1', ha1'⟩ := hr'
        refine (readContent_sim ih hL (Nat.lt_succ_self k) hc hc1 hc1' hs).bind ?_
        rintro a b ⟨h1, h2, h3⟩
        rw [h2]
        refine (readAttrs_sim H hP ha ha1 ha1' h3).bind ?_
        intro w w' hw
        exact .ok ⟨.struct (h1.append hw), rfl, h3⟩
      | choice h =>
        cases hd : t.decl <;> rw [hd] at hr <;> try exact hr.elim
        cases hd' : t'.decl <;> rw [hd'] at hr' <;> try exact hr'.elim
        rw [hw.ident]
        exact readChoice_sim ih hL (Nat.le_succ k) t.ident h hr hr' s hs
    refine key.mono ?_
    rintro a b ⟨h1, h2, h3⟩
    exact ⟨.named hf hf' h1, h2, h3⟩

end Xsd
