import Verif.Lemmas.Gen
import Verif.Lemmas.ExecSim
/-!
# What a successful read returns is what the document says
-/
namespace Xsd

section Merge
variable {α : Type}

theorem Merge.nil_left (b : List α) : Merge [] b b := by
  induction b with
  | nil => exact .nil
  | cons x b ih => exact .right ih

theorem Merge.nil_right (a : List α) : Merge a [] a := by
  induction a with
  | nil => exact .nil
  | cons x b ih => exact .left ih

theorem Merge.append (a b : List α) : Merge a b (a ++ b) := by
  induction a with
  | nil => exact .nil_left b
  | cons x b ih => exact .left ih

theorem Merge.assoc {a mid p b r : List α} (h1 : Merge a mid p) (h2 : Merge b r mid) :
    ∃ c, Merge a b c ∧ Merge c r p := by
  induction h1 generalizing b r with
  | nil => cases h2; exact ⟨[], .nil, .nil⟩
  | left h ih =>
    obtain ⟨c, hc1, hc2⟩ := ih h2
    exact ⟨_, .left hc1, .left hc2⟩
  | right h ih =>
    cases h2 with
    | left h2 =>
      obtain ⟨c, hc1, hc2⟩ := ih h2
      exact ⟨_, .right hc1, .left hc2⟩
    | right h2 =>
      obtain ⟨c, hc1, hc2⟩ := ih h2
      exact ⟨_, hc1, .right hc2⟩

theorem Merge.perm {a b c : List α} (h : Merge a b c) : c.Perm (a ++ b) := by
  induction h with
  | nil => exact .refl _
  | left h ih => exact .cons _ ih
  | right h ih => exact (List.Perm.cons _ ih).trans List.perm_middle.symm

end Merge

variable {x : Ext} {S : SchemaContext} {P : List TypeDef} {ne : Bool}

variable {u u' : Prop}

theorem Cat.lenient_nil (es : List Elem) : Cat u ⟨false, ne⟩ [] es es := ⟨.nil_left es, fun _ => rfl⟩

/-- Without `strict`, the other switch does not matter. -/
theorem Cat.lenient_any {a c p : List Elem} (h : Cat u .lenient a c p) : Cat u ⟨false, ne⟩ a c p := h

theorem Cat.lenient_append (a b : List Elem) : Cat u ⟨false, ne⟩ a b (a ++ b) := ⟨.append a b, fun _ => rfl⟩

theorem Cat.lenient_mono {a b c : List Elem} (h : Cat u ⟨false, ne⟩ a b c) (hu : u → u') : Cat u' ⟨false, ne⟩ a b c :=
  ⟨h.1, fun hn => h.2 fun hh => hn (hu hh)⟩

theorem Cat.lenient_assoc {a mid p b r : List Elem} (h1 : Cat u ⟨false, ne⟩ a mid p) (h2 : Cat u' ⟨false, ne⟩ b r mid) :
    ∃ c, Cat u ⟨false, ne⟩ a b c ∧ Cat (u ∨ u') ⟨false, ne⟩ c r p := by
  by_cases ho : u
  · obtain ⟨c, hc1, hc2⟩ := h1.1.assoc h2.1
    exact ⟨c, ⟨hc1, fun h => absurd ho h⟩, ⟨hc2, fun h => absurd (.inl ho) h⟩⟩
  · have e1 := h1.2 ho
    subst e1
    refine ⟨a ++ b, .lenient_append _ _, ?_, fun h => ?_⟩
    · have : ∀ a : List Elem, Merge (a ++ b) r (a ++ mid) := by
        intro a
        induction a with
        | nil => exact h2.1
        | cons y a ih => exact .left ih
      exact this a
    · rw [h2.2 fun hh => h (.inr hh), List.append_assoc]

/-- Reading turned state `s` into `s'` by consuming a segment that satisfies `R`; only if `u` is it taken from anywhere. -/
def Consumed (u : Prop) (R : List Elem → Prop) (s s' : Queue) : Prop :=
  s'.node = s.node ∧ ∃ es, R es ∧ Cat u .lenient es s'.pending s.pending

theorem Consumed.nothing {R : List Elem → Prop} (s : Queue) (h : R []) : Consumed u R s s :=
  ⟨rfl, [], h, .lenient_nil _⟩

theorem Consumed.bind {R1 R2 R : List Elem → Prop} {s s1 s2 : Queue}
    (h1 : Consumed u R1 s s1) (h2 : Consumed u' R2 s1 s2)
    (h : ∀ a b c, R1 a → R2 b → Cat u .lenient a b c → R c) : Consumed (u ∨ u') R s s2 := by
  obtain ⟨n1, a, ha, c1⟩ := h1
  obtain ⟨n2, b, hb, c2⟩ := h2
  obtain ⟨c, hc, hc'⟩ := c1.lenient_assoc c2
  exact ⟨n2.trans n1, c, h a b c ha hb hc, hc'⟩

theorem Consumed.mono {R R' : List Elem → Prop} {s s' : Queue} (h : Consumed u R s s')
    (hr : ∀ es, R es → R' es) : Consumed u R' s s' := by
  obtain ⟨n, es, he, hc⟩ := h
  exact ⟨n, es, hr es he, hc⟩

theorem Consumed.loosen {R : List Elem → Prop} {s s' : Queue} (h : Consumed u R s s') (hu : u → u') : Consumed u' R s s' := by
  obtain ⟨n, es, he, hc⟩ := h
  exact ⟨n, es, he, hc.lenient_mono (ne := false) hu⟩

theorem queue_text_ok {s : Queue} {t : Str} (h : ofExcept (queueOps.text s) = .ok t) : TextIs ⟨false, ne⟩ s.node t := by
  simp only [queueOps, Queue.textVal] at h
  unfold TextIs
  split at h
  · next he => cases h; exact .inl ⟨he, rfl⟩
  · next he => cases h; exact .inr ⟨_, he⟩
  · cases h
  · cases h

section
variable {T : Name → Val → Elem → List Elem → Prop} {cF : Str → Queue → DRes Queue Val} {cL : Str → Queue → DRes Queue Bool}

/-- The induction hypothesis: calls to generated readers are sound. -/
def CallSound (x : Ext) (S : SchemaContext) (T : Name → Val → Elem → List Elem → Prop)
    (cF : Str → Queue → DRes Queue Val) : Prop :=
  ∀ n i s v s', typeIdent x n = .ok i → (S.get n).isSome = true → cF i s = .ok (v, s') →
    Consumed (Loose S n) (T n v s.node) s s'

/-- If `ne` representations are wanted: a group that is entered after looking ahead consumes something. -/
def GroupNE (x : Ext) (S : SchemaContext) (ne : Bool) (cF : Str → Queue → DRes Queue Val)
    (cL : Str → Queue → DRes Queue Bool) (l : Leaf) : Prop :=
  ne = true → l.isVirtual = true → ∀ n i vr, l.definition.content = .named n → pascalIdent x n = .ok i →
    contentRead x S (.named n) = .ok vr → ∀ s w s', cL i s = .ok (true, s) →
      readVal x queueOps cF vr s = .ok (w, s') → s'.pending.length < s.pending.length

theorem Cat.lenient_ne {a r p : List Elem} (h : Cat u .lenient a r p) (hl : r.length < p.length) : a ≠ [] := by
  rintro rfl
  have := h.1.perm.length_eq
  simp at this; omega

theorem Consumed.withNe {R : List Elem → Prop} {s s' : Queue} (h : Consumed u R s s')
    (hl : ne = true → s'.pending.length < s.pending.length) : Consumed u (fun es => R es ∧ (ne = true → es ≠ [])) s s' := by
  obtain ⟨n, es, he, hc⟩ := h
  exact ⟨n, es, ⟨he, fun hb => hc.lenient_ne (hl hb)⟩, hc⟩

theorem RItem.ne_nil {T : Name → Val → Elem → List Elem → Prop} {m : Mode} {l : Leaf} {v : Val} {e : Elem} {es : List Elem}
    (hv : l.isVirtual = false) (h : RItem x m S T l v e es) : es ≠ [] := by
  unfold RItem at h
  rw [if_neg (by simp [hv])] at h
  obtain ⟨ch, rfl, _⟩ := h
  simp

/-- Lookahead does not change the state. -/
def LookPure (cL : Str → Queue → DRes Queue Bool) : Prop :=
  ∀ i s b s', cL i s = .ok (b, s') → s' = s

theorem readVal_sound (hF : CallSound x S T cF) {c : LeafContent} {vr : ValRead}
    (hc : contentRead x S c = .ok vr) (hcl : ∀ n, Means S c (.named n) → (S.get n).isSome = true)
    {s s' : Queue} {v : Val} (h : readVal x queueOps cF vr s = .ok (v, s')) :
    Consumed (LooseVal S c) (RVal x ⟨false, ne⟩ S T c v s.node) s s' := by
  rcases contentRead_ok hc with ⟨t, hm, rfl⟩ | ⟨f, hm, rfl⟩ | ⟨n, i, hm, hi, rfl⟩
  · simp only [readVal, Res.bind_eq_ok] at h
    obtain ⟨tx, htx, w, hw, h⟩ := h
    cases h
    refine .nothing _ ⟨_, hm, tx, queue_text_ok htx, ?_, rfl⟩
    unfold parseLit at hw
    split at hw
    · next hp => cases hw; exact hp
    · cases hw
  · simp only [readVal, Res.bind_eq_ok] at h
    obtain ⟨tx, htx, h⟩ := h
    split at h
    · next he => subst he; cases h; exact .nothing _ ⟨_, hm, queue_text_ok htx, rfl, rfl⟩
    · cases h
  · exact ((hF n i s v s' hi (hcl n hm) h).mono (fun es he => ⟨_, hm, he⟩)).loosen fun h => ⟨n, hm, h⟩

theorem readOn_sound (hF : CallSound x S T cF) {c : LeafContent} {vr : ValRead}
    (hc : contentRead x S c = .ok vr) (hcl : ∀ n, Means S c (.named n) → (S.get n).isSome = true)
    {ch : Elem} {v : Val} (h : readOn x queueOps cF vr ch = .ok v) :
    RChild x ⟨false, ne⟩ S T c v ch := by
  simp only [readOn, Res.bind_eq_ok] at h
  obtain ⟨⟨w, s'⟩, hw, h⟩ := h
  cases h
  obtain ⟨_, es, he, hcat⟩ := readVal_sound (ne := ne) hF hc hcl hw
  exact ⟨es, s'.pending, hcat, fun hh => (by cases hh), he⟩

theorem next_some {s s' : Queue} {q : QName} {ch : Elem} (h : queueOps.next s q = (some ch, s')) :
    ch.1.name = q ∧ s'.node = s.node ∧ s.pending = ch :: s'.pending := by
  obtain ⟨e, p⟩ := s
  simp only [queueOps] at h
  cases p with
  | nil => simp [Queue.popIf] at h
  | cons a p =>
    simp only [Queue.popIf] at h
    split at h
    · next hq => cases h; exact ⟨hq, rfl, rfl⟩
    · cases h

theorem next_none {s s' : Queue} {q : QName} (h : queueOps.next s q = (none, s')) :
    s' = s ∧ ∀ ch r, s.pending = ch :: r → ch.1.name ≠ q := by
  obtain ⟨e, p⟩ := s
  simp only [queueOps] at h
  cases p with
  | nil => simp [Queue.popIf] at h; subst h; exact ⟨rfl, fun _ _ hh => by cases hh⟩
  | cons a p =>
    simp only [Queue.popIf] at h
    split at h
    · cases h
    · next hq => cases h; exact ⟨rfl, fun _ _ hh => by cases hh; exact hq⟩

/-- An occurrence that is one child element. -/
theorem item_of_child {l : Leaf} {ch : Elem} {v : Val} {s s' : Queue} (hv : l.isVirtual = false)
    (hq : S.expanded l.name = .ok ch.1.name)
    (hc : RChild x ⟨false, ne⟩ S T l.definition.content v ch) (hn : s'.node = s.node)
    (hp : Cat u ⟨false, ne⟩ [ch] s'.pending s.pending) (e : Elem) : Consumed u (RItem x ⟨false, ne⟩ S T l v e) s s' := by
  refine ⟨hn, [ch], ?_, hp⟩
  unfold RItem
  rw [if_neg (by simp [hv])]
  exact ⟨ch, rfl, hq, hc⟩

theorem loopNext_sound (hF : CallSound x S T cF) {l : Leaf} {q : QName} {vr : ValRead} (hl : l.isVirtual = false)
    (hq : S.expanded l.name = .ok q)
    (hc : contentRead x S l.definition.content = .ok vr)
    (hcl : ∀ n, Means S l.definition.content (.named n) → (S.get n).isSome = true) (k : Nat)
    {s s' : Queue} {vs : List Val} (h : loopNext x queueOps cF q vr k s = .ok (vs, s')) :
    Consumed (LooseLeaf S l) (RMany x ⟨false, ne⟩ S T l vs s.node) s s' := by
  induction k generalizing s s' vs with
  | zero => simp [loopNext] at h
  | succ k ih =>
    simp only [loopNext] at h
    split at h
    · next s1 hn => cases h; obtain ⟨rfl, _⟩ := next_none hn; exact .nothing _ rfl
    · next ch s1 hn =>
      simp only [Res.bind_eq_ok] at h
      obtain ⟨w, hw, ⟨r, s2⟩, hr, h⟩ := h
      cases h
      obtain ⟨h1, h2, h3⟩ := next_some hn
      subst h1
      have hi : Consumed (LooseLeaf S l) (RItem x ⟨false, ne⟩ S T l w s.node) s s1 :=
        item_of_child (ne := ne) hl hq (readOn_sound (ne := ne) hF hc hcl hw) h2 (by rw [h3]; exact .lenient_append [ch] _) _
      refine (hi.bind (ih hr) ?_).loosen fun h => h.elim id id
      intro a b c ha hb hcat
      rw [h2] at hb
      exact ⟨a, b, ha, fun _ => ha.ne_nil hl, hb, hcat⟩

theorem loopLook_sound (hF : CallSound x S T cF) (hL : LookPure cL) {l : Leaf} {i : Str} {vr : ValRead}
    (hne : GroupNE x S ne cF cL l) {n : Name} (hn : l.definition.content = .named n) (hi : pascalIdent x n = .ok i)
    (hl : l.isVirtual = true) (hc : contentRead x S l.definition.content = .ok vr)
    (hcl : ∀ n, Means S l.definition.content (.named n) → (S.get n).isSome = true) (k : Nat)
    {s s' : Queue} {vs : List Val} (h : loopLook x queueOps cF cL i vr k s = .ok (vs, s')) :
    Consumed (LooseLeaf S l) (RMany x ⟨false, ne⟩ S T l vs s.node) s s' := by
  induction k generalizing s s' vs with
  | zero => simp [loopLook] at h
  | succ k ih =>
    simp only [loopLook, Res.bind_eq_ok] at h
    obtain ⟨⟨b, s1⟩, hb, h⟩ := h
    have := hL _ _ _ _ hb
    subst this
    split at h
    · simp only [Res.bind_eq_ok] at h
      obtain ⟨⟨w, s2⟩, hw, ⟨r, s3⟩, hr, h⟩ := h
      cases h
      have h1 := (readVal_sound (ne := ne) hF hc hcl hw).withNe (ne := ne) (fun h1 =>
        hne h1 hl n i vr hn hi (hn ▸ hc) _ _ _ (by simp_all) hw)
      replace h1 := h1.loosen (u' := LooseLeaf S l) fun h => .inr ⟨hl, h⟩
      refine (h1.bind (ih hr) ?_).loosen fun h => h.elim id id
      intro a b c ha hb hcat
      have hn : s2.node = s1.node := h1.1
      rw [hn] at hb
      refine ⟨a, b, ?_, ha.2, hb, hcat⟩
      unfold RItem; rw [if_pos hl]; exact ha.1
    · cases h; exact .nothing _ rfl

theorem takeFirst_cat (q : QName) : ∀ (es : List Elem) (ch : Elem), (Queue.takeFirst q es).1 = some ch →
    ch.1.name = q ∧ Merge [ch] (Queue.takeFirst q es).2 es := by
  intro es
  induction es with
  | nil => intro ch h; simp [Queue.takeFirst] at h
  | cons a es ih =>
    intro ch h
    by_cases ha : a.1.name = q
    · simp only [Queue.takeFirst, List.find?_cons, ha, decide_true, Option.some.injEq] at h
      subst h
      simp only [Queue.takeFirst, List.eraseP_cons, ha, decide_true, cond_true, true_and]
      exact .left (.nil_left es)
    · simp only [Queue.takeFirst, List.find?_cons, ha, decide_false] at h
      have := ih ch h
      refine ⟨this.1, ?_⟩
      simp only [Queue.takeFirst, List.eraseP_cons, ha, decide_false]
      exact .right this.2

theorem readLeaf_sound (hF : CallSound x S T cF) (hL : LookPure cL) {l : Leaf}
    (hne : l.repeats = true ∨ l.mayMiss = true → GroupNE x S ne cF cL l) {p : Str × LeafRead}
    (hl : leafRead x S l = .ok p)
    (hcl : ∀ n, Means S l.definition.content (.named n) → (S.get n).isSome = true)
    (k : Nat)
    {s s' : Queue} {v : Val} (h : readLeaf x queueOps cF cL k p.2 s = .ok (v, s')) :
    Consumed (LooseLeaf S l) (ROcc x ⟨false, ne⟩ S T l v s.node) s s' := by
  obtain ⟨q, vr, _, hq, hc, hcase⟩ := leafRead_ok hl
  obtain ⟨f, lr⟩ := p
  simp only at h hcase
  cases hcase with
  | whileLook h1 h2 hn hi =>
    simp only [readLeaf, Res.bind_eq_ok] at h
    obtain ⟨⟨vs, s1⟩, hr, h⟩ := h
    cases h
    refine (loopLook_sound (ne := ne) hF hL (hne (.inl h2)) hn hi h1 hc hcl k hr).mono ?_
    intro es hm
    unfold ROcc; rw [if_pos h2]
    refine ⟨vs, hm, ?_⟩
    unfold wrapVec
    by_cases ho : l.mayMiss = true
    · simp only [ho, if_true]; by_cases hvs : vs = [] <;> simp [hvs]
    · simp [ho]
  | whileNext h1 h2 =>
    simp only [readLeaf, Res.bind_eq_ok] at h
    obtain ⟨⟨vs, s1⟩, hr, h⟩ := h
    cases h
    refine (loopNext_sound (ne := ne) hF h1 hq hc hcl k hr).mono ?_
    intro es hm
    unfold ROcc; rw [if_pos h2]
    refine ⟨vs, hm, ?_⟩
    unfold wrapVec
    by_cases ho : l.mayMiss = true
    · simp only [ho, if_true]; by_cases hvs : vs = [] <;> simp [hvs]
    · simp [ho]
  | ifLook h1 h2 h3 hn hi =>
    simp only [readLeaf, Res.bind_eq_ok] at h
    obtain ⟨⟨b, s1⟩, hb, h⟩ := h
    have := hL _ _ _ _ hb
    subst this
    split at h
    · simp only [Res.bind_eq_ok] at h
      obtain ⟨⟨w, s2⟩, hw, h⟩ := h
      cases h
      refine (((readVal_sound (ne := ne) hF hc hcl hw).withNe (ne := ne) (fun hne' =>
        hne (.inr h3) hne' h1 _ _ vr hn hi (hn ▸ hc) _ _ _ (by simp_all) hw)).loosen fun h => .inr ⟨h1, h⟩).mono ?_
      intro es hv
      unfold ROcc; rw [if_neg (by simp [h2]), if_pos h3]
      refine .inr ⟨w, rfl, ?_, hv.2⟩
      unfold RItem; rw [if_pos h1]; exact hv.1
    · cases h
      refine .nothing _ ?_
      unfold ROcc; rw [if_neg (by simp [h2]), if_pos h3]
      exact .inl ⟨rfl, rfl⟩
  | plain h1 h2 h3 =>
    simp only [readLeaf] at h
    refine ((readVal_sound (ne := ne) hF hc hcl h).loosen fun h => .inr ⟨h1, h⟩).mono ?_
    intro es hv
    unfold ROcc; rw [if_neg (by simp [h2]), if_neg (by simp [h3])]
    unfold RItem; rw [if_pos h1]; exact hv
  | ifNext h1 h2 h3 =>
    simp only [readLeaf] at h
    split at h
    · next s1 hn =>
      cases h; obtain ⟨rfl, _⟩ := next_none hn
      refine .nothing _ ?_
      unfold ROcc; rw [if_neg (by simp [h2]), if_pos h3]
      exact .inl ⟨rfl, rfl⟩
    · next ch s1 hn =>
      simp only [Res.bind_eq_ok] at h
      obtain ⟨w, hw, h⟩ := h
      cases h
      obtain ⟨e1, e2, e3⟩ := next_some hn
      subst e1
      refine (item_of_child (ne := ne) h1 hq (readOn_sound (ne := ne) hF hc hcl hw) e2
        (by rw [e3]; exact .lenient_append [ch] _) s.node).mono ?_
      intro es hi
      unfold ROcc; rw [if_neg (by simp [h2]), if_pos h3]
      exact .inr ⟨w, rfl, hi, fun _ => hi.ne_nil h1⟩
  | tryChild h1 h2 h3 h4 =>
    simp only [readLeaf] at h
    split at h
    · cases h
    · next ch s1 hn =>
      simp only [Res.bind_eq_ok] at h
      obtain ⟨w, hw, h⟩ := h
      cases h
      simp only [queueOps, Prod.mk.injEq] at hn
      obtain ⟨hn1, rfl⟩ := hn
      cases ht : (Queue.takeFirst q s.pending).1 with
      | none => rw [ht] at hn1; simp [Queue.orMissing] at hn1
      | some ch' =>
        rw [ht] at hn1
        simp only [Queue.orMissing, Except.ok.injEq] at hn1
        subst hn1
        obtain ⟨e1, e2⟩ := takeFirst_cat q _ _ ht
        subst e1
        refine (item_of_child (ne := ne) (s := s) (s' := ⟨s.node, (Queue.takeFirst ch'.1.name s.pending).2⟩) h1 hq (readOn_sound (ne := ne) hF hc hcl hw) rfl
          ⟨e2, fun ho => absurd (.inl (by simp [Leaf.anywhere, h1, h2, h3, h4])) ho⟩ s.node).mono ?_
        intro es hi
        unfold ROcc; rw [if_neg (by simp [h2]), if_neg (by simp [h3])]
        exact hi
  | tryNext h1 h2 h3 h4 =>
    simp only [readLeaf] at h
    split at h
    · cases h
    · next ch s1 hn =>
      simp only [Res.bind_eq_ok] at h
      obtain ⟨w, hw, h⟩ := h
      cases h
      simp only [queueOps, Prod.mk.injEq] at hn
      obtain ⟨hn1, rfl⟩ := hn
      cases ht : Queue.popIf q s.pending with
      | mk o r =>
        rw [ht] at hn1
        cases o with
        | none => simp [Queue.orMissing] at hn1
        | some ch' =>
          simp only [Queue.orMissing, Except.ok.injEq] at hn1
          subst hn1
          have hs : queueOps.next s q = (some ch', ⟨s.node, r⟩) := by simp [queueOps, ht]
          obtain ⟨e1, e2, e3⟩ := next_some hs
          subst e1
          have := item_of_child (ne := ne) h1 hq (readOn_sound (ne := ne) hF hc hcl hw) e2
            (by rw [e3]; exact .lenient_append (u := LooseLeaf S l) [ch'] _) s.node
          refine this.mono ?_
          intro es hi
          unfold ROcc; rw [if_neg (by simp [h2]), if_neg (by simp [h3])]
          exact hi

theorem readLeaves_sound (hF : CallSound x S T cF) (hL : LookPure cL) (k : Nat) (ls : List Leaf)
    (hne : ∀ l ∈ ls, l.repeats = true ∨ l.mayMiss = true → GroupNE x S ne cF cL l)
    {rs : List (Str × LeafRead)} (hl : mapRes (leafRead x S) ls = .ok rs)
    (hcl : ∀ l ∈ ls, ∀ n, Means S l.definition.content (.named n) → (S.get n).isSome = true)
    {s s' : Queue} {fs : List (Str × Val)} (h : readLeaves x queueOps cF cL k rs s = .ok (fs, s')) :
    Consumed (∃ l ∈ ls, LooseLeaf S l) (RLeaves x ⟨false, ne⟩ S T ls fs s.node) s s' := by
  induction ls generalizing rs s s' fs with
  | nil =>
    simp [mapRes] at hl; subst hl
    simp [readLeaves] at h
    obtain ⟨rfl, rfl⟩ := h
    exact .nothing _ ⟨rfl, rfl⟩
  | cons l ls ih =>
    obtain ⟨p, rs', hp, hrs, rfl⟩ := mapRes_cons_ok.1 hl
    obtain ⟨f, lr⟩ := p
    simp only [readLeaves, Res.bind_eq_ok] at h
    obtain ⟨⟨w, s1⟩, hw, ⟨r, s2⟩, hr, h⟩ := h
    cases h
    have h1 := readLeaf_sound (ne := ne) hF hL (hne l (by simp)) hp (hcl l (by simp)) k hw
    have h2 := ih (fun l hl => hne l (by simp [hl])) hrs (fun l hl => hcl l (by simp [hl])) hr
    refine (h1.bind h2 ?_).loosen fun h => h.elim (fun h => ⟨l, by simp, h⟩) fun ⟨l', h, h'⟩ => ⟨l', by simp [h], h'⟩
    intro a b c ha hb hcat
    have hn : s1.node = s.node := h1.1
    rw [hn] at hb
    obtain ⟨_, _, hf, _⟩ := leafRead_ok hp
    exact ⟨f, w, r, a, b, rfl, hf, ha, hb, hcat⟩

theorem readChoice_sound (hF : CallSound x S T cF) (hL : LookPure cL) (k : Nat) (self : Str) (vs : List Leaf)
    (hne : ∀ l ∈ vs, GroupNE x S ne cF cL l)
    {rs : List (Str × VarRead)} (hl : mapRes (variantRead x S) vs = .ok rs)
    (hcl : ∀ l ∈ vs, ∀ n, Means S l.definition.content (.named n) → (S.get n).isSome = true)
    {s s' : Queue} {v : Val} (h : readChoice x queueOps cF cL k self rs s = .ok (v, s')) :
    Consumed (∃ l ∈ vs, LooseLeaf S l) (fun es => ∃ l ∈ vs, ∃ i w, pascalIdent x l.name = .ok i ∧ v = .variant i w ∧
      RVariant x ⟨false, ne⟩ S T l w s.node es) s s' := by
  induction vs generalizing rs s s' v with
  | nil => simp [mapRes] at hl; subst hl; simp [readChoice] at h
  | cons l vs ih =>
    obtain ⟨p, rs', hp, hrs, rfl⟩ := mapRes_cons_ok.1 hl
    obtain ⟨q, vr, hi, hq, hc, hcase⟩ := variantRead_ok hp
    obtain ⟨i, pr⟩ := p
    simp only at hi hcase
    have hrest : ∀ {s1 : Queue}, s1 = s → readChoice x queueOps cF cL k self rs' s1 = .ok (v, s') →
        Consumed (∃ l' ∈ l :: vs, LooseLeaf S l') (fun es => ∃ l' ∈ l :: vs, ∃ i w, pascalIdent x l'.name = .ok i ∧ v = .variant i w ∧
          RVariant x ⟨false, ne⟩ S T l' w s.node es) s s' := by
      rintro s1 rfl h
      refine ((ih (fun l hl => hne l (by simp [hl])) hrs (fun l hl => hcl l (by simp [hl])) h).loosen
        fun ⟨l', h, h'⟩ => ⟨l', by simp [h], h'⟩).mono ?_
      rintro es ⟨l', hl', hh⟩
      exact ⟨l', by simp [hl'], hh⟩
    cases hcase with
    | virt h1 hn hi' =>
      simp only [readChoice, Res.bind_eq_ok] at h
      obtain ⟨⟨b, s1⟩, hb, h⟩ := h
      have := hL _ _ _ _ hb
      split at h
      · simp only [Res.bind_eq_ok] at h
        obtain ⟨⟨w, s2⟩, hw, h⟩ := h
        cases h; subst this
        refine (((readVal_sound (ne := ne) hF hc (hcl l (by simp)) hw).withNe (ne := ne) (fun hne' =>
          hne l (by simp) hne' h1 _ _ vr hn hi' (hn ▸ hc) _ _ _ (by simp_all) hw)).loosen fun h => ⟨l, by simp, .inr ⟨h1, h⟩⟩).mono ?_
        intro es he
        refine ⟨l, by simp, i, w, hi, rfl, ?_⟩
        unfold RVariant; rw [if_pos h1]
        refine ⟨?_, he.2⟩
        unfold RItem; rw [if_pos h1]; exact he.1
      · exact hrest this h
    | vec h1 h2 =>
      simp only [readChoice] at h
      split at h
      · next hpk =>
        simp only [Res.bind_eq_ok] at h
        obtain ⟨⟨ws, s2⟩, hw, h⟩ := h
        cases h
        have hpeek : (queueOps.peek s q).2 = s := rfl
        rw [hpeek] at hw
        have hm := loopNext_sound (ne := ne) hF h1 hq hc (hcl l (by simp)) k hw
        refine (hm.loosen fun h => ⟨l, by simp, h⟩).mono ?_
        intro es he
        refine ⟨l, by simp, i, .vec ws, hi, rfl, ?_⟩
        unfold RVariant; rw [if_neg (by simp [h1]), if_pos h2]
        refine ⟨ws, rfl, ?_, he⟩
        rintro _ rfl
        -- the first iteration finds the element just peeked
        cases k with
        | zero => simp [loopNext] at hw
        | succ k =>
          simp only [loopNext] at hw
          split at hw
          · next s1 hn =>
            obtain ⟨_, hno⟩ := next_none hn
            simp only [queueOps] at hpk
            cases hp : s.pending with
            | nil => simp [hp] at hpk
            | cons a r => simp [hp] at hpk; exact hno a r hp hpk
          · simp only [Res.bind_eq_ok] at hw
            obtain ⟨_, _, _, _, hw⟩ := hw
            cases hw
      · exact hrest rfl h
    | single h1 h2 =>
      simp only [readChoice] at h
      split at h
      · next ch s1 hn =>
        simp only [Res.bind_eq_ok] at h
        obtain ⟨w, hw, h⟩ := h
        cases h
        obtain ⟨e1, e2, e3⟩ := next_some hn
        subst e1
        refine (item_of_child (ne := ne) h1 hq (readOn_sound (ne := ne) hF hc (hcl l (by simp)) hw) e2
          (by rw [e3]; exact .lenient_append (u := ∃ l' ∈ l :: vs, LooseLeaf S l') [ch] _) s.node).mono ?_
        intro es he
        refine ⟨l, by simp, i, w, hi, rfl, ?_⟩
        unfold RVariant; rw [if_neg (by simp [h1]), if_neg (by simp [h2])]
        exact he
      · next s1 hn =>
        exact hrest (next_none hn).1 h

end

/-- The declared table of an enumeration is the one computed from its values. -/
theorem rootDecl_enum {names : List Name} {d : Decl} (h : rootDecl x S (.enum names) = .ok d) :
    ∃ tab, escapeEnumNames x names = .ok tab ∧ d = .enum tab ∧ ∀ p ∈ tab, x.identOk p.1 = true := by
  simp only [rootDecl, Res.bind_eq_ok] at h
  obtain ⟨m, hm, vs, hvs, h⟩ := h
  cases h
  have : vs = m ∧ ∀ p ∈ m, x.identOk p.1 = true := by
    clear hm
    induction m generalizing vs with
    | nil => simp [mapRes] at hvs; simp [hvs]
    | cons p m ih =>
      obtain ⟨b, bs, hb, hbs, rfl⟩ := mapRes_cons_ok.1 hvs
      rw [Res.bind_eq_ok] at hb
      obtain ⟨w, hw, hb⟩ := hb
      unfold formatIdent at hw
      split at hw
      · next hok =>
        cases hw; cases hb
        obtain ⟨rfl, h2⟩ := ih bs hbs
        exact ⟨rfl, by rintro p' hp'; rcases List.mem_cons.1 hp' with rfl | hp'; exact hok; exact h2 _ hp'⟩
      · cases hw
  obtain ⟨rfl, hok⟩ := this
  exact ⟨_, hm, rfl, hok⟩

theorem enumFromStr_ok {vs : List (Str × Str)} {s : Str} {v : Val} (h : enumFromStr vs s = .ok v) :
    ∃ vn, (vn, s) ∈ vs ∧ v = .enumv vn := by
  unfold enumFromStr at h
  split at h
  · next p hp =>
    cases h
    have h1 := List.mem_of_find?_eq_some hp
    have h2 : p.2 = s := by simpa using List.find?_some hp
    subst h2
    exact ⟨p.1, h1, rfl⟩
  · cases h

theorem attrRead_ok {a : Attribute} {r : AttrRead} (h : attrRead x S a = .ok r) :
    fieldIdent x a.name = .ok r.field ∧ r.name = a.name.name ∧ r.optional = a.isOptional ∧
    ((∃ t, a.content = .literal t ∧ r.inner = .lit t) ∨ (∃ s, a.content = .fixed s ∧ r.inner = .unit) ∨
     (∃ n ty, a.content = .named n ∧ contentTy x S a.content = .ok ty ∧ r.inner = .fromStr ty)) := by
  unfold attrRead at h
  rw [Res.bind_eq_ok] at h
  obtain ⟨f, hf, h⟩ := h
  split at h
  · next t ht => cases h; exact ⟨hf, rfl, rfl, .inl ⟨t, ht, rfl⟩⟩
  · next n hn =>
    simp only [Res.bind_eq_ok] at h
    obtain ⟨ty, hty, _, h1, h⟩ := h
    cases h1; cases h
    exact ⟨hf, rfl, rfl, .inr (.inr ⟨n, ty, hn, hty, rfl⟩)⟩
  · next s hs => cases h; exact ⟨hf, rfl, rfl, .inr (.inl ⟨s, hs, rfl⟩)⟩

theorem readStr_sound (G : Generated x S P) {a : Attribute} {r : AttrRead} (hr : attrRead x S a = .ok r)
    (hcl : ∀ n, Means S a.content (.named n) → (S.get n).isSome = true)
    {s : Str} {v : Val} (h : readStr x P r.inner s = .ok v) : RStr x ⟨false, ne⟩ S a.content s v := by
  obtain ⟨_, _, _, hcase⟩ := attrRead_ok hr
  unfold RStr
  rcases hcase with ⟨t, ht, hi⟩ | ⟨f, hf, hi⟩ | ⟨n, ty, hn, hty, hi⟩
  · rw [ht]; rw [hi] at h
    simp only [readStr, parseLit] at h
    split at h
    · next hp => cases h; exact hp
    · cases h
  · rw [hf]; rw [hi] at h; cases h; exact ⟨rfl, fun hh => by cases hh⟩
  · rw [hi] at h
    simp only [readStr] at h
    rw [hn] at hty hcl
    rw [hn]
    rcases contentTy_ok hty with ⟨t, hm, rfl⟩ | ⟨f, hm, rfl⟩ | ⟨n', i, hm, hi', rfl⟩
    · refine ⟨_, hm, ?_⟩
      unfold fromStrAt at h
      split at h
      · next hp => cases h; exact ⟨(Ty.prim.inj hp), rfl⟩
      · next hp => cases hp
      · cases h
    · cases h
    · refine ⟨_, hm, ?_⟩
      obtain ⟨r', t, hr', hf, hid, hg⟩ := G.find' hi' (hcl n' hm)
      simp only [fromStrAt, hf] at h
      have hd := hg.decl
      cases r' with
      | leaf d => exact absurd hr' (hm.fst_named d)
      | enum names =>
        obtain ⟨tab, htab, hdt, _⟩ := rootDecl_enum hd
        rw [hdt] at h
        obtain ⟨vn, hvn, rfl⟩ := enumFromStr_ok h
        exact ⟨names, tab, vn, hr', htab, hvn, rfl⟩
      | element d =>
        simp only [rootDecl, Res.bind_eq_ok] at hd
        obtain ⟨_, _, _, _, hd⟩ := hd
        cases hd' : t.decl <;> rw [hd'] at hd <;> cases hd
        rw [hd'] at h; cases h
      | choice vs b d =>
        simp only [rootDecl, Res.bind_eq_ok] at hd
        obtain ⟨_, _, hd⟩ := hd
        cases hd' : t.decl <;> rw [hd'] at hd <;> cases hd
        rw [hd'] at h; cases h

theorem attrVal_eq_attrOf (e : Elem) (n : Str) : Queue.attrVal e n = attrOf e.1 n := by
  simp [Queue.attrVal, attrOf, List.head?_filter]

theorem readAttrs_sound (G : Generated x S P) (as : List Attribute) {rs : List AttrRead}
    (hr : mapRes (attrRead x S) as = .ok rs)
    (hcl : ∀ a ∈ as, ∀ n, Means S a.content (.named n) → (S.get n).isSome = true)
    {s : Queue} {fs : List (Str × Val)} (h : readAttrs x queueOps P rs s = .ok fs) :
    RAttrs x ⟨false, ne⟩ S as fs s.node := by
  induction as generalizing rs fs with
  | nil => simp [mapRes] at hr; subst hr; simp [readAttrs] at h; subst h; rfl
  | cons a as ih =>
    obtain ⟨r, rs', hra, hrs, rfl⟩ := mapRes_cons_ok.1 hr
    simp only [readAttrs, Res.bind_eq_ok] at h
    obtain ⟨w, hw, fs', hfs, h⟩ := h
    cases h
    obtain ⟨hf, hn, ho, _⟩ := attrRead_ok hra
    refine ⟨_, w, fs', rfl, hf, ih hrs (fun a ha => hcl a (by simp [ha])) hfs, ?_⟩
    unfold readAttr at hw
    rw [hn, ho] at hw
    by_cases hopt : a.isOptional = true
    · rw [if_pos hopt] at hw ⊢
      have hat : queueOps.attr s a.name.name = attrOf s.node.1 a.name.name := attrVal_eq_attrOf _ _
      rw [hat] at hw
      split at hw
      · next sv hsv =>
        rw [Res.bind_eq_ok] at hw
        obtain ⟨w', hw', hw⟩ := hw
        cases hw
        exact .inr ⟨sv, w', hsv, rfl, readStr_sound (ne := ne) G hra (hcl a (by simp)) hw'⟩
      · next hsv => cases hw; exact .inl ⟨rfl, hsv⟩
    · rw [if_neg hopt] at hw ⊢
      rw [Res.bind_eq_ok] at hw
      obtain ⟨sv, hsv, hw⟩ := hw
      refine ⟨sv, ?_, readStr_sound (ne := ne) G hra (hcl a (by simp)) hw⟩
      simp only [queueOps, attrVal_eq_attrOf] at hsv
      split at hsv
      · next v hv => cases hsv; exact hv
      · cases hsv

theorem lookahead_pure (k : Nat) : LookPure (lookahead queueOps P k) := by
  induction k with
  | zero => intro i s b s' h; simp [lookahead] at h
  | succ k ih =>
    have hck : ∀ cs s b s', runChecks queueOps (lookahead queueOps P k) cs s = .ok (b, s') → s' = s := by
      intro cs
      induction cs with
      | nil => intro s b s' h; simp [runChecks] at h; exact h.2.symm
      | cons c cs ihc =>
        intro s b s' h
        cases c with
        | call i =>
          simp only [runChecks, Res.bind_eq_ok] at h
          obtain ⟨⟨b1, s1⟩, h1, h⟩ := h
          have := ih _ _ _ _ h1
          subst this
          split at h
          · cases h; rfl
          · exact ihc _ _ _ h
        | peek q =>
          simp only [runChecks] at h
          have hp : (queueOps.peek s q).2 = s := rfl
          rw [hp] at h
          split at h
          · cases h; rfl
          · exact ihc _ _ _ h
    intro i s b s' h
    simp only [lookahead] at h
    split at h
    · cases h
    · split at h
      · cases h; rfl
      · exact hck _ _ _ _ h

theorem fromNode_sound' (G : Generated x S P)
    (hne : ∀ k n r, S.get n = some r → ∀ l ∈ r.leaves,
      (∃ vs b d, r = .choice vs b d) ∨ l.repeats = true ∨ l.mayMiss = true →
      GroupNE x S ne (fromNode x queueOps P k) (lookahead queueOps P k) l)
    (k : Nat) : CallSound x S (TRepr x ⟨false, ne⟩ S k) (fromNode x queueOps P k) := by
  induction k with
  | zero => intro n i s v s' _ _ h; simp [fromNode] at h
  | succ k ih =>
    intro n i s v s' hi hn h
    obtain ⟨r, t, hr, hft, hid, hg⟩ := G.find' hi hn
    simp only [fromNode, hft] at h
    have hL := lookahead_pure (P := P) k
    have hrd := hg.read
    have key : Consumed (Loose S n) (RRoot x ⟨false, ne⟩ S (TRepr x ⟨false, ne⟩ S k) r v s.node) s s' := by
      cases r with
      | leaf d =>
        simp only [rootRead, Res.bind_eq_ok] at hrd
        obtain ⟨vr, hvr, hrd⟩ := hrd
        simp only [runFrom, ← Res.ok.inj hrd, Res.bind_eq_ok] at h
        obtain ⟨⟨w, s1⟩, hw, h⟩ := h
        cases h
        refine ((readVal_sound (ne := ne) ih hvr (fun m hm => G.closedAt hr (by simp [Root.contents]) hm) hw).loosen
          fun ⟨m, hm, h⟩ => .value hr rfl hm h).mono ?_
        intro es he; exact ⟨w, rfl, he⟩
      | enum names =>
        simp only [rootRead, Res.pure_eq] at hrd
        simp only [runFrom, ← Res.ok.inj hrd, Res.bind_eq_ok] at h
        obtain ⟨tx, htx, h⟩ := h
        obtain ⟨tab, htab, hdt, _⟩ := rootDecl_enum hg.decl
        rw [hdt] at h
        simp only [Res.bind_eq_ok] at h
        obtain ⟨w, hw, h⟩ := h
        cases h
        obtain ⟨vn, hvn, rfl⟩ := enumFromStr_ok hw
        exact .nothing _ ⟨tab, vn, tx, htab, hvn, queue_text_ok htx, rfl, rfl⟩
      | element d =>
        simp only [rootRead, Res.bind_eq_ok] at hrd
        obtain ⟨c, hc, as, has, hrd⟩ := hrd
        simp only [runFrom, ← Res.ok.inj hrd, Res.bind_eq_ok] at h
        obtain ⟨⟨fc, s1⟩, hfc, fa, hfa, h⟩ := h
        cases h
        have hcont : Consumed (Loose S n) (RContent x ⟨false, ne⟩ S (TRepr x ⟨false, ne⟩ S k) d.content fc s.node) s s1 := by
          cases hd : d.content with
          | none =>
            rw [hd] at hc; simp only [elementContentRead, Res.pure_eq] at hc
            rw [← Res.ok.inj hc] at hfc
            simp only [readContent] at hfc
            cases hfc
            exact .nothing _ ⟨rfl, rfl⟩
          | some ec =>
            cases ec with
            | leaf ln ld =>
              rw [hd] at hc
              simp only [elementContentRead, Res.bind_eq_ok] at hc
              obtain ⟨f, hf, vr, hvr, hc⟩ := hc
              rw [← Res.ok.inj hc] at hfc
              simp only [readContent, Res.bind_eq_ok] at hfc
              obtain ⟨⟨w, s2⟩, hw, hfc⟩ := hfc
              cases hfc
              refine ((readVal_sound (ne := ne) ih hvr
                (fun m hm => G.closedAt hr (by simp [Root.contents, hd]) hm) hw).loosen
                fun ⟨m, hm, h⟩ => .value hr (by simp [Root.value, hd]) hm h).mono ?_
              intro es he
              exact ⟨f, w, rfl, hf, he⟩
            | leaves ls =>
              rw [hd] at hc
              simp only [elementContentRead, Res.bind_eq_ok] at hc
              obtain ⟨rs, hrs, hc⟩ := hc
              rw [← Res.ok.inj hc] at hfc
              simp only [readContent] at hfc
              refine ((readLeaves_sound (ne := ne) ih hL k ls (fun l hl ho => hne k n _ hr l (by simpa [Root.leaves, hd] using hl) (.inr ho)) hrs
                (fun l hl m hm => G.closedAt hr ?_ hm) hfc).loosen ?_).mono ?_
              · simp only [Root.contents, hd, List.mem_append, List.mem_map]
                exact .inl ⟨l, hl, rfl⟩
              · rintro ⟨l, hl, ho | ⟨hv, m, hm, ho⟩⟩
                · exact .member hr (by simpa [Root.leaves, hd] using hl) ho
                · exact .group hr (by simpa [Root.leaves, hd] using hl) hv hm ho
              · intro es he; exact ⟨es, he, .inl rfl⟩
        have hfa' := readAttrs_sound (ne := ne) G d.attributes has (fun a ha m hm => G.closedAt hr
          (by simp only [Root.contents, List.mem_append, List.mem_map]; exact .inr ⟨a, ha, rfl⟩) hm) hfa
        have hn1 : s1.node = s.node := hcont.1
        simp only [hn1] at hfa'
        refine hcont.mono ?_
        intro es he
        exact ⟨fc, fa, rfl, he, hfa'⟩
      | choice vs virt docs =>
        simp only [rootRead, Res.bind_eq_ok] at hrd
        obtain ⟨rs, hrs, hrd⟩ := hrd
        simp only [runFrom, ← Res.ok.inj hrd] at h
        refine ((readChoice_sound (ne := ne) ih hL k t.ident vs (fun l hl => hne k n _ hr l hl (.inl ⟨_, _, _, rfl⟩)) hrs
          (fun l hl m hm => G.closedAt hr ?_ hm) h).loosen ?_).mono ?_
        · simp only [Root.contents, List.mem_map]; exact ⟨l, hl, rfl⟩
        · rintro ⟨l, hl, ho | ⟨hv, m, hm, ho⟩⟩
          · exact .member hr hl ho
          · exact .group hr hl hv hm ho
        · intro es he; exact he
    exact key.mono (fun es he => ⟨r, hr, he⟩)

theorem fromNode_sound (G : Generated x S P) (k : Nat) :
    CallSound x S (TRepr x .lenient S k) (fromNode x queueOps P k) :=
  fromNode_sound' G (fun _ _ _ _ _ _ _ h => by cases h) k

end Xsd
