import Verif.Spec.Det
import Verif.Lemmas.Arranged
import Verif.Lemmas.ExecMono
/-!
# A document that represents a value is read as that value

For schemas that satisfy the one-element-lookahead condition of `Verif/Spec/Det.lean`.
-/
namespace Xsd

/-- Holds for all large enough fuel. -/
def Evt (p : Nat → Prop) : Prop := ∃ k0, ∀ k, k0 ≤ k → p k

theorem Evt.of {p : Nat → Prop} (h : ∀ k, p k) : Evt p := ⟨0, fun k _ => h k⟩

theorem Evt.and {p q : Nat → Prop} (hp : Evt p) (hq : Evt q) : Evt (fun k => p k ∧ q k) := by
  obtain ⟨a, ha⟩ := hp
  obtain ⟨b, hb⟩ := hq
  exact ⟨max a b, fun k hk => ⟨ha k (by omega), hb k (by omega)⟩⟩

theorem Evt.mono {p q : Nat → Prop} (hp : Evt p) (h : ∀ k, p k → q k) : Evt q := by
  obtain ⟨a, ha⟩ := hp
  exact ⟨a, fun k hk => h k (ha k hk)⟩

theorem Evt.succ {p : Nat → Prop} (hp : Evt (fun k => p (k + 1))) : Evt p := by
  obtain ⟨a, ha⟩ := hp
  refine ⟨a + 1, fun k hk => ?_⟩
  obtain ⟨j, rfl⟩ : ∃ j, k = j + 1 := ⟨k - 1, by omega⟩
  exact ha j (by omega)

theorem Evt.ge (n : Nat) : Evt (fun k => n ≤ k) := ⟨n, fun _ h => h⟩

theorem sub_mem {a b : List QName} (h : sub a b = true) {q : QName} (hq : q ∈ a) : q ∈ b := by
  simp only [sub, List.all_eq_true, List.contains_iff_mem] at h
  exact h q hq

theorem disj_mem {a b : List QName} (h : disj a b = true) {q : QName} (ha : q ∈ a) (hb : q ∈ b) : False := by
  simp only [disj, List.all_eq_true, Bool.not_eq_true'] at h
  have := h q ha
  rw [← Bool.not_eq_true, List.contains_iff_mem] at this
  exact this hb

theorem headIn_false {L : List QName} {p : List Elem} :
    headIn L p = false ↔ ∀ h t, p = h :: t → h.1.name ∉ L := by
  cases p with
  | nil => simp [headIn]
  | cons a p =>
    simp only [headIn]
    rw [← Bool.not_eq_true, List.contains_iff_mem]
    constructor
    · intro h _ _ hh; cases hh; exact h
    · intro h; exact h a p rfl

theorem headIn_mono {L L' : List QName} {p : List Elem} (hs : ∀ q, q ∈ L → q ∈ L') (h : headIn L' p = false) :
    headIn L p = false := by
  rw [headIn_false] at h ⊢
  intro a t hp hq; exact h a t hp (hs _ hq)

theorem headIn_append {L L' : List QName} {p : List Elem} :
    headIn (L ++ L') p = false ↔ headIn L p = false ∧ headIn L' p = false := by
  simp only [headIn_false, List.mem_append, not_or]
  constructor
  · intro h; exact ⟨fun a t hp => (h a t hp).1, fun a t hp => (h a t hp).2⟩
  · intro h a t hp; exact ⟨h.1 a t hp, h.2 a t hp⟩

variable {x : Ext} {S : SchemaContext} {P : List TypeDef} {C : Cert}

/-- What the certificate promises about a segment. -/
def Facts (first : List QName) (null : Bool) (es : List Elem) : Prop :=
  (es = [] → null = true) ∧ ∀ h t, es = h :: t → h.1.name ∈ first

theorem TextIs.readExact {e : Elem} {s : Str} {p : List Elem} (h : TextIs .exact e s) :
    ofExcept (queueOps.text ⟨e, p⟩) = .ok s := by
  rcases h with ⟨he, rfl⟩ | he <;> simp [queueOps, Queue.textVal, he, ofExcept]

section
variable {T : Name → Val → Elem → List Elem → Prop}

/-- The induction hypothesis: calls are complete. -/
def CallComplete (x : Ext) (S : SchemaContext) (P : List TypeDef) (C : Cert)
    (T : Name → Val → Elem → List Elem → Prop) : Prop :=
  ∀ n v e es, T n v e es → Facts (C.first n) (C.null n) es ∧
    ∀ i rest, typeIdent x n = .ok i → headIn (C.stop n) rest = false →
      Evt (fun k => fromNode x queueOps P k i ⟨e, es ++ rest⟩ = .ok (v, ⟨e, rest⟩))

theorem readVal_complete (H : CallComplete x S P C T) {c : LeafContent} {vr : ValRead}
    (hc : contentRead x S c = .ok vr) {v : Val} {e : Elem} {es rest : List Elem}
    (h : RVal x .exact S T c v e es)
    (hstop : ∀ n, Means S c (.named n) → headIn (C.stop n) rest = false) :
    Evt (fun k => readVal x queueOps (fromNode x queueOps P k) vr ⟨e, es ++ rest⟩ = .ok (v, ⟨e, rest⟩)) := by
  obtain ⟨c', hm, h⟩ := h
  rcases contentRead_ok hc with ⟨t, hm', rfl⟩ | ⟨f, hm', rfl⟩ | ⟨n, i, hm', hi, rfl⟩
  · cases hm.functional hm'
    obtain ⟨s, hs, hp, rfl⟩ := h
    refine .of fun k => ?_
    simp only [readVal, hs.readExact, Res.bind_ok, parseLit, hp, List.nil_append]
  · cases hm.functional hm'
    obtain ⟨hs, rfl, rfl⟩ := h
    refine .of fun k => ?_
    simp only [readVal, hs.readExact, Res.bind_ok, if_true, List.nil_append]
  · cases hm.functional hm'
    exact (H n v e es h).2 i rest hi (hstop n hm')

theorem readOn_complete (H : CallComplete x S P C T) {c : LeafContent} {vr : ValRead}
    (hc : contentRead x S c = .ok vr) {v : Val} {ch : Elem} (h : RChild x .exact S T c v ch) :
    Evt (fun k => readOn x queueOps (fromNode x queueOps P k) vr ch = .ok v) := by
  obtain ⟨es, junk, hcat, hj, hv⟩ := h
  have hj := hj rfl
  subst hj
  refine (readVal_complete H hc hv (rest := []) (fun _ _ => rfl)).mono fun k hk => ?_
  have : queueOps.mkNode ch = ⟨ch, es ++ []⟩ := by
    simp only [queueOps, Queue.new]
    unfold Cat elemKids at hcat
    rw [← hcat]
  simp only [readOn, this, hk, Res.bind_ok, Res.pure_eq]

/-! Lookahead. -/

theorem runChecks_exact {cL : Str → Queue → DRes Queue Bool} {lk : Name → Option (List QName)}
    (hL : ∀ n i L s, lk n = some L → pascalIdent x n = .ok i → cL i s = .ok (headIn L s.pending, s))
    (ls : List Leaf) {cs : List Check} (hcs : mapRes (leafCheck x S) ls = .ok cs) {L : List QName}
    (hl : lookOf S lk ls = some L) (s : Queue) :
    runChecks queueOps cL cs s = .ok (headIn L s.pending, s) := by
  induction ls generalizing cs L with
  | nil =>
    simp [mapRes] at hcs; subst hcs
    simp [lookOf] at hl; subst hl
    cases hp : s.pending <;> simp [runChecks, headIn]
  | cons l ls ih =>
    obtain ⟨c, cs', hc, hcs', rfl⟩ := mapRes_cons_ok.1 hcs
    simp only [lookOf] at hl
    split at hl
    · next a b ha hb =>
      cases hl
      have ih := ih hcs' hb
      have happ : headIn (a ++ b) s.pending = (headIn a s.pending || headIn b s.pending) := by
        cases hp : s.pending <;> simp [headIn]
      unfold leafCheck at hc
      simp only [SchemaContext.qname_eq] at hc
      by_cases hv : l.isVirtual = true
      · rw [if_pos hv] at hc ha
        split at hc
        · next n hn =>
          rw [Res.bind_eq_ok] at hc
          obtain ⟨i, hi, hc⟩ := hc
          cases hc
          simp only [Leaf.target, hn, Option.bind_some] at ha
          simp only [runChecks, hL n i a s ha hi, Res.bind_ok, happ]
          cases headIn a s.pending <;> simp [ih]
        · cases hc
      · rw [if_neg hv] at hc ha
        rw [Res.bind_eq_ok] at hc
        obtain ⟨q, hq, hc⟩ := hc
        cases hc
        simp only [Leaf.qn, hq, Option.some.injEq] at ha
        subst ha
        simp only [runChecks, happ]
        have : queueOps.peek s q = (headIn [q] s.pending, s) := by
          simp only [queueOps, Prod.mk.injEq, and_true]
          cases hp : s.pending <;> simp [headIn, eq_comm]
        rw [this]
        cases headIn [q] s.pending <;> simp [ih]
    · cases hl

theorem lookahead_exact (G : Generated x S P) (k : Nat) :
    ∀ n i L s, lookSet x S k n = some L → pascalIdent x n = .ok i →
      lookahead queueOps P k i s = .ok (headIn L s.pending, s) := by
  induction k with
  | zero => intro n i L s h _; simp [lookSet] at h
  | succ k ih =>
    intro n i L s h hi
    simp only [lookSet] at h
    split at h
    · next hpi =>
      have hti : typeIdent x n = .ok i := by rw [← hpi]; exact hi
      have hsome : (S.get n).isSome = true := by
        cases hg : S.get n with
        | none => rw [hg] at h; cases h
        | some _ => rfl
      obtain ⟨r, t, hr, hft, hid, hg⟩ := G.find' hti hsome
      simp only [lookahead, hft]
      have hlk := hg.look
      rw [hr] at h
      cases r with
      | leaf d => cases h
      | enum ns => cases h
      | element d =>
        simp only [rootLook] at hlk
        cases hd : d.content with
        | none =>
          simp only [hd] at h hlk
          cases h
          rw [← Res.ok.inj hlk]
          cases hp : s.pending <;> simp [runChecks, headIn]
        | some ec =>
          cases ec with
          | leaf a b =>
            simp only [hd] at h hlk
            cases h
            rw [← Res.ok.inj hlk]
            cases hp : s.pending <;> simp [runChecks, headIn]
          | leaves ls =>
            simp only [hd, Res.bind_eq_ok, lookLeaves_eq] at h hlk
            obtain ⟨cs, hcs, hlk⟩ := hlk
            rw [← Res.ok.inj hlk]
            exact runChecks_exact ih _ hcs h s
      | choice vs b dd =>
        simp only [rootLook, Res.bind_eq_ok] at hlk
        obtain ⟨cs, hcs, hlk⟩ := hlk
        rw [← Res.ok.inj hlk]
        exact runChecks_exact ih _ hcs h s
    · cases h

theorem look_ev (G : Generated x S P) {n : Name} {i : Str} {L : List QName} (h : look x S n = some L)
    (hi : pascalIdent x n = .ok i) :
    Evt (fun k => ∀ s, lookahead queueOps P k i s = .ok (headIn L s.pending, s)) := by
  refine ⟨S.elements.length + 1, fun k hk s => ?_⟩
  exact Res.le_ok (lookahead_mono hk i s) (lookahead_exact G _ n i L s h hi)

/-! First and null facts. -/

theorem target_means {n : Name} {l : Leaf} (ht : l.target = some n) (hg : isGroup S n = true) :
    l.definition.content = .named n ∧ Means S l.definition.content (.named n) := by
  have hc : l.definition.content = .named n := by
    unfold Leaf.target at ht
    split at ht
    · next m hm => cases ht; exact hm
    · cases ht
  refine ⟨hc, ?_⟩
  rw [hc]
  refine .name fun d hd => ?_
  simp [isGroup, hd] at hg

/-- The value of a virtual leaf. -/
theorem virtual_item {l : Leaf} {v : Val} {e : Elem} {es : List Elem} {m : Mode} {n : Name} (hv : l.isVirtual = true)
    (hm : Means S l.definition.content (.named n)) (h : RItem x m S T l v e es) : T n v e es := by
  unfold RItem at h
  rw [if_pos hv] at h
  obtain ⟨c', hc, h⟩ := h
  cases hc.functional hm
  exact h

theorem leafDet_virtual {l : Leaf} (hd : leafDet x S C l = true) (hv : l.isVirtual = true) :
    ∃ n, l.target = some n ∧ isGroup S n = true := by
  unfold leafDet at hd
  rw [if_pos hv] at hd
  split at hd
  · next n hn => simp only [Bool.and_eq_true] at hd; exact ⟨n, hn, hd.1⟩
  · cases hd

theorem item_facts (H : CallComplete x S P C T) {l : Leaf} {v : Val} {e : Elem} {es : List Elem}
    (hd : l.isVirtual = true → ∃ n, l.target = some n ∧ isGroup S n = true)
    (h : RItem x .exact S T l v e es) : Facts (leafFirst S C l) (leafNull C l) es := by
  cases hv : l.isVirtual with
  | true =>
    obtain ⟨n, hn, hg⟩ := hd hv
    obtain ⟨hc, hm⟩ := target_means hn hg
    have := (H n v e es (virtual_item hv hm h)).1
    refine ⟨fun he => ?_, fun a t he => ?_⟩
    · simp [leafNull, hv, hn, this.1 he]
    · simp only [leafFirst, hv, if_true, hn]; exact this.2 a t he
  | false =>
    unfold RItem at h
    rw [if_neg (by simp [hv])] at h
    obtain ⟨ch, rfl, hq, _⟩ := h
    refine ⟨fun he => (by cases he), fun a t he => ?_⟩
    cases he
    simp [leafFirst, hv, Leaf.qn, hq]

theorem many_facts (H : CallComplete x S P C T) {l : Leaf} {vs : List Val} {e : Elem} {es : List Elem}
    (hd : l.isVirtual = true → ∃ n, l.target = some n ∧ isGroup S n = true)
    (h : RMany x .exact S T l vs e es) : ∀ a t, es = a :: t → a.1.name ∈ leafFirst S C l := by
  intro a t he
  cases vs with
  | nil => simp [RMany] at h; rw [h] at he; cases he
  | cons v vs =>
    obtain ⟨es1, es2, hi, hne, _, hcat⟩ := h
    have hne := hne rfl
    have := (item_facts H hd hi).2
    simp only [Cat] at hcat
    cases es1 with
    | nil => exact absurd rfl hne
    | cons b bs => subst hcat; cases he; exact this a bs rfl

theorem occ_facts (H : CallComplete x S P C T) {l : Leaf} {v : Val} {e : Elem} {es : List Elem}
    (hd : leafDet x S C l = true)
    (h : ROcc x .exact S T l v e es) : Facts (leafFirst S C l) (leafNull C l) es := by
  have hd' := fun hv => leafDet_virtual hd hv
  unfold ROcc at h
  cases hvec : l.repeats with
  | true =>
    rw [if_pos hvec] at h
    obtain ⟨vs, hm, _⟩ := h
    exact ⟨fun _ => by simp [leafNull, hvec], many_facts H hd' hm⟩
  | false =>
    rw [if_neg (by simp [hvec])] at h
    cases ho : l.mayMiss with
    | true =>
      rw [if_pos ho] at h
      rcases h with ⟨_, rfl⟩ | ⟨w, _, hi, _⟩
      · exact ⟨fun _ => by simp [leafNull, ho], fun a t he => by cases he⟩
      · exact ⟨fun _ => by simp [leafNull, ho], (item_facts H hd' hi).2⟩
    | false =>
      rw [if_neg (by simp [ho])] at h
      exact item_facts H hd' h

theorem leaves_facts (H : CallComplete x S P C T) {ls : List Leaf} {fs : List (Str × Val)} {e : Elem} {es : List Elem}
    (hd : listDet x S C ls = true)
    (h : RLeaves x .exact S T ls fs e es) : Facts (listFirst S C ls) (listNull C ls) es := by
  induction ls generalizing fs es with
  | nil => obtain ⟨_, rfl⟩ := h; exact ⟨fun _ => rfl, fun a t he => by cases he⟩
  | cons l ls ih =>
    obtain ⟨f, v, fs', es1, es2, _, _, ho, hl, hcat⟩ := h
    simp only [listDet, Bool.and_eq_true] at hd
    have h1 := occ_facts H hd.1.1 ho
    have h2 := ih hd.2 hl
    simp only [Cat] at hcat
    subst hcat
    constructor
    · intro he
      rw [List.append_eq_nil_iff] at he
      have := h2.1 he.2
      unfold listNull at this ⊢
      rw [List.all_cons, h1.1 he.1, this]; rfl
    · intro a t he
      cases es1 with
      | nil =>
        simp only [listFirst, h1.1 rfl, Bool.true_or, if_true, List.mem_append]
        exact .inr (h2.2 a t he)
      | cons b bs =>
        cases he
        simp only [listFirst, List.mem_append]
        exact .inl (h1.2 a bs rfl)

/-- Any child element of an `xs:all` may be the first. -/
theorem anywhere_facts {ls : List Leaf} {fs : List (Str × Val)} {e : Elem} {es : List Elem} (ha : ∀ l ∈ ls, l.anywhere = true)
    (h : RLeaves x .exact S T ls fs e es) : ∀ a ∈ es, a.1.name ∈ listFirst S C ls := by
  induction ls generalizing fs es with
  | nil => obtain ⟨_, rfl⟩ := h; simp
  | cons l ls ih =>
    obtain ⟨f, v, fs', es1, es2, _, _, ho, hl, hcat⟩ := h
    have hany := ha l (by simp)
    have h2 := ih (fun l hl => ha l (by simp [hl])) hl
    simp only [Cat] at hcat
    subst hcat
    have hany' := hany
    simp only [Leaf.anywhere, Bool.and_eq_true, Bool.not_eq_true'] at hany'
    obtain ⟨⟨⟨_, hv⟩, hr⟩, hm⟩ := hany'
    unfold ROcc RItem at ho
    rw [if_neg (by simp [hr]), if_neg (by simp [hm]), if_neg (by simp [hv])] at ho
    obtain ⟨ch, rfl, hq, _⟩ := ho
    intro a hmem
    simp only [listFirst, hany, Bool.or_true, if_true, List.mem_append, leafFirst, hv, Bool.false_eq_true, if_false, Leaf.qn]
    rcases List.mem_append.1 hmem with h | h
    · cases List.mem_singleton.1 h
      left
      rw [hq]
      simp
    · exact .inr (h2 a h)

/-! Reading leaves. -/

theorem next_hit {e ch : Elem} {q : QName} {rest : List Elem} (h : ch.1.name = q) :
    queueOps.next ⟨e, ch :: rest⟩ q = (some ch, ⟨e, rest⟩) := by
  simp [queueOps, Queue.popIf, h]

theorem next_miss {e : Elem} {q : QName} {rest : List Elem} (h : headIn [q] rest = false) :
    queueOps.next ⟨e, rest⟩ q = (none, ⟨e, rest⟩) := by
  cases rest with
  | nil => simp [queueOps, Queue.popIf]
  | cons a r =>
    have := headIn_false.1 h a r rfl
    simp only [List.mem_singleton] at this
    simp [queueOps, Queue.popIf, this]

theorem loopNext_complete (H : CallComplete x S P C T) {l : Leaf} {q : QName} {vr : ValRead}
    (hv : l.isVirtual = false) (hq : S.expanded l.name = .ok q)
    (hc : contentRead x S l.definition.content = .ok vr) {vs : List Val} {e : Elem} {es rest : List Elem}
    (h : RMany x .exact S T l vs e es) (hstop : headIn [q] rest = false) :
    Evt (fun k => ∀ j, vs.length < j →
      loopNext x queueOps (fromNode x queueOps P k) q vr j ⟨e, es ++ rest⟩ = .ok (vs, ⟨e, rest⟩)) := by
  induction vs generalizing es with
  | nil =>
    simp only [RMany] at h; subst h
    refine .of fun k j hj => ?_
    obtain ⟨j, rfl⟩ : ∃ i, j = i + 1 := ⟨j - 1, by simp at hj; omega⟩
    simp only [loopNext, List.nil_append, next_miss hstop]
  | cons v vs ih =>
    obtain ⟨es1, es2, hi, _, hm, hcat⟩ := h
    unfold RItem at hi
    rw [if_neg (by simp [hv])] at hi
    obtain ⟨ch, rfl, hq', hch⟩ := hi
    rw [hq] at hq'; have hq' := Res.ok.inj hq'
    simp only [Cat] at hcat; subst hcat
    refine ((readOn_complete H hc hch).and (ih hm)).mono ?_
    rintro k ⟨h1, h2⟩ j hj
    obtain ⟨j, rfl⟩ : ∃ i, j = i + 1 := ⟨j - 1, by simp at hj; omega⟩
    simp only [loopNext, List.cons_append, List.nil_append, next_hit hq'.symm, h1, Res.bind_ok,
      h2 j (by simp at hj; omega)]

theorem loopLook_complete (G : Generated x S P) (H : CallComplete x S P C T) {l : Leaf} {n : Name} {i : Str}
    {vr : ValRead} {L : List QName}
    (hv : l.isVirtual = true) (ht : l.target = some n) (hg : isGroup S n = true)
    (hi : pascalIdent x n = .ok i)
    (hL : look x S n = some L) (hsub : sub (C.first n) L = true) (hdis : disj (C.stop n) (C.first n) = true)
    (hc : contentRead x S l.definition.content = .ok vr) {vs : List Val} {e : Elem} {es rest : List Elem}
    (h : RMany x .exact S T l vs e es) (hstop : headIn L rest = false) (hstop' : headIn (C.stop n) rest = false) :
    Evt (fun k => ∀ j, vs.length < j →
      loopLook x queueOps (fromNode x queueOps P k) (lookahead queueOps P k) i vr j ⟨e, es ++ rest⟩ =
        .ok (vs, ⟨e, rest⟩)) := by
  have hmeans := (target_means ht hg).2
  induction vs generalizing es with
  | nil =>
    simp only [RMany] at h; subst h
    refine (look_ev G hL hi).mono fun k hk j hj => ?_
    obtain ⟨j, rfl⟩ : ∃ i, j = i + 1 := ⟨j - 1, by simp at hj; omega⟩
    simp only [loopLook, List.nil_append, hk, Res.bind_ok, hstop]
    rfl
  | cons v vs ih =>
    have hmf : ∀ vs es, RMany x .exact S T l vs e es → ∀ a t, es = a :: t → a.1.name ∈ C.first n := by
      intro vs es hm a t he
      have := many_facts H (fun _ => ⟨n, ht, hg⟩) hm a t he
      simpa [leafFirst, hv, ht] using this
    have hhead := hmf (v :: vs) es h
    obtain ⟨es1, es2, hit, hne, hm, hcat⟩ := h
    have hne := hne rfl
    have hT := virtual_item hv hmeans hit
    simp only [Cat] at hcat; subst hcat
    have hnext : headIn (C.stop n) (es2 ++ rest) = false := by
      cases es2 with
      | nil => exact hstop'
      | cons b bs =>
        rw [headIn_false]
        intro a t he hin
        cases he
        exact disj_mem hdis hin (hmf vs _ hm _ _ rfl)
    have h1 := readVal_complete H hc (rest := es2 ++ rest) (v := v) (e := e) (es := es1) ⟨_, hmeans, hT⟩
      (fun m hm' => by have := hm'.functional hmeans; cases this; exact hnext)
    refine ((look_ev G hL hi).and (h1.and (ih hm))).mono ?_
    rintro k ⟨hk, h1, h2⟩ j hj
    obtain ⟨j, rfl⟩ : ∃ i, j = i + 1 := ⟨j - 1, by simp at hj; omega⟩
    have hin : headIn L (es1 ++ es2 ++ rest) = true := by
      cases es1 with
      | nil => exact absurd rfl hne
      | cons b bs =>
        simp only [List.cons_append, headIn]
        rw [List.contains_iff_mem]
        exact sub_mem hsub (hhead b (bs ++ es2) rfl)
    simp only [loopLook, hk, Res.bind_ok, hin, if_true]
    rw [List.append_assoc, h1]
    simp only [Res.bind_ok, h2 j (by simp at hj; omega)]

theorem readLeaf_complete (G : Generated x S P) (H : CallComplete x S P C T) {l : Leaf} {p : Str × LeafRead}
    (hl : leafRead x S l = .ok p) (hd : leafDet x S C l = true) {v : Val} {e : Elem} {es rest : List Elem}
    (h : ROcc x .exact S T l v e es) (hstop : headIn (leafStop x S C l) rest = false) :
    Evt (fun k => readLeaf x queueOps (fromNode x queueOps P k) (lookahead queueOps P k) k p.2 ⟨e, es ++ rest⟩ =
      .ok (v, ⟨e, rest⟩)) := by
  obtain ⟨q, vr, _, hq, hc, hcase⟩ := leafRead_ok hl
  obtain ⟨f, lr⟩ := p
  simp only at hcase ⊢
  unfold leafStop at hstop
  rw [headIn_append] at hstop
  obtain ⟨hs1, hs2⟩ := hstop
  unfold ROcc at h
  cases hcase with
  | @whileLook n i h1 h2 hn hi =>
    have ht : l.target = some n := by simp [Leaf.target, hn]
    obtain ⟨n', ht', hg⟩ := leafDet_virtual hd h1
    rw [ht] at ht'; cases ht'
    rw [if_pos h2] at h
    obtain ⟨vs, hm, hw⟩ := h
    simp only [leafDet, h1, h2, if_true, ht, Bool.true_or, Bool.and_eq_true] at hd
    cases hL : look x S n with
    | none => simp [hL] at hd
    | some L =>
      simp only [hL, Bool.not_true, Bool.false_or, Bool.and_eq_true] at hd
      simp only [h2, Bool.true_or, if_true, leafLook, h1, ht, hL, Option.getD_some] at hs1
      simp only [h1, if_true, ht] at hs2
      refine ((Evt.ge (vs.length + 1)).and
        (loopLook_complete G H h1 ht hg hi hL hd.2.1 hd.2.2 hc hm hs1 hs2)).mono ?_
      rintro k ⟨hk, hk2⟩
      simp only [readLeaf, hk2 k (by omega), Res.bind_ok]
      cases ho : l.mayMiss <;> simp only [ho, if_true, Bool.false_eq_true, if_false] at hw
      · subst hw; simp [wrapVec]
      · rcases hw with ⟨rfl, rfl⟩ | ⟨hne, rfl⟩ <;> simp [wrapVec, *]
  | whileNext h1 h2 =>
    rw [if_pos h2] at h
    obtain ⟨vs, hm, hw⟩ := h
    simp only [h2, Bool.true_or, if_true, leafLook, h1, Bool.false_eq_true, if_false, Leaf.qn, hq] at hs1
    refine ((Evt.ge (vs.length + 1)).and (loopNext_complete H h1 hq hc hm hs1)).mono ?_
    rintro k ⟨hk, hk2⟩
    simp only [readLeaf, hk2 k (by omega), Res.bind_ok]
    cases ho : l.mayMiss <;> simp only [ho, if_true, Bool.false_eq_true, if_false] at hw
    · subst hw; simp [wrapVec]
    · rcases hw with ⟨rfl, rfl⟩ | ⟨hne, rfl⟩ <;> simp [wrapVec, *]
  | @ifLook n i h1 h2 h3 hn hi =>
    have ht : l.target = some n := by simp [Leaf.target, hn]
    obtain ⟨n', ht', hg⟩ := leafDet_virtual hd h1
    rw [ht] at ht'; cases ht'
    have hmeans := (target_means ht hg).2
    rw [if_neg (by simp [h2]), if_pos h3] at h
    simp only [leafDet, h1, h2, h3, if_true, ht, Bool.or_true, Bool.and_eq_true, Bool.not_false, Bool.true_or] at hd
    cases hL : look x S n with
    | none => simp [hL] at hd
    | some L =>
      simp only [hL, Bool.and_true] at hd
      simp only [h3, Bool.or_true, if_true, leafLook, h1, ht, hL, Option.getD_some] at hs1
      simp only [h1, if_true, ht] at hs2
      rcases h with ⟨rfl, rfl⟩ | ⟨w, rfl, hit, hne⟩
      · refine (look_ev G hL hi).mono fun k hk => ?_
        simp [readLeaf, hk, hs1]
      · have hne := hne rfl
        have hT := virtual_item h1 hmeans hit
        have hfirst := (H n w e es hT).1.2
        have hr := readVal_complete H hc (rest := rest) (v := w) (e := e) (es := es) ⟨_, hmeans, hT⟩
          (fun m hm' => by have := hm'.functional hmeans; cases this; exact hs2)
        refine ((look_ev G hL hi).and hr).mono ?_
        rintro k ⟨hk, hk2⟩
        have hin : headIn L (es ++ rest) = true := by
          cases es with
          | nil => exact absurd rfl hne
          | cons b bs =>
            simp only [List.cons_append, headIn]
            rw [List.contains_iff_mem]
            exact sub_mem hd.2 (hfirst b bs rfl)
        simp [readLeaf, hk, hin, hk2]
  | plain h1 h2 h3 =>
    obtain ⟨n, ht, hg⟩ := leafDet_virtual hd h1
    have hmeans := (target_means ht hg).2
    rw [if_neg (by simp [h2]), if_neg (by simp [h3])] at h
    simp only [h1, if_true, ht] at hs2
    have hT := virtual_item h1 hmeans h
    have hr := readVal_complete H hc (rest := rest) (v := v) (e := e) (es := es) ⟨_, hmeans, hT⟩
      (fun m hm' => by have := hm'.functional hmeans; cases this; exact hs2)
    exact hr.mono fun k hk => by simp [readLeaf, hk]
  | ifNext h1 h2 h3 =>
    rw [if_neg (by simp [h2]), if_pos h3] at h
    simp only [h3, Bool.or_true, if_true, leafLook, h1, Bool.false_eq_true, if_false, Leaf.qn, hq] at hs1
    rcases h with ⟨rfl, rfl⟩ | ⟨w, rfl, hit, hne⟩
    · refine .of fun k => ?_
      simp only [readLeaf, List.nil_append, next_miss hs1]
    · unfold RItem at hit
      rw [if_neg (by simp [h1])] at hit
      obtain ⟨ch, rfl, hq', hch⟩ := hit
      rw [hq] at hq'; have hq' := Res.ok.inj hq'
      refine (readOn_complete H hc hch).mono fun k hk => ?_
      simp only [readLeaf, List.cons_append, List.nil_append, next_hit hq'.symm, hk, Res.bind_ok]
  | tryChild h1 h2 h3 h4 =>
    rw [if_neg (by simp [h2]), if_neg (by simp [h3])] at h
    unfold RItem at h
    rw [if_neg (by simp [h1])] at h
    obtain ⟨ch, rfl, hq', hch⟩ := h
    rw [hq] at hq'; have hq' := Res.ok.inj hq'
    refine (readOn_complete H hc hch).mono fun k hk => ?_
    subst hq'
    simp [readLeaf, queueOps, Queue.takeFirst, Queue.orMissing] at hk ⊢
    simp [hk]
  | tryNext h1 h2 h3 h4 =>
    rw [if_neg (by simp [h2]), if_neg (by simp [h3])] at h
    unfold RItem at h
    rw [if_neg (by simp [h1])] at h
    obtain ⟨ch, rfl, hq', hch⟩ := h
    rw [hq] at hq'; have hq' := Res.ok.inj hq'
    refine (readOn_complete H hc hch).mono fun k hk => ?_
    subst hq'
    simp [readLeaf, queueOps, Queue.popIf, Queue.orMissing] at hk ⊢
    simp [hk]

theorem readLeaves_complete (G : Generated x S P) (H : CallComplete x S P C T) (ls : List Leaf)
    {rs : List (Str × LeafRead)} (hl : mapRes (leafRead x S) ls = .ok rs) (hd : listDet x S C ls = true)
    {fs : List (Str × Val)} {e : Elem} {es rest : List Elem}
    (h : RLeaves x .exact S T ls fs e es) (hstop : headIn (listStop x S C ls) rest = false) :
    Evt (fun k => readLeaves x queueOps (fromNode x queueOps P k) (lookahead queueOps P k) k rs ⟨e, es ++ rest⟩ =
      .ok (fs, ⟨e, rest⟩)) := by
  induction ls generalizing rs fs es with
  | nil =>
    simp [mapRes] at hl; subst hl
    obtain ⟨rfl, rfl⟩ := h
    exact .of fun k => by simp [readLeaves]
  | cons l ls ih =>
    obtain ⟨p, rs', hp, hrs, rfl⟩ := mapRes_cons_ok.1 hl
    obtain ⟨f, v, fs', es1, es2, rfl, hf, ho, hls, hcat⟩ := h
    simp only [Cat] at hcat; subst hcat
    simp only [listDet, Bool.and_eq_true] at hd
    simp only [listStop, headIn_append] at hstop
    have hfacts := leaves_facts H hd.2 hls
    have hst : headIn (leafStop x S C l) (es2 ++ rest) = false := by
      cases es2 with
      | nil =>
        have := hfacts.1 rfl
        simp only [this, if_true] at hstop
        exact hstop.2
      | cons b bs =>
        rw [headIn_false]
        intro a t he hin
        cases he
        exact disj_mem hd.1.2 hin (hfacts.2 _ _ rfl)
    have h1 := readLeaf_complete G H hp hd.1.1 ho hst
    have h2 := ih hrs hd.2 hls hstop.1
    obtain ⟨_, _, hf', _⟩ := leafRead_ok hp
    rw [hf] at hf'; have hf' := Res.ok.inj hf'
    obtain ⟨pf, pr⟩ := p
    simp only at hf'; subst hf'
    refine (h1.and h2).mono ?_
    rintro k ⟨h1, h2⟩
    simp only [readLeaves, List.append_assoc, h1, h2, Res.bind_ok]

/-- Required members of an `xs:all` are found in any order. -/
theorem readLeaves_anywhere (H : CallComplete x S P C T) (ls : List Leaf) (ha : ∀ l ∈ ls, l.anywhere = true)
    {rs : List (Str × LeafRead)} (hl : mapRes (leafRead x S) ls = .ok rs)
    {fs : List (Str × Val)} {e : Elem} {es' es rest : List Elem}
    (h : RLeaves x .exact S T ls fs e es') (hs : SameByName es' es) :
    Evt (fun k => readLeaves x queueOps (fromNode x queueOps P k) (lookahead queueOps P k) k rs ⟨e, es ++ rest⟩ =
      .ok (fs, ⟨e, rest⟩)) := by
  induction ls generalizing rs fs es' es with
  | nil =>
    simp [mapRes] at hl; subst hl
    obtain ⟨rfl, rfl⟩ := h
    cases hs.nil
    exact .of fun k => by simp [readLeaves]
  | cons l ls ih =>
    obtain ⟨p, rs', hp, hrs, rfl⟩ := mapRes_cons_ok.1 hl
    obtain ⟨f, v, fs', es1, es2, rfl, hf, ho, hls, hcat⟩ := h
    simp only [Cat] at hcat; subst hcat
    have hany := ha l (by simp)
    simp only [Leaf.anywhere, Bool.and_eq_true, Bool.not_eq_true'] at hany
    obtain ⟨⟨⟨hu, hv⟩, hr⟩, hm⟩ := hany
    unfold ROcc RItem at ho
    rw [if_neg (by simp [hr]), if_neg (by simp [hm]), if_neg (by simp [hv])] at ho
    obtain ⟨ch, rfl, hqn, hch⟩ := ho
    obtain ⟨q, vr, hf', hq, hc, hcase⟩ := leafRead_ok hp
    rw [hf] at hf'; have hf' := Res.ok.inj hf'
    rw [hq] at hqn; have hqn := Res.ok.inj hqn
    obtain ⟨pf, pr⟩ := p
    simp only at hf' hcase; subst hf'
    have hpt : pr = .tryChild q vr := by
      cases hcase with
      | tryChild => rfl
      | whileLook h1 => simp [hv] at h1
      | ifLook h1 => simp [hv] at h1
      | plain h1 => simp [hv] at h1
      | whileNext _ h2 => simp [hr] at h2
      | ifNext _ _ h3 => simp [hm] at h3
      | tryNext _ _ _ h4 => simp [hu] at h4
    subst hpt
    subst hqn
    obtain ⟨h1, h2⟩ := takeFirst_same hs ch.1.name
    have e1 : Queue.takeFirst ch.1.name ([ch] ++ es2) = (some ch, es2) := by simp [Queue.takeFirst]
    rw [e1] at h1 h2
    have e2 : Queue.takeFirst ch.1.name (es ++ rest) = (some ch, (Queue.takeFirst ch.1.name es).2 ++ rest) := by
      simp only [Queue.takeFirst] at h1 ⊢
      rw [List.find?_append, ← h1]
      have hmem := List.mem_of_find?_eq_some h1.symm
      rw [List.eraseP_append_left (a := ch) (by simp) rest hmem]
      rfl
    refine ((readOn_complete H hc hch).and (ih (fun l hl => ha l (by simp [hl])) hrs hls h2)).mono ?_
    rintro k ⟨hk, hk2⟩
    have hop : queueOps.tryChild ⟨e, es ++ rest⟩ ch.1.name = (.ok ch, ⟨e, (Queue.takeFirst ch.1.name es).2 ++ rest⟩) := by
      simp only [queueOps, e2, Queue.orMissing]
    simp only [readLeaves, readLeaf, hop, hk, Res.bind_ok, hk2]

theorem variantDet_virtual {l : Leaf} (hd : variantDet x S C l = true) (hv : l.isVirtual = true) :
    ∃ n L, l.target = some n ∧ isGroup S n = true ∧ look x S n = some L ∧ sub (C.first n) L = true := by
  unfold variantDet at hd
  rw [if_pos hv] at hd
  split at hd
  · next n hn =>
    simp only [Bool.and_eq_true] at hd
    cases hL : look x S n with
    | none => simp [hL] at hd
    | some L => rw [hL] at hd; exact ⟨n, L, hn, hd.1, hL, hd.2⟩
  · cases hd

theorem variant_facts (H : CallComplete x S P C T) {l : Leaf} {v : Val} {e : Elem} {es : List Elem}
    (hd : variantDet x S C l = true) (h : RVariant x .exact S T l v e es) :
    ∃ a t, es = a :: t ∧ a.1.name ∈ leafFirst S C l := by
  have hd' : l.isVirtual = true → ∃ n, l.target = some n ∧ isGroup S n = true := by
    intro hv; obtain ⟨n, L, h1, h2, _⟩ := variantDet_virtual hd hv; exact ⟨n, h1, h2⟩
  unfold RVariant at h
  cases hv : l.isVirtual with
  | true =>
    rw [if_pos hv] at h
    have hne := h.2 rfl
    cases es with
    | nil => exact absurd rfl hne
    | cons a t => exact ⟨a, t, rfl, (item_facts H hd' h.1).2 a t rfl⟩
  | false =>
    rw [if_neg (by simp [hv])] at h
    cases hvec : l.repeats with
    | true =>
      rw [if_pos hvec] at h
      obtain ⟨vs, rfl, hne, hm⟩ := h
      cases es with
      | nil =>
        cases vs with
        | nil => exact absurd rfl (hne (by decide))
        | cons w ws =>
          obtain ⟨es1, es2, _, hn, _, hcat⟩ := hm
          simp only [Cat] at hcat
          have := hn rfl
          cases es1 with
          | nil => exact absurd rfl this
          | cons b bs => cases hcat
      | cons a t => exact ⟨a, t, rfl, many_facts H hd' hm a t rfl⟩
    | false =>
      rw [if_neg (by simp [hvec])] at h
      have hit := h
      unfold RItem at h
      rw [if_neg (by simp [hv])] at h
      obtain ⟨ch, rfl, _⟩ := h
      exact ⟨ch, [], rfl, (item_facts H hd' hit).2 _ _ rfl⟩

theorem readChoice_complete (G : Generated x S P) (H : CallComplete x S P C T) (self : Str) (vs : List Leaf)
    {rs : List (Str × VarRead)} (hl : mapRes (variantRead x S) vs = .ok rs) (hd : variantsDet x S C vs = true)
    {l : Leaf} (hlm : l ∈ vs) {i : Str} {w : Val} {e : Elem} {es rest : List Elem} (hi : pascalIdent x l.name = .ok i)
    (h : RVariant x .exact S T l w e es) (hstop : headIn (vs.flatMap (variantStop S C)) rest = false) :
    Evt (fun k => readChoice x queueOps (fromNode x queueOps P k) (lookahead queueOps P k) k self rs ⟨e, es ++ rest⟩ =
      .ok (.variant i w, ⟨e, rest⟩)) := by
  induction vs generalizing rs with
  | nil => cases hlm
  | cons l0 vs ih =>
    obtain ⟨p, rs', hp, hrs, rfl⟩ := mapRes_cons_ok.1 hl
    obtain ⟨q, vr, hpi, hq, hc, hcase⟩ := variantRead_ok hp
    obtain ⟨pi, pr⟩ := p
    simp only at hpi hcase
    simp only [variantsDet, Bool.and_eq_true] at hd
    simp only [List.flatMap_cons, headIn_append] at hstop
    by_cases hll : l = l0
    · subst hll
      obtain ⟨a, t, hes, hfst⟩ := variant_facts H hd.1.1 h
      rw [hi] at hpi; cases hpi
      unfold RVariant at h
      cases hcase with
      | @virt n ii h1 hn hi' =>
        obtain ⟨n', L, ht, hg, hL, hsub⟩ := variantDet_virtual hd.1.1 h1
        have : n' = n := by simp [Leaf.target, hn] at ht; exact ht.symm
        subst this
        have hmeans := (target_means ht hg).2
        rw [if_pos h1] at h
        have hT := virtual_item h1 hmeans h.1
        simp only [variantStop, h1, if_true, ht] at hstop
        have hr := readVal_complete H hc (rest := rest) (v := w) (e := e) (es := es) ⟨_, hmeans, hT⟩
          (fun m hm' => by have := hm'.functional hmeans; cases this; exact hstop.1)
        refine ((look_ev G hL hi').and hr).mono ?_
        rintro k ⟨hk, hk2⟩
        have hin : headIn L (es ++ rest) = true := by
          subst hes
          simp only [List.cons_append, headIn]
          rw [List.contains_iff_mem]
          simp only [leafFirst, h1, if_true, ht] at hfst
          exact sub_mem hsub hfst
        simp [readChoice, hk, hin, hk2]
      | vec h1 h2 =>
        rw [if_neg (by simp [h1]), if_pos h2] at h
        obtain ⟨ws, rfl, hne, hm⟩ := h
        simp only [variantStop, h1, h2, if_true, Bool.false_eq_true, if_false, Leaf.qn, hq] at hstop
        refine ((Evt.ge (ws.length + 1)).and (loopNext_complete H h1 hq hc hm hstop.1)).mono ?_
        rintro k ⟨hk, hk2⟩
        have hpk : queueOps.peek ⟨e, es ++ rest⟩ q = (true, ⟨e, es ++ rest⟩) := by
          subst hes
          simp only [leafFirst, h1, Bool.false_eq_true, if_false, Leaf.qn, hq, List.mem_singleton] at hfst
          simp [queueOps, hfst]
        simp only [readChoice, hpk, if_true, hk2 k (by omega), Res.bind_ok]
      | single h1 h2 =>
        rw [if_neg (by simp [h1]), if_neg (by simp [h2])] at h
        unfold RItem at h
        rw [if_neg (by simp [h1])] at h
        obtain ⟨ch, rfl, hq', hch⟩ := h
        rw [hq] at hq'; have hq' := Res.ok.inj hq'
        refine (readOn_complete H hc hch).mono fun k hk => ?_
        simp only [readChoice, List.cons_append, List.nil_append, next_hit hq'.symm, hk, Res.bind_ok]
    · have hlm' : l ∈ vs := by
        rcases List.mem_cons.1 hlm with h | h
        · exact absurd h hll
        · exact h
      have hrec := ih hrs hd.2 hlm' hstop.2
      have hvd : variantDet x S C l = true := by
        have : ∀ vs, variantsDet x S C vs = true → ∀ l ∈ vs, variantDet x S C l = true := by
          intro vs
          induction vs with
          | nil => intro _ l hl; cases hl
          | cons a vs ih =>
            intro hh l hl
            simp only [variantsDet, Bool.and_eq_true] at hh
            rcases List.mem_cons.1 hl with rfl | hl
            · exact hh.1.1
            · exact ih hh.2 l hl
        exact this vs hd.2 l hlm'
      obtain ⟨a, t, hes, hfst⟩ := variant_facts H hvd h
      have hmiss : headIn (leafLook x S l0) (es ++ rest) = false := by
        subst hes
        rw [headIn_false]
        intro b bs hb hin
        cases hb
        exact disj_mem hd.1.2 hin (List.mem_flatMap.2 ⟨l, hlm', hfst⟩)
      cases hcase with
      | @virt n ii h1 hn hi' =>
        obtain ⟨n', L, ht, hg, hL, hsub⟩ := variantDet_virtual hd.1.1 h1
        have : n' = n := by simp [Leaf.target, hn] at ht; exact ht.symm
        subst this
        simp only [leafLook, h1, if_true, ht, hL, Option.getD_some] at hmiss
        refine ((look_ev G hL hi').and hrec).mono ?_
        rintro k ⟨hk, hk2⟩
        simp [readChoice, hk, hmiss, hk2]
      | vec h1 h2 =>
        simp only [leafLook, h1, Bool.false_eq_true, if_false, Leaf.qn, hq] at hmiss
        refine hrec.mono fun k hk => ?_
        have hpk : queueOps.peek ⟨e, es ++ rest⟩ q = (false, ⟨e, es ++ rest⟩) := by
          subst hes
          have := headIn_false.1 hmiss a (t ++ rest) rfl
          simp only [List.mem_singleton] at this
          simp [queueOps, this]
        simp only [readChoice, hpk, Bool.false_eq_true, if_false, hk]
      | single h1 h2 =>
        simp only [leafLook, h1, Bool.false_eq_true, if_false, Leaf.qn, hq] at hmiss
        refine hrec.mono fun k hk => ?_
        simp only [readChoice, next_miss hmiss, hk]

end

theorem enumFromStr_complete {vs : List (Str × Str)} {s vn : Str} (hn : (vs.map Prod.snd).Nodup) (h : (vn, s) ∈ vs) :
    enumFromStr vs s = .ok (.enumv vn) := by
  unfold enumFromStr
  have : vs.find? (fun p => decide (p.2 = s)) = some (vn, s) := by
    induction vs with
    | nil => cases h
    | cons p vs ih =>
      simp only [List.map_cons, List.nodup_cons] at hn
      rw [List.find?_cons]
      rcases List.mem_cons.1 h with rfl | h
      · simp
      · have : p.2 ≠ s := by
          rintro rfl; exact hn.1 (List.mem_map.2 ⟨_, h, rfl⟩)
        simp only [this, decide_false]
        exact ih hn.2 h
  rw [this]

theorem readStr_complete (G : Generated x S P) (hdet : detOK x S C = true) {a : Attribute} {r : AttrRead}
    (hr : attrRead x S a = .ok r)
    {s : Str} {v : Val} (h : RStr x .exact S a.content s v) : readStr x P r.inner s = .ok v := by
  obtain ⟨_, _, _, hcase⟩ := attrRead_ok hr
  unfold RStr at h
  rcases hcase with ⟨t, ht, hi⟩ | ⟨f, hf, hi⟩ | ⟨n, ty, hn, hty, hi⟩
  · rw [ht] at h; rw [hi]
    simp only at h
    simp [readStr, parseLit, h]
  · rw [hf] at h; rw [hi]; simp only at h; rw [h.1]; rfl
  · rw [hi]
    simp only [readStr]
    rw [hn] at hty h
    simp only at h
    obtain ⟨c', hm, h⟩ := h
    rcases contentTy_ok hty with ⟨t, hm', rfl⟩ | ⟨f, hm', rfl⟩ | ⟨n', i, hm', hi', rfl⟩
    · cases hm.functional hm'
      obtain ⟨hp, rfl⟩ := h
      rw [hp]; rfl
    · cases hm.functional hm'; cases h
    · cases hm.functional hm'
      obtain ⟨names, tab, vn, hget, htab, hmem, rfl⟩ := h
      obtain ⟨r', t, hr', hft, hid, hg⟩ := G.find' hi' (by rw [hget]; rfl)
      rw [hget] at hr'; cases hr'
      obtain ⟨tab', htab', hdt, _⟩ := rootDecl_enum hg.decl
      rw [htab] at htab'; cases htab'
      simp only [fromStrAt, hft, hdt]
      have hd := List.all_eq_true.1 hdet _ (alookup_mem hget)
      simp only [rootDet, htab, Bool.and_eq_true, decide_eq_true_eq] at hd
      exact enumFromStr_complete hd.2 hmem

theorem readAttrs_complete (G : Generated x S P) (hdet : detOK x S C = true) (as : List Attribute) {rs : List AttrRead}
    (hr : mapRes (attrRead x S) as = .ok rs) {fs : List (Str × Val)} {e : Elem} {p : List Elem}
    (h : RAttrs x .exact S as fs e) : readAttrs x queueOps P rs ⟨e, p⟩ = .ok fs := by
  induction as generalizing rs fs with
  | nil => simp [mapRes] at hr; subst hr; simp only [RAttrs] at h; subst h; rfl
  | cons a as ih =>
    obtain ⟨r, rs', hra, hrs, rfl⟩ := mapRes_cons_ok.1 hr
    obtain ⟨f, v, fs', rfl, hf, hrest, hv⟩ := h
    obtain ⟨hf', hn, ho, _⟩ := attrRead_ok hra
    rw [hf] at hf'; have hf' := Res.ok.inj hf'
    simp only [readAttrs, ih hrs hrest]
    have : readAttr x queueOps P r ⟨e, p⟩ = .ok v := by
      unfold readAttr
      rw [hn, ho]
      cases hopt : a.isOptional with
      | true =>
        have hat : queueOps.attr ⟨e, p⟩ a.name.name = attrOf e.1 a.name.name := attrVal_eq_attrOf _ _
        rw [if_pos hopt] at hv
        rw [if_pos rfl, hat]
        rcases hv with ⟨rfl, hno⟩ | ⟨s, w, hs, rfl, hw⟩
        · rw [hno]
        · rw [hs]; simp [readStr_complete G hdet hra hw]
      | false =>
        rw [if_neg (by simp [hopt])] at hv
        obtain ⟨s, hs, hw⟩ := hv
        simp only [Bool.false_eq_true, if_false, queueOps, attrVal_eq_attrOf, hs, ofExcept, Res.bind_ok]
        exact readStr_complete G hdet hra hw
    rw [this]
    simp [hf']

theorem content_complete (G : Generated x S P) (H : CallComplete x S P C T) {n : Name} {c : LeafContent} {vr : ValRead}
    (hc : contentRead x S c = .ok vr) (hd : contentDet S C n c = true) {v : Val} {e : Elem} {es : List Elem}
    (h : RVal x .exact S T c v e es) :
    Facts (C.first n) (C.null n) es ∧ ∀ rest, headIn (C.stop n) rest = false →
    Evt (fun k => readVal x queueOps (fromNode x queueOps P k) vr ⟨e, es ++ rest⟩ = .ok (v, ⟨e, rest⟩)) := by
  unfold contentDet at hd
  have h' := h
  obtain ⟨c', hm, h⟩ := h
  split at hd
  · next m hin =>
    have hm' := inlined_means hin
    cases hm.functional hm'
    simp only [Bool.and_eq_true, Bool.or_eq_true, Bool.not_eq_true'] at hd
    have hT := H m v e es h
    refine ⟨⟨fun he => ?_, fun a t he => sub_mem hd.1.1 (hT.1.2 a t he)⟩, fun rest hs => ?_⟩
    · rcases hd.2 with hh | hh
      · rw [hT.1.1 he] at hh; cases hh
      · exact hh
    · refine readVal_complete H hc h' fun n' hn' => ?_
      have := hn'.functional hm'; cases this
      exact headIn_mono (fun q hq => sub_mem hd.1.2 hq) hs
  · next c'' hno hin =>
    have hm' := inlined_means hin
    have heq := hm.functional hm'
    subst heq
    have hes : es = [] := by
      cases c' with
      | literal t => obtain ⟨_, _, _, h⟩ := h; exact h
      | fixed s => exact h.2.2
      | named n => exact (hno n rfl).elim
    refine ⟨⟨fun _ => hd, fun a t he => by rw [hes] at he; cases he⟩, fun rest hs => ?_⟩
    refine readVal_complete H hc h' fun n' hn' => ?_
    have := hn'.functional hm'
    exact (hno n' this.symm).elim
  · cases hd

theorem fromNode_complete (G : Generated x S P) (hdet : detOK x S C = true) (j : Nat) :
    CallComplete x S P C (TRepr x .exact S j) := by
  induction j with
  | zero => intro n v e es h; cases h
  | succ j ih =>
    intro n v e es ⟨r, hr, h⟩
    have hd := List.all_eq_true.1 hdet _ (alookup_mem hr)
    simp only at hd
    obtain ⟨t, _, hft, hg⟩ := G.find hr
    suffices hsuf : Facts (C.first n) (C.null n) es ∧ ∀ rest, headIn (C.stop n) rest = false →
        Evt (fun k => runFrom x queueOps P (fromNode x queueOps P k) (lookahead queueOps P k) k t ⟨e, es ++ rest⟩ =
          .ok (v, ⟨e, rest⟩)) by
      refine ⟨hsuf.1, fun i rest hi hs => ?_⟩
      have := hg.ident
      rw [hi] at this; have := Res.ok.inj this
      subst this
      refine Evt.succ ((hsuf.2 rest hs).mono fun k hk => ?_)
      simp only [fromNode, hft, hk]
    have hrd := hg.read
    cases r with
    | leaf d =>
      simp only [rootRead, Res.bind_eq_ok] at hrd
      obtain ⟨vr, hvr, hrd⟩ := hrd
      obtain ⟨w, rfl, h⟩ := h
      obtain ⟨hfacts, hrun⟩ := content_complete G ih hvr hd h
      refine ⟨hfacts, fun rest hs => (hrun rest hs).mono fun k hk => ?_⟩
      simp only [runFrom, ← Res.ok.inj hrd, hk, Res.bind_ok]
    | enum names =>
      obtain ⟨tab, vn, s, htab, hmem, htx, rfl, rfl⟩ := h
      simp only [rootDet, htab, Bool.and_eq_true, decide_eq_true_eq] at hd
      refine ⟨⟨fun _ => hd.1, fun a t he => by cases he⟩, fun rest hs => .of fun k => ?_⟩
      simp only [rootRead, Res.pure_eq] at hrd
      obtain ⟨tab', htab', hdt, _⟩ := rootDecl_enum hg.decl
      rw [htab] at htab'; cases htab'
      simp only [runFrom, ← Res.ok.inj hrd, htx.readExact, Res.bind_ok, hdt, enumFromStr_complete hd.2 hmem,
        List.nil_append]
    | element d =>
      obtain ⟨fc, fa, rfl, hcont, hattr⟩ := h
      simp only [rootRead, Res.bind_eq_ok] at hrd
      obtain ⟨c, hc, as, has, hrd⟩ := hrd
      have hra := fun p => readAttrs_complete G hdet d.attributes has (p := p) hattr
      suffices hsuf : Facts (C.first n) (C.null n) es ∧ ∀ rest, headIn (C.stop n) rest = false →
          Evt (fun k => readContent x queueOps (fromNode x queueOps P k) (lookahead queueOps P k) k c ⟨e, es ++ rest⟩ =
            .ok (fc, ⟨e, rest⟩)) by
        refine ⟨hsuf.1, fun rest hs => (hsuf.2 rest hs).mono fun k hk => ?_⟩
        simp only [runFrom, ← Res.ok.inj hrd, hk, Res.bind_ok, hra]
      unfold RContent at hcont
      simp only [rootDet] at hd
      cases hdc : d.content with
      | none =>
        simp only [hdc] at hcont hd
        rw [hdc] at hc
        obtain ⟨rfl, rfl⟩ := hcont
        simp only [elementContentRead, Res.pure_eq] at hc
        rw [← Res.ok.inj hc]
        exact ⟨⟨fun _ => hd, fun a t he => by cases he⟩, fun rest hs => .of fun k => by simp [readContent]⟩
      | some ec =>
        cases ec with
        | leaf ln ld =>
          simp only [hdc] at hcont hd
          rw [hdc] at hc
          obtain ⟨f, w, rfl, hf, hv⟩ := hcont
          simp only [elementContentRead, Res.bind_eq_ok] at hc
          obtain ⟨f', hf', vr, hvr, hc⟩ := hc
          rw [hf] at hf'; cases hf'
          obtain ⟨hfacts, hrun⟩ := content_complete G ih hvr hd hv
          refine ⟨hfacts, fun rest hs => (hrun rest hs).mono fun k hk => ?_⟩
          rw [← Res.ok.inj hc]
          simp only [readContent, hk, Res.bind_ok]
        | leaves ls =>
          simp only [hdc] at hcont hd
          rw [hdc] at hc
          simp only [elementContentRead, Res.bind_eq_ok] at hc
          obtain ⟨rs, hrs, hc⟩ := hc
          simp only [Bool.and_eq_true, Bool.or_eq_true, Bool.not_eq_true'] at hd
          obtain ⟨⟨⟨hd1, hd2⟩, hd3⟩, hd4⟩ := hd
          obtain ⟨es', hcont, har⟩ := hcont
          have hf := leaves_facts ih hd1 hcont
          refine ⟨⟨fun he => ?_, fun a t he => sub_mem hd2 ?_⟩, fun rest hs => ?_⟩
          · rcases hd4 with hh | hh
            · rw [hf.1 (har.nil_iff.1 he)] at hh; cases hh
            · exact hh
          · rcases har with rfl | ⟨ha, hsame⟩
            · exact hf.2 a t he
            · exact anywhere_facts ha hcont a (hsame.symm.mem (by rw [he]; simp))
          · rw [← Res.ok.inj hc]
            rcases har with rfl | ⟨ha, hsame⟩
            · exact readLeaves_complete G ih ls hrs hd1 hcont (headIn_mono (fun q hq => sub_mem hd3 hq) hs)
            · exact readLeaves_anywhere ih ls ha hrs hcont hsame
    | choice vs b dd =>
      obtain ⟨l, hl, i, w, hi, rfl, hv⟩ := h
      simp only [rootRead, Res.bind_eq_ok] at hrd
      obtain ⟨rs, hrs, hrd⟩ := hrd
      simp only [rootDet, Bool.and_eq_true] at hd
      have hvd : variantDet x S C l = true := by
        have : ∀ vs, variantsDet x S C vs = true → ∀ l ∈ vs, variantDet x S C l = true := by
          intro vs
          induction vs with
          | nil => intro _ l hl; cases hl
          | cons a vs ih =>
            intro hh l hl
            simp only [variantsDet, Bool.and_eq_true] at hh
            rcases List.mem_cons.1 hl with rfl | hl
            · exact hh.1.1
            · exact ih hh.2 l hl
        exact this vs hd.1.1 l hl
      obtain ⟨a, t', hes, hfst⟩ := variant_facts ih hvd hv
      refine ⟨⟨fun he => (by rw [hes] at he; cases he), fun a' t'' he => ?_⟩, fun rest hs => ?_⟩
      · rw [hes] at he; cases he
        exact sub_mem hd.1.2 (List.mem_flatMap.2 ⟨l, hl, hfst⟩)
      · refine (readChoice_complete G ih t.ident vs hrs hd.1.1 hl hi hv
          (headIn_mono (fun q hq => sub_mem hd.2 hq) hs)).mono fun k hk => ?_
        simp only [runFrom, ← Res.ok.inj hrd, hk]

end Xsd
