import Verif.Spec.Faults
import Verif.Spec.Finite
import Verif.Props.Choice
import Verif.Props.Enums
/-!
# Errors of generated readers
-/
namespace Xsd

variable {x : Ext} {S : SchemaContext} {P : List TypeDef}

/-- The inverse of `bind` for errors. -/
theorem bind_err {ε α β : Type} {m : Res ε α} {f : α → Res ε β} {e : ε} (h : (m >>= f) = .err e) :
    m = .err e ∨ ∃ a, m = .ok a ∧ f a = .err e := by
  cases m with
  | ok a => exact .inr ⟨a, rfl, h⟩
  | err e' => cases h; exact .inl rfl
  | panic => cases h
  | diverge => cases h

/-! ## Looking ahead -/

theorem leads_element {n : Name} {d : ElementDef} {ls : List Leaf} (hg : S.get n = some (.element d))
    (hc : d.content = some (.leaves ls)) (q : QName) : Leads S n q ↔ ∃ l ∈ lookLeaves ls, LeafLeads S l q := by
  constructor
  · intro h
    cases h with
    | variant hg' => rw [hg] at hg'; cases hg'
    | variantGroup hg' => rw [hg] at hg'; cases hg'
    | field hg' hc' ho hv hq =>
      rw [hg] at hg'; cases hg'; rw [hc] at hc'; cases hc'
      exact ⟨_, (lookLeaves_mem _ _).2 ⟨_, _, rfl, ho⟩, .inl ⟨hv, hq⟩⟩
    | fieldGroup hg' hc' ho hv hm hl =>
      rw [hg] at hg'; cases hg'; rw [hc] at hc'; cases hc'
      exact ⟨_, (lookLeaves_mem _ _).2 ⟨_, _, rfl, ho⟩, .inr ⟨hv, _, hm, hl⟩⟩
  · rintro ⟨l, hl, hll⟩
    obtain ⟨pre, post, rfl, ho⟩ := (lookLeaves_mem ls l).1 hl
    rcases hll with ⟨hv, hq⟩ | ⟨hv, m, hm, hl⟩
    · exact .field hg hc ho hv hq
    · exact .fieldGroup hg hc ho hv hm hl

theorem leads_none {n : Name} {d : ElementDef} (hg : S.get n = some (.element d))
    (hc : ∀ ls, d.content ≠ some (.leaves ls)) (q : QName) : ¬ Leads S n q := by
  intro h
  cases h with
  | variant hg' => rw [hg] at hg'; cases hg'
  | variantGroup hg' => rw [hg] at hg'; cases hg'
  | field hg' hc' => rw [hg] at hg'; cases hg'; exact hc _ hc'
  | fieldGroup hg' hc' => rw [hg] at hg'; cases hg'; exact hc _ hc'

theorem leads_choice {n : Name} {vs : List Leaf} {b : Bool} {d : Option Str} (hg : S.get n = some (.choice vs b d)) (q : QName) :
    Leads S n q ↔ ∃ l ∈ vs, LeafLeads S l q := by
  constructor
  · intro h
    cases h with
    | variant hg' hl hv hq => rw [hg] at hg'; cases hg'; exact ⟨_, hl, .inl ⟨hv, hq⟩⟩
    | variantGroup hg' hl hv hm hll => rw [hg] at hg'; cases hg'; exact ⟨_, hl, .inr ⟨hv, _, hm, hll⟩⟩
    | field hg' => rw [hg] at hg'; cases hg'
    | fieldGroup hg' => rw [hg] at hg'; cases hg'
  · rintro ⟨l, hl, ⟨hv, hq⟩ | ⟨hv, m, hm, hll⟩⟩
    · exact .variant hg hl hv hq
    · exact .variantGroup hg hl hv hm hll

/-- Looking ahead finds out whether the next child element can start the group. -/
def LookRight (x : Ext) (S : SchemaContext) (cL : Str → Queue → DRes Queue Bool) : Prop :=
  ∀ m i, LookGroup x S m → pascalIdent x m = .ok i → ∀ s b s', cL i s = .ok (b, s') →
    (b = true ↔ ∃ ch r, s.pending = ch :: r ∧ Leads S m ch.1.name)

/-- The virtual leaves of the list refer to groups. -/
def GroupsIn (x : Ext) (S : SchemaContext) (ls : List Leaf) : Prop :=
  ∀ l ∈ ls, l.isVirtual = true → ∃ m, l.definition.content = .named m ∧ LookGroup x S m

theorem runChecks_right {cL : Str → Queue → DRes Queue Bool} (hL : LookPure cL) (hR : LookRight x S cL) (ls : List Leaf)
    (hg : GroupsIn x S ls) {cs : List Check} (hcs : mapRes (leafCheck x S) ls = .ok cs) {s s' : Queue} {b : Bool}
    (h : runChecks queueOps cL cs s = .ok (b, s')) :
    b = true ↔ ∃ l ∈ ls, ∃ ch r, s.pending = ch :: r ∧ LeafLeads S l ch.1.name := by
  induction ls generalizing cs with
  | nil => simp [mapRes] at hcs; subst hcs; simp [runChecks] at h; simp [← h.1]
  | cons l ls ih =>
    obtain ⟨c, cs', hc, hcs', rfl⟩ := mapRes_cons_ok.1 hcs
    have ih := fun h => ih (fun l hl => hg l (by simp [hl])) hcs' h
    simp only [leafCheck] at hc
    split at hc
    · next hv =>
      obtain ⟨m, hm, hgm⟩ := hg l (by simp) hv
      simp only [hm, Res.bind_eq_ok] at hc
      obtain ⟨i, hi, hc⟩ := hc
      cases hc
      simp only [runChecks, Res.bind_eq_ok] at h
      obtain ⟨⟨b1, s1⟩, h1, h⟩ := h
      have hiff := hR m i hgm hi _ _ _ h1
      have := hL _ _ _ _ h1
      subst this
      have hlead : b1 = true ↔ ∃ ch r, s1.pending = ch :: r ∧ LeafLeads S l ch.1.name := by
        rw [hiff]
        simp [LeafLeads, hv, hm]
      simp only [List.mem_cons, exists_eq_or_imp]
      rw [← hlead]
      cases b1 with
      | true => simp at h; simp [← h.1]
      | false => simp only [Bool.false_eq_true, if_false] at h; rw [ih h]; simp
    · next hv =>
      simp only [SchemaContext.qname_eq, Res.bind_eq_ok] at hc
      obtain ⟨q, hq, hc⟩ := hc
      cases hc
      simp only [runChecks] at h
      have hp : (queueOps.peek s q).2 = s := rfl
      rw [hp] at h
      have hlead : (queueOps.peek s q).1 = true ↔ ∃ ch r, s.pending = ch :: r ∧ LeafLeads S l ch.1.name := by
        have hv' : l.isVirtual = false := by simpa using hv
        cases hpn : s.pending with
        | nil => simp [queueOps, hpn]
        | cons ch r => simp [queueOps, hpn, LeafLeads, hv', hq, eq_comm]
      simp only [List.mem_cons, exists_eq_or_imp]
      rw [← hlead]
      cases hb : (queueOps.peek s q).1 with
      | true => simp [hb] at h; simp [← h.1]
      | false => simp only [hb, Bool.false_eq_true, if_false] at h; rw [ih h]; simp

/-- The virtual leaves of the list that can be missing or repeated refer to groups. -/
def LooksIn (x : Ext) (S : SchemaContext) (ls : List Leaf) : Prop :=
  ∀ l ∈ ls, l.isVirtual = true → l.repeats = true ∨ l.mayMiss = true → ∃ m, l.definition.content = .named m ∧ LookGroup x S m

theorem lookLeaves_within (ls : List Leaf) {l : Leaf} (h : l ∈ lookLeaves ls) : l ∈ ls := by
  obtain ⟨pre, post, rfl, _⟩ := (lookLeaves_mem ls l).1 h
  simp

theorem lookahead_right (G : Generated x S P) (k : Nat) : LookRight x S (lookahead queueOps P k) := by
  induction k with
  | zero => intro m i _ _ s b s' h; simp [lookahead] at h
  | succ k ih =>
    intro m i hm hi s b s' h
    have hL := lookahead_pure (P := P) k
    have hget : (S.get m).isSome = true := by
      have := hm.out.1
      unfold isGroup at this
      cases hg : S.get m with
      | none => rw [hg] at this; cases this
      | some r => rfl
    obtain ⟨r, t, hr, hft, _, hg⟩ := G.find' (hm.out.2.1 ▸ hi) hget
    have hgr : GroupsIn x S r.leaves := hm.out.2.2 r hr
    simp only [lookahead, hft] at h
    have hlk := hg.look
    cases r with
    | leaf d => have := hm.out.1; simp [isGroup, hr] at this
    | enum ns => have := hm.out.1; simp [isGroup, hr] at this
    | element d =>
      simp only [rootLook] at hlk
      cases hd : d.content with
      | none =>
        simp only [hd, Res.pure_eq] at hlk
        rw [← Res.ok.inj hlk] at h
        simp [runChecks] at h
        have := leads_none hr (by simp [hd])
        simp [← h.1, this]
      | some ec =>
        cases ec with
        | leaf a c =>
          simp only [hd, Res.pure_eq] at hlk
          rw [← Res.ok.inj hlk] at h
          simp [runChecks] at h
          have := leads_none hr (by simp [hd])
          simp [← h.1, this]
        | leaves ls =>
          simp only [hd, Res.bind_eq_ok] at hlk
          obtain ⟨cs, hcs, hlk⟩ := hlk
          rw [← Res.ok.inj hlk] at h
          rw [runChecks_right hL ih (lookLeaves ls) (fun l hl => hgr l (by simp only [Root.leaves, hd]; exact lookLeaves_within ls hl))
            hcs h]
          simp only [leads_element hr hd]
          constructor
          · rintro ⟨l, hl, ch, rr, hp, hll⟩; exact ⟨ch, rr, hp, l, hl, hll⟩
          · rintro ⟨ch, rr, hp, l, hl, hll⟩; exact ⟨l, hl, ch, rr, hp, hll⟩
    | choice vs bb dd =>
      simp only [rootLook, Res.bind_eq_ok] at hlk
      obtain ⟨cs, hcs, hlk⟩ := hlk
      rw [← Res.ok.inj hlk] at h
      rw [runChecks_right hL ih vs hgr hcs h]
      simp only [leads_choice hr]
      constructor
      · rintro ⟨l, hl, ch, rr, hp, hll⟩; exact ⟨ch, rr, hp, l, hl, hll⟩
      · rintro ⟨ch, rr, hp, l, hl, hll⟩; exact ⟨l, hl, ch, rr, hp, hll⟩

/-! ## Errors -/

variable {n : Name} {e0 : Elem}

theorem At.means {c c' : LeafContent} {e : Elem} {rest : List Elem} (h : At x S n e0 c e rest) (hm : Means S c c') :
    At x S n e0 c' e rest := by
  induction hm with
  | literal t => exact h
  | fixed s => exact h
  | alias hg _ ih => exact ih (h.value hg rfl)
  | name hg => exact h

theorem text_err {s : Queue} {E : DErr} (h : ofExcept (queueOps.text s) = .err E) :
    E = .textExpected s.node.1.name.loc ∧ s.node.2 ≠ [] ∧ ∀ t r, s.node.2 ≠ .text t :: r := by
  simp only [queueOps, Queue.textVal] at h
  split at h
  · cases h
  · cases h
  · next he => cases h; exact ⟨rfl, by rw [he]; simp, by rw [he]; simp⟩
  · next he => cases h; exact ⟨rfl, by rw [he]; simp, by rw [he]; simp⟩

theorem enumFromStr_err {names : List Name} {tab : List (Str × Str)} (ht : escapeEnumNames x names = .ok tab) {s : Str} {E : DErr}
    (h : enumFromStr tab s = .err E) : E = .invalidVariant s ∧ ∀ v ∈ names, v.name ≠ s := by
  obtain ⟨tab', ht', hmap, _⟩ := C25_variants (x := x) names
  rw [ht] at ht'; cases ht'
  unfold enumFromStr at h
  split at h
  · cases h
  · next hnone =>
    cases h
    refine ⟨rfl, fun v hv he => ?_⟩
    have : v.name ∈ tab.map Prod.snd := by rw [hmap]; exact List.mem_map.2 ⟨v, hv, rfl⟩
    obtain ⟨p, hp, hpe⟩ := List.mem_map.1 this
    have := List.find?_eq_none.1 hnone p hp
    simp [hpe, he] at this

theorem parseLit_err {t : LiteralType} {s : Str} {E : DErr} (h : parseLit x t s = .err E) :
    E = .parseType t.xsdName s ∧ parsePrim x t.prim s = none := by
  unfold parseLit at h
  split at h
  · cases h
  · next hp => cases h; exact ⟨rfl, hp⟩

section
variable {k0 : Nat} {cF : Str → Queue → DRes Queue Val} {cL : Str → Queue → DRes Queue Bool}

/-- The induction hypothesis: the errors of generated readers that are called where it is their turn. -/
def CallFaults (x : Ext) (S : SchemaContext) (n : Name) (e0 : Elem) (cF : Str → Queue → DRes Queue Val) : Prop :=
  ∀ m i s E, typeIdent x m = .ok i → (S.get m).isSome = true → cF i s = .err E → At x S n e0 (.named m) s.node s.pending →
    Faults x S n e0 E

theorem readVal_faults (hE : CallFaults x S n e0 cF) {c : LeafContent} {vr : ValRead} (hc : contentRead x S c = .ok vr)
    (hcl : ∀ m, Means S c (.named m) → (S.get m).isSome = true) {s : Queue} {E : DErr} (ha : At x S n e0 c s.node s.pending)
    (h : readVal x queueOps cF vr s = .err E) : Faults x S n e0 E := by
  rcases contentRead_ok hc with ⟨t, hm, rfl⟩ | ⟨f, hm, rfl⟩ | ⟨m, i, hm, hi, rfl⟩
  · simp only [readVal] at h
    rcases bind_err h with h | ⟨tx, htx, h⟩
    · obtain ⟨rfl, h1, h2⟩ := text_err h
      exact .text ha (.inl ⟨t, hm⟩) h1 h2
    · rcases bind_err h with h | ⟨w, _, h⟩
      · obtain ⟨rfl, hp⟩ := parseLit_err h
        exact .literal ha hm (queue_text_ok htx) hp
      · cases h
  · simp only [readVal] at h
    rcases bind_err h with h | ⟨tx, htx, h⟩
    · obtain ⟨rfl, h1, h2⟩ := text_err h
      exact .text ha (.inr (.inl ⟨f, hm⟩)) h1 h2
    · split at h
      · cases h
      · next hne => cases h; exact .fixed ha hm (queue_text_ok htx) hne
  · exact hE m i s E hi (hcl m hm) h (ha.means hm)

theorem readOn_faults (hE : CallFaults x S n e0 cF) {c : LeafContent} {vr : ValRead} (hc : contentRead x S c = .ok vr)
    (hcl : ∀ m, Means S c (.named m) → (S.get m).isSome = true) {ch : Elem} {E : DErr} (ha : At x S n e0 c ch (elemKids ch.2))
    (h : readOn x queueOps cF vr ch = .err E) : Faults x S n e0 E := by
  simp only [readOn] at h
  rcases bind_err h with h | ⟨w, _, h⟩
  · exact readVal_faults hE hc hcl (s := queueOps.mkNode ch) ha h
  · cases h

/-- Looking ahead does not fail. -/
def LookNoErr (cL : Str → Queue → DRes Queue Bool) : Prop := ∀ i s E, cL i s ≠ .err E

/-- `Again` at a given depth. -/
def AgainAt (x : Ext) (S : SchemaContext) (k : Nat) (l : Leaf) (e : Elem) (rest rest' : List Elem) : Prop :=
  ∃ vs es, RMany x .lenient S (TRepr x .lenient S k) l vs e es ∧ Cat (LooseLeaf S l) .lenient es rest' rest ∧
    (vs ≠ [] → l.repeats = true)

theorem AgainAt.again {l : Leaf} {e : Elem} {rest rest' : List Elem} (h : AgainAt x S k0 l e rest rest') : Again x S l e rest rest' := by
  obtain ⟨vs, es, h⟩ := h
  exact ⟨k0, vs, es, h⟩

theorem AgainAt.none {l : Leaf} {e : Elem} {rest : List Elem} : AgainAt x S k0 l e rest rest :=
  ⟨[], [], rfl, .lenient_nil _, fun h => absurd rfl h⟩

/-- One more occurrence before the others. -/
theorem AgainAt.cons {l : Leaf} {e : Elem} {w : Val} {a p mid rest' : List Elem} (hr : l.repeats = true)
    (hw : RItem x .lenient S (TRepr x .lenient S k0) l w e a) (hc : Cat (LooseLeaf S l) .lenient a mid p)
    (h : AgainAt x S k0 l e mid rest') : AgainAt x S k0 l e p rest' := by
  obtain ⟨vs, es, hm, hcat, _⟩ := h
  obtain ⟨c, h1, h2⟩ := hc.lenient_assoc hcat
  exact ⟨w :: vs, c, ⟨a, es, hw, (fun h => by cases h), hm, h1⟩, h2.lenient_mono (ne := false) (fun h => h.elim id id), fun _ => hr⟩

theorem Passed.snoc {ls : List Leaf} {l : Leaf} {e : Elem} {rest mid rest' es : List Elem} {k : Nat} {v : Val}
    (h : Passed x S ls e rest mid) (hv : ROcc x .lenient S (TRepr x .lenient S k) l v e es)
    (hc : Cat (LooseLeaf S l) .lenient es rest' mid) (hs : l.repeats = true ∨ (l.mayMiss = true ∧ v = .none) → NotNext S l rest') :
    Passed x S (ls ++ [l]) e rest rest' := by
  induction h with
  | nil => exact .cons hv hc hs .nil
  | cons hv' hc' hs' _ ih => exact .cons hv' hc' hs' (ih hv hc)

variable (hF : CallSound x S (TRepr x .lenient S k0) cF) (hE : CallFaults x S n e0 cF)
include hF hE

theorem loopNext_faults {m : Name} {e : Elem} {rest : List Elem} (ha : At x S n e0 (.named m) e rest) {l : Leaf} {q : QName}
    {vr : ValRead} (hv : l.isVirtual = false) (hr : l.repeats = true) (hq : S.expanded l.name = .ok q)
    (hc : contentRead x S l.definition.content = .ok vr)
    (hcl : ∀ m, Means S l.definition.content (.named m) → (S.get m).isSome = true) (k : Nat) {s : Queue} {E : DErr} (hs : s.node = e)
    (hT : ∀ rest', AgainAt x S k0 l e s.pending rest' → Turn x S m e rest l rest')
    (h : loopNext x queueOps cF q vr k s = .err E) : Faults x S n e0 E := by
  induction k generalizing s with
  | zero => simp [loopNext] at h
  | succ k ih =>
    simp only [loopNext] at h
    split at h
    · cases h
    · next ch s1 hn =>
      obtain ⟨h1, h2, h3⟩ := next_some hn
      subst h1
      rcases bind_err h with h | ⟨w, hw, h⟩
      · exact readOn_faults hE hc hcl (.child ha (hT _ .none) hv hq (before := []) h3 (by simp) (by simp)) h
      · rcases bind_err h with h | ⟨r, _, h⟩
        · refine ih (h2.trans hs) (fun rest' hag => hT rest' (hag.cons hr (w := w) (a := [ch]) ?_ ?_)) h
          · unfold RItem; rw [if_neg (by simp [hv])]
            exact ⟨ch, rfl, hq, readOn_sound (ne := false) hF hc hcl hw⟩
          · rw [h3]; exact .lenient_append [ch] _
        · cases h

theorem loopLook_faults (hL : LookPure cL) (hR : LookRight x S cL) {m : Name} {e : Elem} {rest : List Elem}
    (ha : At x S n e0 (.named m) e rest) {l : Leaf} {i : Str} {vr : ValRead} {g : Name} (hv : l.isVirtual = true) (hr : l.repeats = true)
    (hn : l.definition.content = .named g) (hg : LookGroup x S g) (hi : pascalIdent x g = .ok i)
    (hc : contentRead x S l.definition.content = .ok vr)
    (hcl : ∀ m, Means S l.definition.content (.named m) → (S.get m).isSome = true) (k : Nat) {s : Queue} {E : DErr} (hs : s.node = e)
    (hLE : LookNoErr cL)
    (hT : ∀ rest', AgainAt x S k0 l e s.pending rest' → Turn x S m e rest l rest')
    (h : loopLook x queueOps cF cL i vr k s = .err E) : Faults x S n e0 E := by
  induction k generalizing s with
  | zero => simp [loopLook] at h
  | succ k ih =>
    simp only [loopLook] at h
    obtain ⟨b, s1, hb, h'⟩ : ∃ b s1, cL i s = .ok (b, s1) ∧ (if b = true then do
        let w ← readVal x queueOps cF vr s1
        let r ← loopLook x queueOps cF cL i vr k w.2
        .ok (w.1 :: r.1, r.2)
      else .ok ([], s1) : DRes Queue (List Val)) = .err E := by
      rcases bind_err h with h | ⟨⟨b, s1⟩, hb, h⟩
      · exact absurd h (hLE _ _ _)
      · exact ⟨b, s1, hb, h⟩
    have hiff := hR g i hg hi _ _ _ hb
    have := hL _ _ _ _ hb
    subst this
    replace h := h'
    split at h
    · next hbt =>
      rcases bind_err h with h | ⟨⟨w, s2⟩, hw, h⟩
      · refine readVal_faults hE hc hcl (s := s1) ?_ h
        rw [hs]
        refine .group ha (hT _ .none) hv fun _ hno => ?_
        obtain ⟨ch, r, hp, hl⟩ := hiff.1 hbt
        exact hno ch r hp (.inr ⟨hv, g, hn, hl⟩)
      · rcases bind_err h with h | ⟨r, _, h⟩
        · obtain ⟨hn2, es, hes, hcat⟩ := (readVal_sound (ne := false) hF hc hcl hw).loosen (u' := LooseLeaf S l) fun h => .inr ⟨hv, h⟩
          refine ih (hn2.trans hs) (fun rest' hag => hT rest' (hag.cons hr (w := w) (a := es) ?_ hcat)) h
          unfold RItem; rw [if_pos hv, ← hs]; exact hes
        · cases h
    · cases h

omit hF hE in
theorem loopNext_end {l : Leaf} {q : QName} {vr : ValRead} (hv : l.isVirtual = false) (hq : S.expanded l.name = .ok q) (k : Nat)
    {s s' : Queue} {vs : List Val} (h : loopNext x queueOps cF q vr k s = .ok (vs, s')) : NotNext S l s'.pending := by
  induction k generalizing s vs with
  | zero => simp [loopNext] at h
  | succ k ih =>
    simp only [loopNext] at h
    split at h
    · next s1 hn =>
      cases h
      obtain ⟨rfl, hno⟩ := next_none hn
      rintro ch r hp (⟨_, h⟩ | ⟨h, _⟩)
      · rw [hq] at h; cases h; exact hno ch r hp rfl
      · rw [hv] at h; cases h
    · simp only [Res.bind_eq_ok] at h
      obtain ⟨w, _, r, hr, h⟩ := h
      cases h
      exact ih hr

omit hF hE in
theorem loopLook_end (hL : LookPure cL) (hR : LookRight x S cL) {l : Leaf} {i : Str} {vr : ValRead} {g : Name} (hv : l.isVirtual = true)
    (hn : l.definition.content = .named g) (hg : LookGroup x S g) (hi : pascalIdent x g = .ok i) (k : Nat)
    {s s' : Queue} {vs : List Val} (h : loopLook x queueOps cF cL i vr k s = .ok (vs, s')) : NotNext S l s'.pending := by
  induction k generalizing s vs with
  | zero => simp [loopLook] at h
  | succ k ih =>
    simp only [loopLook, Res.bind_eq_ok] at h
    obtain ⟨⟨b, s1⟩, hb, h⟩ := h
    have hiff := hR g i hg hi _ _ _ hb
    have := hL _ _ _ _ hb
    subst this
    split at h
    · simp only [Res.bind_eq_ok] at h
      obtain ⟨w, _, r, hr, h⟩ := h
      cases h
      exact ih hr
    · next hbf =>
      cases h
      rintro ch r hp (⟨h, _⟩ | ⟨_, m, hm, hl⟩)
      · rw [hv] at h; cases h
      · rw [hn] at hm; cases hm
        exact hbf (hiff.2 ⟨ch, r, hp, hl⟩)

variable (hL : LookPure cL) (hR : LookRight x S cL) (hLE : LookNoErr cL)

omit hF hE in
include hL hR in
theorem readLeaf_stops {l : Leaf} (hgr : l.isVirtual = true → l.repeats = true ∨ l.mayMiss = true → ∃ m, l.definition.content = .named m ∧ LookGroup x S m) {p : Str × LeafRead}
    (hl : leafRead x S l = .ok p) (k : Nat) {s s' : Queue} {v : Val} (h : readLeaf x queueOps cF cL k p.2 s = .ok (v, s')) :
    l.repeats = true ∨ (l.mayMiss = true ∧ v = .none) → NotNext S l s'.pending := by
  obtain ⟨q, vr, _, hq, hc, hcase⟩ := leafRead_ok hl
  obtain ⟨f, lr⟩ := p
  simp only at h hcase
  cases hcase with
  | whileLook h1 h2 hn hi =>
    intro _
    obtain ⟨m, hm, hgm⟩ := hgr h1 (.inl h2)
    rw [hn] at hm; cases hm
    simp only [readLeaf, Res.bind_eq_ok] at h
    obtain ⟨⟨vs, s1⟩, hr, h⟩ := h
    cases h
    exact loopLook_end hL hR h1 hn hgm hi k hr
  | whileNext h1 h2 =>
    intro _
    simp only [readLeaf, Res.bind_eq_ok] at h
    obtain ⟨⟨vs, s1⟩, hr, h⟩ := h
    cases h
    exact loopNext_end h1 hq k hr
  | ifLook h1 h2 h3 hn hi =>
    obtain ⟨m, hm, hgm⟩ := hgr h1 (.inr h3)
    rw [hn] at hm; cases hm
    simp only [readLeaf, Res.bind_eq_ok] at h
    obtain ⟨⟨b, s1⟩, hb, h⟩ := h
    have hiff := hR _ _ hgm hi _ _ _ hb
    have := hL _ _ _ _ hb
    subst this
    split at h
    · simp only [Res.bind_eq_ok] at h
      obtain ⟨w, _, h⟩ := h
      cases h
      rintro (h | ⟨_, h⟩)
      · rw [h2] at h; cases h
      · cases h
    · next hbf =>
      cases h
      rintro - ch r hp (⟨h, _⟩ | ⟨_, m, hm, hl⟩)
      · rw [h1] at h; cases h
      · rw [hn] at hm; cases hm
        exact hbf (hiff.2 ⟨ch, r, hp, hl⟩)
  | ifNext h1 h2 h3 =>
    simp only [readLeaf] at h
    split at h
    · next s1 hn =>
      cases h
      obtain ⟨rfl, hno⟩ := next_none hn
      rintro - ch r hp (⟨_, h⟩ | ⟨h, _⟩)
      · rw [hq] at h; cases h; exact hno ch r hp rfl
      · rw [h1] at h; cases h
    · simp only [Res.bind_eq_ok] at h
      obtain ⟨w, _, h⟩ := h
      cases h
      rintro (h | ⟨_, h⟩)
      · rw [h2] at h; cases h
      · cases h
  | plain h1 h2 h3 => rintro (h | ⟨h, _⟩) <;> simp_all
  | tryChild h1 h2 h3 h4 => rintro (h | ⟨h, _⟩) <;> simp_all
  | tryNext h1 h2 h3 h4 => rintro (h | ⟨h, _⟩) <;> simp_all

omit hF hE in
theorem takeFirst_split (q : QName) : ∀ (es : List Elem) (ch : Elem), (Queue.takeFirst q es).1 = some ch →
    ch.1.name = q ∧ ∃ a b, es = a ++ ch :: b ∧ ∀ c ∈ a, c.1.name ≠ q := by
  intro es ch h
  simp only [Queue.takeFirst] at h
  obtain ⟨h1, a, b, rfl, h2⟩ := List.find?_eq_some_iff_append.1 h
  exact ⟨by simpa using h1, a, b, rfl, fun c hc => by simpa using h2 c hc⟩

include hL hR hLE in
theorem readLeaf_faults {m : Name} {e : Elem} {rest : List Elem} (ha : At x S n e0 (.named m) e rest) {d : ElementDef}
    (hg : S.get m = some (.element d)) {pre post : List Leaf} {l : Leaf} (hd : d.content = some (.leaves (pre ++ l :: post)))
    (hgr : l.isVirtual = true → l.repeats = true ∨ l.mayMiss = true → ∃ m, l.definition.content = .named m ∧ LookGroup x S m) {p : Str × LeafRead}
    (hl : leafRead x S l = .ok p) (hcl : ∀ m, Means S l.definition.content (.named m) → (S.get m).isSome = true) (k : Nat)
    {s : Queue} {E : DErr} (hs : s.node = e) (hp : Passed x S pre e rest s.pending)
    (h : readLeaf x queueOps cF cL k p.2 s = .err E) : Faults x S n e0 E := by
  obtain ⟨q, vr, _, hq, hc, hcase⟩ := leafRead_ok hl
  obtain ⟨f, lr⟩ := p
  simp only at h hcase
  have hT : ∀ rest', AgainAt x S k0 l e s.pending rest' → Turn x S m e rest l rest' := fun rest' hag => .field hg hd hp hag.again
  cases hcase with
  | whileLook h1 h2 hn hi =>
    obtain ⟨g, hg', hgm⟩ := hgr h1 (.inl h2)
    rw [hn] at hg'; cases hg'
    simp only [readLeaf] at h
    rcases bind_err h with h | ⟨r, _, h⟩
    · exact loopLook_faults hF hE hL hR ha h1 h2 hn hgm hi hc hcl k hs hLE hT h
    · cases h
  | whileNext h1 h2 =>
    simp only [readLeaf] at h
    rcases bind_err h with h | ⟨r, _, h⟩
    · exact loopNext_faults hF hE ha h1 h2 hq hc hcl k hs hT h
    · cases h
  | ifLook h1 h2 h3 hn hi =>
    obtain ⟨g, hg', hgm⟩ := hgr h1 (.inr h3)
    rw [hn] at hg'; cases hg'
    simp only [readLeaf] at h
    obtain ⟨b, s1, hb, h'⟩ : ∃ b s1, cL _ s = .ok (b, s1) ∧ (if b = true then do
        let r ← readVal x queueOps cF vr s1
        .ok (.some r.1, r.2)
      else .ok (.none, s1) : DRes Queue Val) = .err E := by
      rcases bind_err h with h | ⟨⟨b, s1⟩, hb, h⟩
      · exact absurd h (hLE _ _ _)
      · exact ⟨b, s1, hb, h⟩
    have hiff := hR _ _ hgm hi _ _ _ hb
    have := hL _ _ _ _ hb
    subst this
    replace h := h'
    split at h
    · next hbt =>
      rcases bind_err h with h | ⟨r, _, h⟩
      · refine readVal_faults hE hc hcl (s := s1) ?_ h
        rw [hs]
        refine .group ha (hT _ .none) h1 fun _ hno => ?_
        obtain ⟨ch, r, hp, hl⟩ := hiff.1 hbt
        exact hno ch r hp (.inr ⟨h1, _, hn, hl⟩)
      · cases h
    · cases h
  | plain h1 h2 h3 =>
    simp only [readLeaf] at h
    refine readVal_faults hE hc hcl (s := s) ?_ h
    rw [hs]
    exact .group ha (hT _ .none) h1 fun hh => by simp [h2, h3] at hh
  | ifNext h1 h2 h3 =>
    simp only [readLeaf] at h
    split at h
    · cases h
    · next ch s1 hn =>
      obtain ⟨e1, e2, e3⟩ := next_some hn
      subst e1
      rcases bind_err h with h | ⟨r, _, h⟩
      · exact readOn_faults hE hc hcl (.child ha (hT _ .none) h1 hq (before := []) e3 (by simp) (by simp)) h
      · cases h
  | tryChild h1 h2 h3 h4 =>
    simp only [readLeaf] at h
    split at h
    · next E' s1 hn =>
      cases h
      simp only [queueOps, Prod.mk.injEq] at hn
      cases ht : (Queue.takeFirst q s.pending).1 with
      | some ch' => rw [ht] at hn; simp [Queue.orMissing] at hn
      | none =>
        rw [ht] at hn
        have hE := hn.1
        simp only [Queue.orMissing, Except.error.injEq] at hE
        subst hE
        refine .element ha hg hd hp h1 h2 h3 hq ?_
        rw [if_pos h4]
        intro ch hch
        simp only [Queue.takeFirst, List.find?_eq_none] at ht
        simpa using ht ch hch
    · next ch s1 hn =>
      simp only [queueOps, Prod.mk.injEq] at hn
      obtain ⟨hn1, rfl⟩ := hn
      cases ht : (Queue.takeFirst q s.pending).1 with
      | none => rw [ht] at hn1; simp [Queue.orMissing] at hn1
      | some ch' =>
        rw [ht] at hn1
        simp only [Queue.orMissing, Except.ok.injEq] at hn1
        subst hn1
        obtain ⟨e1, a, b, e2, e3⟩ := takeFirst_split q _ _ ht
        subst e1
        rcases bind_err h with h | ⟨r, _, h⟩
        · exact readOn_faults hE hc hcl (.child ha (hT _ .none) h1 hq e2 e3
            (fun _ => by simp [Leaf.anywhere, h1, h2, h3, h4])) h
        · cases h
  | tryNext h1 h2 h3 h4 =>
    simp only [readLeaf] at h
    split at h
    · next E' s1 hn =>
      cases h
      simp only [queueOps, Prod.mk.injEq] at hn
      cases ht : Queue.popIf q s.pending with
      | mk o r =>
        rw [ht] at hn
        cases o with
        | some ch' => simp [Queue.orMissing] at hn
        | none =>
          have hE := hn.1
          simp only [Queue.orMissing, Except.error.injEq] at hE
          subst hE
          refine .element ha hg hd hp h1 h2 h3 hq ?_
          rw [if_neg (by simp [h4])]
          have hs : queueOps.next s q = (none, ⟨s.node, r⟩) := by simp [queueOps, ht]
          exact (next_none hs).2
    · next ch s1 hn =>
      simp only [queueOps, Prod.mk.injEq] at hn
      obtain ⟨hn1, rfl⟩ := hn
      cases ht : Queue.popIf q s.pending with
      | mk o r =>
        rw [ht] at hn1
        cases o with
        | none => simp [Queue.orMissing] at hn1
        | some ch' =>
          simp only [Queue.orMissing, Except.ok.injEq] at hn1
          subst hn1
          have hs : queueOps.next s q = (some ch', ⟨s.node, r⟩) := by simp [queueOps, ht]
          obtain ⟨e1, e2, e3⟩ := next_some hs
          subst e1
          rcases bind_err h with h | ⟨r, _, h⟩
          · exact readOn_faults hE hc hcl (.child ha (hT _ .none) h1 hq (before := []) e3 (by simp) (by simp)) h
          · cases h

include hL hR hLE in
theorem readLeaves_faults {m : Name} {e : Elem} {rest : List Elem} (ha : At x S n e0 (.named m) e rest) {d : ElementDef}
    (hg : S.get m = some (.element d)) (ls : List Leaf) {pre : List Leaf} (hd : d.content = some (.leaves (pre ++ ls)))
    (hgr : LooksIn x S ls) {rs : List (Str × LeafRead)} (hl : mapRes (leafRead x S) ls = .ok rs)
    (hcl : ∀ l ∈ ls, ∀ m, Means S l.definition.content (.named m) → (S.get m).isSome = true) (k : Nat)
    {s : Queue} {E : DErr} (hs : s.node = e) (hp : Passed x S pre e rest s.pending)
    (h : readLeaves x queueOps cF cL k rs s = .err E) : Faults x S n e0 E := by
  induction ls generalizing pre rs s with
  | nil => simp [mapRes] at hl; subst hl; simp [readLeaves] at h
  | cons l ls ih =>
    obtain ⟨p, rs', hp', hrs, rfl⟩ := mapRes_cons_ok.1 hl
    obtain ⟨f, lr⟩ := p
    simp only [readLeaves] at h
    rcases bind_err h with h | ⟨⟨w, s1⟩, hw, h⟩
    · exact readLeaf_faults hF hE hL hR hLE ha hg hd (hgr l (by simp)) hp' (hcl l (by simp)) k hs hp h
    · rcases bind_err h with h | ⟨r, _, h⟩
      · obtain ⟨hn1, es, hes, hcat⟩ := readLeaf_sound (ne := false) hF hL (fun _ h => by cases h) hp' (hcl l (by simp)) k hw
        have hst := readLeaf_stops hL hR (hgr l (by simp)) hp' k hw
        rw [hs] at hes
        exact ih (by simpa using hd) (fun l hl => hgr l (by simp [hl])) hrs (fun l hl => hcl l (by simp [hl])) (hn1.trans hs)
          (hp.snoc hes hcat hst) h
      · cases h

include hL hR hLE in
theorem readChoice_faults {m : Name} {e : Elem} {rest : List Elem} (ha : At x S n e0 (.named m) e rest) {i : Str}
    (hi : typeIdent x m = .ok i) (vs : List Leaf) {pre : List Leaf} {b : Bool} {dd : Option Str}
    (hg : S.get m = some (.choice (pre ++ vs) b dd)) (hgr : GroupsIn x S vs) {rs : List (Str × VarRead)}
    (hl : mapRes (variantRead x S) vs = .ok rs)
    (hcl : ∀ l ∈ vs, ∀ m, Means S l.definition.content (.named m) → (S.get m).isSome = true) (k : Nat)
    {s : Queue} {E : DErr} (hs : s = ⟨e, rest⟩) (hp : ∀ a ∈ pre, NotNext S a rest)
    (h : readChoice x queueOps cF cL k i rs s = .err E) : Faults x S n e0 E := by
  induction vs generalizing pre rs s with
  | nil =>
    simp [mapRes] at hl; subst hl; simp [readChoice] at h
    subst h
    exact .variant ha hg hi (by simpa using hp)
  | cons l vs ih =>
    obtain ⟨p, rs', hp', hrs, rfl⟩ := mapRes_cons_ok.1 hl
    obtain ⟨q, vr, _, hq, hc, hcase⟩ := variantRead_ok hp'
    obtain ⟨vn, pr⟩ := p
    simp only at hcase
    have hcl1 := hcl l (by simp)
    have hrest : ∀ {s1 : Queue}, s1 = ⟨e, rest⟩ → NotNext S l rest → readChoice x queueOps cF cL k i rs' s1 = .err E →
        Faults x S n e0 E := by
      intro s1 h1 hno h
      refine ih (pre := pre ++ [l]) (by simpa using hg) (fun l hl => hgr l (by simp [hl])) hrs (fun l hl => hcl l (by simp [hl])) h1 ?_ h
      intro a ha
      rcases List.mem_append.1 ha with ha | ha
      · exact hp a ha
      · simp only [List.mem_singleton] at ha; subst ha; exact hno
    subst hs
    cases hcase with
    | virt h1 hn hi' =>
      obtain ⟨g, hg', hgm⟩ := hgr l (by simp) h1
      rw [hn] at hg'; cases hg'
      simp only [readChoice] at h
      obtain ⟨b, s1, hb, h'⟩ : ∃ b s1, cL _ ⟨e, rest⟩ = .ok (b, s1) ∧ (if b = true then do
          let r ← readVal x queueOps cF vr s1
          .ok (.variant vn r.1, r.2)
        else readChoice x queueOps cF cL k i rs' s1 : DRes Queue Val) = .err E := by
        rcases bind_err h with h | ⟨⟨b, s1⟩, hb, h⟩
        · exact absurd h (hLE _ _ _)
        · exact ⟨b, s1, hb, h⟩
      have hiff := hR _ _ hgm hi' _ _ _ hb
      have := hL _ _ _ _ hb
      subst this
      replace h := h'
      split at h
      · next hbt =>
        obtain ⟨ch, r, hp1, hl1⟩ := hiff.1 hbt
        have hlead : ¬ NotNext S l rest := fun hno => hno ch r hp1 (.inr ⟨h1, _, hn, hl1⟩)
        rcases bind_err h with h | ⟨r, _, h⟩
        · refine readVal_faults hE hc hcl1 (s := ⟨e, rest⟩) ?_ h
          exact .group ha (.variant hg hp hlead (fun _ => rfl) (AgainAt.none (k0 := 0)).again) h1 fun _ => hlead
        · cases h
      · next hbf =>
        refine hrest rfl ?_ h
        rintro ch r hp1 (⟨h, _⟩ | ⟨_, m', hm, hl1⟩)
        · rw [h1] at h; cases h
        · rw [hn] at hm; cases hm
          exact hbf (hiff.2 ⟨ch, r, hp1, hl1⟩)
    | vec h1 h2 =>
      simp only [readChoice] at h
      have hpeek : (queueOps.peek ⟨e, rest⟩ q).2 = ⟨e, rest⟩ := rfl
      rw [hpeek] at h
      split at h
      · next hpk =>
        have hlead : ¬ NotNext S l rest := by
          intro hno
          cases rest with
          | nil => simp [queueOps] at hpk
          | cons ch r =>
            simp [queueOps] at hpk
            exact hno ch r rfl (.inl ⟨h1, hpk ▸ hq⟩)
        rcases bind_err h with h | ⟨r, _, h⟩
        · exact loopNext_faults hF hE ha h1 h2 hq hc hcl1 k (s := ⟨e, rest⟩) rfl
            (fun rest' hag => .variant hg hp hlead (fun h => by rw [h1] at h; cases h) hag.again) h
        · cases h
      · next hpk =>
        refine hrest rfl ?_ h
        rintro ch r rfl (⟨_, h⟩ | ⟨h, _⟩)
        · rw [hq] at h; cases h; simp [queueOps] at hpk
        · rw [h1] at h; cases h
    | single h1 h2 =>
      simp only [readChoice] at h
      split at h
      · next ch s1 hn =>
        obtain ⟨e1, e2, e3⟩ := next_some hn
        subst e1
        have e3 : rest = ch :: s1.pending := e3
        have hlead : ¬ NotNext S l rest := fun hno => hno ch _ e3 (.inl ⟨h1, hq⟩)
        rcases bind_err h with h | ⟨r, _, h⟩
        · exact readOn_faults hE hc hcl1 (.child ha (.variant hg hp hlead (fun h => by simp [h1] at h)
            (AgainAt.none (k0 := 0)).again) h1 hq (before := []) e3 (by simp) (by simp)) h
        · cases h
      · next s1 hn =>
        obtain ⟨rfl, hno⟩ := next_none hn
        refine hrest rfl ?_ h
        rintro ch r rfl (⟨_, h⟩ | ⟨h, _⟩)
        · rw [hq] at h; cases h; exact hno ch r rfl rfl
        · rw [h1] at h; cases h

end

theorem lookahead_noErr (k : Nat) : LookNoErr (lookahead queueOps P k) := by
  induction k with
  | zero => intro i s E h; simp [lookahead] at h
  | succ k ih =>
    intro i s E h
    have hck : ∀ cs s, runChecks queueOps (lookahead queueOps P k) cs s ≠ .err E := by
      intro cs
      induction cs with
      | nil => intro s h; simp [runChecks] at h
      | cons c cs ihc =>
        intro s h
        cases c with
        | call j =>
          simp only [runChecks] at h
          rcases bind_err h with h | ⟨b, _, h⟩
          · exact ih _ _ _ h
          · split at h
            · cases h
            · exact ihc _ h
        | peek q =>
          simp only [runChecks] at h
          split at h
          · cases h
          · exact ihc _ h
    simp only [lookahead] at h
    split at h
    · cases h
    · split at h
      · cases h
      · exact hck _ _ h

theorem readAttrs_faults (G : Generated x S P) {m : Name} {e : Elem} {rest : List Elem} (ha : At x S n e0 (.named m) e rest) {d : ElementDef}
    (hg : S.get m = some (.element d)) (as : List Attribute) {pre : List Attribute} (hd : d.attributes = pre ++ as)
    {rs : List AttrRead} (hr : mapRes (attrRead x S) as = .ok rs)
    (hcl : ∀ a ∈ as, ∀ m, Means S a.content (.named m) → (S.get m).isSome = true) {s : Queue} (hs : s.node = e) {E : DErr}
    (hp : ∀ b ∈ pre, AttrFine x S e b) (h : readAttrs x queueOps P rs s = .err E) : Faults x S n e0 E := by
  induction as generalizing pre rs with
  | nil => simp [mapRes] at hr; subst hr; simp [readAttrs] at h
  | cons a as ih =>
    obtain ⟨r, rs', hra, hrs, rfl⟩ := mapRes_cons_ok.1 hr
    obtain ⟨_, hn, ho, hcase⟩ := attrRead_ok hra
    have hat : queueOps.attr s a.name.name = attrOf e.1 a.name.name := by rw [← hs]; exact attrVal_eq_attrOf _ _
    have htry : queueOps.tryAttr s a.name.name = match attrOf e.1 a.name.name with
        | some v => .ok v | none => .error (.missingAttribute a.name.name) := by
      rw [← hs]; simp only [queueOps, attrVal_eq_attrOf]
      rfl
    have hstr : ∀ t, attrOf e.1 a.name.name = some t → readStr x P r.inner t = .err E → Faults x S n e0 E := by
      intro t ht hst
      rcases hcase with ⟨lt, hlt, hi⟩ | ⟨f, hf, hi⟩ | ⟨n', ty, hn', hty, hi⟩
      · rw [hi] at hst
        obtain ⟨rfl, hp'⟩ := parseLit_err hst
        exact .attrLiteral ha hg hd hp ht hlt hp'
      · rw [hi] at hst; cases hst
      · rw [hi] at hst
        simp only [readStr] at hst
        rcases contentTy_ok hty with ⟨lt, hm, rfl⟩ | ⟨f, hm, rfl⟩ | ⟨m', i, hm, hi', rfl⟩
        · unfold fromStrAt at hst
          split at hst
          · cases hst
          · next hp => cases hp
          · cases hst
        · cases hst
        · obtain ⟨r', t', hr', hft, hid, hgo⟩ := G.find' hi' (hcl a (by simp) m' hm)
          simp only [fromStrAt, hft] at hst
          have hdl := hgo.decl
          cases r' with
          | leaf d => exact absurd hr' (hm.fst_named d)
          | enum names =>
            obtain ⟨tab, htab, hdt, _⟩ := rootDecl_enum hdl
            rw [hdt] at hst
            obtain ⟨rfl, hne⟩ := enumFromStr_err htab hst
            exact .attrEnum ha hg hd hp ht hm hr' hne
          | element d =>
            simp only [rootDecl, Res.bind_eq_ok] at hdl
            obtain ⟨_, _, _, _, hdl⟩ := hdl
            cases hd' : t'.decl <;> rw [hd'] at hdl <;> cases hdl
            rw [hd'] at hst; cases hst
          | choice vs b d =>
            simp only [rootDecl, Res.bind_eq_ok] at hdl
            obtain ⟨_, _, hdl⟩ := hdl
            cases hd' : t'.decl <;> rw [hd'] at hdl <;> cases hdl
            rw [hd'] at hst; cases hst
    simp only [readAttrs] at h
    rcases bind_err h with h | ⟨w, hw, h⟩
    · unfold readAttr at h
      rw [hn, ho, hat, htry] at h
      split at h
      · split at h
        · next t ht =>
          rcases bind_err h with h | ⟨_, _, h⟩
          · exact hstr t ht h
          · cases h
        · cases h
      · next hopt =>
        cases hta : attrOf e.1 a.name.name with
        | none =>
          rw [hta] at h
          cases h
          exact .noAttribute ha hg hd hp (by simpa using hopt) hta
        | some t =>
          rw [hta] at h
          exact hstr t hta h
    · rcases bind_err h with h | ⟨_, _, h⟩
      · refine ih (pre := pre ++ [a]) (by simpa using hd) hrs (fun a ha => hcl a (by simp [ha])) ?_ h
        intro b hb
        rcases List.mem_append.1 hb with hb | hb
        · exact hp b hb
        · simp only [List.mem_singleton] at hb; subst hb
          unfold readAttr at hw
          rw [hn, ho, hat, htry] at hw
          split at hw
          · next hopt =>
            split at hw
            · next t ht =>
              rw [Res.bind_eq_ok] at hw
              obtain ⟨w', hw', _⟩ := hw
              exact .inr ⟨t, w', ht, readStr_sound (ne := false) G hra (hcl b (by simp)) hw'⟩
            · next ht => exact .inl ⟨ht, hopt⟩
          · cases hta : attrOf e.1 b.name.name with
            | none => rw [hta] at hw; cases hw
            | some t =>
              rw [hta] at hw
              exact .inr ⟨t, w, hta, readStr_sound (ne := false) G hra (hcl b (by simp)) hw⟩
      · cases h

theorem content_node (G : Generated x S P) {k : Nat} {m : Name} {d : ElementDef} (hr : S.get m = some (.element d)) {c : ContentRead}
    (hc : elementContentRead x S d.content = .ok c) {s s1 : Queue} {fc : List (Str × Val)}
    (hfc : readContent x queueOps (fromNode x queueOps P k) (lookahead queueOps P k) k c s = .ok (fc, s1)) : s1.node = s.node := by
  have hF := fromNode_sound G k
  have hL := lookahead_pure (P := P) k
  cases hd : d.content with
  | none =>
    rw [hd] at hc; simp only [elementContentRead, Res.pure_eq] at hc
    rw [← Res.ok.inj hc] at hfc
    cases hfc; rfl
  | some ec =>
    cases ec with
    | leaf ln ld =>
      rw [hd] at hc
      simp only [elementContentRead, Res.bind_eq_ok] at hc
      obtain ⟨f, hf, vr, hvr, hc⟩ := hc
      rw [← Res.ok.inj hc] at hfc
      simp only [readContent, Res.bind_eq_ok] at hfc
      obtain ⟨⟨w, s2⟩, hw, hfc⟩ := hfc
      cases hfc
      exact (readVal_sound (ne := false) hF hvr (fun m hm => G.closedAt hr (by simp [Root.contents, hd]) hm) hw).1
    | leaves ls =>
      rw [hd] at hc
      simp only [elementContentRead, Res.bind_eq_ok] at hc
      obtain ⟨rs, hrs, hc⟩ := hc
      rw [← Res.ok.inj hc] at hfc
      simp only [readContent] at hfc
      refine (readLeaves_sound (ne := false) hF hL k ls (fun l hl _ h => by cases h) hrs (fun l hl m hm => G.closedAt hr ?_ hm) hfc).1
      simp only [Root.contents, hd, List.mem_append, List.mem_map]
      exact .inl ⟨l, hl, rfl⟩

/-- Errors of `from_xml_node`, called where it is its turn. -/
theorem fromNode_faults (G : Generated x S P) (hG : LooksAtGroups x S) (k : Nat) : CallFaults x S n e0 (fromNode x queueOps P k) := by
  induction k with
  | zero => intro m i s E _ _ h; simp [fromNode] at h
  | succ k ih =>
    intro m i s E hi hm h ha
    obtain ⟨r, t, hr, hft, hid, hg⟩ := G.find' hi hm
    simp only [fromNode, hft] at h
    have hF := fromNode_sound G k
    have hL := lookahead_pure (P := P) k
    have hR := lookahead_right G k
    have hLE := lookahead_noErr (P := P) k
    have hgr : LooksIn x S r.leaves := fun l hl hv hs => hG _ _ hr l hl hv (hs.imp id .inl)
    have hrd := hg.read
    cases r with
    | leaf d =>
      simp only [rootRead, Res.bind_eq_ok] at hrd
      obtain ⟨vr, hvr, hrd⟩ := hrd
      simp only [runFrom, ← Res.ok.inj hrd] at h
      rcases bind_err h with h | ⟨_, _, h⟩
      · exact readVal_faults ih hvr (fun m hm => G.closedAt hr (by simp [Root.contents]) hm) (ha.value hr rfl) h
      · cases h
    | enum names =>
      simp only [rootRead, Res.pure_eq] at hrd
      simp only [runFrom, ← Res.ok.inj hrd] at h
      have hme : Means S (.named m) (.named m) := .name (fun d hd => by rw [hr] at hd; cases hd)
      rcases bind_err h with h | ⟨tx, htx, h⟩
      · obtain ⟨rfl, h1, h2⟩ := text_err h
        exact .text ha (.inr (.inr ⟨m, names, hme, hr⟩)) h1 h2
      · obtain ⟨tab, htab, hdt, _⟩ := rootDecl_enum hg.decl
        rw [hdt] at h
        rcases bind_err h with h | ⟨_, _, h⟩
        · obtain ⟨rfl, hne⟩ := enumFromStr_err htab h
          exact .enum ha hme hr (queue_text_ok htx) hne
        · cases h
    | element d =>
      simp only [rootRead, Res.bind_eq_ok] at hrd
      obtain ⟨c, hc, as, has, hrd⟩ := hrd
      simp only [runFrom, ← Res.ok.inj hrd] at h
      rcases bind_err h with h | ⟨⟨fc, s1⟩, hfc, h⟩
      · cases hd : d.content with
        | none =>
          rw [hd] at hc; simp only [elementContentRead, Res.pure_eq] at hc
          rw [← Res.ok.inj hc] at h
          cases h
        | some ec =>
          cases ec with
          | leaf ln ld =>
            rw [hd] at hc
            simp only [elementContentRead, Res.bind_eq_ok] at hc
            obtain ⟨f, hf, vr, hvr, hc⟩ := hc
            rw [← Res.ok.inj hc] at h
            simp only [readContent] at h
            rcases bind_err h with h | ⟨_, _, h⟩
            · exact readVal_faults ih hvr (fun m hm => G.closedAt hr (by simp [Root.contents, hd]) hm)
                (ha.value hr (by simp [Root.value, hd])) h
            · cases h
          | leaves ls =>
            rw [hd] at hc
            simp only [elementContentRead, Res.bind_eq_ok] at hc
            obtain ⟨rs, hrs, hc⟩ := hc
            rw [← Res.ok.inj hc] at h
            simp only [readContent] at h
            refine readLeaves_faults hF ih hL hR hLE ha hr ls (pre := []) (by simpa using hd)
              (by simpa [Root.leaves, hd] using hgr) hrs (fun l hl m hm => G.closedAt hr ?_ hm) k rfl .nil h
            simp only [Root.contents, hd, List.mem_append, List.mem_map]
            exact .inl ⟨l, hl, rfl⟩
      · have hnode : s1.node = s.node := content_node G hr hc hfc
        rcases bind_err h with h | ⟨_, _, h⟩
        · exact readAttrs_faults G ha hr d.attributes (pre := []) (by simp) has (fun a ha m hm => G.closedAt hr
            (by simp only [Root.contents, List.mem_append, List.mem_map]; exact .inr ⟨a, ha, rfl⟩) hm) hnode (by simp) h
        · cases h
    | choice vs virt docs =>
      simp only [rootRead, Res.bind_eq_ok] at hrd
      obtain ⟨rs, hrs, hrd⟩ := hrd
      simp only [runFrom, ← Res.ok.inj hrd] at h
      rw [hid] at h
      refine readChoice_faults hF ih hL hR hLE ha hi vs (pre := []) (by simpa using hr)
        (fun l hl hv => hG _ _ hr l hl hv (.inr (.inr ⟨_, _, _, rfl⟩))) hrs
        (fun l hl m hm => G.closedAt hr ?_ hm) k rfl (by simp) h
      simp only [Root.contents, List.mem_map]; exact ⟨l, hl, rfl⟩

end Xsd
