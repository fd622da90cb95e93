import Verif.Lemmas.OutcomeDet
import Verif.Lemmas.Faults
/-!
# Generated readers follow the schema

Everything that a generated reader returns is an outcome of reading.
-/
namespace Xsd

variable {x : Ext} {S : SchemaContext} {P : List TypeDef} {α β : Type}

/-- The outcome for a node: the child elements that are not read yet become its state. -/
def Res.onNode (e : Elem) : Res DErr (α × List Elem) → Res DErr (α × Queue)
  | .ok r => .ok (r.1, ⟨e, r.2⟩)
  | .err E => .err E
  | .panic => .panic
  | .diverge => .diverge

/-- A result on the node `e` is an outcome of `R`. -/
def Follows (e : Elem) (r : Res DErr (α × Queue)) (R : Res DErr (α × List Elem) → Prop) : Prop :=
  r ≠ .diverge → ∃ o, R o ∧ r = o.onNode e

/-- The same for a result without node. -/
def FollowsV (r : Res DErr α) (R : Res DErr α → Prop) : Prop := r ≠ .diverge → R r

theorem Follows.ok {e : Elem} {a : α} {rest : List Elem} : Follows e (.ok (a, ⟨e, rest⟩)) (fun o => o = .ok (a, rest)) :=
  fun _ => ⟨_, rfl, rfl⟩

theorem Follows.mono {e : Elem} {r : Res DErr (α × Queue)} {R R' : Res DErr (α × List Elem) → Prop} (h : Follows e r R)
    (hR : ∀ o, R o → R' o) : Follows e r R' := by
  intro hd
  obtain ⟨o, ho, hr⟩ := h hd
  exact ⟨o, hR _ ho, hr⟩

theorem Follows.bind {e : Elem} {m : Res DErr (α × Queue)} {f : α × Queue → Res DErr (β × Queue)} {R : Res DErr (α × List Elem) → Prop}
    {F : α × List Elem → Res DErr (β × List Elem) → Prop} (h : Follows e m R) (hF : ∀ a rest, Follows e (f (a, ⟨e, rest⟩)) (F (a, rest))) :
    Follows e (m >>= f) (Then R F) := by
  intro hd
  have hm : m ≠ .diverge := by rintro rfl; exact hd rfl
  obtain ⟨o, ho, rfl⟩ := h hm
  cases o with
  | ok a =>
    obtain ⟨o', ho', hr⟩ := hF a.1 a.2 hd
    exact ⟨o', .inl ⟨a, ho, ho'⟩, hr⟩
  | err E => exact ⟨.err E, .inr (.inl ⟨E, ho, rfl⟩), rfl⟩
  | panic => exact ⟨.panic, .inr (.inr ⟨ho, rfl⟩), rfl⟩
  | diverge => exact absurd rfl hm

theorem Follows.bindV {e : Elem} {m : Res DErr α} {f : α → Res DErr (β × Queue)} {R : Res DErr α → Prop}
    {F : α → Res DErr (β × List Elem) → Prop} (h : FollowsV m R) (hF : ∀ a, Follows e (f a) (F a)) :
    Follows e (m >>= f) (Then R F) := by
  intro hd
  have hm : m ≠ .diverge := by rintro rfl; exact hd rfl
  have ho := h hm
  cases m with
  | ok a =>
    obtain ⟨o', ho', hr⟩ := hF a hd
    exact ⟨o', .inl ⟨a, ho, ho'⟩, hr⟩
  | err E => exact ⟨.err E, .inr (.inl ⟨E, ho, rfl⟩), rfl⟩
  | panic => exact ⟨.panic, .inr (.inr ⟨ho, rfl⟩), rfl⟩
  | diverge => exact absurd rfl hm

theorem FollowsV.bind {m : Res DErr α} {f : α → Res DErr β} {R : Res DErr α → Prop} {F : α → Res DErr β → Prop} (h : FollowsV m R)
    (hF : ∀ a, FollowsV (f a) (F a)) : FollowsV (m >>= f) (Then R F) := by
  intro hd
  have hm : m ≠ .diverge := by rintro rfl; exact hd rfl
  have ho := h hm
  cases m with
  | ok a => exact .inl ⟨a, ho, hF a hd⟩
  | err E => exact .inr (.inl ⟨E, ho, rfl⟩)
  | panic => exact .inr (.inr ⟨ho, rfl⟩)
  | diverge => exact absurd rfl hm

theorem FollowsV.ok {a : α} : FollowsV (.ok a) (fun o => o = (.ok a : Res DErr α)) := fun _ => rfl

/-! ## Looking ahead does not panic -/

/-- Looking ahead for a group gives an answer. -/
def LookTotal (x : Ext) (S : SchemaContext) (cL : Str → Queue → DRes Queue Bool) : Prop :=
  ∀ m i, LookGroup x S m → pascalIdent x m = .ok i → ∀ s, cL i s ≠ .panic

theorem runChecks_total {cL : Str → Queue → DRes Queue Bool} (hR : LookTotal x S cL) (ls : List Leaf)
    (hg : GroupsIn x S ls) {cs : List Check} (hcs : mapRes (leafCheck x S) ls = .ok cs) (s : Queue) :
    runChecks queueOps cL cs s ≠ .panic := by
  induction ls generalizing cs s with
  | nil => simp [mapRes] at hcs; subst hcs; simp [runChecks]
  | cons l ls ih =>
    obtain ⟨c, cs', hc, hcs', rfl⟩ := mapRes_cons_ok.1 hcs
    have ih := fun s => ih (fun l hl => hg l (by simp [hl])) hcs' s
    simp only [leafCheck] at hc
    split at hc
    · next hv =>
      obtain ⟨m, hm, hgm⟩ := hg l (by simp) hv
      simp only [hm, Res.bind_eq_ok] at hc
      obtain ⟨i, hi, hc⟩ := hc
      cases hc
      have hp := hR m i hgm hi s
      simp only [runChecks]
      cases hr : cL i s with
      | ok b =>
        show (if b.1 = true then _ else _) ≠ _
        split
        · exact nofun
        · exact ih _
      | err E => exact nofun
      | panic => exact absurd hr hp
      | diverge => exact nofun
    · simp only [SchemaContext.qname_eq, Res.bind_eq_ok] at hc
      obtain ⟨q, hq, hc⟩ := hc
      cases hc
      simp only [runChecks]
      split
      · exact nofun
      · exact ih _

theorem lookahead_total (G : Generated x S P) (k : Nat) : LookTotal x S (lookahead queueOps P k) := by
  induction k with
  | zero => intro m i _ _ s h; cases h
  | succ k ih =>
    intro m i hm hi s
    have hget : (S.get m).isSome = true := by
      have := hm.out.1
      unfold isGroup at this
      cases hg : S.get m with
      | none => rw [hg] at this; cases this
      | some r => rfl
    obtain ⟨r, t, hr, hft, _, hg⟩ := G.find' (hm.out.2.1 ▸ hi) hget
    have hgr : GroupsIn x S r.leaves := hm.out.2.2 r hr
    simp only [lookahead, hft]
    have hlk := hg.look
    cases r with
    | leaf d => have := hm.out.1; simp [isGroup, hr] at this
    | enum ns => have := hm.out.1; simp [isGroup, hr] at this
    | element d =>
      simp only [rootLook] at hlk
      cases hd : d.content with
      | none => simp only [hd, Res.pure_eq] at hlk; rw [← Res.ok.inj hlk]; exact nofun
      | some ec =>
        cases ec with
        | leaf a c => simp only [hd, Res.pure_eq] at hlk; rw [← Res.ok.inj hlk]; exact nofun
        | leaves ls =>
          simp only [hd, Res.bind_eq_ok] at hlk
          obtain ⟨cs, hcs, hlk⟩ := hlk
          rw [← Res.ok.inj hlk]
          exact runChecks_total ih (lookLeaves ls) (fun l hl => hgr l (by simp only [Root.leaves, hd]; exact lookLeaves_within ls hl)) hcs s
    | choice vs bb dd =>
      simp only [rootLook, Res.bind_eq_ok] at hlk
      obtain ⟨cs, hcs, hlk⟩ := hlk
      rw [← Res.ok.inj hlk]
      exact runChecks_total ih vs hgr hcs s

/-- What looking ahead for a group says. -/
def LookSays (x : Ext) (S : SchemaContext) (cL : Str → Queue → DRes Queue Bool) : Prop :=
  ∀ m i, LookGroup x S m → pascalIdent x m = .ok i → ∀ l : Leaf, l.isVirtual = true → l.definition.content = .named m → ∀ e rest,
    cL i ⟨e, rest⟩ = .diverge ∨ (NotNext S l rest ∧ cL i ⟨e, rest⟩ = .ok (false, ⟨e, rest⟩)) ∨
      (¬ NotNext S l rest ∧ cL i ⟨e, rest⟩ = .ok (true, ⟨e, rest⟩))

theorem lookahead_says (G : Generated x S P) (k : Nat) : LookSays x S (lookahead queueOps P k) := by
  intro m i hm hi l hv hl e rest
  have hT := lookahead_total G k m i hm hi ⟨e, rest⟩
  have hE := lookahead_noErr (P := P) k i ⟨e, rest⟩
  have hR := lookahead_right G k m i hm hi ⟨e, rest⟩
  have hP := lookahead_pure (P := P) k i ⟨e, rest⟩
  cases hc : lookahead queueOps P k i ⟨e, rest⟩ with
  | diverge => exact .inl rfl
  | panic => exact absurd hc hT
  | err E => exact absurd hc (hE E)
  | ok r =>
    obtain ⟨b, s'⟩ := r
    have h1 := hR b s' hc
    have h2 := hP b s' hc
    subst h2
    have hn : NotNext S l rest ↔ b = false := by
      rw [← Bool.not_eq_true, h1]
      constructor
      · rintro h ⟨ch, r, hp, hl'⟩; exact h ch r hp (.inr ⟨hv, m, hl, hl'⟩)
      · rintro h ch r hp (⟨hv', _⟩ | ⟨_, m', hm', hl'⟩)
        · rw [hv] at hv'; cases hv'
        · rw [hl] at hm'; cases hm'; exact h ⟨ch, r, hp, hl'⟩
    cases b with
    | false => exact .inr (.inl ⟨hn.2 rfl, rfl⟩)
    | true => exact .inr (.inr ⟨fun h => (by cases hn.1 h), rfl⟩)

/-! ## The next child -/

theorem found_next {q : QName} {rest : List Elem} {ch : Elem} {rest' : List Elem} :
    Found false q rest ch rest' ↔ rest = ch :: rest' ∧ ch.1.name = q := by
  constructor
  · rintro ⟨a, b, rfl, rfl, hq, _, ha⟩
    cases ha rfl
    exact ⟨rfl, hq⟩
  · rintro ⟨rfl, hq⟩
    exact ⟨[], rest', rfl, rfl, hq, by simp, fun _ => rfl⟩

theorem notNext_found {l : Leaf} {q : QName} (hv : l.isVirtual = false) (hq : S.expanded l.name = .ok q) {rest : List Elem} :
    NotNext S l rest ↔ ∀ ch rest', ¬ Found false q rest ch rest' := by
  simp only [found_next, NotNext, LeafLeads, hv, hq]
  constructor
  · rintro h ch r ⟨hr, hn⟩; exact h ch r hr (.inl ⟨trivial, by rw [hn]⟩)
  · rintro h ch r hr (⟨_, hn⟩ | ⟨hn, _⟩)
    · cases hn; exact h ch r ⟨hr, rfl⟩
    · cases hn

theorem next_found (q : QName) (e : Elem) (rest : List Elem) :
    (∃ ch rest', Found false q rest ch rest' ∧ queueOps.next ⟨e, rest⟩ q = (some ch, ⟨e, rest'⟩) ∧
      queueOps.tryNext ⟨e, rest⟩ q = (.ok ch, ⟨e, rest'⟩) ∧ queueOps.peek ⟨e, rest⟩ q = (true, ⟨e, rest⟩)) ∨
    ((∀ ch rest', ¬ Found false q rest ch rest') ∧ queueOps.next ⟨e, rest⟩ q = (none, ⟨e, rest⟩) ∧
      queueOps.tryNext ⟨e, rest⟩ q = (.error (.missingElement q.loc q.ns), ⟨e, rest⟩) ∧ queueOps.peek ⟨e, rest⟩ q = (false, ⟨e, rest⟩)) := by
  simp only [found_next]
  cases rest with
  | nil => exact .inr ⟨by simp, rfl, rfl, rfl⟩
  | cons ch r =>
    by_cases h : ch.1.name = q
    · exact .inl ⟨ch, r, ⟨rfl, h⟩, by simp [queueOps, Queue.popIf, h], by simp [queueOps, Queue.popIf, h, Queue.orMissing], by simp [queueOps, h]⟩
    · refine .inr ⟨?_, by simp [queueOps, Queue.popIf, h], by simp [queueOps, Queue.popIf, h, Queue.orMissing], by simp [queueOps, h]⟩
      rintro ch' r' ⟨hc, hn⟩; cases hc; exact h hn

theorem child_found (q : QName) (e : Elem) (rest : List Elem) :
    (∃ ch rest', Found true q rest ch rest' ∧ queueOps.tryChild ⟨e, rest⟩ q = (.ok ch, ⟨e, rest'⟩)) ∨
    ((∀ ch rest', ¬ Found true q rest ch rest') ∧
      ∃ s, queueOps.tryChild ⟨e, rest⟩ q = (.error (.missingElement q.loc q.ns), s)) := by
  cases h : rest.find? (fun c => decide (c.1.name = q)) with
  | none =>
    refine .inr ⟨?_, ?_⟩
    · rintro ch r ⟨a, b, rfl, _, hq, _⟩
      have := List.find?_eq_none.1 h ch (by simp)
      simp [hq] at this
    · exact ⟨⟨e, rest.eraseP (fun c => decide (c.1.name = q))⟩, by simp only [queueOps, Queue.takeFirst, h, Queue.orMissing]⟩
  | some ch =>
    obtain ⟨h1, a, b, rfl, h2⟩ := List.find?_eq_some_iff_append.1 h
    have hq : ch.1.name = q := by simpa using h1
    have ha : ∀ c ∈ a, c.1.name ≠ q := fun c hc => by simpa using h2 c hc
    refine .inl ⟨ch, a ++ b, ⟨a, b, rfl, rfl, hq, ha, fun h => by cases h⟩, ?_⟩
    have he : (a ++ ch :: b).eraseP (fun c => decide (c.1.name = q)) = a ++ b := by
      rw [List.eraseP_append_right _ (fun c hc => by simpa using ha c hc)]
      simp [hq]
    simp only [queueOps, Queue.takeFirst, h, Queue.orMissing, he]

/-! ## Values -/

theorem text_follows {e : Elem} {rest : List Elem} : (∃ s, TextIs .lenient e s ∧ ofExcept (queueOps.text ⟨e, rest⟩) = .ok s) ∨
    ((∀ s, ¬ TextIs .lenient e s) ∧ ofExcept (queueOps.text ⟨e, rest⟩) = .err (.textExpected e.1.name.loc)) := by
  cases h : ofExcept (queueOps.text ⟨e, rest⟩) with
  | ok s => exact .inl ⟨s, queue_text_ok h, rfl⟩
  | err E =>
    obtain ⟨rfl, h1, h2⟩ := text_err h
    refine .inr ⟨?_, rfl⟩
    rintro s (⟨h, _⟩ | ⟨r, h⟩)
    · exact h1 h
    · exact h2 s r h
  | panic => unfold ofExcept at h; split at h <;> cases h
  | diverge => unfold ofExcept at h; split at h <;> cases h

theorem enumFromStr_ne' (vs : List (Str × Str)) (s : Str) : enumFromStr vs s ≠ .diverge := by
  unfold enumFromStr; split <;> exact nofun

theorem parseLit_follows (t : LiteralType) (s : Str) : FollowsV (parseLit x t s) (GetsLiteral x t s) := by
  intro _
  unfold parseLit
  split
  · next v hv => exact .inl ⟨v, hv, rfl⟩
  · next hv => exact .inr ⟨hv, rfl⟩

theorem enumFromStr_follows {names : List Name} {tab : List (Str × Str)} (ht : escapeEnumNames x names = .ok tab) (s : Str) :
    FollowsV (enumFromStr tab s) (GetsEnum x names s) := by
  intro _
  refine ⟨tab, ht, ?_⟩
  unfold enumFromStr
  split
  · next p hp =>
    obtain ⟨h1, a, b, rfl, h2⟩ := List.find?_eq_some_iff_append.1 hp
    have hs : p.2 = s := by simpa using h1
    subst hs
    exact .inl ⟨a, p.1, b, rfl, fun p hp => by simpa using h2 p hp, rfl⟩
  · next hp =>
    exact .inr ⟨fun p hp' => by simpa using List.find?_eq_none.1 hp p hp', rfl⟩

/-- Text first. -/
theorem textThen_follows {e : Elem} {rest : List Elem} {f : Str → Res DErr α} {F : Str → Res DErr α → Prop} (h : ∀ s, FollowsV (f s) (F s)) :
    FollowsV (ofExcept (queueOps.text ⟨e, rest⟩) >>= f) (TextGives e F) := by
  intro hd
  rcases text_follows (e := e) (rest := rest) with ⟨s, hs, ht⟩ | ⟨hs, ht⟩
  · rw [ht] at hd ⊢; exact .inl ⟨s, hs, h s hd⟩
  · rw [ht]; exact .inr ⟨hs, rfl⟩

theorem textThen_followsQ {e : Elem} {rest : List Elem} {f : Str → Res DErr (α × Queue)} {F : Str → Res DErr (α × List Elem) → Prop}
    (h : ∀ s, Follows e (f s) (F s)) : Follows e (ofExcept (queueOps.text ⟨e, rest⟩) >>= f) (TextGives e F) := by
  intro hd
  rcases text_follows (e := e) (rest := rest) with ⟨s, hs, ht⟩ | ⟨hs, ht⟩
  · rw [ht] at hd ⊢
    obtain ⟨o, ho, hr⟩ := h s hd
    exact ⟨o, .inl ⟨s, hs, ho⟩, hr⟩
  · rw [ht]; exact ⟨_, .inr ⟨hs, rfl⟩, rfl⟩

theorem Res.bind_assoc' {ε γ : Type} (m : Res ε α) (f : α → Res ε β) (g : β → Res ε γ) :
    ((m >>= f) >>= g) = (m >>= fun a => f a >>= g) := by
  cases m <;> rfl

section
variable {T : Name → Elem → List Elem → Res DErr (Val × List Elem) → Prop} {cF : Str → Queue → DRes Queue Val}
  {cL : Str → Queue → DRes Queue Bool}

/-- The induction hypothesis: calls follow the schema. -/
def CallFollows (x : Ext) (S : SchemaContext) (T : Name → Elem → List Elem → Res DErr (Val × List Elem) → Prop)
    (cF : Str → Queue → DRes Queue Val) : Prop :=
  ∀ m i e rest, typeIdent x m = .ok i → (S.get m).isSome = true → Follows e (cF i ⟨e, rest⟩) (T m e rest)

variable (hF : CallFollows x S T cF)
include hF

theorem readVal_follows {c : LeafContent} {vr : ValRead} (hc : contentRead x S c = .ok vr)
    (hcl : ∀ m, Means S c (.named m) → (S.get m).isSome = true) (e : Elem) (rest : List Elem) :
    Follows e (readVal x queueOps cF vr ⟨e, rest⟩) (GetsVal x S T c e rest) := by
  rcases contentRead_ok hc with ⟨t, hm, rfl⟩ | ⟨f, hm, rfl⟩ | ⟨m, i, hm, hi, rfl⟩
  · refine Follows.mono (R := Then (TextGives e (GetsLiteral x t)) (fun v o => o = .ok (v, rest))) ?_ fun o ho => ⟨_, hm, ho⟩
    simp only [readVal, ← Res.bind_assoc']
    exact .bindV (textThen_follows fun s => parseLit_follows t s) fun v => .ok
  · refine Follows.mono (R := TextGives e _) ?_ fun o ho => ⟨_, hm, ho⟩
    simp only [readVal]
    refine textThen_followsQ fun s => ?_
    split
    · next hs => exact fun _ => ⟨_, .inl ⟨hs, rfl⟩, rfl⟩
    · next hs => exact fun _ => ⟨_, .inr ⟨hs, rfl⟩, rfl⟩
  · exact (hF m i e rest hi (hcl m hm)).mono fun o ho => ⟨_, hm, ho⟩

/-- One child element. -/
theorem readOn_follows {c : LeafContent} {vr : ValRead} (hc : contentRead x S c = .ok vr)
    (hcl : ∀ m, Means S c (.named m) → (S.get m).isSome = true) {e ch : Elem} {rest' : List Elem} :
    Follows e (readOn x queueOps cF vr ch >>= fun w => .ok (w, ⟨e, rest'⟩))
      (Then (GetsVal x S T c ch (elemKids ch.2)) (fun w o => o = .ok (w.1, rest'))) := by
  intro hd
  have h := readVal_follows hF hc hcl ch (elemKids ch.2)
  have he : (⟨ch, elemKids ch.2⟩ : Queue) = queueOps.mkNode ch := rfl
  rw [he] at h
  cases hr : readVal x queueOps cF vr (queueOps.mkNode ch) with
  | diverge => simp [readOn, hr] at hd
  | err E =>
    obtain ⟨o, ho, ho'⟩ := h (by rw [hr]; exact nofun)
    rw [hr] at ho'
    cases o <;> cases ho'
    exact ⟨_, .inr (.inl ⟨_, ho, rfl⟩), by simp [readOn, hr, Res.onNode]⟩
  | panic =>
    obtain ⟨o, ho, ho'⟩ := h (by rw [hr]; exact nofun)
    rw [hr] at ho'
    cases o <;> cases ho'
    exact ⟨_, .inr (.inr ⟨ho, rfl⟩), by simp [readOn, hr, Res.onNode]⟩
  | ok w =>
    obtain ⟨o, ho, ho'⟩ := h (by rw [hr]; exact nofun)
    rw [hr] at ho'
    cases o with
    | ok a => cases ho'; exact ⟨_, .inl ⟨_, ho, rfl⟩, by simp [readOn, hr, Res.onNode]⟩
    | err E => cases ho'
    | panic => cases ho'
    | diverge => cases ho'

/-- The same, put into a value. -/
theorem readOn_followsF {c : LeafContent} {vr : ValRead} (hc : contentRead x S c = .ok vr)
    (hcl : ∀ m, Means S c (.named m) → (S.get m).isSome = true) {e ch : Elem} {rest' : List Elem} (f : Val → Val) :
    Follows e (readOn x queueOps cF vr ch >>= fun w => .ok (f w, ⟨e, rest'⟩))
      (Then (Then (GetsVal x S T c ch (elemKids ch.2)) (fun w o => o = .ok (w.1, rest'))) (fun w o => o = .ok (f w.1, w.2))) := by
  have h := (readOn_follows hF hc hcl (e := e) (ch := ch) (rest' := rest')).bind (f := fun w => .ok (f w.1, w.2))
    (F := fun w o => o = .ok (f w.1, w.2)) (fun _ _ => .ok)
  rw [Res.bind_assoc'] at h
  exact h

omit hF in
theorem GetsOne.child {l : Leaf} {q : QName} {b : Bool} {e ch : Elem} {rest rest' : List Elem} {o : Res DErr (Val × List Elem)}
    (hv : l.isVirtual = false) (hq : S.expanded l.name = .ok q) (hf : Found b q rest ch rest')
    (h : Then (GetsVal x S T l.definition.content ch (elemKids ch.2)) (fun w o => o = .ok (w.1, rest')) o) :
    GetsOne x S T b l e rest o := by
  unfold GetsOne
  rw [if_neg (by simp [hv])]
  exact ⟨q, hq, .inl ⟨ch, rest', hf, h⟩⟩

omit hF in
theorem GetsOne.missing {l : Leaf} {q : QName} {b : Bool} {e : Elem} {rest : List Elem}
    (hv : l.isVirtual = false) (hq : S.expanded l.name = .ok q) (hf : ∀ ch rest', ¬ Found b q rest ch rest') :
    GetsOne x S T b l e rest (.err (.missingElement q.loc q.ns)) := by
  unfold GetsOne
  rw [if_neg (by simp [hv])]
  exact ⟨q, hq, .inr ⟨hf, rfl⟩⟩

omit hF in
/-- One more occurrence before the others. -/
theorem GetsMany.step {l : Leaf} {e : Elem} {rest : List Elem} {o : Res DErr (List Val × List Elem)} (hn : ¬ NotNext S l rest)
    (h : Then (GetsOne x S T false l e rest) (fun w => Then (GetsMany x S T l e w.2) (fun ws o => o = .ok (w.1 :: ws.1, ws.2))) o) :
    GetsMany x S T l e rest o := by
  rcases h with ⟨a, h1, ⟨b, h2, rfl⟩ | ⟨E, h2, rfl⟩ | ⟨h2, rfl⟩⟩ | ⟨E, h1, rfl⟩ | ⟨h1, rfl⟩
  · exact .more hn h1 h2
  · exact .moreFail hn h1 h2
  · exact .morePanic hn h1 h2
  · exact .fail hn h1
  · exact .panic hn h1

theorem loopNext_follows {l : Leaf} {q : QName} {vr : ValRead} (hv : l.isVirtual = false) (hq : S.expanded l.name = .ok q)
    (hc : contentRead x S l.definition.content = .ok vr)
    (hcl : ∀ m, Means S l.definition.content (.named m) → (S.get m).isSome = true) (k : Nat) (e : Elem) (rest : List Elem) :
    Follows e (loopNext x queueOps cF q vr k ⟨e, rest⟩) (GetsMany x S T l e rest) := by
  induction k generalizing rest with
  | zero => exact fun h => absurd rfl h
  | succ k ih =>
    simp only [loopNext]
    rcases next_found q e rest with ⟨ch, rest', hf, hn, _⟩ | ⟨hf, hn, _⟩
    · have hnn : ¬ NotNext S l rest := fun h => (notNext_found hv hq).1 h ch rest' hf
      rw [hn]
      have h := ((readOn_follows hF hc hcl (e := e) (ch := ch) (rest' := rest')).mono fun o ho => GetsOne.child (e := e) hv hq hf ho).bind
        (f := fun w => loopNext x queueOps cF q vr k w.2 >>= fun r => .ok (w.1 :: r.1, r.2))
        (F := fun w => Then (GetsMany x S T l e w.2) (fun ws o => o = .ok (w.1 :: ws.1, ws.2)))
        (fun w rest1 => (ih rest1).bind (F := fun ws o => o = .ok (w :: ws.1, ws.2)) fun _ _ => .ok)
      rw [Res.bind_assoc'] at h
      exact h.mono fun o ho => .step hnn ho
    · rw [hn]
      exact fun _ => ⟨_, .stop ((notNext_found hv hq).2 hf), rfl⟩

theorem loopLook_follows (hL : LookSays x S cL) {l : Leaf} {i : Str} {vr : ValRead} {g : Name} (hv : l.isVirtual = true)
    (hn : l.definition.content = .named g) (hg : LookGroup x S g) (hi : pascalIdent x g = .ok i)
    (hc : contentRead x S l.definition.content = .ok vr)
    (hcl : ∀ m, Means S l.definition.content (.named m) → (S.get m).isSome = true) (k : Nat) (e : Elem) (rest : List Elem) :
    Follows e (loopLook x queueOps cF cL i vr k ⟨e, rest⟩) (GetsMany x S T l e rest) := by
  induction k generalizing rest with
  | zero => exact fun h => absurd rfl h
  | succ k ih =>
    simp only [loopLook]
    rcases hL g i hg hi l hv hn e rest with hl | ⟨hnn, hl⟩ | ⟨hnn, hl⟩
    · rw [hl]; exact fun h => absurd rfl h
    · rw [hl]; exact fun _ => ⟨_, .stop hnn, rfl⟩
    · rw [hl]
      have h := (readVal_follows hF hc hcl e rest).bind
        (f := fun w => loopLook x queueOps cF cL i vr k w.2 >>= fun r => .ok (w.1 :: r.1, r.2))
        (F := fun w => Then (GetsMany x S T l e w.2) (fun ws o => o = .ok (w.1 :: ws.1, ws.2)))
        (fun w rest1 => (ih rest1).bind (F := fun ws o => o = .ok (w :: ws.1, ws.2)) fun _ _ => .ok)
      refine Follows.mono h fun o ho => .step hnn ?_
      have : GetsVal x S T l.definition.content e rest = GetsOne x S T false l e rest := by
        funext o; unfold GetsOne; rw [if_pos hv]
      rw [← this]; exact ho

theorem readLeaf_follows (hL : LookSays x S cL) {l : Leaf}
    (hgr : l.isVirtual = true → l.repeats = true ∨ l.mayMiss = true → ∃ m, l.definition.content = .named m ∧ LookGroup x S m)
    {p : Str × LeafRead} (hl : leafRead x S l = .ok p) (hcl : ∀ m, Means S l.definition.content (.named m) → (S.get m).isSome = true)
    (k : Nat) (e : Elem) (rest : List Elem) : Follows e (readLeaf x queueOps cF cL k p.2 ⟨e, rest⟩) (GetsOcc x S T l e rest) := by
  obtain ⟨q, vr, _, hq, hc, hcase⟩ := leafRead_ok hl
  obtain ⟨f, lr⟩ := p
  simp only at hcase ⊢
  have hval : l.isVirtual = true → ∀ b, GetsVal x S T l.definition.content e rest = GetsOne x S T b l e rest := by
    intro hv b; funext o; unfold GetsOne; rw [if_pos hv]
  cases hcase with
  | whileLook h1 h2 hn hi =>
    obtain ⟨g, hg', hgm⟩ := hgr h1 (.inl h2)
    rw [hn] at hg'; cases hg'
    simp only [readLeaf]
    refine Follows.mono ((loopLook_follows hF hL h1 hn hgm hi hc hcl k e rest).bind
      (F := fun w o => o = .ok (if l.mayMiss then (if w.1 = [] then .none else .some (.vec w.1)) else .vec w.1, w.2)) fun _ _ => .ok) fun o ho => ?_
    unfold GetsOcc; rw [if_pos h2]; exact ho
  | whileNext h1 h2 =>
    simp only [readLeaf]
    refine Follows.mono ((loopNext_follows hF h1 hq hc hcl k e rest).bind
      (F := fun w o => o = .ok (if l.mayMiss then (if w.1 = [] then .none else .some (.vec w.1)) else .vec w.1, w.2)) fun _ _ => .ok) fun o ho => ?_
    unfold GetsOcc; rw [if_pos h2]; exact ho
  | ifLook h1 h2 h3 hn hi =>
    obtain ⟨g, hg', hgm⟩ := hgr h1 (.inr h3)
    rw [hn] at hg'; cases hg'
    simp only [readLeaf]
    rcases hL _ _ hgm hi l h1 hn e rest with hl | ⟨hnn, hl⟩ | ⟨hnn, hl⟩
    · rw [hl]; exact fun h => absurd rfl h
    · rw [hl]
      exact fun _ => ⟨_, by unfold GetsOcc; rw [if_neg (by simp [h2]), if_pos h3]; exact .inl ⟨hnn, rfl⟩, rfl⟩
    · rw [hl]
      refine Follows.mono ((readVal_follows hF hc hcl e rest).bind (F := fun w o => o = .ok (.some w.1, w.2)) fun _ _ => .ok) fun o ho => ?_
      unfold GetsOcc; rw [if_neg (by simp [h2]), if_pos h3, ← hval h1 false]
      exact .inr ⟨hnn, ho⟩
  | plain h1 h2 h3 =>
    simp only [readLeaf]
    refine (readVal_follows hF hc hcl e rest).mono fun o ho => ?_
    unfold GetsOcc; rw [if_neg (by simp [h2]), if_neg (by simp [h3]), ← hval h1]
    exact ho
  | ifNext h1 h2 h3 =>
    simp only [readLeaf]
    rcases next_found q e rest with ⟨ch, rest', hf, hn, _⟩ | ⟨hf, hn, _⟩
    · have hnn : ¬ NotNext S l rest := fun h => (notNext_found h1 hq).1 h ch rest' hf
      rw [hn]
      refine Follows.mono (readOn_followsF hF hc hcl (e := e) (ch := ch) (rest' := rest') .some) fun o ho => ?_
      unfold GetsOcc; rw [if_neg (by simp [h2]), if_pos h3]
      refine .inr ⟨hnn, ?_⟩
      rcases ho with ⟨a, ha, ho⟩ | ⟨E, ha, ho⟩ | ⟨ha, ho⟩
      · exact .inl ⟨a, GetsOne.child h1 hq hf ha, ho⟩
      · exact .inr (.inl ⟨E, GetsOne.child h1 hq hf ha, ho⟩)
      · exact .inr (.inr ⟨GetsOne.child h1 hq hf ha, ho⟩)
    · rw [hn]
      exact fun _ => ⟨_, by unfold GetsOcc; rw [if_neg (by simp [h2]), if_pos h3]; exact .inl ⟨(notNext_found h1 hq).2 hf, rfl⟩, rfl⟩
  | tryChild h1 h2 h3 h4 =>
    simp only [readLeaf]
    have hocc : GetsOne x S T true l e rest = GetsOcc x S T l e rest := by
      funext o; unfold GetsOcc; rw [if_neg (by simp [h2]), if_neg (by simp [h3]), h4]
    rw [← hocc]
    rcases child_found q e rest with ⟨ch, rest', hf, hn⟩ | ⟨hf, s, hn⟩
    · rw [hn]
      exact (readOn_follows hF hc hcl (e := e) (ch := ch) (rest' := rest')).mono fun o ho => .child h1 hq hf ho
    · rw [hn]
      exact fun _ => ⟨_, .missing h1 hq hf, rfl⟩
  | tryNext h1 h2 h3 h4 =>
    simp only [readLeaf]
    have hocc : GetsOne x S T false l e rest = GetsOcc x S T l e rest := by
      funext o; unfold GetsOcc; rw [if_neg (by simp [h2]), if_neg (by simp [h3]), h4]
    rw [← hocc]
    rcases next_found q e rest with ⟨ch, rest', hf, _, hn, _⟩ | ⟨hf, _, hn, _⟩
    · rw [hn]
      exact (readOn_follows hF hc hcl (e := e) (ch := ch) (rest' := rest')).mono fun o ho => .child h1 hq hf ho
    · rw [hn]
      exact fun _ => ⟨_, .missing h1 hq hf, rfl⟩

theorem readLeaves_follows (hL : LookSays x S cL) (ls : List Leaf) (hgr : LooksIn x S ls) {rs : List (Str × LeafRead)}
    (hl : mapRes (leafRead x S) ls = .ok rs)
    (hcl : ∀ l ∈ ls, ∀ m, Means S l.definition.content (.named m) → (S.get m).isSome = true) (k : Nat) (e : Elem) (rest : List Elem) :
    Follows e (readLeaves x queueOps cF cL k rs ⟨e, rest⟩) (GetsLeaves x S T ls e rest) := by
  induction ls generalizing rs rest with
  | nil => simp [mapRes] at hl; subst hl; exact fun _ => ⟨_, rfl, rfl⟩
  | cons l ls ih =>
    obtain ⟨p, rs', hp', hrs, rfl⟩ := mapRes_cons_ok.1 hl
    obtain ⟨_, _, hf, _⟩ := leafRead_ok hp'
    have ih := fun rest => ih (fun l hl => hgr l (by simp [hl])) hrs (fun l hl => hcl l (by simp [hl])) rest
    obtain ⟨f, lr⟩ := p
    simp only [readLeaves]
    exact ((readLeaf_follows hF hL (hgr l (by simp)) hp' (hcl l (by simp)) k e rest).bind
      fun w rest1 => (ih rest1).bind (F := fun fs o => o = .ok ((f, w) :: fs.1, fs.2)) fun _ _ => .ok).mono fun o ho => ⟨f, hf, ho⟩

theorem readChoice_follows (hL : LookSays x S cL) {n : Name} {i : Str} (hi : typeIdent x n = .ok i) (vs : List Leaf)
    (hgr : GroupsIn x S vs) {rs : List (Str × VarRead)} (hl : mapRes (variantRead x S) vs = .ok rs)
    (hcl : ∀ l ∈ vs, ∀ m, Means S l.definition.content (.named m) → (S.get m).isSome = true) (k : Nat) (e : Elem) (rest : List Elem) :
    Follows e (readChoice x queueOps cF cL k i rs ⟨e, rest⟩) (GetsChoice x S T n vs e rest) := by
  induction vs generalizing rs with
  | nil => simp [mapRes] at hl; subst hl; exact fun _ => ⟨_, ⟨i, hi, rfl⟩, rfl⟩
  | cons l vs ih =>
    obtain ⟨p, rs', hp', hrs, rfl⟩ := mapRes_cons_ok.1 hl
    obtain ⟨q, vr, hvn, hq, hc, hcase⟩ := variantRead_ok hp'
    obtain ⟨vn, pr⟩ := p
    simp only at hcase hvn
    have hcl1 := hcl l (by simp)
    have hrest : NotNext S l rest → Follows e (readChoice x queueOps cF cL k i rs' ⟨e, rest⟩) (GetsChoice x S T n (l :: vs) e rest) :=
      fun hn => (ih (fun l hl => hgr l (by simp [hl])) hrs (fun l hl => hcl l (by simp [hl]))).mono fun o ho => .inr ⟨hn, ho⟩
    cases hcase with
    | virt h1 hn hi' =>
      obtain ⟨g, hg', hgm⟩ := hgr l (by simp) h1
      rw [hn] at hg'; cases hg'
      simp only [readChoice]
      rcases hL _ _ hgm hi' l h1 hn e rest with hl | ⟨hnn, hl⟩ | ⟨hnn, hl⟩
      · rw [hl]; exact fun h => absurd rfl h
      · rw [hl]; exact hrest hnn
      · rw [hl]
        refine Follows.mono ((readVal_follows hF hc hcl1 e rest).bind (F := fun w o => o = .ok (.variant vn w.1, w.2)) fun _ _ => .ok) fun o ho => ?_
        have : GetsVal x S T l.definition.content e rest = GetsVariant x S T l e rest := by
          funext o; unfold GetsVariant GetsOne; rw [if_neg (by simp [h1]), if_pos h1]
        rw [this] at ho
        exact .inl ⟨hnn, vn, hvn, ho⟩
    | vec h1 h2 =>
      simp only [readChoice]
      rcases next_found q e rest with ⟨ch, rest', hf, _, _, hn⟩ | ⟨hf, _, _, hn⟩
      · have hnn : ¬ NotNext S l rest := fun h => (notNext_found h1 hq).1 h ch rest' hf
        rw [hn]
        have h := (loopNext_follows hF h1 hq hc hcl1 k e rest).bind (f := fun r => .ok (Val.variant vn (.vec r.1), r.2))
          (F := fun w o => o = .ok (Val.variant vn (.vec w.1), w.2)) fun _ _ => .ok
        refine Follows.mono h fun o ho => .inl ⟨hnn, vn, hvn, ?_⟩
        rcases ho with ⟨a, ha, rfl⟩ | ⟨E, ha, rfl⟩ | ⟨ha, rfl⟩
        · exact .inl ⟨(.vec a.1, a.2), by unfold GetsVariant; rw [if_pos ⟨h1, h2⟩]; exact .inl ⟨a, ha, rfl⟩, rfl⟩
        · exact .inr (.inl ⟨E, by unfold GetsVariant; rw [if_pos ⟨h1, h2⟩]; exact .inr (.inl ⟨E, ha, rfl⟩), rfl⟩)
        · exact .inr (.inr ⟨by unfold GetsVariant; rw [if_pos ⟨h1, h2⟩]; exact .inr (.inr ⟨ha, rfl⟩), rfl⟩)
      · rw [hn]; exact hrest ((notNext_found h1 hq).2 hf)
    | single h1 h2 =>
      simp only [readChoice]
      rcases next_found q e rest with ⟨ch, rest', hf, hn, _⟩ | ⟨hf, hn, _⟩
      · have hnn : ¬ NotNext S l rest := fun h => (notNext_found h1 hq).1 h ch rest' hf
        rw [hn]
        refine Follows.mono (readOn_followsF hF hc hcl1 (e := e) (ch := ch) (rest' := rest') (.variant vn)) fun o ho => .inl ⟨hnn, vn, hvn, ?_⟩
        have hg : ∀ o, Then (GetsVal x S T l.definition.content ch (elemKids ch.2)) (fun w o => o = .ok (w.1, rest')) o →
            GetsVariant x S T l e rest o := by
          intro o ho; unfold GetsVariant; rw [if_neg (by simp [h2])]; exact .child h1 hq hf ho
        rcases ho with ⟨a, ha, ho⟩ | ⟨E, ha, ho⟩ | ⟨ha, ho⟩
        · exact .inl ⟨a, hg _ ha, ho⟩
        · exact .inr (.inl ⟨E, hg _ ha, ho⟩)
        · exact .inr (.inr ⟨hg _ ha, ho⟩)
      · rw [hn]; exact hrest ((notNext_found h1 hq).2 hf)

end

/-! ## Attributes -/

theorem readStr_follows (G : Generated x S P) {a : Attribute} {r : AttrRead} (hr : attrRead x S a = .ok r)
    (hcl : ∀ n, Means S a.content (.named n) → (S.get n).isSome = true) (s : Str) :
    FollowsV (readStr x P r.inner s) (GetsStr x S a.content s) := by
  obtain ⟨_, _, _, hcase⟩ := attrRead_ok hr
  rcases hcase with ⟨t, ht, hi⟩ | ⟨f, hf, hi⟩ | ⟨n', ty, hn', hty, hi⟩
  · rw [hi, ht]; exact parseLit_follows t s
  · rw [hi, hf]; exact fun _ => rfl
  · rw [hi]
    intro _
    have hto : ∀ o c', Means S a.content c' → (match c' with
        | .literal t => (t.prim = .string ∧ o = .ok (.str s)) ∨ (t.prim ≠ .string ∧ o = .panic)
        | .fixed _ => o = .panic
        | .named n => (∃ names, S.get n = some (.enum names) ∧ GetsEnum x names s o) ∨
            ((∀ names, S.get n ≠ some (.enum names)) ∧ o = .panic)) → GetsStr x S a.content s o := by
      rw [hn']; exact fun o c' h h' => ⟨c', h, h'⟩
    simp only [readStr]
    rcases contentTy_ok hty with ⟨lt, hm, rfl⟩ | ⟨f, hm, rfl⟩ | ⟨m', i, hm, hi', rfl⟩
    · refine hto _ _ hm ?_
      cases hp : lt.prim <;> simp [fromStrAt, hp]
    · exact hto _ _ hm rfl
    · obtain ⟨r', t', hr', hft, hid, hgo⟩ := G.find' hi' (hcl m' hm)
      refine hto _ _ hm ?_
      simp only [fromStrAt, hft]
      have hdl := hgo.decl
      cases r' with
      | leaf d => exact absurd hr' (hm.fst_named d)
      | enum names =>
        obtain ⟨tab, htab, hdt, _⟩ := rootDecl_enum hdl
        rw [hdt]
        refine .inl ⟨names, hr', enumFromStr_follows htab s ?_⟩
        exact enumFromStr_ne' tab s
      | element d =>
        simp only [rootDecl, Res.bind_eq_ok] at hdl
        obtain ⟨_, _, _, _, hdl⟩ := hdl
        cases hd' : t'.decl <;> rw [hd'] at hdl <;> cases hdl
        exact .inr ⟨fun _ h => (by rw [hr'] at h; cases h), rfl⟩
      | choice vs b d =>
        simp only [rootDecl, Res.bind_eq_ok] at hdl
        obtain ⟨_, _, hdl⟩ := hdl
        cases hd' : t'.decl <;> rw [hd'] at hdl <;> cases hdl
        exact .inr ⟨fun _ h => (by rw [hr'] at h; cases h), rfl⟩

theorem readAttrs_follows (G : Generated x S P) (as : List Attribute) {rs : List AttrRead} (hr : mapRes (attrRead x S) as = .ok rs)
    (hcl : ∀ a ∈ as, ∀ m, Means S a.content (.named m) → (S.get m).isSome = true) (e : Elem) (rest : List Elem) :
    FollowsV (readAttrs x queueOps P rs ⟨e, rest⟩) (GetsAttrs x S as e) := by
  induction as generalizing rs with
  | nil => simp [mapRes] at hr; subst hr; exact fun _ => rfl
  | cons a as ih =>
    obtain ⟨r, rs', hra, hrs, rfl⟩ := mapRes_cons_ok.1 hr
    obtain ⟨hf, hn, ho, _⟩ := attrRead_ok hra
    have hat : queueOps.attr ⟨e, rest⟩ a.name.name = attrOf e.1 a.name.name := attrVal_eq_attrOf _ _
    have htry : queueOps.tryAttr ⟨e, rest⟩ a.name.name = match attrOf e.1 a.name.name with
        | some v => .ok v | none => .error (.missingAttribute a.name.name) := by
      simp only [queueOps, attrVal_eq_attrOf]
      rfl
    have h1 : FollowsV (readAttr x queueOps P r ⟨e, rest⟩) (GetsAttr x S a e) := by
      intro hd
      unfold readAttr at hd ⊢
      rw [hn, ho, hat, htry] at hd ⊢
      cases hv : attrOf e.1 a.name.name with
      | none =>
        refine .inr ⟨hv, ?_⟩
        cases a.isOptional <;> rfl
      | some s =>
        rw [hv] at hd
        refine .inl ⟨s, hv, ?_⟩
        have hs := readStr_follows G hra (hcl a (by simp)) s
        cases hopt : a.isOptional with
        | true =>
          rw [hopt] at hd
          exact (hs.bind (F := fun w o => o = .ok (.some w)) fun _ => .ok) hd
        | false =>
          rw [hopt] at hd
          exact hs hd
    simp only [readAttrs]
    intro hd
    exact ⟨r.field, hf, (h1.bind fun w => (ih hrs (fun a ha => hcl a (by simp [ha]))).bind
      (F := fun fs o => o = .ok ((r.field, w) :: fs)) fun _ => .ok) hd⟩

/-! ## Types -/

theorem fromNode_follows (G : Generated x S P) (hG : LooksAtGroups x S) (k : Nat) :
    CallFollows x S (GetsType x S k) (fromNode x queueOps P k) := by
  induction k with
  | zero => exact fun _ _ _ _ _ _ h => absurd rfl h
  | succ k ih =>
    intro m i e rest hi hm
    obtain ⟨r, t, hr, hft, hid, hg⟩ := G.find' hi hm
    simp only [fromNode, hft]
    have hL := lookahead_says G k
    have hgr : LooksIn x S r.leaves := fun l hl hv hs => hG _ _ hr l hl hv (hs.imp id .inl)
    have hrd := hg.read
    refine Follows.mono (R := GetsRoot x S (GetsType x S k) m r e rest) ?_ fun o ho => ⟨r, hr, ho⟩
    cases r with
    | leaf d =>
      simp only [rootRead, Res.bind_eq_ok] at hrd
      obtain ⟨vr, hvr, hrd⟩ := hrd
      simp only [runFrom, ← Res.ok.inj hrd]
      exact (readVal_follows ih hvr (fun m hm => G.closedAt hr (by simp [Root.contents]) hm) e rest).bind fun _ _ => .ok
    | enum names =>
      simp only [rootRead, Res.pure_eq] at hrd
      simp only [runFrom, ← Res.ok.inj hrd]
      obtain ⟨tab, htab, hdt, _⟩ := rootDecl_enum hg.decl
      rw [hdt]
      simp only [← Res.bind_assoc']
      exact .bindV (textThen_follows fun s => enumFromStr_follows htab s) fun v => .ok
    | element d =>
      simp only [rootRead, Res.bind_eq_ok] at hrd
      obtain ⟨c, hc, as, has, hrd⟩ := hrd
      simp only [runFrom, ← Res.ok.inj hrd]
      have hcont : Follows e (readContent x queueOps (fromNode x queueOps P k) (lookahead queueOps P k) k c ⟨e, rest⟩)
          (GetsContent x S (GetsType x S k) d.content e rest) := by
        cases hd : d.content with
        | none =>
          rw [hd] at hc; simp only [elementContentRead, Res.pure_eq] at hc
          rw [← Res.ok.inj hc]
          exact fun _ => ⟨_, rfl, rfl⟩
        | some ec =>
          cases ec with
          | leaf ln ld =>
            rw [hd] at hc
            simp only [elementContentRead, Res.bind_eq_ok] at hc
            obtain ⟨f, hf, vr, hvr, hc⟩ := hc
            rw [← Res.ok.inj hc]
            simp only [readContent]
            exact Follows.mono ((readVal_follows ih hvr (fun m hm => G.closedAt hr (by simp [Root.contents, hd]) hm) e rest).bind
              fun _ _ => .ok) fun o ho => ⟨f, hf, ho⟩
          | leaves ls =>
            rw [hd] at hc
            simp only [elementContentRead, Res.bind_eq_ok] at hc
            obtain ⟨rs, hrs, hc⟩ := hc
            rw [← Res.ok.inj hc]
            simp only [readContent]
            refine readLeaves_follows ih hL ls (by simpa [Root.leaves, hd] using hgr) hrs (fun l hl m hm => G.closedAt hr ?_ hm) k e rest
            simp only [Root.contents, hd, List.mem_append, List.mem_map]
            exact .inl ⟨l, hl, rfl⟩
      refine hcont.bind fun fc rest1 => ?_
      exact .bindV (readAttrs_follows G d.attributes has (fun a ha m hm => G.closedAt hr
        (by simp only [Root.contents, List.mem_append, List.mem_map]; exact .inr ⟨a, ha, rfl⟩) hm) e rest1) fun _ => .ok
    | choice vs virt docs =>
      simp only [rootRead, Res.bind_eq_ok] at hrd
      obtain ⟨rs, hrs, hrd⟩ := hrd
      simp only [runFrom, ← Res.ok.inj hrd]
      rw [hid]
      refine readChoice_follows ih hL hi vs (fun l hl hv => hG _ _ hr l hl hv (.inr (.inr ⟨_, _, _, rfl⟩))) hrs
        (fun l hl m hm => G.closedAt hr ?_ hm) k e rest
      simp only [Root.contents, List.mem_map]; exact ⟨l, hl, rfl⟩

end Xsd
