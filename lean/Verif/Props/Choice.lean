import Verif.Props.Content
import Verif.Lemmas.Complete
/-!
# Choices (C23)
-/
namespace Xsd

variable {x : Ext} {S : SchemaContext} {P : List TypeDef}

theorem lookLeaves_mem (ls : List Leaf) (l : Leaf) :
    l ∈ lookLeaves ls ↔ ∃ pre post, ls = pre ++ l :: post ∧ ∀ a ∈ pre, a.mayMiss = true := by
  induction ls with
  | nil => simp [lookLeaves]
  | cons a ls ih =>
    unfold lookLeaves
    rw [Leaf.isOptional_eq]
    constructor
    · intro h
      split at h
      · next ho =>
        rcases List.mem_cons.1 h with rfl | h
        · exact ⟨[], ls, rfl, by simp⟩
        · obtain ⟨pre, post, rfl, hp⟩ := ih.1 h
          exact ⟨a :: pre, post, rfl, by
            intro b hb; rcases List.mem_cons.1 hb with rfl | hb
            · exact ho
            · exact hp b hb⟩
      · rcases List.mem_cons.1 h with rfl | h
        · exact ⟨[], ls, rfl, by simp⟩
        · cases h
    · rintro ⟨pre, post, he, hp⟩
      cases pre with
      | nil =>
        simp only [List.nil_append, List.cons.injEq] at he
        obtain ⟨rfl, rfl⟩ := he
        split <;> simp
      | cons b pre =>
        simp only [List.cons_append, List.cons.injEq] at he
        obtain ⟨rfl, rfl⟩ := he
        rw [if_pos (hp a (by simp))]
        exact List.mem_cons_of_mem _ (ih.2 ⟨pre, post, rfl, fun c hc => hp c (by simp [hc])⟩)

theorem lookOf_iff {lk : Name → Option (List QName)} (hlk : ∀ n L, lk n = some L → ∀ q, q ∈ L ↔ Leads S n q)
    (ls : List Leaf) {L : List QName} (h : lookOf S lk ls = some L) (q : QName) :
    q ∈ L ↔ ∃ l ∈ ls, LeafLeads S l q := by
  induction ls generalizing L with
  | nil => simp [lookOf] at h; subst h; simp
  | cons l ls ih =>
    simp only [lookOf] at h
    split at h
    · next a b ha hb =>
      cases h
      rw [List.mem_append, ih hb]
      have : q ∈ a ↔ LeafLeads S l q := by
        unfold LeafLeads
        by_cases hv : l.isVirtual = true
        · rw [if_pos hv] at ha
          cases hc : l.definition.content with
          | named m =>
            simp only [Leaf.target, hc, Option.bind_some] at ha
            rw [hlk m a ha]
            simp [hv]
          | literal t => simp [Leaf.target, hc] at ha
          | fixed f => simp [Leaf.target, hc] at ha
        · rw [if_neg hv] at ha
          cases ha
          simp only [Leaf.qn]
          have hv' : l.isVirtual = false := by simpa using hv
          cases hq : S.expanded l.name <;> simp [hv', eq_comm]
      rw [this]
      simp
    · cases h

/-- The names on which a group is entered are those that can come first. -/
theorem lookSet_iff (k : Nat) : ∀ (n : Name) (L : List QName), lookSet x S k n = some L → ∀ q, q ∈ L ↔ Leads S n q := by
  induction k with
  | zero => intro n L h; cases h
  | succ k ih =>
    intro n L h q
    simp only [lookSet] at h
    split at h
    · cases hg : S.get n with
      | none => rw [hg] at h; cases h
      | some r =>
        rw [hg] at h
        cases r with
        | leaf d => cases h
        | enum ns => cases h
        | element d =>
          simp only at h
          cases hc : d.content with
          | none =>
            rw [hc] at h; cases h
            constructor
            · intro h; cases h
            · intro h
              cases h with
              | variant hg' => rw [hg] at hg'; cases hg'
              | variantGroup hg' => rw [hg] at hg'; cases hg'
              | field hg' hc' => rw [hg] at hg'; cases hg'; rw [hc] at hc'; cases hc'
              | fieldGroup hg' hc' => rw [hg] at hg'; cases hg'; rw [hc] at hc'; cases hc'
          | some ec =>
            rw [hc] at h
            cases ec with
            | leaf a b =>
              cases h
              constructor
              · intro h; cases h
              · intro h
                cases h with
                | variant hg' => rw [hg] at hg'; cases hg'
                | variantGroup hg' => rw [hg] at hg'; cases hg'
                | field hg' hc' => rw [hg] at hg'; cases hg'; rw [hc] at hc'; cases hc'
                | fieldGroup hg' hc' => rw [hg] at hg'; cases hg'; rw [hc] at hc'; cases hc'
            | leaves ls =>
              rw [lookOf_iff ih _ h]
              rw [← lookLeaves_eq]
              constructor
              · rintro ⟨l, hl, hll⟩
                obtain ⟨pre, post, rfl, ho⟩ := (lookLeaves_mem ls l).1 hl
                rcases hll with ⟨hv, hq⟩ | ⟨hv, m, hm, hl⟩
                · exact .field hg hc ho hv hq
                · exact .fieldGroup hg hc ho hv hm hl
              · intro h
                cases h with
                | variant hg' => rw [hg] at hg'; cases hg'
                | variantGroup hg' => rw [hg] at hg'; cases hg'
                | field hg' hc' ho hv hq =>
                  rw [hg] at hg'; cases hg'; rw [hc] at hc'; cases hc'
                  exact ⟨_, (lookLeaves_mem _ _).2 ⟨_, _, rfl, ho⟩, .inl ⟨hv, hq⟩⟩
                | fieldGroup hg' hc' ho hv hm hl =>
                  rw [hg] at hg'; cases hg'; rw [hc] at hc'; cases hc'
                  exact ⟨_, (lookLeaves_mem _ _).2 ⟨_, _, rfl, ho⟩, .inr ⟨hv, _, hm, hl⟩⟩
        | choice vs b d =>
          simp only at h
          rw [lookOf_iff ih _ h]
          constructor
          · rintro ⟨l, hl, ⟨hv, hq⟩ | ⟨hv, m, hm, hll⟩⟩
            · exact .variant hg hl hv hq
            · exact .variantGroup hg hl hv hm hll
          · intro h
            cases h with
            | variant hg' hl hv hq => rw [hg] at hg'; cases hg'; exact ⟨_, hl, .inl ⟨hv, hq⟩⟩
            | variantGroup hg' hl hv hm hll => rw [hg] at hg'; cases hg'; exact ⟨_, hl, .inr ⟨hv, _, hm, hll⟩⟩
            | field hg' => rw [hg] at hg'; cases hg'
            | fieldGroup hg' => rw [hg] at hg'; cases hg'
    · cases h

/-- The groups that the leaves refer to can be entered by looking at one element: following references
to groups ends, in elements (`look` computes the set of their names). -/
def GroupsEnd (x : Ext) (S : SchemaContext) (ls : List Leaf) : Prop :=
  ∀ l ∈ ls, l.isVirtual = true → ∃ m, l.definition.content = .named m ∧ (look x S m).isSome = true

/-- Everything needed about the code of a choice. -/
theorem choice_code (G : Generated x S P) {n : Name} {i : Str} (hi : typeIdent x n = .ok i) {vs : List Leaf} {b : Bool}
    {dd : Option Str} (hget : S.get n = some (.choice vs b dd)) :
    ∃ rs, mapRes (variantRead x S) vs = .ok rs ∧
      ∀ (s : Queue) (r : Res DErr (Val × Queue)), FromNode x P i s r ↔
        Ret (fun k => readChoice x queueOps (fromNode x queueOps P k) (lookahead queueOps P k) k i rs s) r := by
  obtain ⟨r0, t, hr, hft, hid, hg⟩ := G.find' hi (by rw [hget]; rfl)
  rw [hget] at hr; cases hr
  have hrd := hg.read
  simp only [rootRead, Res.bind_eq_ok] at hrd
  obtain ⟨rs, hrs, hrd⟩ := hrd
  refine ⟨rs, hrs, fun s r => ?_⟩
  rw [FromNode.step hft]
  simp only [runFrom, ← Res.ok.inj hrd, hid]

theorem look_ret (G : Generated x S P) {m : Name} {L : List QName} (hL : look x S m = some L) {i : Str}
    (hi : pascalIdent x m = .ok i) (s : Queue) {r : Res DErr (Bool × Queue)} :
    Ret (fun k => lookahead queueOps P k i s) r ↔ r = .ok (headIn L s.pending, s) := by
  obtain ⟨k0, hk⟩ := look_ev G hL hi
  constructor
  · intro h
    exact Ret.unique (lookahead_monoF i s) h ⟨by simp, k0, hk k0 (Nat.le_refl _) s⟩
  · rintro rfl; exact ⟨by simp, k0, hk k0 (Nat.le_refl _) s⟩

theorem headIn_iff {L : List QName} {p : List Elem} : headIn L p = true ↔ ∃ ch rest, p = ch :: rest ∧ ch.1.name ∈ L := by
  cases p with
  | nil => simp [headIn]
  | cons ch rest => simp [headIn]

theorem look_group {m : Name} {L : List QName} (hL : look x S m = some L) :
    pascalIdent x m = typeIdent x m ∧ isGroup S m = true := by
  unfold look lookSet at hL
  split at hL
  · next h =>
    refine ⟨h, ?_⟩
    unfold isGroup
    split at hL
    · next hg => simp only [hg]
    · next hg => simp only [hg]
    · cases hL
  · cases hL

/-- An alternative that does not match is skipped. -/
theorem readChoice_skip (G : Generated x S P) {l : Leaf} {pr : Str × VarRead} (hpr : variantRead x S l = .ok pr)
    (hg : l.isVirtual = true → ∃ m, l.definition.content = .named m ∧ (look x S m).isSome = true) {self : Str}
    {rs : List (Str × VarRead)} {e : Elem} {p : List Elem} (hne : ∀ ch rest, p = ch :: rest → ¬ LeafLeads S l ch.1.name)
    {r : Res DErr (Val × Queue)} :
    Ret (fun k => readChoice x queueOps (fromNode x queueOps P k) (lookahead queueOps P k) k self (pr :: rs) ⟨e, p⟩) r ↔
    Ret (fun k => readChoice x queueOps (fromNode x queueOps P k) (lookahead queueOps P k) k self rs ⟨e, p⟩) r := by
  obtain ⟨q, v, hpi, hq, hv, hvr⟩ := variantRead_ok hpr
  obtain ⟨vn, vr⟩ := pr
  simp only at hvr
  cases hvr with
  | @virt m i hvirt hn hi =>
    obtain ⟨m', hm', hl⟩ := hg hvirt
    rw [hn] at hm'; cases hm'
    obtain ⟨L, hL⟩ := Option.isSome_iff_exists.1 hl
    have hh : headIn L p = false := by
      rw [← Bool.not_eq_true, headIn_iff]
      rintro ⟨ch, rest, hp, hin⟩
      exact hne ch rest hp (.inr ⟨hvirt, m, hn, (lookSet_iff _ _ _ hL _).1 hin⟩)
    simp only [readChoice]
    rw [Ret.bind_of_ok (a := (false, ⟨e, p⟩)) (lookahead_monoF i _) ?_ ?_]
    · simp
    · intro a
      cases a.1 with
      | true =>
        simp only [if_true]
        exact Mono.bind (g := fun _ (r : Val × Queue) => .ok (Val.variant vn r.1, r.2)) (readVal_monoF v a.2)
          (fun _ => Mono.const _)
      | false =>
        simp only [Bool.false_eq_true, if_false]
        exact readChoice_monoF self rs a.2
    · rw [look_ret G hL hi, hh]
  | vec hvirt hvec =>
    have hpk : queueOps.peek ⟨e, p⟩ q = (false, ⟨e, p⟩) := by
      simp only [queueOps, Prod.mk.injEq, and_true]
      cases p with
      | nil => rfl
      | cons ch rest =>
        simp only [List.head?_cons, Option.any_some, decide_eq_false_iff_not]
        intro hch
        exact hne ch rest rfl (.inl ⟨hvirt, hch ▸ hq⟩)
    simp only [readChoice, hpk]
    simp
  | single hvirt hvec =>
    have hpk : queueOps.next ⟨e, p⟩ q = (none, ⟨e, p⟩) := by
      cases p with
      | nil => rfl
      | cons ch rest =>
        have : ch.1.name ≠ q := fun hch => hne ch rest rfl (.inl ⟨hvirt, hch ▸ hq⟩)
        simp [queueOps, Queue.popIf, this]
    simp only [readChoice, hpk]

theorem readChoice_skips (G : Generated x S P) (vs : List Leaf) {rs1 : List (Str × VarRead)}
    (hrs : mapRes (variantRead x S) vs = .ok rs1) (hg : GroupsEnd x S vs) {self : Str} {rs : List (Str × VarRead)} {e : Elem}
    {p : List Elem} (hne : ∀ ch rest, p = ch :: rest → ∀ l ∈ vs, ¬ LeafLeads S l ch.1.name) {r : Res DErr (Val × Queue)} :
    Ret (fun k => readChoice x queueOps (fromNode x queueOps P k) (lookahead queueOps P k) k self (rs1 ++ rs) ⟨e, p⟩) r ↔
    Ret (fun k => readChoice x queueOps (fromNode x queueOps P k) (lookahead queueOps P k) k self rs ⟨e, p⟩) r := by
  induction vs generalizing rs1 with
  | nil => simp [mapRes] at hrs; subst hrs; rfl
  | cons l vs ih =>
    obtain ⟨pr, rs', hpr, hrs', rfl⟩ := mapRes_cons_ok.1 hrs
    rw [List.cons_append, readChoice_skip G hpr (hg l (by simp)) (fun ch rest hp => hne ch rest hp l (by simp))]
    exact ih hrs' (fun l hl => hg l (by simp [hl])) (fun ch rest hp l hl => hne ch rest hp l (by simp [hl]))

/-- **C23, no alternative.** If no alternative of a choice can start with the next pending child, or there is no
pending child, the result is `MissingVariant`. -/
theorem C23_missing_variant (G : Generated x S P) {n : Name} {i : Str} (hi : typeIdent x n = .ok i) {vs : List Leaf}
    {b : Bool} {dd : Option Str} (hget : S.get n = some (.choice vs b dd)) (hg : GroupsEnd x S vs) {e : Elem} {p : List Elem}
    (hne : ∀ ch rest, p = ch :: rest → ∀ l ∈ vs, ¬ LeafLeads S l ch.1.name) :
    FromNode x P i ⟨e, p⟩ (.err (.missingVariant i)) := by
  obtain ⟨rs, hrs, heq⟩ := choice_code G hi hget
  rw [heq]
  have := readChoice_skips (P := P) G vs hrs hg (self := i) (rs := []) (e := e) hne (r := .err (.missingVariant i))
  rw [List.append_nil] at this
  rw [this]
  exact ⟨by simp, 0, rfl⟩

theorem loopNext_iff {c : LeafContent} {vr : ValRead} (hc : contentRead x S c = .ok vr) {q : QName} {e : Elem}
    {p run rest : List Elem} (hrun : MaximalRun q p run rest) {r : Res DErr (List Val × Queue)} :
    Ret (fun k => loopNext x queueOps (fromNode x queueOps P k) q vr k ⟨e, p⟩) r ↔
      ∃ r', ReadsList x S P c run r' ∧ r = (do let vs ← r'; .ok (vs, (⟨e, rest⟩ : Queue))) := by
  obtain ⟨rfl, hall, hne⟩ := hrun
  induction run generalizing r with
  | nil =>
    have hn : queueOps.next ⟨e, rest⟩ q = (none, ⟨e, rest⟩) := by
      cases rest with
      | nil => rfl
      | cons ch rest => simp [queueOps, Queue.popIf, hne ch rest rfl]
    rw [Ret.shift (loopNext_monoF q vr _)]
    simp only [List.nil_append, loopNext, hn]
    rw [Ret.const (by simp)]
    constructor
    · rintro rfl; exact ⟨_, .nil, rfl⟩
    · rintro ⟨r', h, rfl⟩; cases h; rfl
  | cons ch run ih =>
    have ih := fun r => @ih r (fun c hc => hall c (List.mem_cons_of_mem _ hc))
    have hn : queueOps.next ⟨e, ch :: (run ++ rest)⟩ q = (some ch, ⟨e, run ++ rest⟩) := by
      simp [queueOps, Queue.popIf, hall ch (by simp)]
    rw [Ret.shift (loopNext_monoF q vr _)]
    have hm : ∀ w : Val, Mono (fun k => (do
        let r ← loopNext x queueOps (fromNode x queueOps P (k + 1)) q vr k ⟨e, run ++ rest⟩
        .ok (w :: r.1, r.2) : Res DErr (List Val × Queue))) := by
      intro w
      refine Mono.bind (g := fun _ (r : List Val × Queue) => .ok (w :: r.1, r.2)) ?_ (fun _ => Mono.const _)
      exact fun k k' h => loopNext_mono (fun i s => fromNode_mono (Nat.succ_le_succ h) i s) q vr h _
    have hrun' : ∀ r, Ret (fun k => loopNext x queueOps (fromNode x queueOps P (k + 1)) q vr k ⟨e, run ++ rest⟩) r ↔
        Ret (fun k => loopNext x queueOps (fromNode x queueOps P k) q vr k ⟨e, run ++ rest⟩) r := by
      intro r
      constructor
      · rintro ⟨hr, k, hk⟩
        refine ⟨hr, k + 1, ?_⟩
        have := loopNext_mono (x := x) (o := queueOps) (fun i s => fromNode_mono (x := x) (o := queueOps) (P := P) (Nat.le_refl (k + 1)) i s) q vr
          (Nat.le_succ k) ⟨e, run ++ rest⟩
        exact (Res.le_eq this (by simp only at hk; rw [hk]; exact hr)).trans hk
      · rintro ⟨hr, k, hk⟩
        refine ⟨hr, k, ?_⟩
        have := loopNext_mono (x := x) (o := queueOps) (fun i s => fromNode_mono (x := x) (o := queueOps) (P := P) (Nat.le_succ k) i s) q vr
          (Nat.le_refl k) ⟨e, run ++ rest⟩
        exact (Res.le_eq this (by simp only at hk; rw [hk]; exact hr)).trans hk
    simp only [List.cons_append, loopNext, hn]
    rw [Ret.bind_iff (fun k k' h => readOn_mono (fun i s => fromNode_mono (Nat.succ_le_succ h) i s) vr ch) hm]
    have hon : ∀ r, Ret (fun k => readOn x queueOps (fromNode x queueOps P (k + 1)) vr ch) r ↔ ReadsAs x S P c ch r := by
      intro r
      rw [← readOn_iff hc, ← Ret.shift (readOn_monoF vr ch)]
    simp only [hon]
    constructor
    · rintro (⟨w, hw, h⟩ | ⟨er, her, rfl⟩ | ⟨hp, rfl⟩)
      · rw [Ret.map_iff (fun k k' h => loopNext_mono (fun i s => fromNode_mono (Nat.succ_le_succ h) i s) q vr h _)] at h
        simp only [hrun', ih] at h
        rcases h with ⟨a, ⟨r', hr', ha⟩, rfl, _⟩ | ⟨er, ⟨r', hr', ha⟩, rfl⟩ | ⟨⟨r', hr', ha⟩, rfl⟩
        · obtain ⟨vs, rfl, h2⟩ := Res.bind_eq_ok.1 ha.symm
          cases h2
          exact ⟨_, .cons hw hr', rfl⟩
        · refine ⟨_, .cons hw hr', ?_⟩
          cases r' <;> cases ha; rfl
        · refine ⟨_, .cons hw hr', ?_⟩
          cases r' <;> cases ha; rfl
      · exact ⟨_, .err her, rfl⟩
      · exact ⟨_, .panic hp, rfl⟩
    · rintro ⟨r', hr', rfl⟩
      cases hr' with
      | err h => exact .inr (.inl ⟨_, h, rfl⟩)
      | panic h => exact .inr (.inr ⟨h, rfl⟩)
      | @cons _ _ w r' h hs =>
        refine .inl ⟨w, h, ?_⟩
        rw [Ret.map_iff (fun k k' h => loopNext_mono (fun i s => fromNode_mono (Nat.succ_le_succ h) i s) q vr h _)]
        simp only [hrun', ih]
        cases r' with
        | ok vs => exact .inl ⟨_, ⟨_, hs, rfl⟩, rfl, by simp⟩
        | err er => exact .inr (.inl ⟨er, ⟨_, hs, rfl⟩, rfl⟩)
        | panic => exact .inr (.inr ⟨⟨_, hs, rfl⟩, rfl⟩)
        | diverge =>
          have := (ih .diverge).2 ⟨_, hs, rfl⟩
          exact absurd rfl this.1

/-- The maximal run exists. -/
theorem maximalRun_exists (q : QName) (p : List Elem) : ∃ run rest, MaximalRun q p run rest := by
  induction p with
  | nil => exact ⟨[], [], rfl, by simp, by simp⟩
  | cons ch p ih =>
    by_cases h : ch.1.name = q
    · obtain ⟨run, rest, rfl, hall, hne⟩ := ih
      exact ⟨ch :: run, rest, rfl, by
        intro c hc; rcases List.mem_cons.1 hc with rfl | hc
        · exact h
        · exact hall c hc, hne⟩
    · exact ⟨[], ch :: p, rfl, by simp, by rintro c r hh hc; cases hh; exact h hc⟩

theorem MaximalRun.unique {q : QName} {p run rest run' rest' : List Elem} (h : MaximalRun q p run rest)
    (h' : MaximalRun q p run' rest') : run = run' ∧ rest = rest' := by
  obtain ⟨rfl, ha, hn⟩ := h
  obtain ⟨he, ha', hn'⟩ := h'
  induction run generalizing run' with
  | nil =>
    cases run' with
    | nil => exact ⟨rfl, he⟩
    | cons c run' => exact absurd (ha' c (by simp)) (hn c _ he)
  | cons c run ih =>
    cases run' with
    | nil => exact absurd (ha c (by simp)) (hn' c _ he.symm)
    | cons c' run' =>
      simp only [List.cons_append, List.cons.injEq] at he
      obtain ⟨rfl, he⟩ := he
      obtain ⟨rfl, rfl⟩ := ih (fun d hd => ha d (by simp [hd])) he (fun d hd => ha' d (by simp [hd]))
      exact ⟨rfl, rfl⟩

/-- **C23, first match.** If `ch` is the next pending child, no alternative before `l` can start with it and `l` can, then the
choice is read as the alternative `l`: same value (as variant `l`), same failure. -/
theorem C23_first_match (G : Generated x S P) {n : Name} {i : Str} (hi : typeIdent x n = .ok i) {pre post : List Leaf}
    {l : Leaf} {b : Bool} {dd : Option Str} (hget : S.get n = some (.choice (pre ++ l :: post) b dd))
    (hg : GroupsEnd x S (pre ++ l :: post)) {e ch : Elem} {rest : List Elem}
    (hpre : ∀ l' ∈ pre, ¬ LeafLeads S l' ch.1.name) (hl : LeafLeads S l ch.1.name) (r : Res DErr (Val × Queue)) :
    FromNode x P i ⟨e, ch :: rest⟩ r ↔ AltReads x S P l e ch rest r := by
  obtain ⟨rs, hrs, heq⟩ := choice_code G hi hget
  rw [heq]
  obtain ⟨r1, r2, h1, h2, rfl⟩ := mapRes_split hrs
  rw [readChoice_skips G pre h1 (fun l' hl' => hg l' (by simp [hl']))
    (fun ch' rest' hp l' hl' => by cases hp; exact hpre l' hl')]
  obtain ⟨pr, r2', hpr, h2', rfl⟩ := mapRes_cons_ok.1 h2
  obtain ⟨q, v, hpi, hq, hv, hvr⟩ := variantRead_ok hpr
  obtain ⟨vn, vr⟩ := pr
  simp only at hvr hpi
  unfold AltReads
  have hex : ∀ {Q : Str → Prop}, (∃ i, pascalIdent x l.name = .ok i ∧ Q i) ↔ Q vn := by
    intro Q
    constructor
    · rintro ⟨i', hi', h⟩; rw [hpi] at hi'; cases hi'; exact h
    · intro h; exact ⟨vn, hpi, h⟩
  rw [hex]
  cases hvr with
  | @virt m im hvirt hn him =>
    rw [if_pos hvirt]
    obtain ⟨m', hm', hlk⟩ := hg l (by simp) hvirt
    rw [hn] at hm'; cases hm'
    obtain ⟨L, hL⟩ := Option.isSome_iff_exists.1 hlk
    obtain ⟨hpt, hgr⟩ := look_group hL
    have hti : typeIdent x m = .ok im := by rw [← hpt]; exact him
    have hh : headIn L (ch :: rest) = true := by
      rw [headIn_iff]
      refine ⟨ch, rest, rfl, (lookSet_iff _ _ _ hL _).2 ?_⟩
      rcases hl with ⟨hf, _⟩ | ⟨_, m', hm', h⟩
      · simp [hvirt] at hf
      · rw [hn] at hm'; cases hm'; exact h
    have hmeans : Means S l.definition.content (.named m) := (target_means (by simp [Leaf.target, hn]) hgr).2
    have hvc : v = .call im := by
      rcases contentRead_ok hv with ⟨t, hm', rfl⟩ | ⟨f, hm', rfl⟩ | ⟨m', i', hm', hi', rfl⟩
      · cases hmeans.functional hm'
      · cases hmeans.functional hm'
      · cases hmeans.functional hm'; rw [hti] at hi'; cases hi'; rfl
    subst hvc
    simp only [readChoice]
    rw [Ret.bind_of_ok (a := (true, ⟨e, ch :: rest⟩)) (lookahead_monoF im _) ?_ ?_]
    · simp only [if_true, readVal]
      rw [Ret.map_iff (fromNode_monoF im _)]
      constructor
      · rintro (⟨a, ha, rfl, _⟩ | ⟨er, her, rfl⟩ | ⟨hp, rfl⟩)
        · exact ⟨m, im, _, hn, hti, FromNode.queue.2 ha, rfl⟩
        · exact ⟨m, im, _, hn, hti, FromNode.queue.2 her, rfl⟩
        · exact ⟨m, im, _, hn, hti, FromNode.queue.2 hp, rfl⟩
      · rintro ⟨m', im', r', hm', him', hr', rfl⟩
        rw [hn] at hm'; cases hm'
        rw [hti] at him'; cases him'
        rw [FromNode.queue] at hr'
        cases r' with
        | ok a => exact .inl ⟨a, hr', rfl, by simp⟩
        | err er => exact .inr (.inl ⟨er, hr', rfl⟩)
        | panic => exact .inr (.inr ⟨hr', rfl⟩)
        | diverge => exact absurd rfl hr'.1
    · intro a
      cases a.1 with
      | true =>
        simp only [if_true]
        exact Mono.bind (g := fun _ (r : Val × Queue) => .ok (Val.variant vn r.1, r.2)) (readVal_monoF (.call im) a.2)
          (fun _ => Mono.const _)
      | false =>
        simp only [Bool.false_eq_true, if_false]
        exact readChoice_monoF i r2' a.2
    · rw [look_ret G hL him, hh]
  | vec hvirt hvec =>
    rw [if_neg (by simp [hvirt]), if_pos hvec]
    have hch : ch.1.name = q := by
      rcases hl with ⟨_, hq'⟩ | ⟨hf, _⟩
      · rw [hq] at hq'; exact (Res.ok.inj hq').symm
      · simp [hvirt] at hf
    have hpk : queueOps.peek ⟨e, ch :: rest⟩ q = (true, ⟨e, ch :: rest⟩) := by
      simp [queueOps, hch]
    obtain ⟨run, rest', hrun⟩ := maximalRun_exists q (ch :: rest)
    simp only [readChoice, hpk, if_true]
    rw [Ret.map_iff (loopNext_monoF q v _)]
    simp only [loopNext_iff hv hrun]
    constructor
    · rintro (⟨a, ⟨r', hr', ha⟩, rfl, _⟩ | ⟨er, ⟨r', hr', ha⟩, rfl⟩ | ⟨⟨r', hr', ha⟩, rfl⟩)
      · obtain ⟨ws, rfl, h2⟩ := Res.bind_eq_ok.1 ha.symm
        cases h2
        exact ⟨run, rest', _, hch ▸ hrun, hr', rfl⟩
      · refine ⟨run, rest', _, hch ▸ hrun, hr', ?_⟩
        cases r' <;> cases ha; rfl
      · refine ⟨run, rest', _, hch ▸ hrun, hr', ?_⟩
        cases r' <;> cases ha; rfl
    · rintro ⟨run', rest2, r', hrun', hr', rfl⟩
      rw [hch] at hrun'
      obtain ⟨rfl, rfl⟩ := hrun.unique hrun'
      cases r' with
      | ok ws => exact .inl ⟨_, ⟨_, hr', rfl⟩, rfl, by simp⟩
      | err er => exact .inr (.inl ⟨er, ⟨_, hr', rfl⟩, rfl⟩)
      | panic => exact .inr (.inr ⟨⟨_, hr', rfl⟩, rfl⟩)
      | diverge =>
        have := (loopNext_iff (P := P) (e := e) hv hrun (r := .diverge)).2 ⟨_, hr', rfl⟩
        exact absurd rfl this.1
  | single hvirt hvec =>
    rw [if_neg (by simp [hvirt]), if_neg (by simp [hvec])]
    have hch : ch.1.name = q := by
      rcases hl with ⟨_, hq'⟩ | ⟨hf, _⟩
      · rw [hq] at hq'; exact (Res.ok.inj hq').symm
      · simp [hvirt] at hf
    have hpk : queueOps.next ⟨e, ch :: rest⟩ q = (some ch, ⟨e, rest⟩) := by
      simp [queueOps, Queue.popIf, hch]
    simp only [readChoice, hpk]
    rw [Ret.map_iff (readOn_monoF v ch)]
    simp only [readOn_iff hv]
    constructor
    · rintro (⟨a, ha, rfl, _⟩ | ⟨er, her, rfl⟩ | ⟨hp, rfl⟩)
      · exact ⟨_, ha, rfl⟩
      · exact ⟨_, her, rfl⟩
      · exact ⟨_, hp, rfl⟩
    · rintro ⟨r', hr', rfl⟩
      cases r' with
      | ok a => exact .inl ⟨a, hr', rfl, by simp⟩
      | err er => exact .inr (.inl ⟨er, hr', rfl⟩)
      | panic => exact .inr (.inr ⟨hr', rfl⟩)
      | diverge => exact absurd rfl ((readOn_iff hv).2 hr').1

end Xsd
