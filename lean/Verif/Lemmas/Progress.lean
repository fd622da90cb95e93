import Verif.Lemmas.Complete
/-!
# A group that is entered after looking ahead consumes at least one child element
-/
namespace Xsd

variable {x : Ext} {S : SchemaContext} {P : List TypeDef} {ne : Bool}

theorem Cat.lenient_le {u : Prop} {a r p : List Elem} (h : Cat u .lenient a r p) : r.length ≤ p.length := by
  have := h.1.perm.length_eq
  simp at this; omega

theorem Consumed.le {u : Prop} {R : List Elem → Prop} {s s' : Queue} (h : Consumed u R s s') : s'.pending.length ≤ s.pending.length := by
  obtain ⟨_, es, _, hc⟩ := h
  exact hc.lenient_le

theorem Merge.nil_left_eq {α : Type} {b c : List α} (h : Merge [] b c) : b = c := by
  induction b generalizing c with
  | nil => cases h; rfl
  | cons x b ih => cases h with | right h => rw [ih h]

/-- Nothing was consumed: the state is unchanged. -/
theorem Consumed.same {u : Prop} {R : List Elem → Prop} {s s' : Queue} (h : Consumed u R s s')
    (hl : ¬ s'.pending.length < s.pending.length) : s' = s := by
  obtain ⟨hn, es, _, hc⟩ := h
  have h1 := hc.1.perm.length_eq
  simp only [List.length_append] at h1
  have : es = [] := List.length_eq_zero_iff.1 (by omega)
  subst this
  have := hc.1.nil_left_eq
  obtain ⟨e, p⟩ := s; obtain ⟨e', p'⟩ := s'
  simp_all

theorem lookahead_look (G : Generated x S P) {j : Nat} {n : Name} {L : List QName} (hL : lookSet x S j n = some L)
    {i : Str} (hi : pascalIdent x n = .ok i) {k : Nat} {s s1 : Queue} {b : Bool}
    (h : lookahead queueOps P k i s = .ok (b, s1)) : b = headIn L s.pending ∧ s1 = s := by
  have h1 := lookahead_exact G j n i L s hL hi
  have m1 := Res.le_ok (lookahead_mono (Nat.le_max_left j k) i s) h1
  have m2 := Res.le_ok (lookahead_mono (Nat.le_max_right j k) i s) h
  rw [m1] at m2
  cases m2; exact ⟨rfl, rfl⟩

theorem lookSet_group {j : Nat} {m : Name} {L : List QName} (hL : lookSet x S j m = some L) :
    pascalIdent x m = typeIdent x m ∧ isGroup S m = true := by
  cases j with
  | zero => cases hL
  | succ j =>
    unfold lookSet at hL
    split at hL
    · next h =>
      refine ⟨h, ?_⟩
      unfold isGroup
      split at hL
      · simp
      · simp
      · cases hL
    · cases hL

theorem headIn_cons {L : List QName} {p : List Elem} (h : headIn L p = true) : ∃ ch r, p = ch :: r ∧ ch.1.name ∈ L := by
  cases p with
  | nil => cases h
  | cons ch r => exact ⟨ch, r, rfl, by simpa [headIn] using h⟩

/-- Progress of the groups known so far. -/
def GroupProgress (x : Ext) (P : List TypeDef) (lk : Name → Option (List QName)) : Prop :=
  ∀ m L, lk m = some L → ∀ k i s v s', typeIdent x m = .ok i → headIn L s.pending = true →
    fromNode x queueOps P k i s = .ok (v, s') → s'.pending.length < s.pending.length

theorem group_call {m : Name} {i : Str} {vr : ValRead} (hg : isGroup S m = true)
    (hc : contentRead x S (.named m) = .ok vr) (hi : typeIdent x m = .ok i) : vr = .call i := by
  have hm : Means S (.named m) (.named m) := .name fun d hd => by simp [isGroup, hd] at hg
  rcases contentRead_ok hc with ⟨t, hm', rfl⟩ | ⟨f, hm', rfl⟩ | ⟨n, i', hm', hi', rfl⟩
  · cases hm.functional hm'
  · cases hm.functional hm'
  · cases hm.functional hm'; rw [hi] at hi'; cases hi'; rfl

/-- The names that start a leaf. -/
def leafLookOf (S : SchemaContext) (lk : Name → Option (List QName)) (l : Leaf) : Option (List QName) :=
  if l.isVirtual then l.target.bind lk else some (l.qn S)

theorem next_progress {s s' : Queue} {q : QName} {ch : Elem} (h : queueOps.next s q = (some ch, s')) :
    s'.pending.length < s.pending.length := by
  obtain ⟨_, _, h3⟩ := next_some h
  rw [h3]; simp

section
variable {j : Nat}

theorem readLeaf_progress (G : Generated x S P) (H : GroupProgress x P (lookSet x S j)) {l : Leaf} {p : Str × LeafRead}
    (hl : leafRead x S l = .ok p)
    (hcl : ∀ n, Means S l.definition.content (.named n) → (S.get n).isSome = true)
    {a : List QName} (ha : leafLookOf S (lookSet x S j) l = some a) (k : Nat) {s s' : Queue} {v : Val}
    (hh : headIn a s.pending = true)
    (h : readLeaf x queueOps (fromNode x queueOps P k) (lookahead queueOps P k) k p.2 s = .ok (v, s')) :
    s'.pending.length < s.pending.length := by
  have hF := fromNode_sound G k
  have hL := lookahead_pure (P := P) k
  obtain ⟨q, vr, _, hq, hc, hcase⟩ := leafRead_ok hl
  obtain ⟨f, lr⟩ := p
  simp only at h hcase
  have hnv : l.isVirtual = false → ∃ ch r, s.pending = ch :: r ∧ ch.1.name = q := by
    intro hv
    simp only [leafLookOf, hv, Bool.false_eq_true, if_false, Leaf.qn, hq, Option.some.injEq] at ha
    subst ha
    obtain ⟨ch, r, hp, hm⟩ := headIn_cons hh
    exact ⟨ch, r, hp, by simpa using hm⟩
  have hvi : l.isVirtual = true → ∃ m, l.definition.content = .named m ∧ lookSet x S j m = some a := by
    intro hv
    simp only [leafLookOf, hv, if_true] at ha
    cases hcn : l.definition.content with
    | named m => simp only [Leaf.target, hcn, Option.bind_some] at ha; exact ⟨m, rfl, ha⟩
    | literal t => simp [Leaf.target, hcn] at ha
    | fixed t => simp [Leaf.target, hcn] at ha
  cases hcase with
  | @whileLook m i h1 h2 hn hi =>
    obtain ⟨m', hm', hLs⟩ := hvi h1
    rw [hn] at hm'; cases hm'
    obtain ⟨hpt, hg⟩ := lookSet_group hLs
    have hti : typeIdent x m = .ok i := hpt ▸ hi
    rw [hn] at hc
    cases group_call hg hc hti
    simp only [readLeaf, Res.bind_eq_ok] at h
    obtain ⟨⟨vs, s1⟩, hr, h⟩ := h
    cases h
    cases k with
    | zero => simp [loopLook] at hr
    | succ k =>
      simp only [loopLook, Res.bind_eq_ok] at hr
      obtain ⟨⟨b, s1'⟩, hb, hr⟩ := hr
      obtain ⟨rfl, rfl⟩ := lookahead_look G hLs hi hb
      simp only [hh, if_true, Res.bind_eq_ok] at hr
      obtain ⟨⟨w, s2⟩, hw, ⟨r, s3⟩, hr, hrr⟩ := hr
      cases hrr
      have h1' := H m a hLs _ i _ w s2 hti hh hw
      have h2' := (loopLook_sound (ne := false) hF hL (fun h => by cases h) hn hi h1 (hn ▸ hc) hcl k hr).le
      exact Nat.lt_of_le_of_lt h2' h1'
  | @ifLook m i h1 h2 h3 hn hi =>
    obtain ⟨m', hm', hLs⟩ := hvi h1
    rw [hn] at hm'; cases hm'
    obtain ⟨hpt, hg⟩ := lookSet_group hLs
    have hti : typeIdent x m = .ok i := hpt ▸ hi
    rw [hn] at hc
    cases group_call hg hc hti
    simp only [readLeaf, Res.bind_eq_ok] at h
    obtain ⟨⟨b, s1⟩, hb, h⟩ := h
    obtain ⟨rfl, rfl⟩ := lookahead_look G hLs hi hb
    simp only [hh, if_true, Res.bind_eq_ok] at h
    obtain ⟨⟨w, s2⟩, hw, h⟩ := h
    cases h
    exact H m a hLs _ i _ w _ hti hh hw
  | plain h1 h2 h3 =>
    obtain ⟨m, hn, hLs⟩ := hvi h1
    obtain ⟨hpt, hg⟩ := lookSet_group hLs
    rw [hn] at hc
    have hm : Means S (.named m) (.named m) := .name fun d hd => by simp [isGroup, hd] at hg
    rcases contentRead_ok hc with ⟨t, hm', rfl⟩ | ⟨f, hm', rfl⟩ | ⟨n, i', hm', hi', rfl⟩
    · cases hm.functional hm'
    · cases hm.functional hm'
    · cases hm.functional hm'
      exact H m a hLs _ i' _ v _ hi' hh h
  | whileNext h1 h2 =>
    obtain ⟨ch, r, hp, hch⟩ := hnv h1
    simp only [readLeaf, Res.bind_eq_ok] at h
    obtain ⟨⟨vs, s1⟩, hr, h⟩ := h
    cases h
    cases k with
    | zero => simp [loopNext] at hr
    | succ k =>
      simp only [loopNext] at hr
      split at hr
      · next hn => exact absurd hch ((next_none hn).2 _ _ hp)
      · next ch' s2 hn =>
        simp only [Res.bind_eq_ok] at hr
        obtain ⟨w, hw, ⟨r', s3⟩, hr, hrr⟩ := hr
        cases hrr
        have e1 := next_progress hn
        have e2 := (loopNext_sound (ne := false) hF h1 hq hc hcl k hr).le
        exact Nat.lt_of_le_of_lt e2 e1
  | ifNext h1 h2 h3 =>
    obtain ⟨ch, r, hp, hch⟩ := hnv h1
    simp only [readLeaf] at h
    split at h
    · next hn => exact absurd hch ((next_none hn).2 _ _ hp)
    · next ch' s2 hn =>
      simp only [Res.bind_eq_ok] at h
      obtain ⟨w, hw, h⟩ := h
      cases h
      exact next_progress hn
  | tryChild h1 h2 h3 h4 =>
    simp only [readLeaf] at h
    split at h
    · cases h
    · next ch' s2 hn =>
      simp only [Res.bind_eq_ok] at h
      obtain ⟨w, hw, h⟩ := h
      cases h
      simp only [queueOps, Prod.mk.injEq] at hn
      obtain ⟨hn1, rfl⟩ := hn
      cases ht : (Queue.takeFirst q s.pending).1 with
      | none => rw [ht] at hn1; simp [Queue.orMissing] at hn1
      | some c =>
        have := (takeFirst_cat q _ _ ht).2.perm.length_eq
        simp at this
        simp; omega
  | tryNext h1 h2 h3 h4 =>
    simp only [readLeaf] at h
    split at h
    · cases h
    · next ch' s2 hn =>
      simp only [Res.bind_eq_ok] at h
      obtain ⟨w, hw, h⟩ := h
      cases h
      simp only [queueOps, Prod.mk.injEq] at hn
      obtain ⟨hn1, rfl⟩ := hn
      cases ht : Queue.popIf q s.pending with
      | mk o r =>
        rw [ht] at hn1
        cases o with
        | none => simp [Queue.orMissing] at hn1
        | some c =>
          have hs : queueOps.next s q = (some c, ⟨s.node, r⟩) := by simp [queueOps, ht]
          exact next_progress hs

/-- A required child element is always consumed. -/
theorem readLeaves_progress (G : Generated x S P) (H : GroupProgress x P (lookSet x S j)) (ls : List Leaf)
    {rs : List (Str × LeafRead)} (hrs : mapRes (leafRead x S) ls = .ok rs)
    (hcl : ∀ l ∈ ls, ∀ n, Means S l.definition.content (.named n) → (S.get n).isSome = true)
    {L : List QName} (hL : lookOf S (lookSet x S j) (lookLeaves ls) = some L) (k : Nat) {s s' : Queue}
    {fs : List (Str × Val)} (hh : headIn L s.pending = true)
    (h : readLeaves x queueOps (fromNode x queueOps P k) (lookahead queueOps P k) k rs s = .ok (fs, s')) :
    s'.pending.length < s.pending.length := by
  have hF := fromNode_sound G k
  have hLp := lookahead_pure (P := P) k
  induction ls generalizing rs L fs with
  | nil => simp [lookLeaves, lookOf] at hL; subst hL; cases hp : s.pending <;> simp [hp, headIn] at hh
  | cons l ls ih =>
    obtain ⟨p, rs', hp, hrs', rfl⟩ := mapRes_cons_ok.1 hrs
    obtain ⟨f, lr⟩ := p
    simp only [readLeaves, Res.bind_eq_ok] at h
    obtain ⟨⟨w, s1⟩, hw, ⟨r, s2⟩, hr, h⟩ := h
    cases h
    have c1 := readLeaf_sound (ne := false) hF hLp (fun _ h => by cases h) hp (hcl l (by simp)) k hw
    have c2 := readLeaves_sound (ne := false) hF hLp k ls (fun _ _ _ h => by cases h) hrs'
      (fun l hl => hcl l (by simp [hl])) hr
    have l2 := c2.le
    by_cases hlt : s1.pending.length < s.pending.length
    · simp only at l2 ⊢; omega
    · have hs := c1.same hlt
      subst hs
      obtain ⟨a, b, ha, hb, rfl⟩ : ∃ a b, leafLookOf S (lookSet x S j) l = some a ∧
          lookOf S (lookSet x S j) (if l.mayMiss then lookLeaves ls else []) = some b ∧ L = a ++ b := by
        unfold lookLeaves at hL
        rw [Leaf.isOptional_eq] at hL
        by_cases ho : l.mayMiss = true
        · rw [if_pos ho] at hL ⊢
          simp only [lookOf] at hL
          split at hL
          · next a b ha hb => cases hL; exact ⟨a, b, ha, hb, rfl⟩
          · cases hL
        · rw [if_neg ho] at hL ⊢
          simp only [lookOf] at hL
          split at hL
          · next a b ha hb => cases hL; exact ⟨a, b, ha, hb, rfl⟩
          · cases hL
      have hna : headIn a s1.pending = false := by
        rw [← Bool.not_eq_true]
        intro hha
        exact hlt (readLeaf_progress G H hp (hcl l (by simp)) ha k hha hw)
      have hhb : headIn b s1.pending = true := by
        obtain ⟨ch, r, hpp, hm⟩ := headIn_cons hh
        rw [hpp] at hna ⊢
        simp only [headIn, List.contains_eq_mem, decide_eq_false_iff_not, decide_eq_true_eq] at hna ⊢
        rcases List.mem_append.1 hm with hm | hm
        · exact absurd hm hna
        · exact hm
      by_cases ho : l.mayMiss = true
      · rw [if_pos ho] at hb
        exact ih hrs' (fun l hl => hcl l (by simp [hl])) hb hhb hr
      · rw [if_neg ho] at hb
        cases hb
        cases hp : s1.pending <;> simp [hp, headIn] at hhb

theorem readChoice_progress (G : Generated x S P) (H : GroupProgress x P (lookSet x S j)) (self : Str) (vs : List Leaf)
    {rs : List (Str × VarRead)} (hrs : mapRes (variantRead x S) vs = .ok rs)
    (hcl : ∀ l ∈ vs, ∀ n, Means S l.definition.content (.named n) → (S.get n).isSome = true)
    {L : List QName} (hL : lookOf S (lookSet x S j) vs = some L) (k : Nat) {s s' : Queue} {v : Val}
    (h : readChoice x queueOps (fromNode x queueOps P k) (lookahead queueOps P k) k self rs s = .ok (v, s')) :
    s'.pending.length < s.pending.length := by
  have hF := fromNode_sound G k
  induction vs generalizing rs L v with
  | nil => simp [mapRes] at hrs; subst hrs; simp [readChoice] at h
  | cons l vs ih =>
    obtain ⟨p, rs', hp, hrs', rfl⟩ := mapRes_cons_ok.1 hrs
    obtain ⟨q, vr, hi, hq, hc, hcase⟩ := variantRead_ok hp
    obtain ⟨i, pr⟩ := p
    simp only [lookOf] at hL
    split at hL
    · next a b ha hb =>
      simp only at hi hcase
      have hrest := fun h => ih hrs' (fun l hl => hcl l (by simp [hl])) hb (v := v) h
      cases hcase with
      | @virt m im h1 hn hi' =>
        rw [if_pos h1] at ha
        simp only [Leaf.target, hn, Option.bind_some] at ha
        obtain ⟨hpt, hg⟩ := lookSet_group ha
        have hti : typeIdent x m = .ok im := hpt ▸ hi'
        rw [hn] at hc
        cases group_call hg hc hti
        simp only [readChoice, Res.bind_eq_ok] at h
        obtain ⟨⟨b', s1⟩, hb', h⟩ := h
        obtain ⟨rfl, rfl⟩ := lookahead_look G ha hi' hb'
        simp only at h
        split at h
        · next hh =>
          simp only [Res.bind_eq_ok] at h
          obtain ⟨⟨w, s2⟩, hw, h⟩ := h
          cases h
          exact H m a ha _ im _ w _ hti hh hw
        · exact hrest h
      | vec h1 h2 =>
        simp only [readChoice] at h
        have hpeek : (queueOps.peek s q).2 = s := rfl
        rw [hpeek] at h
        split at h
        · next hpk =>
          simp only [Res.bind_eq_ok] at h
          obtain ⟨⟨ws, s2⟩, hw, h⟩ := h
          cases h
          cases k with
          | zero => simp [loopNext] at hw
          | succ k =>
            simp only [loopNext] at hw
            split at hw
            · next s1 hn =>
              obtain ⟨_, hno⟩ := next_none hn
              simp only [queueOps] at hpk
              cases hp : s.pending with
              | nil => simp [hp] at hpk
              | cons a r => simp [hp] at hpk; exact absurd hpk (hno a r hp)
            · next ch s1 hn =>
              simp only [Res.bind_eq_ok] at hw
              obtain ⟨w, hw, ⟨r', s3⟩, hr, hrr⟩ := hw
              cases hrr
              have e1 := next_progress hn
              have e2 := (loopNext_sound (ne := false) hF h1 hq hc (hcl l (by simp)) k hr).le
              exact Nat.lt_of_le_of_lt e2 e1
        · exact hrest h
      | single h1 h2 =>
        simp only [readChoice] at h
        split at h
        · next ch s1 hn =>
          simp only [Res.bind_eq_ok] at h
          obtain ⟨w, hw, h⟩ := h
          cases h
          exact next_progress hn
        · next s1 hn =>
          have := (next_none hn).1
          subst this
          exact hrest h
    · cases hL

end

/-- Reading a group whose first pending element is one that it is entered on consumes it. -/
theorem group_progress (G : Generated x S P) (j : Nat) : GroupProgress x P (lookSet x S j) := by
  induction j with
  | zero => intro m L h; cases h
  | succ j ih =>
    intro m L hL k i s v s' hi hh h
    simp only [lookSet] at hL
    split at hL
    · next hpt =>
      cases hg : S.get m with
      | none => rw [hg] at hL; cases hL
      | some r =>
        rw [hg] at hL
        obtain ⟨r', t, hr', hft, hid, hgen⟩ := G.find' hi (by rw [hg]; rfl)
        rw [hg] at hr'; cases hr'
        have hrd := hgen.read
        cases k with
        | zero => simp [fromNode] at h
        | succ k =>
          simp only [fromNode, hft] at h
          cases r with
          | leaf d => cases hL
          | enum ns => cases hL
          | element d =>
            simp only [rootRead, Res.bind_eq_ok] at hrd
            obtain ⟨c, hc, as, has, hrd⟩ := hrd
            simp only [runFrom, ← Res.ok.inj hrd, Res.bind_eq_ok] at h
            obtain ⟨⟨fc, s1⟩, hfc, fa, hfa, h⟩ := h
            cases h
            simp only at hL
            cases hd : d.content with
            | none => rw [hd] at hL; cases hL; cases hp : s.pending <;> simp [hp, headIn] at hh
            | some ec =>
              rw [hd] at hL
              cases ec with
              | leaf a b => cases hL; cases hp : s.pending <;> simp [hp, headIn] at hh
              | leaves ls =>
                rw [hd] at hc
                simp only [elementContentRead, Res.bind_eq_ok] at hc
                obtain ⟨rs, hrs, hc⟩ := hc
                rw [← Res.ok.inj hc] at hfc
                simp only [readContent] at hfc
                change lookOf S (lookSet x S j) (leading ls) = some L at hL
                rw [← lookLeaves_eq] at hL
                refine readLeaves_progress G ih ls hrs (fun l hl n hn => G.closedAt hg ?_ hn) hL k hh hfc
                simp only [Root.contents, hd, List.mem_append, List.mem_map]
                exact .inl ⟨l, hl, rfl⟩
          | choice vs b dd =>
            simp only [rootRead, Res.bind_eq_ok] at hrd
            obtain ⟨rs, hrs, hrd⟩ := hrd
            simp only [runFrom, ← Res.ok.inj hrd] at h
            refine readChoice_progress G ih t.ident vs hrs (fun l hl n hn => G.closedAt hg ?_ hn) hL k h
            simp only [Root.contents, List.mem_map]; exact ⟨l, hl, rfl⟩
    · cases hL

/-- Under the one-element lookahead condition, a successful read is a representation in which no optional group, repeated
group or alternative that is present is empty. -/
theorem fromNode_tidy (G : Generated x S P) {C : Cert} (hdet : detOK x S C = true) (k : Nat) :
    CallSound x S (TRepr x .tidy S k) (fromNode x queueOps P k) := by
  refine fromNode_sound' G ?_ k
  intro k n r hr l hl hcase _ hv m i vr hn hi hc s w s' hlook hread
  have hroot : rootDet x S C n r = true := List.all_eq_true.1 hdet _ (alookup_mem hr)
  obtain ⟨L, hL⟩ : ∃ L, look x S m = some L := by
    have ht : l.target = some m := by simp [Leaf.target, hn]
    cases r with
    | leaf d => cases hl
    | enum ns => cases hl
    | element d =>
      simp only [Root.leaves] at hl
      simp only [rootDet] at hroot
      split at hl
      · next ls hd =>
        rw [hd] at hroot
        simp only [Bool.and_eq_true] at hroot
        have hdl : leafDet x S C l = true := by
          have := hroot.1.1.1
          clear hroot hd
          induction ls with
          | nil => cases hl
          | cons a ls ih =>
            simp only [listDet, Bool.and_eq_true] at this
            rcases List.mem_cons.1 hl with rfl | hl
            · exact this.1.1
            · exact ih hl this.2
        unfold leafDet at hdl
        rw [if_pos hv, ht] at hdl
        have : (l.repeats || l.mayMiss) = true := by
          rcases hcase with ⟨_, _, _, h⟩ | h | h
          · cases h
          · simp [h]
          · simp [h]
        simp only [this, if_true, Bool.and_eq_true] at hdl
        cases hk : look x S m with
        | some L => exact ⟨L, rfl⟩
        | none => rw [hk] at hdl; cases hdl.2
      · cases hl
    | choice vs b d =>
      simp only [rootDet, Bool.and_eq_true] at hroot
      have hdl : variantDet x S C l = true := by
        have := hroot.1.1
        replace hl : l ∈ vs := hl
        clear hroot hcase hr
        induction vs with
        | nil => cases hl
        | cons a ls ih =>
          simp only [variantsDet, Bool.and_eq_true] at this
          rcases List.mem_cons.1 hl with rfl | hl
          · exact this.1.1
          · exact ih this.2 hl
      unfold variantDet at hdl
      rw [if_pos hv, ht] at hdl
      simp only [Bool.and_eq_true] at hdl
      cases hk : look x S m with
      | some L => exact ⟨L, rfl⟩
      | none => rw [hk] at hdl; cases hdl.2
  obtain ⟨hpt, hg⟩ := lookSet_group hL
  have hti : typeIdent x m = .ok i := hpt ▸ hi
  cases group_call hg hc hti
  obtain ⟨hh, _⟩ := lookahead_look G hL hi hlook
  exact group_progress G _ m L hL k i s w s' hti hh.symm hread

end Xsd
