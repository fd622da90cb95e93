import Verif.Spec.Finite
import Verif.Spec.Api
import Verif.Lemmas.Eval
import Verif.Lemmas.Progress
/-!
# Reading terminates (C17)
-/
namespace Xsd

section
variable {ε α β : Type}

/-- Enough fuel gives a result. -/
def Term (f : Nat → Res ε α) : Prop := ∃ k, f k ≠ .diverge

theorem Term.ret {f : Nat → Res ε α} (h : Term f) : ∃ r, Ret f r := by
  obtain ⟨k, hk⟩ := h
  exact ⟨f k, hk, k, rfl⟩

theorem Term.const {r : Res ε α} (h : r ≠ .diverge) : Term (fun _ => r) := ⟨0, h⟩

theorem Term.bind {f : Nat → Res ε α} {g : Nat → α → Res ε β} (hf : Mono f) (hg : ∀ a, Mono (fun k => g k a)) (h : Term f)
    (h' : ∀ a, Ret f (.ok a) → Term (fun k => g k a)) : Term (fun k => f k >>= g k) := by
  obtain ⟨k, hk⟩ := h
  cases hfk : f k with
  | ok a =>
    obtain ⟨k', hk'⟩ := h' a ⟨nofun, k, hfk⟩
    refine ⟨max k k', ?_⟩
    show f _ >>= g _ ≠ _
    rw [Res.le_ok (hf _ _ (Nat.le_max_left k k')) hfk]
    have e : g (max k k') a = g k' a := Res.le_eq (hg a _ _ (Nat.le_max_right k k')) hk'
    show g _ a ≠ _
    rw [e]
    exact hk'
  | err e => exact ⟨k, by show f k >>= g k ≠ _; rw [hfk]; nofun⟩
  | panic => exact ⟨k, by show f k >>= g k ≠ _; rw [hfk]; nofun⟩
  | diverge => exact absurd hfk hk

theorem Term.map {f : Nat → Res ε α} {g : α → Res ε β} (hf : Mono f) (h : Term f)
    (h' : ∀ a, g a ≠ .diverge) : Term (fun k => f k >>= g) :=
  Term.bind (g := fun _ => g) hf (fun a => Mono.const _) h (fun a _ => .const (h' a))

theorem Term.shift {f : Nat → Res ε α} (h : Term (fun k => f (k + 1))) : Term f := by
  obtain ⟨k, hk⟩ := h
  exact ⟨k + 1, hk⟩

end

/-! ## What is left gets smaller -/

mutual
/-- The number of elements of a tree. -/
def XNode.weight : XNode → Nat
  | .elem _ cs => 1 + weights cs
  | .text _ => 0
  | .other => 0
/-- The number of elements of a list of trees. -/
def weights : List XNode → Nat
  | [] => 0
  | c :: cs => c.weight + weights cs
end

/-- The number of elements of an element. -/
def Elem.weight (e : Elem) : Nat := 1 + weights e.2

/-- The number of elements in the children that are left. -/
def Queue.weight (s : Queue) : Nat := (s.pending.map Elem.weight).sum

theorem Queue.new_weight (e : Elem) : (Queue.new e).weight = weights e.2 := by
  have key : ∀ cs : List XNode, ((cs.filterMap XNode.asElem).map Elem.weight).sum = weights cs := by
    intro cs
    induction cs with
    | nil => rfl
    | cons c cs ih =>
      cases c with
      | elem i ks =>
        show (((i, ks) :: cs.filterMap XNode.asElem).map Elem.weight).sum = _
        rw [List.map_cons, List.sum_cons, ih]
        simp only [weights, XNode.weight, Elem.weight]
      | text t => show ((cs.filterMap XNode.asElem).map Elem.weight).sum = _; rw [ih]; simp [weights, XNode.weight]
      | other => show ((cs.filterMap XNode.asElem).map Elem.weight).sum = _; rw [ih]; simp [weights, XNode.weight]
  exact key _

/-- An element was taken. -/
structure Takes (s : Queue) (e : Elem) (s' : Queue) : Prop where
  weight : e.weight + s'.weight ≤ s.weight
  length : s'.pending.length < s.pending.length

theorem Takes.child {s s' : Queue} {e : Elem} (h : Takes s e s') : (Queue.new e).weight < s.weight := by
  have := h.weight
  rw [Queue.new_weight]
  unfold Elem.weight at this
  omega

theorem Takes.le {s s' : Queue} {e : Elem} (h : Takes s e s') : s'.weight ≤ s.weight := by
  have := h.weight
  omega

theorem next_takes {s s' : Queue} {q : QName} {e : Elem} (h : queueOps.next s q = (some e, s')) : Takes s e s' := by
  obtain ⟨_, _, h3⟩ := next_some h
  refine ⟨?_, by rw [h3]; simp⟩
  unfold Queue.weight
  rw [h3, List.map_cons, List.sum_cons]
  exact Nat.le_refl _

theorem tryNext_takes {s s' : Queue} {q : QName} {e : Elem} (h : queueOps.tryNext s q = (.ok e, s')) : Takes s e s' := by
  refine next_takes (q := q) ?_
  simp only [queueOps, Prod.mk.injEq] at h ⊢
  obtain ⟨h1, h2⟩ := h
  refine ⟨?_, h2⟩
  unfold Queue.orMissing at h1
  split at h1
  · cases h1; assumption
  · cases h1

theorem tryChild_takes {s s' : Queue} {q : QName} {e : Elem} (h : queueOps.tryChild s q = (.ok e, s')) : Takes s e s' := by
  simp only [queueOps, Prod.mk.injEq] at h
  obtain ⟨h1, rfl⟩ := h
  have h2 : (Queue.takeFirst q s.pending).1 = some e := by
    unfold Queue.orMissing at h1
    split at h1
    · cases h1; assumption
    · cases h1
  have hp := ((takeFirst_cat q s.pending e h2).2).perm
  constructor
  · have := (hp.map Elem.weight).sum_nat
    simp only [List.cons_append, List.nil_append, List.map_cons, List.sum_cons] at this
    unfold Queue.weight
    show _ + ((Queue.takeFirst q s.pending).2.map Elem.weight).sum ≤ _
    omega
  · have := hp.length_eq
    simp only [List.cons_append, List.nil_append, List.length_cons] at this
    show (Queue.takeFirst q s.pending).2.length < _
    omega

variable {x : Ext} {S : SchemaContext} {P : List TypeDef}

/-- A call leaves no more than there was. -/
def CallLe (callF : Str → Queue → DRes Queue Val) : Prop := ∀ i s v s', callF i s = .ok (v, s') → s'.weight ≤ s.weight

section
variable {cF : Str → Queue → DRes Queue Val} {cL : Str → Queue → DRes Queue Bool} (hF : CallLe cF) (hL : LookPure cL)
include hF

theorem readVal_le (v : ValRead) {s s' : Queue} {w : Val} (h : readVal x queueOps cF v s = .ok (w, s')) : s'.weight ≤ s.weight := by
  cases v with
  | text t =>
    obtain ⟨_, _, h⟩ := Res.bind_eq_ok.1 h
    obtain ⟨_, _, h⟩ := Res.bind_eq_ok.1 h
    cases h; exact Nat.le_refl _
  | fixed f =>
    obtain ⟨_, _, h⟩ := Res.bind_eq_ok.1 h
    split at h
    · cases h; exact Nat.le_refl _
    · cases h
  | call i => exact hF _ _ _ _ h

omit hF in
theorem loopNext_le (q : QName) (v : ValRead) : ∀ (k : Nat) {s s' : Queue} {ws : List Val},
    loopNext x queueOps cF q v k s = .ok (ws, s') → s'.weight ≤ s.weight := by
  intro k
  induction k with
  | zero => intro s s' ws h; cases h
  | succ k ih =>
    intro s s' ws h
    unfold loopNext at h
    split at h
    · next s1 hn => cases h; rw [(next_none hn).1]; exact Nat.le_refl _
    · next e s1 hn =>
      obtain ⟨_, _, h⟩ := Res.bind_eq_ok.1 h
      obtain ⟨⟨ws', s2⟩, h2, h⟩ := Res.bind_eq_ok.1 h
      cases h
      exact Nat.le_trans (ih h2) (next_takes hn).le

include hL

theorem loopLook_le (i : Str) (v : ValRead) : ∀ (k : Nat) {s s' : Queue} {ws : List Val},
    loopLook x queueOps cF cL i v k s = .ok (ws, s') → s'.weight ≤ s.weight := by
  intro k
  induction k with
  | zero => intro s s' ws h; cases h
  | succ k ih =>
    intro s s' ws h
    obtain ⟨⟨b, s1⟩, h1, h0⟩ := Res.bind_eq_ok.1 h
    have e := hL _ _ _ _ h1
    clear h
    subst e
    have h := h0
    clear h0
    split at h
    · obtain ⟨⟨w, s2⟩, h2, h⟩ := Res.bind_eq_ok.1 h
      obtain ⟨⟨ws', s3⟩, h3, h⟩ := Res.bind_eq_ok.1 h
      cases h
      exact Nat.le_trans (ih h3) (readVal_le hF v h2)
    · cases h; exact Nat.le_refl _

theorem readLeaf_le (k : Nat) (l : LeafRead) {s s' : Queue} {w : Val} (h : readLeaf x queueOps cF cL k l s = .ok (w, s')) :
    s'.weight ≤ s.weight := by
  cases l with
  | plain v => exact readVal_le hF v h
  | whileLookahead i v opt =>
    obtain ⟨⟨ws, s1⟩, h1, h⟩ := Res.bind_eq_ok.1 h
    cases h; exact loopLook_le hF hL i v k h1
  | ifLookahead i v =>
    obtain ⟨⟨b, s1⟩, h1, h0⟩ := Res.bind_eq_ok.1 h
    have e := hL _ _ _ _ h1
    clear h
    subst e
    have h := h0
    clear h0
    split at h
    · obtain ⟨⟨w, s2⟩, h2, h⟩ := Res.bind_eq_ok.1 h
      cases h; exact readVal_le hF v h2
    · cases h; exact Nat.le_refl _
  | whileNext q v opt =>
    obtain ⟨⟨ws, s1⟩, h1, h⟩ := Res.bind_eq_ok.1 h
    cases h; exact loopNext_le q v k h1
  | ifNext q v =>
    simp only [readLeaf] at h
    split at h
    · next s1 hn => cases h; rw [(next_none hn).1]; exact Nat.le_refl _
    · next e s1 hn =>
      obtain ⟨_, _, h⟩ := Res.bind_eq_ok.1 h
      cases h; exact (next_takes hn).le
  | tryChild q v =>
    simp only [readLeaf] at h
    split at h
    · cases h
    · next e s1 hn =>
      obtain ⟨_, _, h⟩ := Res.bind_eq_ok.1 h
      cases h; exact (tryChild_takes hn).le
  | tryNext q v =>
    simp only [readLeaf] at h
    split at h
    · cases h
    · next e s1 hn =>
      obtain ⟨_, _, h⟩ := Res.bind_eq_ok.1 h
      cases h; exact (tryNext_takes hn).le

theorem readLeaves_le (k : Nat) (ls : List (Str × LeafRead)) : ∀ {s s' : Queue} {ws : List (Str × Val)},
    readLeaves x queueOps cF cL k ls s = .ok (ws, s') → s'.weight ≤ s.weight := by
  induction ls with
  | nil => intro s s' ws h; cases h; exact Nat.le_refl _
  | cons l ls ih =>
    intro s s' ws h
    obtain ⟨f, l⟩ := l
    obtain ⟨⟨w, s1⟩, h1, h⟩ := Res.bind_eq_ok.1 h
    obtain ⟨⟨ws', s2⟩, h2, h⟩ := Res.bind_eq_ok.1 h
    cases h
    exact Nat.le_trans (ih h2) (readLeaf_le hF hL k l h1)

theorem readChoice_le (k : Nat) (self : Str) (vs : List (Str × VarRead)) : ∀ {s s' : Queue} {w : Val},
    readChoice x queueOps cF cL k self vs s = .ok (w, s') → s'.weight ≤ s.weight := by
  induction vs with
  | nil => intro s s' w h; cases h
  | cons v vs ih =>
    intro s s' w h
    obtain ⟨n, v⟩ := v
    cases v with
    | virt i v =>
      obtain ⟨⟨b, s1⟩, h1, h0⟩ := Res.bind_eq_ok.1 h
      have e := hL _ _ _ _ h1
      clear h
      subst e
      have h := h0
      clear h0
      split at h
      · obtain ⟨⟨w, s2⟩, h2, h⟩ := Res.bind_eq_ok.1 h
        cases h; exact readVal_le hF v h2
      · exact ih h
    | vec q v =>
      simp only [readChoice] at h
      split at h
      · obtain ⟨⟨ws, s1⟩, h1, h⟩ := Res.bind_eq_ok.1 h
        cases h; exact loopNext_le (s := s) q v k h1
      · exact ih (s := s) h
    | single q v =>
      simp only [readChoice] at h
      split at h
      · next e s1 hn =>
        obtain ⟨_, _, h⟩ := Res.bind_eq_ok.1 h
        cases h; exact (next_takes hn).le
      · next s1 hn =>
        rw [(next_none hn).1] at h
        exact ih h

theorem readContent_le (k : Nat) (c : ContentRead) {s s' : Queue} {ws : List (Str × Val)}
    (h : readContent x queueOps cF cL k c s = .ok (ws, s')) : s'.weight ≤ s.weight := by
  cases c with
  | nothing => cases h; exact Nat.le_refl _
  | single f v =>
    obtain ⟨⟨w, s3⟩, h3, h2⟩ := Res.bind_eq_ok.1 h
    cases h2; exact readVal_le hF _ h3
  | leaves ls => exact readLeaves_le hF hL k ls h

end

theorem fromNode_le (k : Nat) : CallLe (fromNode x queueOps P k) := by
  induction k with
  | zero => intro i s v s' h; cases h
  | succ k ih =>
    intro i s v s' h
    have hL : LookPure (lookahead queueOps P k) := lookahead_pure k
    unfold fromNode at h
    split at h
    · cases h
    · next t ht =>
      unfold runFrom at h
      split at h
      · obtain ⟨⟨w, s2⟩, h2, h⟩ := Res.bind_eq_ok.1 h
        cases h; exact readVal_le ih _ h2
      · obtain ⟨_, _, h⟩ := Res.bind_eq_ok.1 h
        split at h
        · obtain ⟨_, _, h⟩ := Res.bind_eq_ok.1 h
          cases h; exact Nat.le_refl _
        · cases h
      · obtain ⟨⟨w, s2⟩, h2, h⟩ := Res.bind_eq_ok.1 h
        obtain ⟨_, _, h⟩ := Res.bind_eq_ok.1 h
        cases h
        exact readContent_le ih hL k _ h2
      · exact readChoice_le ih hL k _ _ h

/-! ## Groups are entered on known names -/

theorem lookOf_mono {lk lk' : Name → Option (List QName)} (h : ∀ n L, lk n = some L → lk' n = some L) (ls : List Leaf) {L : List QName}
    (hL : lookOf S lk ls = some L) : lookOf S lk' ls = some L := by
  induction ls generalizing L with
  | nil => exact hL
  | cons l ls ih =>
    unfold lookOf at hL ⊢
    split at hL
    · next a b ha hb =>
      rw [ih hb]
      have : (if l.isVirtual then l.target.bind lk' else some (l.qn S)) = some a := by
        split at ha
        · next hv =>
          rw [if_pos hv]
          cases ht : l.target with
          | none => rw [ht] at ha; cases ha
          | some n => rw [ht] at ha; exact h n a ha
        · next hv => rw [if_neg hv]; exact ha
      rw [this]
      exact hL
    · cases hL

theorem lookSet_mono_succ (j : Nat) : ∀ n L, lookSet x S j n = some L → lookSet x S (j + 1) n = some L := by
  induction j with
  | zero => intro n L h; cases h
  | succ j ih =>
    intro n L h
    unfold lookSet at h ⊢
    split at h
    · next hp =>
      rw [if_pos hp]
      split at h
      · next d hd =>
        split at h
        · exact lookOf_mono ih _ h
        · exact h
      · exact lookOf_mono ih _ h
      · cases h
    · cases h

theorem lookSet_mono {j j' : Nat} (hj : j ≤ j') {n : Name} {L : List QName} (h : lookSet x S j n = some L) : lookSet x S j' n = some L := by
  induction hj with
  | refl => exact h
  | step _ ih => exact lookSet_mono_succ _ _ _ ih

theorem lookLeaves_sub (ls : List Leaf) : ∀ l ∈ lookLeaves ls, l ∈ ls := by
  induction ls with
  | nil => intro l h; exact h
  | cons a ls ih =>
    intro l h
    unfold lookLeaves at h
    split at h
    · rcases List.mem_cons.1 h with rfl | h
      · exact .head _
      · exact .tail _ (ih l h)
    · rcases List.mem_cons.1 h with rfl | h
      · exact .head _
      · cases h

theorem group_means {m : Name} (hg : isGroup S m = true) : Means S (.named m) (.named m) :=
  .name fun d hd => by simp [isGroup, hd] at hg

theorem lookSet_some (hW : FiniteTypes S) (m : Name) : LookGroup x S m → ∃ j L, lookSet x S j m = some L := by
  induction m using hW.induction with
  | _ m ih =>
    intro hG
    obtain ⟨hg, hp, hG⟩ := hG.out
    have key : ∀ (r : Root), S.get m = some r → ∀ ls : List Leaf, (∀ l ∈ ls, l ∈ r.leaves) → ∃ j L, lookOf S (lookSet x S j) ls = some L := by
      intro r hr ls
      induction ls with
      | nil => intro _; exact ⟨0, [], rfl⟩
      | cons l ls ihl =>
        intro hsub
        obtain ⟨j1, L1, h1⟩ := ihl (fun l hl => hsub l (.tail _ hl))
        by_cases hv : l.isVirtual = true
        · obtain ⟨m', hc, hg'⟩ := hG r hr l (hsub l (.head _)) hv
          obtain ⟨j2, L2, h2⟩ := ih m' (.group hr (hsub l (.head _)) hv (by rw [hc]; exact group_means hg'.out.1)) hg'
          refine ⟨max j1 j2, L2 ++ L1, ?_⟩
          unfold lookOf
          rw [if_pos hv, lookOf_mono (fun n L h => lookSet_mono (Nat.le_max_left j1 j2) h) ls h1]
          have : l.target = some m' := by unfold Leaf.target; rw [hc]
          rw [this]
          show (match lookSet x S (max j1 j2) m', some L1 with | some a, some b => some (a ++ b) | _, _ => none) = _
          rw [lookSet_mono (Nat.le_max_right j1 j2) h2]
        · refine ⟨j1, l.qn S ++ L1, ?_⟩
          unfold lookOf
          rw [if_neg hv, h1]
    unfold isGroup at hg
    split at hg
    · next d hd =>
      cases hc : d.content with
      | none => exact ⟨1, [], by unfold lookSet; rw [if_pos hp, hd]; simp only [hc]⟩
      | some c =>
        cases c with
        | leaf a b => exact ⟨1, [], by unfold lookSet; rw [if_pos hp, hd]; simp only [hc]⟩
        | leaves ls =>
          obtain ⟨j, L, h⟩ := key _ hd (lookLeaves ls) (fun l hl => by
            simp only [Root.leaves, hc]; exact lookLeaves_sub ls l hl)
          exact ⟨j + 1, L, by unfold lookSet; rw [if_pos hp, hd]; simp only [hc]; exact lookLeaves_eq ls ▸ h⟩
    · next vs a b hd =>
      obtain ⟨j, L, h⟩ := key _ hd vs (fun l hl => hl)
      exact ⟨j + 1, L, by unfold lookSet; rw [if_pos hp, hd]; exact h⟩
    · cases hg

/-! ## Termination -/

/-- Reading a value of type `m` terminates. -/
def TermAt (x : Ext) (P : List TypeDef) (m : Name) (s : Queue) : Prop :=
  ∀ i, typeIdent x m = .ok i → Term (fun k => fromNode x queueOps P k i s)

theorem readVal_term {c : LeafContent} {v : ValRead} (hc : contentRead x S c = .ok v) {s : Queue}
    (h : ∀ m, Means S c (.named m) → TermAt x P m s) : Term (fun k => readVal x queueOps (fromNode x queueOps P k) v s) := by
  rcases contentRead_ok hc with ⟨t, _, rfl⟩ | ⟨f, _, rfl⟩ | ⟨m, i, hm, hi, rfl⟩
  · refine ⟨0, ?_⟩
    simp only [readVal, parseLit]
    cases queueOps.text s with
    | error e => nofun
    | ok val =>
      simp only [ofExcept, Res.bind_ok]
      split <;> nofun
  · refine ⟨0, ?_⟩
    simp only [readVal]
    cases queueOps.text s with
    | error e => nofun
    | ok val =>
      simp only [ofExcept, Res.bind_ok]
      split <;> nofun
  · exact h m hm i hi

theorem readOn_term {c : LeafContent} {v : ValRead} (hc : contentRead x S c = .ok v) {e : Elem}
    (h : ∀ m, TermAt x P m (Queue.new e)) : Term (fun k => readOn x queueOps (fromNode x queueOps P k) v e) :=
  Term.map (readVal_monoF v _) (readVal_term hc fun m _ => h m) (fun _ => nofun)

theorem loopNext_term {c : LeafContent} {v : ValRead} (hc : contentRead x S c = .ok v) (q : QName) (N : Nat) :
    ∀ s : Queue, s.pending.length ≤ N → (∀ m s', s'.weight < s.weight → TermAt x P m s') →
      Term (fun k => loopNext x queueOps (fromNode x queueOps P k) q v k s) := by
  induction N with
  | zero =>
    intro s hs hch
    cases hn : queueOps.next s q with
    | mk o s1 =>
      cases o with
      | none => exact ⟨1, by simp only [loopNext, hn]; nofun⟩
      | some e => have := (next_takes hn).length; omega
  | succ N ih =>
    intro s hs hch
    cases hn : queueOps.next s q with
    | mk o s1 =>
      cases o with
      | none => exact ⟨1, by simp only [loopNext, hn]; nofun⟩
      | some e =>
        have ht := next_takes hn
        refine Term.shift (f := fun k => loopNext x queueOps (fromNode x queueOps P k) q v k s) ?_
        have h1 : Term (fun k => readOn x queueOps (fromNode x queueOps P k) v e) := readOn_term hc fun m => hch m _ ht.child
        have h2 := ih s1 (by have := ht.length; omega) (fun m s' hs' => hch m s' (Nat.lt_of_lt_of_le hs' ht.le))
        have h3 : Term (fun k => (do
            let w ← readOn x queueOps (fromNode x queueOps P k) v e
            let r ← loopNext x queueOps (fromNode x queueOps P k) q v k s1
            .ok (w :: r.1, r.2) : DRes Queue (List Val))) := by
          refine Term.bind (readOn_monoF v e) (fun a => ?_) h1 fun a _ => ?_
          · exact Mono.bind (loopNext_monoF q v s1) (fun _ => Mono.const _)
          · exact Term.map (loopNext_monoF q v s1) h2 (fun _ => nofun)
        obtain ⟨k, hk⟩ := h3
        refine ⟨k, ?_⟩
        show loopNext x queueOps (fromNode x queueOps P (k + 1)) q v (k + 1) s ≠ _
        have e1 : loopNext x queueOps (fromNode x queueOps P (k + 1)) q v (k + 1) s = (do
            let w ← readOn x queueOps (fromNode x queueOps P (k + 1)) v e
            let r ← loopNext x queueOps (fromNode x queueOps P (k + 1)) q v k s1
            .ok (w :: r.1, r.2) : DRes Queue (List Val)) := by
          conv => lhs; unfold loopNext
          rw [hn]
        rw [e1]
        have le : (do
            let w ← readOn x queueOps (fromNode x queueOps P k) v e
            let r ← loopNext x queueOps (fromNode x queueOps P k) q v k s1
            .ok (w :: r.1, r.2) : DRes Queue (List Val)).le (do
            let w ← readOn x queueOps (fromNode x queueOps P (k + 1)) v e
            let r ← loopNext x queueOps (fromNode x queueOps P (k + 1)) q v k s1
            .ok (w :: r.1, r.2) : DRes Queue (List Val)) :=
          Res.le_bind (readOn_mono (fun i s => fromNode_mono (Nat.le_succ k) i s) v e) fun a =>
            Res.le_bind (loopNext_mono (fun i s => fromNode_mono (Nat.le_succ k) i s) q v (Nat.le_refl k) s1) fun b => Res.le_refl _
        rw [Res.le_eq le hk]
        exact hk

theorem loopLook_term (G : Generated x S P) {m : Name} {v : ValRead} (hc : contentRead x S (.named m) = .ok v) {i : Str}
    (hi : pascalIdent x m = .ok i) {j : Nat} {L : List QName} (hL : lookSet x S j m = some L) (N : Nat) :
    ∀ s : Queue, s.pending.length ≤ N → (∀ s' : Queue, s'.weight ≤ s.weight → TermAt x P m s') →
      Term (fun k => loopLook x queueOps (fromNode x queueOps P k) (lookahead queueOps P k) i v k s) := by
  obtain ⟨hpt, hg⟩ := lookSet_group hL
  have hti : typeIdent x m = .ok i := by rw [← hpt]; exact hi
  have hv := group_call hg hc hti
  subst hv
  have hlook := fun s => lookahead_exact G j m i L s hL hi
  have hlook' : ∀ k, j ≤ k → ∀ s, lookahead queueOps P k i s = .ok (headIn L s.pending, s) :=
    fun k hk s => Res.le_ok (lookahead_mono hk i s) (hlook s)
  induction N with
  | zero =>
    intro s hs _
    refine ⟨j + 1, ?_⟩
    have : headIn L s.pending = false := by
      have : s.pending = [] := List.length_eq_zero_iff.1 (by omega)
      rw [this]; rfl
    simp only [loopLook, hlook' (j + 1) (Nat.le_succ j), this, Res.bind_ok]
    nofun
  | succ N ih =>
    intro s hs hch
    cases hh : headIn L s.pending with
    | false =>
      refine ⟨j + 1, ?_⟩
      simp only [loopLook, hlook' (j + 1) (Nat.le_succ j), hh, Res.bind_ok]
      nofun
    | true =>
      obtain ⟨k0, hk0⟩ := hch s (Nat.le_refl _) i hti
      cases hr : fromNode x queueOps P k0 i s with
      | ok p =>
        obtain ⟨w, s1⟩ := p
        have hlt := group_progress G j m L hL k0 i s w s1 hti hh hr
        have hle := fromNode_le k0 i s w s1 hr
        obtain ⟨k1, hk1⟩ := ih s1 (by omega) (fun s' hs' => hch s' (Nat.le_trans hs' hle))
        refine ⟨max j (max k0 k1) + 1, ?_⟩
        have hK0 : k0 ≤ max j (max k0 k1) + 1 := by omega
        have hKj : j ≤ max j (max k0 k1) + 1 := by omega
        have hl : ∀ k k', k1 ≤ k → k1 ≤ k' → loopLook x queueOps (fromNode x queueOps P k') (lookahead queueOps P k') i (.call i) k s1 ≠ .diverge := by
          intro k k' h h'
          have le := loopLook_mono (x := x) (o := queueOps) (fun i s => fromNode_mono (o := queueOps) (P := P) (x := x) h' i s) (fun i s => lookahead_mono (o := queueOps) (P := P) h' i s) i (.call i) h s1
          rw [Res.le_eq le hk1]
          exact hk1
        have hl' := hl (max j (max k0 k1)) (max j (max k0 k1) + 1) (by omega) (by omega)
        simp only [loopLook, hlook' _ hKj, hh, Res.bind_ok, if_true, readVal, Res.le_ok (fromNode_mono hK0 i s) hr]
        generalize loopLook x queueOps (fromNode x queueOps P (max j (max k0 k1) + 1)) (lookahead queueOps P (max j (max k0 k1) + 1)) i
          (.call i) (max j (max k0 k1)) s1 = r at hl' ⊢
        cases r with
        | ok a => nofun
        | err e => nofun
        | panic => nofun
        | diverge => exact absurd rfl hl'
      | err e =>
        refine ⟨max j k0 + 1, ?_⟩
        simp only [loopLook, hlook' (max j k0 + 1) (by omega), hh, Res.bind_ok, if_true, readVal,
          Res.le_eq (fromNode_mono (show k0 ≤ max j k0 + 1 by omega) i s) hk0, hr]
        nofun
      | panic =>
        refine ⟨max j k0 + 1, ?_⟩
        simp only [loopLook, hlook' (max j k0 + 1) (by omega), hh, Res.bind_ok, if_true, readVal,
          Res.le_eq (fromNode_mono (show k0 ≤ max j k0 + 1 by omega) i s) hk0, hr]
        nofun
      | diverge => exact absurd hr hk0


/-! ## One definition -/

theorem parseLit_ne (t : LiteralType) (s : Str) : parseLit x t s ≠ .diverge := by
  unfold parseLit
  split <;> nofun

theorem enumFromStr_ne (vs : List (Str × Str)) (s : Str) : enumFromStr vs s ≠ .diverge := by
  unfold enumFromStr
  split <;> nofun

theorem readStr_ne (a : StrRead) (s : Str) : readStr x P a s ≠ .diverge := by
  cases a with
  | lit t => exact parseLit_ne t s
  | unit => nofun
  | fromStr ty =>
    simp only [readStr, fromStrAt]
    split
    · nofun
    · split
      · split
        · split <;> nofun
        · exact enumFromStr_ne _ _
        · nofun
      · nofun
    · nofun

theorem Res.bind_ne {ε α β : Type} {r : Res ε α} {g : α → Res ε β} (h : r ≠ .diverge) (h' : ∀ a, g a ≠ .diverge) : r >>= g ≠ .diverge := by
  cases r with
  | ok a => exact h' a
  | err e => nofun
  | panic => nofun
  | diverge => exact absurd rfl h

theorem readAttr_ne (a : AttrRead) (s : Queue) : readAttr x queueOps P a s ≠ .diverge := by
  unfold readAttr
  split
  · split
    · exact Res.bind_ne (readStr_ne _ _) fun _ => nofun
    · nofun
  · refine Res.bind_ne ?_ fun _ => readStr_ne _ _
    cases queueOps.tryAttr s a.name <;> nofun

theorem readAttrs_ne (as : List AttrRead) (s : Queue) : readAttrs x queueOps P as s ≠ .diverge := by
  induction as with
  | nil => nofun
  | cons a as ih => exact Res.bind_ne (readAttr_ne a s) fun _ => Res.bind_ne ih fun _ => nofun

section
variable (G : Generated x S P) (hW : FiniteTypes S) (hG : LooksAtGroups x S) {W : Nat} {n : Name} {r : Root} (hr : S.get n = some r)
  (hch : ∀ m (s : Queue), s.weight < W → TermAt x P m s) (hin : ∀ m, Contains S n m → ∀ s : Queue, s.weight ≤ W → TermAt x P m s)
include G hW hG hr hch hin

theorem readLeaf_term {l : Leaf} (hl : l ∈ r.leaves) {p : Str × LeafRead} (hp : leafRead x S l = .ok p) {s : Queue} (hs : s.weight ≤ W) :
    Term (fun k => readLeaf x queueOps (fromNode x queueOps P k) (lookahead queueOps P k) k p.2 s) := by
  obtain ⟨q, v, _, _, hv, hp⟩ := leafRead_ok hp
  have hgrp : l.isVirtual = true → ∀ s' : Queue, s'.weight ≤ W → Term (fun k => readVal x queueOps (fromNode x queueOps P k) v s') :=
    fun h1 s' hs' => readVal_term hv fun m hm => hin m (.group hr hl h1 hm) s' hs'
  have hkid : ∀ {e : Elem} {s'}, Takes s e s' → Term (fun k => readOn x queueOps (fromNode x queueOps P k) v e) :=
    fun ht => readOn_term hv fun m => hch m _ (Nat.lt_of_lt_of_le ht.child hs)
  generalize hp2 : p.2 = p2 at hp
  clear hp2
  cases hp with
  | @whileLook m i h1 h2 hn hi =>
    obtain ⟨m', hm', hg'⟩ := hG n r hr l hl h1 (.inl h2)
    rw [hn] at hm'; cases hm'
    obtain ⟨j, L, hL⟩ := lookSet_some hW m hg'
    replace hg' := hg'.out.1
    rw [hn] at hv
    refine Term.map (loopLook_monoF i v s) ?_ (fun _ => nofun)
    exact loopLook_term G hv hi hL _ s (Nat.le_refl _) fun s' hs' =>
      hin m (.group hr hl h1 (by rw [hn]; exact group_means hg')) s' (Nat.le_trans hs' hs)
  | @ifLook m i h1 h2 h3 hn hi =>
    obtain ⟨m', hm', hg'⟩ := hG n r hr l hl h1 (.inr (.inl h3))
    rw [hn] at hm'; cases hm'
    obtain ⟨j, L, hL⟩ := lookSet_some hW m hg'
    refine Term.bind (lookahead_monoF i s) (fun a => ?_) ⟨j, ?_⟩ fun a ha => ?_
    · split
      · exact Mono.bind (readVal_monoF v _) (fun _ => Mono.const _)
      · exact Mono.const _
    · show lookahead queueOps P j i s ≠ _
      rw [lookahead_exact G j m i L s hL hi]; nofun
    · obtain ⟨_, k, hk⟩ := ha
      have e := lookahead_pure k _ _ _ _ hk
      split
      · refine Term.map (readVal_monoF v _) (hgrp h1 _ ?_) (fun _ => nofun)
        rw [e]; exact hs
      · exact .const nofun
  | plain h1 h2 h3 => exact hgrp h1 s hs
  | whileNext h1 h2 =>
    refine Term.map (loopNext_monoF q v s) ?_ (fun _ => nofun)
    exact loopNext_term hv q _ s (Nat.le_refl _) fun m s' hs' => hch m s' (Nat.lt_of_lt_of_le hs' hs)
  | ifNext h1 h2 h3 =>
    cases hn : queueOps.next s q with
    | mk o s1 =>
      cases o with
      | none => exact ⟨0, by simp only [readLeaf, hn]; nofun⟩
      | some e =>
        simp only [readLeaf, hn]
        exact Term.map (readOn_monoF v e) (hkid (next_takes hn)) (fun _ => nofun)
  | tryChild h1 h2 h3 h4 =>
    cases hn : queueOps.tryChild s q with
    | mk o s1 =>
      cases o with
      | error e => exact ⟨0, by simp only [readLeaf, hn]; nofun⟩
      | ok e =>
        simp only [readLeaf, hn]
        exact Term.map (readOn_monoF v e) (hkid (tryChild_takes hn)) (fun _ => nofun)
  | tryNext h1 h2 h3 h4 =>
    cases hn : queueOps.tryNext s q with
    | mk o s1 =>
      cases o with
      | error e => exact ⟨0, by simp only [readLeaf, hn]; nofun⟩
      | ok e =>
        simp only [readLeaf, hn]
        exact Term.map (readOn_monoF v e) (hkid (tryNext_takes hn)) (fun _ => nofun)

theorem readLeaves_term (ls : List Leaf) : (∀ l ∈ ls, l ∈ r.leaves) → ∀ {ps : List (Str × LeafRead)}, mapRes (leafRead x S) ls = .ok ps →
    ∀ s : Queue, s.weight ≤ W → Term (fun k => readLeaves x queueOps (fromNode x queueOps P k) (lookahead queueOps P k) k ps s) := by
  induction ls with
  | nil => intro _ ps hps s _; cases hps; exact ⟨0, nofun⟩
  | cons l ls ih =>
    intro hsub ps hps s hs
    obtain ⟨p, ps', hp, hps', rfl⟩ := mapRes_cons_ok.1 hps
    refine Term.bind (readLeaf_monoF p.2 s) (fun a => ?_) (readLeaf_term G hW hG hr hch hin (hsub l (.head _)) hp hs) fun a ha => ?_
    · exact Mono.bind (readLeaves_monoF ps' _) (fun _ => Mono.const _)
    · obtain ⟨_, k, hk⟩ := ha
      refine Term.map (readLeaves_monoF ps' _) (ih (fun l hl => hsub l (.tail _ hl)) hps' _ ?_) (fun _ => nofun)
      exact Nat.le_trans (readLeaf_le (fromNode_le k) (lookahead_pure k) k p.2 (w := a.1) (s' := a.2) hk) hs

theorem readChoice_term (hrc : ∃ vs b dd, r = .choice vs b dd) (self : Str) (vs : List Leaf) : (∀ l ∈ vs, l ∈ r.leaves) → ∀ {ps : List (Str × VarRead)},
    mapRes (variantRead x S) vs = .ok ps → ∀ s : Queue, s.weight ≤ W →
    Term (fun k => readChoice x queueOps (fromNode x queueOps P k) (lookahead queueOps P k) k self ps s) := by
  induction vs with
  | nil => intro _ ps hps s _; cases hps; exact ⟨0, nofun⟩
  | cons l vs ih =>
    intro hsub ps hps s hs
    obtain ⟨⟨f, p⟩, ps', hp, hps', rfl⟩ := mapRes_cons_ok.1 hps
    have ih := ih (fun l hl => hsub l (.tail _ hl)) hps'
    have hl := hsub l (.head _)
    obtain ⟨q, v, _, _, hv, hp⟩ := variantRead_ok hp
    dsimp only at hp
    cases hp with
    | @virt m i h1 hn hi =>
      obtain ⟨m', hm', hg'⟩ := hG n r hr l hl h1 (.inr (.inr hrc))
      rw [hn] at hm'; cases hm'
      obtain ⟨j, L, hL⟩ := lookSet_some hW m hg'
      refine Term.bind (lookahead_monoF i s) (fun a => ?_) ⟨j, ?_⟩ fun a ha => ?_
      · split
        · exact Mono.bind (readVal_monoF v _) (fun _ => Mono.const _)
        · exact readChoice_monoF self ps' _
      · show lookahead queueOps P j i s ≠ _
        rw [lookahead_exact G j m i L s hL hi]; nofun
      · obtain ⟨_, k, hk⟩ := ha
        have e := lookahead_pure k _ _ _ _ hk
        split
        · refine Term.map (readVal_monoF v _) (readVal_term hv fun m hm => hin m (.group hr hl h1 hm) _ ?_) (fun _ => nofun)
          rw [e]; exact hs
        · refine ih _ ?_
          rw [e]; exact hs
    | vec h1 h2 =>
      simp only [readChoice]
      split
      · refine Term.map (loopNext_monoF q v _) ?_ (fun _ => nofun)
        exact loopNext_term hv q _ s (Nat.le_refl _) fun m s' hs' => hch m s' (Nat.lt_of_lt_of_le hs' hs)
      · exact ih s hs
    | single h1 h2 =>
      cases hn : queueOps.next s q with
      | mk o s1 =>
        simp only [readChoice, hn]
        cases o with
        | none => rw [(next_none hn).1]; exact ih s hs
        | some e =>
          exact Term.map (readOn_monoF v e) (readOn_term hv fun m => hch m _ (Nat.lt_of_lt_of_le (next_takes hn).child hs)) (fun _ => nofun)

theorem runFrom_term {t : TypeDef} (hg : GenOf x S n r t) {s : Queue} (hs : s.weight ≤ W) :
    Term (fun k => runFrom x queueOps P (fromNode x queueOps P k) (lookahead queueOps P k) k t s) := by
  have hrd := hg.read
  unfold runFrom
  cases r with
  | leaf d =>
    obtain ⟨v, hv, h⟩ := Res.bind_eq_ok.1 hrd
    have h : t.fromXml = .leaf v := (Res.ok.inj h).symm
    simp only [h]
    exact Term.map (readVal_monoF v s) (readVal_term hv fun m hm => hin m (.simple hr hm) s hs) (fun _ => nofun)
  | enum vs =>
    have h : t.fromXml = .enumText := (Res.ok.inj hrd).symm
    simp only [h]
    refine .const (Res.bind_ne ?_ fun _ => ?_)
    · cases queueOps.text s <;> nofun
    · split
      · exact Res.bind_ne (enumFromStr_ne _ _) fun _ => nofun
      · nofun
  | element d =>
    obtain ⟨c, hc, h⟩ := Res.bind_eq_ok.1 hrd
    obtain ⟨as, has, h⟩ := Res.bind_eq_ok.1 h
    have h : t.fromXml = .element c as := (Res.ok.inj h).symm
    simp only [h]
    refine Term.map (fun k k' h => readContent_mono (fun i s => fromNode_mono h i s) (fun i s => lookahead_mono h i s) h c s) ?_
      (fun _ => Res.bind_ne (readAttrs_ne _ _) fun _ => nofun)
    unfold elementContentRead at hc
    split at hc
    · cases hc; exact ⟨0, nofun⟩
    · next f ld hd =>
      obtain ⟨fi, hfi, hc⟩ := Res.bind_eq_ok.1 hc
      obtain ⟨v, hv, hc⟩ := Res.bind_eq_ok.1 hc
      cases hc
      exact Term.map (readVal_monoF v s) (readVal_term hv fun m hm => hin m (.base hr hd hm) s hs) (fun _ => nofun)
    · next ls hd =>
      obtain ⟨ps, hps, hc⟩ := Res.bind_eq_ok.1 hc
      cases hc
      exact readLeaves_term G hW hG hr hch hin ls (fun l hl => by simp only [Root.leaves, hd]; exact hl) hps s hs
  | choice vs a b =>
    obtain ⟨ps, hps, h⟩ := Res.bind_eq_ok.1 hrd
    have h : t.fromXml = .choice ps := (Res.ok.inj h).symm
    simp only [h]
    exact readChoice_term G hW hG hr hch hin ⟨_, _, _, rfl⟩ _ vs (fun l hl => hl) hps s hs

end

theorem Contains.defined (G : Generated x S P) {n m : Name} (h : Contains S n m) : (S.get m).isSome = true := by
  cases h with
  | simple h hm => exact G.closedAt h (List.mem_singleton.2 rfl) hm
  | base h hc hm => exact G.closedAt h (by simp only [Root.contents, hc]; exact List.mem_append_left _ (List.mem_singleton.2 rfl)) hm
  | @group r l h hl hv hm =>
    refine G.closedAt h ?_ hm
    cases r with
    | leaf d => cases hl
    | enum vs => cases hl
    | choice vs a b => exact List.mem_map.2 ⟨l, hl, rfl⟩
    | element d =>
      simp only [Root.leaves] at hl
      split at hl
      · next ls hc => simp only [Root.contents, hc]; exact List.mem_append_left _ (List.mem_map.2 ⟨l, hl, rfl⟩)
      · cases hl

theorem findType_none {P : List TypeDef} {i : Str} (h : findType P i = none) (s : Queue) : Term (fun k => fromNode x queueOps P k i s) :=
  ⟨1, by simp only [fromNode, h]; nofun⟩

theorem findType_from (G : Generated x S P) {i : Str} {t : TypeDef} (h : findType P i = some t) :
    ∃ n, (S.get n).isSome = true ∧ typeIdent x n = .ok i := by
  have hm := List.mem_of_find?_eq_some h
  have hi : t.ident = i := by have := List.find?_some h; simpa using this
  obtain ⟨n, _, hg⟩ := (mapRes_ok G.gen).2 t hm
  obtain ⟨r, hr, hg⟩ := generateElement_ok hg
  exact ⟨n, by rw [hr]; rfl, hi ▸ hg.ident⟩

/-- Every call of a generated reader returns, whatever is left to read. -/
theorem fromNode_term (G : Generated x S P) (hW : FiniteTypes S) (hG : LooksAtGroups x S) (W : Nat) :
    ∀ i (s : Queue), s.weight < W → Term (fun k => fromNode x queueOps P k i s) := by
  induction W with
  | zero => intro i s hs; cases hs
  | succ W ih =>
    have main : ∀ n, (S.get n).isSome = true → ∀ s : Queue, s.weight ≤ W → TermAt x P n s := by
      intro n
      induction n using hW.induction with
      | _ n ihn =>
        intro hn s hs i hi
        obtain ⟨r, t, hr, hf, _, hg⟩ := G.find' hi hn
        refine Term.shift (f := fun k => fromNode x queueOps P k i s) ?_
        simp only [fromNode, hf]
        exact runFrom_term G hW hG hr (fun m s hs i _ => ih i s hs) (fun m hm s hs => ihn m hm (hm.defined G) s hs) hg hs
    intro i s hs
    cases hf : findType P i with
    | none => exact findType_none hf s
    | some t =>
      obtain ⟨n, hn, hi⟩ := findType_from G hf
      exact main n hn s (Nat.le_of_lt_succ hs) i hi

/-- C17: a call of `from_xml` returns, with a value, an error or a panic, for every type of the generated module and every document, provided no
type of the schema contains itself and what readers look ahead for are groups. -/
theorem C17_partial (G : Generated x S P) (hW : FiniteTypes S) (hG : LooksAtGroups x S) (i : Str) (d : Doc) : ∃ r, FromXml x P i d r := by
  have key : Term (fun k => fromXml x queueOps P k i d) := by
    unfold fromXml
    cases hf : findType P i with
    | none => exact .const nofun
    | some t =>
      dsimp only
      cases d.tryChild t.rootName with
      | error e => exact .const nofun
      | ok e => exact Term.map (fromNode_monoF i _) (fromNode_term G hW hG _ i _ (Nat.lt_succ_self _)) (fun _ => nofun)
  obtain ⟨k, hk⟩ := key
  refine ⟨_, ?_, k, rfl⟩
  rw [← fromXml_hom cursor_hom]
  exact hk

end Xsd
