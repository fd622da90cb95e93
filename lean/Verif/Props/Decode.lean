import Verif.Lemmas.Decode
/-!
# Properties of the decode cursor (C01-C06)

`runHist Cursor.step Cursor.new` is the implementation model under an arbitrary client history over
arbitrarily many nodes; `Queue` is the specification (a list of pending element children).
-/
namespace Xsd

/-- **C01.** Whatever the element and whatever the history of calls on it and on all nodes handed out
so far, the observations are those of plain queues of element children. -/
theorem C01_cursor_is_queue (e : Elem) (ops : List (Nat × Op)) :
    runHist Cursor.step Cursor.new [Cursor.new e] ops =
      runHist Queue.step Queue.new [Queue.new e] ops := by
  simpa [Cursor.abs_new] using Cursor.runHist_abs [Cursor.new e] ops

theorem Queue.step_perm (s : Queue) (op : Op) :
    ((s.step op).1.elem.toList ++ (s.step op).2.pending).Perm s.pending ∧
    (s.step op).2.pending.Sublist s.pending := by
  have pop (q : QName) : ((Queue.popIf q s.pending).1.toList ++ (Queue.popIf q s.pending).2).Perm
      s.pending ∧ (Queue.popIf q s.pending).2.Sublist s.pending := by
    cases s.pending with
    | nil => simp [Queue.popIf]
    | cons x xs => by_cases h : x.1.name = q <;> simp [Queue.popIf, h]
  have tk (q : QName) : ((Queue.takeFirst q s.pending).1.toList ++
      (Queue.takeFirst q s.pending).2).Perm s.pending ∧
      (Queue.takeFirst q s.pending).2.Sublist s.pending := by
    refine ⟨?_, List.eraseP_sublist⟩
    induction s.pending with
    | nil => simp [Queue.takeFirst]
    | cons x xs ih =>
      by_cases h : x.1.name = q
      · simp [Queue.takeFirst, h]
      · simp only [Queue.takeFirst] at ih ⊢
        simp only [h, decide_false, Bool.false_eq_true, not_false_eq_true, List.find?_cons_of_neg,
          List.eraseP_cons_of_neg]
        exact List.perm_middle.trans (ih.cons x)
  have miss (q : QName) (o : Option Elem) : (Obs.tryNode (Queue.orMissing q o)).elem = o := by
    cases o <;> rfl
  cases op with
  | peek q => simp [Queue.step, Obs.elem]
  | next q => simpa [Queue.step, Obs.elem] using pop q
  | tryNext q => simpa [Queue.step, miss] using pop q
  | child q => simpa [Queue.step, Obs.elem] using tk q
  | tryChild q => simpa [Queue.step, miss] using tk q
  | attr n => simp [Queue.step, Obs.elem]
  | tryAttr n => simp [Queue.step, Obs.elem]
  | text => simp [Queue.step, Obs.elem]

theorem Queue.runOn_perm (s : Queue) (ops : List Op) :
    ((runOn Queue.step s ops).1.filterMap Obs.elem ++ (runOn Queue.step s ops).2.pending).Perm
      s.pending ∧ (runOn Queue.step s ops).2.pending.Sublist s.pending := by
  induction ops generalizing s with
  | nil => simp [runOn]
  | cons op ops ih =>
    have h1 := Queue.step_perm s op
    have h2 := ih (s.step op).2
    simp only [runOn]
    refine ⟨?_, h2.2.trans h1.2⟩
    have : ∀ (o : Obs) (os : List Obs), (o :: os).filterMap Obs.elem =
        o.elem.toList ++ os.filterMap Obs.elem := by
      intro o os; cases h : o.elem <;> simp [h]
    rw [this, List.append_assoc]
    exact ((List.Perm.append_left _ h2.1)).trans h1.1

/-- **C01.** No child is lost, duplicated or reordered: after any history, the nodes handed out together
with the nodes still pending are exactly the element children, and those still pending are in
document order. -/
theorem C01_nothing_lost (e : Elem) (ops : List Op) :
    ((runOn Cursor.step (Cursor.new e) ops).1.filterMap Obs.elem ++
      (runOn Cursor.step (Cursor.new e) ops).2.abs.pending).Perm (elemKids e.2) ∧
    (runOn Cursor.step (Cursor.new e) ops).2.abs.pending.Sublist (elemKids e.2) := by
  have h := Cursor.runOn_abs (Cursor.new e) ops
  have hp := Queue.runOn_perm (Queue.new e) ops
  rw [h.1, h.2, Cursor.abs_new]
  simpa [Queue.new, elemKids] using hp

/-- A lookup that cannot have consumed anything: `peek_child`, or any lookup that found nothing, or an
attribute/text access. -/
def Obs.harmless : Op → Obs → Prop
  | .peek _, _ => True
  | .attr _, _ => True
  | .tryAttr _, _ => True
  | .text, _ => True
  | _, o => o.elem = none

theorem Queue.step_harmless (s : Queue) (op : Op) (h : Obs.harmless op (s.step op).1) :
    (s.step op).2 = s := by
  have pop (q : QName) (hq : (Queue.popIf q s.pending).1 = none) :
      (Queue.popIf q s.pending).2 = s.pending := by
    revert hq
    cases s.pending with
    | nil => simp [Queue.popIf]
    | cons x xs => by_cases h : x.1.name = q <;> simp [Queue.popIf, h]
  have tk (q : QName) (hq : (Queue.takeFirst q s.pending).1 = none) :
      (Queue.takeFirst q s.pending).2 = s.pending := by
    simp only [Queue.takeFirst, List.find?_eq_none] at hq ⊢
    exact List.eraseP_of_forall_not (by simpa using hq)
  have miss (q : QName) (o : Option Elem) : (Obs.tryNode (Queue.orMissing q o)).elem = o := by
    cases o <;> rfl
  cases op with
  | next q => simp only [Queue.step, Obs.harmless, Obs.elem] at h ⊢; simp [pop q h]
  | tryNext q => simp only [Queue.step, Obs.harmless, miss] at h ⊢; simp [pop q h]
  | child q => simp only [Queue.step, Obs.harmless, Obs.elem] at h ⊢; simp [tk q h]
  | tryChild q => simp only [Queue.step, Obs.harmless, miss] at h ⊢; simp [tk q h]
  | _ => rfl

/-- **C02.** In every state reached by any history `pre`, a lookup that finds nothing (or a peek) can
be dropped from the history without changing any later observation, for every continuation `post`. -/
theorem C02_failed_lookup_is_harmless (e : Elem) (pre post : List Op) (op : Op)
    (h : Obs.harmless op ((runOn Cursor.step (Cursor.new e) pre).2.step op).1) :
    (runOn Cursor.step ((runOn Cursor.step (Cursor.new e) pre).2.step op).2 post).1 =
    (runOn Cursor.step (runOn Cursor.step (Cursor.new e) pre).2 post).1 := by
  generalize (runOn Cursor.step (Cursor.new e) pre).2 = c at *
  have hs := Cursor.step_abs c op
  rw [hs.1] at h
  rw [(Cursor.runOn_abs _ post).1, (Cursor.runOn_abs c post).1, hs.2, Queue.step_harmless _ _ h]

/-- **C03.** In every reachable state, `child` hands out the earliest pending element with exactly the
requested name and namespace, leaving the others in order; it finds nothing only if none is
pending. -/
theorem C03_child_finds_earliest (e : Elem) (pre : List Op) (q : QName) :
    let c := (runOn Cursor.step (Cursor.new e) pre).2
    (∃ before x after, c.abs.pending = before ++ x :: after ∧ (∀ y ∈ before, y.1.name ≠ q) ∧
      x.1.name = q ∧ (c.child q).1 = some x ∧ (c.child q).2.abs.pending = before ++ after) ∨
    ((∀ y ∈ c.abs.pending, y.1.name ≠ q) ∧ (c.child q).1 = none ∧
      (c.child q).2.abs.pending = c.abs.pending) := by
  intro c
  have hc := Cursor.child_eq c q
  rw [hc.1, hc.2]
  show _ ∨ _
  simp only [Cursor.abs]
  generalize c.pending = p
  induction p with
  | nil => right; simp [Queue.takeFirst]
  | cons x xs ih =>
    by_cases hq : x.1.name = q
    · left; exact ⟨[], x, xs, by simp [Queue.takeFirst, hq]⟩
    · have hsk := Cursor.takeFirst_skip (q := q) (ps := [x]) (es := xs) (by simpa using hq)
      simp only [List.cons_append, List.nil_append] at hsk
      rw [hsk]
      rcases ih with ⟨b, y, a, h1, h2, h3, h4, h5⟩ | ⟨h1, h2, h3⟩
      · left
        refine ⟨x :: b, y, a, by simp [h1], ?_, h3, h4, by simp [h5]⟩
        intro z hz
        rcases List.mem_cons.1 hz with rfl | hz
        · exact hq
        · exact h2 z hz
      · right
        refine ⟨?_, h2, by simp [h3]⟩
        intro z hz
        rcases List.mem_cons.1 hz with rfl | hz
        · exact hq
        · exact h1 z hz

/-- **C04.** In every reachable state the `try_` variants succeed exactly when the option variants do,
with the same result and the same effect, and otherwise name exactly the requested item. -/
theorem C04_try_variants (c : Cursor) (q : QName) (n : Str) :
    (∀ x, (c.tryNextChild q).1 = .ok x ↔ (c.nextChild q).1 = some x) ∧
    (∀ er, (c.tryNextChild q).1 = .error er ↔
      (c.nextChild q).1 = none ∧ er = .missingElement q.loc q.ns) ∧
    (c.tryNextChild q).2 = (c.nextChild q).2 ∧
    (∀ x, (c.tryChild q).1 = .ok x ↔ (c.child q).1 = some x) ∧
    (∀ er, (c.tryChild q).1 = .error er ↔
      (c.child q).1 = none ∧ er = .missingElement q.loc q.ns) ∧
    (c.tryChild q).2 = (c.child q).2 ∧
    (∀ v, c.tryAttribute n = .ok v ↔ c.attr n = some v) ∧
    (∀ er, c.tryAttribute n = .error er ↔ c.attr n = none ∧ er = .missingAttribute n) := by
  have hN : c.tryNextChild q = (Queue.orMissing q (c.nextChild q).1, (c.nextChild q).2) := by
    simp only [Cursor.tryNextChild]
    generalize c.nextChild q = r
    obtain ⟨o, c'⟩ := r
    cases o <;> rfl
  have hC : c.tryChild q = (Queue.orMissing q (c.child q).1, (c.child q).2) := by
    simp only [Cursor.tryChild]
    generalize c.child q = r
    obtain ⟨o, c'⟩ := r
    cases o <;> rfl
  have om (o : Option Elem) (x : Elem) : Queue.orMissing q o = .ok x ↔ o = some x := by
    cases o <;> simp [Queue.orMissing]
  have oe (o : Option Elem) (er : DErr) : Queue.orMissing q o = .error er ↔
      o = none ∧ er = .missingElement q.loc q.ns := by
    cases o <;> simp [Queue.orMissing, eq_comm]
  rw [hN, hC]
  refine ⟨fun x => om _ x, fun er => oe _ er, rfl, fun x => om _ x, fun er => oe _ er, rfl, ?_, ?_⟩
  · intro v; simp only [Cursor.tryAttribute]; cases c.attr n <;> simp
  · intro v; simp only [Cursor.tryAttribute]; cases c.attr n <;> simp [eq_comm]

/-- **C05.** After any history, `text()` is `""` for an element without child nodes, the text when the
first child node is text, and `TextExpected` (with the element's name) otherwise. -/
theorem C05_text (i : ElemInfo) (cs : List XNode) (pre : List Op) :
    (runOn Cursor.step (Cursor.new (i, cs)) pre).2.text =
      match cs.head? with
      | none => .ok []
      | some (.text s) => .ok s
      | some _ => .error (.textExpected i.name.loc) := by
  have hnode : ∀ (s : Queue) (ops : List Op), (runOn Queue.step s ops).2.node = s.node := by
    intro s ops
    induction ops generalizing s with
    | nil => rfl
    | cons op ops ih => simp only [runOn, ih]; cases op <;> rfl
  have h := (Cursor.runOn_abs (Cursor.new (i, cs)) pre).2
  have hn : (runOn Cursor.step (Cursor.new (i, cs)) pre).2.node = (i, cs) := by
    have := congrArg Queue.node h
    rw [hnode, Cursor.abs_new] at this
    exact this
  rw [Cursor.text_eq, hn]
  cases cs with
  | nil => rfl
  | cons x xs => cases x <;> rfl

/-- **C05.** `text()` has no effect on any later observation. -/
theorem C05_text_pure (e : Elem) (pre post : List Op) :
    (runOn Cursor.step ((runOn Cursor.step (Cursor.new e) pre).2.step .text).2 post).1 =
    (runOn Cursor.step (runOn Cursor.step (Cursor.new e) pre).2 post).1 :=
  C02_failed_lookup_is_harmless e pre post .text trivial

/-- **C06** (runtime half). The document root is returned iff local name and namespace agree; otherwise
the error names the requested element. -/
theorem C06_document_root (d : Doc) (q : QName) :
    (d.tryChild q = .ok d.root ↔ d.root.1.name = q) ∧
    (d.root.1.name ≠ q → d.tryChild q = .error (.missingElement q.loc q.ns)) := by
  by_cases h : d.root.1.name = q
  · simp [Doc.tryChild, Doc.child, Cursor.is_eq, h]
  · simp [Doc.tryChild, Doc.child, Cursor.is_eq, h]

/-! Non-vacuity: a concrete element `<r><a/>t<b/><!-- --><a/></r>` and history. -/
section Examples

private def mk (n : Str) (cs : List XNode) : Elem := (⟨⟨n, none⟩, [], [], 0⟩, cs)
private def nd (n : Str) : XNode := .elem ⟨⟨n, none⟩, [], [], 0⟩ []
private def q (n : Str) : QName := ⟨n, none⟩
private def sample : Elem := mk c!"r" [nd c!"a", .text c!"t", nd c!"b", .other, nd c!"a", nd c!"c"]

/-- A history that uses all three buffers: `child(b)` fills `peeked`, a failed `next` fills `next`. -/
example : ((runOn Cursor.step (Cursor.new sample)
    [.child (q c!"b"), .next (q c!"c"), .child (q c!"c"), .peek (q c!"a"), .next (q c!"a")]).1.map
      (fun o => o.elem.map (·.1.name.loc))) =
    [some c!"b", none, some c!"c", none, some c!"a"] := by decide

/-- The hypothesis of C02 is met by a failing `child` after a non-trivial history. -/
example : Obs.harmless (.child (q c!"zz"))
    ((runOn Cursor.step (Cursor.new sample) [.child (q c!"b"), .peek (q c!"a")]).2.step
      (.child (q c!"zz"))).1 := by
  unfold Obs.harmless; decide

/-- Both sides of C03 occur. -/
example : ((Cursor.new sample).child (q c!"c")).1.isSome = true ∧
    ((Cursor.new sample).child (q c!"d")).1.isSome = false := by decide

/-- Three different outcomes of `text()`. -/
example : (Cursor.new (mk c!"x" [])).text = .ok [] ∧
    (Cursor.new (mk c!"x" [.text c!"v", nd c!"y"])).text = .ok c!"v" ∧
    (Cursor.new (mk c!"x" [nd c!"y", .text c!"v"])).text = .error (.textExpected c!"x") := by
  refine ⟨rfl, rfl, rfl⟩

end Examples

end Xsd
