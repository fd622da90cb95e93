import Verif.Spec.Queue
/-! Helper lemmas: the cursor simulates the queue. -/
namespace Xsd

/-- Abstraction function: the order in which the remaining children will be seen. -/
def Cursor.pending (c : Cursor) : List Elem := c.next.toList ++ c.peeked ++ c.children

/-- Abstraction to a specification state. -/
def Cursor.abs (c : Cursor) : Queue := ⟨c.node, c.pending⟩

namespace Cursor

theorem abs_new (e : Elem) : (new e).abs = Queue.new e := by
  simp [abs, new, pending, Queue.new, elemKids]

theorem is_eq (e : Elem) (q : QName) : e.is q = decide (e.1.name = q) := by
  by_cases h : e.1.name = q
  · simp [h, (Elem.is_iff e q).2 h]
  · have : e.is q ≠ true := fun hh => h ((Elem.is_iff e q).1 hh)
    simp [h]; simpa using this

theorem peekChild_fst (c : Cursor) (q : QName) :
    (c.peekChild q).1 = c.pending.head?.any (fun e => e.1.name = q) := by
  obtain ⟨n, ch, pk, nx⟩ := c
  cases nx with
  | some e => simp [peekChild, pending, is_eq]
  | none =>
    cases pk with
    | cons e es => simp [peekChild, pull, pending, is_eq]
    | nil => cases ch <;> simp [peekChild, pull, pending, is_eq]

theorem peekChild_snd (c : Cursor) (q : QName) : (c.peekChild q).2.abs = c.abs := by
  obtain ⟨n, ch, pk, nx⟩ := c
  cases nx with
  | some e => simp [peekChild, abs, pending]
  | none =>
    cases pk with
    | cons e es => simp [peekChild, pull, pending, abs]
    | nil => cases ch <;> simp [peekChild, pull, pending, abs]

theorem nextChild_eq (c : Cursor) (q : QName) :
    (c.nextChild q).1 = (Queue.popIf q c.pending).1 ∧
    (c.nextChild q).2.abs = ⟨c.node, (Queue.popIf q c.pending).2⟩ := by
  obtain ⟨n, ch, pk, nx⟩ := c
  cases nx with
  | some e =>
    by_cases h : e.1.name = q <;> simp [nextChild, abs, pending, is_eq, Queue.popIf, h]
  | none =>
    cases pk with
    | cons e es =>
      by_cases h : e.1.name = q <;> simp [nextChild, pull, pending, abs, is_eq, Queue.popIf, h]
    | nil =>
      cases ch with
      | nil => simp [nextChild, pull, pending, abs, Queue.popIf]
      | cons e es =>
        by_cases h : e.1.name = q <;> simp [nextChild, pull, pending, abs, is_eq, Queue.popIf, h]

theorem removeFirst_some {q : QName} {es : List Elem} {x : Elem} {es' : List Elem}
    (h : removeFirst q es = some (x, es')) :
    es.find? (fun e => e.1.name = q) = some x ∧ es.eraseP (fun e => e.1.name = q) = es' := by
  induction es generalizing es' with
  | nil => simp [removeFirst] at h
  | cons e es ih =>
    by_cases hq : e.1.name = q
    · simp [removeFirst, is_eq, hq] at h; obtain ⟨rfl, rfl⟩ := h; simp [hq]
    · simp only [removeFirst, is_eq, hq, decide_false] at h
      cases hr : removeFirst q es with
      | none => simp [hr] at h
      | some p =>
        obtain ⟨y, es2⟩ := p
        simp [hr] at h
        obtain ⟨rfl, rfl⟩ := h
        have := ih hr
        simp [hq, this]

theorem removeFirst_none {q : QName} {es : List Elem} (h : removeFirst q es = none) :
    ∀ e ∈ es, e.1.name ≠ q := by
  induction es with
  | nil => simp
  | cons e es ih =>
    by_cases hq : e.1.name = q
    · simp [removeFirst, is_eq, hq] at h
    · simp only [removeFirst, is_eq, hq, decide_false] at h
      cases hr : removeFirst q es with
      | some p => simp [hr] at h
      | none =>
        intro a ha
        rcases List.mem_cons.1 ha with rfl | ha
        · exact hq
        · exact ih hr a ha

theorem scan_eq (q : QName) (es ps : List Elem) :
    (scan q es ps).1 = es.find? (fun e => e.1.name = q) ∧
    (scan q es ps).2.2 ++ (scan q es ps).2.1 = ps ++ es.eraseP (fun e => e.1.name = q) := by
  induction es generalizing ps with
  | nil => simp [scan]
  | cons e es ih =>
    by_cases hq : e.1.name = q
    · simp [scan, is_eq, hq]
    · have := ih (ps ++ [e])
      simp only [scan, is_eq, hq, decide_false]
      simp [hq, this]

theorem takeFirst_skip {q : QName} {ps es : List Elem} (h : ∀ e ∈ ps, e.1.name ≠ q) :
    Queue.takeFirst q (ps ++ es) = ((Queue.takeFirst q es).1, ps ++ (Queue.takeFirst q es).2) := by
  induction ps with
  | nil => simp
  | cons p ps ih =>
    have hp : p.1.name ≠ q := h p (by simp)
    have := ih (fun e he => h e (by simp [he]))
    simp only [Queue.takeFirst, Prod.mk.injEq] at this ⊢
    simp [hp, this]

theorem childRest_eq (c : Cursor) (q : QName) :
    (c.childRest q).1 = (Queue.takeFirst q (c.peeked ++ c.children)).1 ∧
    (c.childRest q).2.node = c.node ∧ (c.childRest q).2.next = c.next ∧
    (c.childRest q).2.peeked ++ (c.childRest q).2.children =
      (Queue.takeFirst q (c.peeked ++ c.children)).2 := by
  obtain ⟨n, ch, pk, nx⟩ := c
  cases hr : removeFirst q pk with
  | some p =>
    obtain ⟨x, es'⟩ := p
    have ⟨h1, h2⟩ := removeFirst_some hr
    have hx : ∃ a ∈ pk, decide (a.1.name = q) = true :=
      ⟨x, List.mem_of_find?_eq_some h1, by simpa using List.find?_some h1⟩
    have : (pk ++ ch).eraseP (fun e => decide (e.1.name = q)) = es' ++ ch := by
      obtain ⟨a, ha, hq⟩ := hx
      rw [List.eraseP_append_left (a := a) hq _ ha, h2]
    simp [childRest, hr, Queue.takeFirst, h1, this]
  | none =>
    have h := removeFirst_none hr
    have hs := scan_eq q ch pk
    have ht := takeFirst_skip (es := ch) h
    rw [ht]
    simp only [childRest, hr]
    simp [hs, Queue.takeFirst]

theorem child_eq (c : Cursor) (q : QName) :
    (c.child q).1 = (Queue.takeFirst q c.pending).1 ∧
    (c.child q).2.abs = ⟨c.node, (Queue.takeFirst q c.pending).2⟩ := by
  have hr := childRest_eq c q
  obtain ⟨n, ch, pk, nx⟩ := c
  cases nx with
  | none =>
    simp only [child, pending, abs] at hr ⊢
    simp [hr]
  | some e =>
    by_cases hq : e.1.name = q
    · simp [child, is_eq, hq, abs, pending, Queue.takeFirst]
    · simp only [child, is_eq, hq, decide_false, pending, abs] at hr ⊢
      have ht := takeFirst_skip (q := q) (ps := [e]) (es := pk ++ ch) (by simpa using hq)
      simp only [List.cons_append, List.nil_append] at ht
      simp [hr, ht]

theorem attr_eq (c : Cursor) (n : Str) : c.attr n = Queue.attrVal c.node n := by
  simp only [attr, attrOf, Queue.attrVal, List.head?_filter]

theorem text_eq (c : Cursor) : c.text = Queue.textVal c.node := by
  obtain ⟨⟨i, cs⟩, ch, pk, nx⟩ := c
  cases cs with
  | nil => rfl
  | cons x xs => cases x <;> rfl

/-- The simulation step: one call on the cursor is the same call on the queue. -/
theorem step_abs (c : Cursor) (op : Op) :
    (c.step op).1 = (c.abs.step op).1 ∧ (c.step op).2.abs = (c.abs.step op).2 := by
  cases op with
  | peek q =>
    refine ⟨?_, peekChild_snd c q⟩
    simp [step, Queue.step, peekChild_fst, abs]
  | next q => have := nextChild_eq c q; simp [step, Queue.step, this, abs]; simpa [abs] using this.2
  | tryNext q =>
    have := nextChild_eq c q
    simp only [step, Queue.step, tryNextChild]
    generalize hh : c.nextChild q = r at *
    obtain ⟨o, c'⟩ := r
    simp only [abs] at this ⊢
    cases o with
    | none => simp [← this.1, Queue.orMissing, this.2]
    | some e => simp [← this.1, Queue.orMissing, this.2]
  | child q => have := child_eq c q; simp [step, Queue.step, this, abs]; simpa [abs] using this.2
  | tryChild q =>
    have := child_eq c q
    simp only [step, Queue.step, tryChild]
    generalize hh : c.child q = r at *
    obtain ⟨o, c'⟩ := r
    simp only [abs] at this ⊢
    cases o with
    | none => simp [← this.1, Queue.orMissing, this.2]
    | some e => simp [← this.1, Queue.orMissing, this.2]
  | attr n => simp [step, Queue.step, attr_eq, abs]
  | tryAttr n =>
    simp only [step, Queue.step, abs, tryAttribute, attr_eq, and_true]
    cases Queue.attrVal c.node n <;> rfl
  | text => simp [step, Queue.step, text_eq, abs]

theorem runHist_abs (h : List Cursor) (ops : List (Nat × Op)) :
    runHist Cursor.step Cursor.new h ops = runHist Queue.step Queue.new (h.map abs) ops := by
  induction ops generalizing h with
  | nil => rfl
  | cons p ops ih =>
    obtain ⟨i, op⟩ := p
    simp only [runHist, List.getElem?_map]
    cases hi : h[i]? with
    | none => simp [ih]
    | some c =>
      have hs := step_abs c op
      simp only [Option.map_some]
      rw [← hs.1, ← hs.2, ih, List.map_append, List.map_set]
      cases (c.step op).1.elem <;> simp [abs_new]

theorem runOn_abs (c : Cursor) (ops : List Op) :
    (runOn step c ops).1 = (runOn Queue.step c.abs ops).1 ∧
    (runOn step c ops).2.abs = (runOn Queue.step c.abs ops).2 := by
  induction ops generalizing c with
  | nil => simp [runOn]
  | cons op ops ih =>
    have hs := step_abs c op
    simp only [runOn]
    rw [← hs.2, ← hs.1]
    have := ih (c.step op).2
    simp [this]

end Cursor

end Xsd
