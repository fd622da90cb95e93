import Verif.Lemmas.Sound
/-!
# Child elements in another order
-/
namespace Xsd

/-- If all names are different, every permutation is such a reordering. -/
theorem SameByName.of_perm {p p' : List Elem} (h : p.Perm p') (hn : (p.map (fun ch => ch.1.name)).Nodup) : SameByName p p' := by
  intro q
  have hperm := h.filter (fun ch => decide (ch.1.name = q))
  have hlen : (p.filter (fun ch => decide (ch.1.name = q))).length ≤ 1 := by
    clear h hperm
    induction p with
    | nil => simp
    | cons a p ih =>
      simp only [List.map_cons, List.nodup_cons] at hn
      rw [List.filter_cons]
      split
      · next ha =>
        have : p.filter (fun ch => decide (ch.1.name = q)) = [] := by
          rw [List.filter_eq_nil_iff]
          intro b hb hbq
          simp only [decide_eq_true_eq] at ha hbq
          exact hn.1 (List.mem_map.2 ⟨b, hb, by rw [ha, hbq]⟩)
        simp [this]
      · exact ih hn.2
  match hf : p.filter (fun ch => decide (ch.1.name = q)) with
  | [] => rw [hf] at hperm; exact hf.trans hperm.symm.eq_nil.symm
  | [a] => rw [hf] at hperm; exact hf.trans (List.singleton_perm.1 hperm)
  | a :: b :: r => rw [hf] at hlen; simp at hlen

theorem find?_eq_filter_head {α : Type} (f : α → Bool) (l : List α) : l.find? f = (l.filter f).head? := by
  induction l with
  | nil => rfl
  | cons a l ih => simp only [List.find?_cons, List.filter_cons]; split <;> simp_all

theorem takeFirst_same {p p' : List Elem} (h : SameByName p p') (q : QName) :
    (Queue.takeFirst q p).1 = (Queue.takeFirst q p').1 ∧ SameByName (Queue.takeFirst q p).2 (Queue.takeFirst q p').2 := by
  have key : ∀ (p : List Elem) (q' : QName), (p.eraseP (fun e => decide (e.1.name = q))).filter (fun ch => decide (ch.1.name = q')) =
      if q' = q then (p.filter (fun ch => decide (ch.1.name = q'))).tail else p.filter (fun ch => decide (ch.1.name = q')) := by
    intro p q'
    induction p with
    | nil => simp
    | cons a p ih =>
      rw [List.eraseP_cons, List.filter_cons]
      by_cases ha : a.1.name = q
      · simp only [ha, decide_true, cond_true]
        by_cases hq : q' = q
        · subst hq; simp
        · have : ¬ q = q' := fun hh => hq hh.symm
          simp [hq, this]
      · simp only [ha, decide_false, cond_false, List.filter_cons, ih]
        by_cases hq : q' = q
        · subst hq; simp [ha]
        · simp only [hq, if_false]
  refine ⟨?_, ?_⟩
  · simp only [Queue.takeFirst, find?_eq_filter_head]
    rw [h q]
  · intro q'
    simp only [Queue.takeFirst, key, h q']

theorem SameByName.refl (p : List Elem) : SameByName p p := fun _ => rfl

theorem SameByName.symm {p p' : List Elem} (h : SameByName p p') : SameByName p' p := fun q => (h q).symm

theorem SameByName.append {p p' r : List Elem} (h : SameByName p p') : SameByName (p ++ r) (p' ++ r) := by
  intro q; rw [List.filter_append, List.filter_append, h q]

theorem SameByName.mem {p p' : List Elem} (h : SameByName p p') {a : Elem} (ha : a ∈ p) : a ∈ p' := by
  have : a ∈ p.filter (fun ch => decide (ch.1.name = a.1.name)) := List.mem_filter.2 ⟨ha, by simp⟩
  rw [h] at this
  exact (List.mem_filter.1 this).1

theorem SameByName.nil {p : List Elem} (h : SameByName [] p) : p = [] := by
  cases p with
  | nil => rfl
  | cons a p => exact absurd (h.symm.mem (a := a) (by simp)) (by simp)

theorem Arranged.refl (ls : List Leaf) (es : List Elem) : Arranged ls es es := .inl rfl

theorem Arranged.mem {ls : List Leaf} {es es' : List Elem} (h : Arranged ls es' es) {a : Elem} : a ∈ es ↔ a ∈ es' := by
  rcases h with rfl | ⟨_, h⟩
  · rfl
  · exact ⟨fun ha => h.symm.mem ha, fun ha => h.mem ha⟩

theorem Arranged.nil_iff {ls : List Leaf} {es es' : List Elem} (h : Arranged ls es' es) : es = [] ↔ es' = [] := by
  simp only [List.eq_nil_iff_forall_not_mem, h.mem]

theorem Arranged.count {ls : List Leaf} {es es' : List Elem} (h : Arranged ls es' es) (q : QName) :
    (es.map (fun ch => ch.1.name)).count q = (es'.map (fun ch => ch.1.name)).count q := by
  have key : ∀ l : List Elem, (l.map (fun ch => ch.1.name)).count q = (l.filter (fun ch => decide (ch.1.name = q))).length := by
    intro l
    induction l with
    | nil => rfl
    | cons a l ih =>
      rw [List.map_cons, List.count_cons, ih, List.filter_cons]
      by_cases ha : a.1.name = q <;> simp [ha]
  rcases h with rfl | ⟨_, h⟩
  · rfl
  · rw [key, key, h q]

/-- If some member is not from an `xs:all`, the order is that of the schema. -/
theorem Arranged.eq {ls : List Leaf} {es es' : List Elem} (h : Arranged ls es' es) {l : Leaf} (hl : l ∈ ls)
    (ha : l.anywhere = false) : es = es' := by
  rcases h with h | ⟨h, _⟩
  · exact h
  · rw [h l hl] at ha; cases ha

end Xsd
