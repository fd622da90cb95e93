import Verif.Props.Content
import Verif.Props.ContentExamples
/-!
# C21: exactly which documents of an `xs:all` can be reordered
-/
namespace Xsd
variable {x : Ext} {S : SchemaContext} {P : List TypeDef}

/-- The document has an element for the member. -/
def Present (S : SchemaContext) (l : Leaf) (es : List Elem) : Prop := ∃ e ∈ es, S.expanded l.name = .ok e.1.name

/-- A member of an `xs:all`: an element that occurs at most once. -/
structure Leaf.InAll (l : Leaf) : Prop where
  unordered : l.isUnordered = true
  notVirtual : l.isVirtual = false
  notVec : l.repeats = false

/-- How a member of an `xs:all` is read: wherever it is if it is required, and otherwise only if it is next. -/
theorem readLeaf_inAll {l : Leaf} (hl : l.InAll) {pr : Str × LeafRead} (h : leafRead x S l = .ok pr) :
    ∃ q vr, S.expanded l.name = .ok q ∧ pr.2 = if l.mayMiss = true then .ifNext q vr else .tryChild q vr := by
  obtain ⟨q, vr, hf, hq, hv, hlr⟩ := leafRead_ok h
  refine ⟨q, vr, hq, ?_⟩
  generalize pr.2 = lr at hlr
  cases hlr with
  | tryChild _ _ h3 => rw [h3]; rfl
  | ifNext _ _ h3 => rw [h3]; rfl
  | whileLook h1 => simp [hl.notVirtual] at h1
  | ifLook h1 => simp [hl.notVirtual] at h1
  | plain h1 => simp [hl.notVirtual] at h1
  | whileNext _ h2 => simp [hl.notVec] at h2
  | tryNext _ _ _ h4 => simp [hl.unordered] at h4

section
variable {cF : Str → Queue → DRes Queue Val} {cL : Str → Queue → DRes Queue Bool} {k : Nat}

theorem readLeaf_child {q : QName} {vr : ValRead} {e : Elem} {p : List Elem} {w : Val} {s : Queue}
    (h : readLeaf x queueOps cF cL k (.tryChild q vr) ⟨e, p⟩ = .ok (w, s)) :
    ∃ ch, p.find? (fun ch => decide (ch.1.name = q)) = some ch ∧ readOn x queueOps cF vr ch = .ok w ∧
      s = ⟨e, p.eraseP (fun ch => decide (ch.1.name = q))⟩ := by
  have hop : queueOps.tryChild ⟨e, p⟩ q = (Queue.orMissing q (Queue.takeFirst q p).1, ⟨e, (Queue.takeFirst q p).2⟩) := rfl
  simp only [readLeaf, hop, Queue.takeFirst] at h
  cases hf : p.find? (fun ch => decide (ch.1.name = q)) with
  | none => rw [hf] at h; cases h
  | some ch =>
    rw [hf] at h
    simp only [Queue.orMissing, Res.bind_eq_ok] at h
    obtain ⟨w', hw, h⟩ := h
    cases h
    exact ⟨ch, rfl, hw, rfl⟩

theorem readLeaf_child_of {q : QName} {vr : ValRead} {e ch : Elem} {p : List Elem} {w : Val}
    (hf : p.find? (fun ch => decide (ch.1.name = q)) = some ch) (hw : readOn x queueOps cF vr ch = .ok w) :
    readLeaf x queueOps cF cL k (.tryChild q vr) ⟨e, p⟩ = .ok (w, ⟨e, p.eraseP (fun ch => decide (ch.1.name = q))⟩) := by
  have hop : queueOps.tryChild ⟨e, p⟩ q = (Queue.orMissing q (Queue.takeFirst q p).1, ⟨e, (Queue.takeFirst q p).2⟩) := rfl
  simp only [readLeaf, hop, Queue.takeFirst, hf, Queue.orMissing, hw]
  rfl

theorem readLeaf_next_other {q : QName} {vr : ValRead} {e : Elem} {p : List Elem} (hp : ∀ ch r, p = ch :: r → ch.1.name ≠ q) :
    readLeaf x queueOps cF cL k (.ifNext q vr) ⟨e, p⟩ = .ok (.none, ⟨e, p⟩) := by
  have hop : queueOps.next ⟨e, p⟩ q = ((Queue.popIf q p).1, ⟨e, (Queue.popIf q p).2⟩) := rfl
  simp only [readLeaf, hop]
  cases p with
  | nil => rfl
  | cons ch r => rw [Queue.popIf, if_neg (hp ch r rfl)]

theorem readLeaf_next_same {q : QName} {vr : ValRead} {e ch : Elem} {r : List Elem} (hq : ch.1.name = q) :
    readLeaf x queueOps cF cL k (.ifNext q vr) ⟨e, ch :: r⟩ = (do
      let w ← readOn x queueOps cF vr ch
      .ok (.some w, ⟨e, r⟩)) := by
  have hop : queueOps.next ⟨e, ch :: r⟩ q = ((Queue.popIf q (ch :: r)).1, ⟨e, (Queue.popIf q (ch :: r)).2⟩) := rfl
  simp only [readLeaf, hop, Queue.popIf, if_pos hq]

/-- Members of other names leave the first child where it is. -/
theorem readLeaves_keeps_head (ls : List Leaf) (hl : ∀ l ∈ ls, l.InAll) {rs : List (Str × LeafRead)} (hrs : mapRes (leafRead x S) ls = .ok rs)
    {e c : Elem} (hc : ∀ l ∈ ls, S.expanded l.name ≠ .ok c.1.name) {p : List Elem} {fs : List (Str × Val)} {s : Queue}
    (h : readLeaves x queueOps cF cL k rs ⟨e, c :: p⟩ = .ok (fs, s)) : fs.length = ls.length ∧ ∃ p', s = ⟨e, c :: p'⟩ := by
  induction ls generalizing rs p fs s with
  | nil =>
    simp [mapRes] at hrs; subst hrs
    cases h
    exact ⟨rfl, p, rfl⟩
  | cons l ls ih =>
    obtain ⟨pr, rs', hpr, hrs', rfl⟩ := mapRes_cons_ok.1 hrs
    obtain ⟨q, vr, hq, hlr⟩ := readLeaf_inAll (hl l List.mem_cons_self) hpr
    obtain ⟨f, lr⟩ := pr
    simp only at hlr
    subst hlr
    simp only [readLeaves, Res.bind_eq_ok] at h
    obtain ⟨⟨w, s1⟩, hw, ⟨fs', s2⟩, hfs, h⟩ := h
    cases h
    have hne : c.1.name ≠ q := fun he => hc l List.mem_cons_self (by rw [hq, he])
    have : ∃ p1, s1 = ⟨e, c :: p1⟩ := by
      split at hw
      · rw [readLeaf_next_other (fun ch r he => by cases he; exact hne)] at hw
        cases hw
        exact ⟨p, rfl⟩
      · obtain ⟨ch, _, _, hs⟩ := readLeaf_child hw
        rw [List.eraseP_cons_of_neg (by simpa using hne)] at hs
        exact ⟨_, hs⟩
    obtain ⟨p1, rfl⟩ := this
    obtain ⟨h1, h2⟩ := ih (fun l hl' => hl l (.tail _ hl')) hrs' (fun l hl' => hc l (.tail _ hl')) hfs
    exact ⟨by simp [h1], h2⟩

/-- What an optional member is read as depends on which child is first. -/
theorem readLeaves_optional {pre post : List Leaf} {o : Leaf} (hl : ∀ l ∈ pre ++ o :: post, l.InAll) (ho : o.mayMiss = true)
    {rs : List (Str × LeafRead)} (hrs : mapRes (leafRead x S) (pre ++ o :: post) = .ok rs) {e c : Elem}
    (hc : ∀ l ∈ pre, S.expanded l.name ≠ .ok c.1.name) {p : List Elem} {fs : List (Str × Val)} {s : Queue}
    (h : readLeaves x queueOps cF cL k rs ⟨e, c :: p⟩ = .ok (fs, s)) :
    ∃ f v, fs[pre.length]? = some (f, v) ∧ (v = .none ↔ S.expanded o.name ≠ .ok c.1.name) := by
  induction pre generalizing rs p fs s with
  | nil =>
    obtain ⟨pr, rs', hpr, hrs', rfl⟩ := mapRes_cons_ok.1 hrs
    obtain ⟨q, vr, hq, hlr⟩ := readLeaf_inAll (hl o (by simp)) hpr
    obtain ⟨f, lr⟩ := pr
    simp only at hlr
    rw [if_pos ho] at hlr
    subst hlr
    simp only [readLeaves, Res.bind_eq_ok] at h
    obtain ⟨⟨w, s1⟩, hw, ⟨fs', s2⟩, hfs, h⟩ := h
    cases h
    refine ⟨f, w, rfl, ?_⟩
    rw [hq]
    by_cases hn : c.1.name = q
    · rw [readLeaf_next_same hn] at hw
      simp only [Res.bind_eq_ok] at hw
      obtain ⟨w', _, hw⟩ := hw
      cases hw
      simp [hn]
    · rw [readLeaf_next_other (fun ch r he => by cases he; exact hn)] at hw
      cases hw
      simp [Ne.symm hn]
  | cons l pre ih =>
    obtain ⟨pr, rs', hpr, hrs', rfl⟩ := mapRes_cons_ok.1 hrs
    have hone : mapRes (leafRead x S) [l] = .ok [pr] := mapRes_cons_ok.2 ⟨pr, [], hpr, rfl, rfl⟩
    rw [show pr :: rs' = [pr] ++ rs' from rfl, readLeaves_append] at h
    simp only [Res.bind_eq_ok] at h
    obtain ⟨⟨fs1, s1⟩, h1, ⟨fs2, s2⟩, h2, h⟩ := h
    cases h
    obtain ⟨hlen, p', hs⟩ := readLeaves_keeps_head [l] (fun l' hl' => by cases List.mem_singleton.1 hl'; exact hl _ (by simp)) hone
      (fun l' hl' => by cases List.mem_singleton.1 hl'; exact hc _ (by simp)) h1
    simp only at hs h2
    subst hs
    obtain ⟨f, v, hv, hiff⟩ := ih (fun l' hl' => hl l' (.tail _ hl')) hrs' (fun l' hl' => hc l' (.tail _ hl')) h2
    refine ⟨f, v, ?_, hiff⟩
    match fs1, hlen with
    | [a], _ => simpa using hv

theorem eraseP_nodup_names {p : List Elem} (hn : (p.map fun e => e.1.name).Nodup) (q : QName) :
    p.eraseP (fun ch => decide (ch.1.name = q)) = p.filter (fun ch => decide (¬ ch.1.name = q)) := by
  induction p with
  | nil => rfl
  | cons c p ih =>
    rw [List.map_cons, List.nodup_cons] at hn
    by_cases hc : c.1.name = q
    · rw [List.eraseP_cons_of_pos (by simpa using hc), List.filter_cons_of_neg (by simpa using hc)]
      symm
      rw [List.filter_eq_self]
      intro e he
      have : e.1.name ≠ q := fun h => hn.1 (List.mem_map.2 ⟨e, he, h.trans hc.symm⟩)
      simpa using this
    · rw [List.eraseP_cons_of_neg (by simpa using hc), List.filter_cons_of_pos (by simpa using hc), ih hn.2]

theorem find_perm {p p' : List Elem} (hp : p'.Perm p) (hn : (p.map fun e => e.1.name).Nodup) {q : QName} {ch : Elem}
    (h : p.find? (fun ch => decide (ch.1.name = q)) = some ch) : p'.find? (fun ch => decide (ch.1.name = q)) = some ch := by
  have hm := List.mem_of_find?_eq_some h
  have hq : ch.1.name = q := by simpa using List.find?_some h
  cases h' : p'.find? (fun ch => decide (ch.1.name = q)) with
  | none =>
    rw [List.find?_eq_none] at h'
    have := h' ch (hp.mem_iff.2 hm)
    simp [hq] at this
  | some ch' =>
    have hm' := hp.mem_iff.1 (List.mem_of_find?_eq_some h')
    have hq' : ch'.1.name = q := by simpa using List.find?_some h'
    have : ∀ (l : List Elem), (l.map fun e => e.1.name).Nodup → ∀ a ∈ l, ∀ b ∈ l, a.1.name = b.1.name → a = b := by
      intro l
      induction l with
      | nil => intro _ a ha; cases ha
      | cons c l ih =>
        intro hn a ha b hb he
        rw [List.map_cons, List.nodup_cons] at hn
        rcases List.mem_cons.1 ha with rfl | ha' <;> rcases List.mem_cons.1 hb with rfl | hb'
        · rfl
        · exact absurd (List.mem_map.2 ⟨b, hb', he.symm⟩) hn.1
        · exact absurd (List.mem_map.2 ⟨a, ha', he⟩) hn.1
        · exact ih hn.2 a ha' b hb' he
    rw [this p hn ch' hm' ch hm (hq'.trans hq.symm)]

/-- If no optional member with an element has a later member with an element, then the order does not matter. -/
theorem readLeaves_perm (ls : List Leaf) (hl : ∀ l ∈ ls, l.InAll) {rs : List (Str × LeafRead)} (hrs : mapRes (leafRead x S) ls = .ok rs)
    {e e' : Elem} {p p' : List Elem} (hp : p'.Perm p) (hn : (p.map fun e => e.1.name).Nodup)
    (hm : ∀ c ∈ p, ∃ l ∈ ls, S.expanded l.name = .ok c.1.name)
    (hlast : ∀ pre o post, ls = pre ++ o :: post → o.mayMiss = true → Present S o p → ∀ m ∈ post, ¬ Present S m p)
    {fs : List (Str × Val)} {s : Queue} (h : readLeaves x queueOps cF cL k rs ⟨e, p⟩ = .ok (fs, s)) :
    s.node = e ∧ ∃ s', s'.node = e' ∧ readLeaves x queueOps cF cL k rs ⟨e', p'⟩ = .ok (fs, s') := by
  induction ls generalizing rs p p' fs s with
  | nil =>
    simp [mapRes] at hrs; subst hrs
    cases h
    exact ⟨rfl, ⟨e', p'⟩, rfl, rfl⟩
  | cons l ls ih =>
    obtain ⟨pr, rs', hpr, hrs', rfl⟩ := mapRes_cons_ok.1 hrs
    obtain ⟨q, vr, hq, hlr⟩ := readLeaf_inAll (hl l List.mem_cons_self) hpr
    obtain ⟨f, lr⟩ := pr
    simp only at hlr
    subst hlr
    simp only [readLeaves, Res.bind_eq_ok] at h
    obtain ⟨⟨w, s1⟩, hw, ⟨fs', s2⟩, hfs, h⟩ := h
    cases h
    have hn' : (p'.map fun e => e.1.name).Nodup := (hp.map _).nodup_iff.2 hn
    -- The elements that are left: those of other names.
    have step : ∀ w', readLeaf x queueOps cF cL k (if l.mayMiss = true then .ifNext q vr else .tryChild q vr) ⟨e', p'⟩ =
          .ok (w, ⟨e', p'.filter (fun ch => decide (¬ ch.1.name = q))⟩) →
        s1 = ⟨e, p.filter (fun ch => decide (¬ ch.1.name = q))⟩ → w' = w →
        s2.node = e ∧ ∃ s', s'.node = e' ∧
          readLeaves x queueOps cF cL k ((f, if l.mayMiss = true then .ifNext q vr else .tryChild q vr) :: rs') ⟨e', p'⟩ = .ok ((f, w) :: fs', s') := by
      rintro w' h1 rfl rfl
      obtain ⟨g1, s', g2, g3⟩ := ih (fun l hl' => hl l (.tail _ hl')) hrs' (p := p.filter (fun ch => decide (¬ ch.1.name = q)))
        (p' := p'.filter (fun ch => decide (¬ ch.1.name = q))) (hp.filter _) (hn.sublist (List.filter_sublist.map _))
        (fun c hc => by
          obtain ⟨hc1, hc2⟩ := List.mem_filter.1 hc
          obtain ⟨l', hl', he⟩ := hm c hc1
          rcases List.mem_cons.1 hl' with rfl | hl'
          · rw [hq] at he
            injection he with he
            simp [he] at hc2
          · exact ⟨l', hl', he⟩)
        (fun pre o post he hmiss ho m hm' hpm => by
          have sub : ∀ l', Present S l' (p.filter (fun ch => decide (¬ ch.1.name = q))) → Present S l' p :=
            fun l' ⟨c, hc, h⟩ => ⟨c, (List.mem_filter.1 hc).1, h⟩
          exact hlast (l :: pre) o post (by rw [he]; rfl) hmiss (sub _ ho) m hm' (sub _ hpm)) hfs
      refine ⟨g1, s', g2, ?_⟩
      simp only [readLeaves, h1, Res.bind_ok, g3]
    by_cases hmiss : l.mayMiss = true
    · rw [if_pos hmiss] at hw step ⊢
      by_cases hpres : Present S l p
      · -- The only element that is left.
        have hall : ∀ c ∈ p, c.1.name = q := by
          intro c hc
          obtain ⟨l', hl', he⟩ := hm c hc
          rcases List.mem_cons.1 hl' with rfl | hl'
          · rw [hq] at he
            injection he with he
            exact he.symm
          · exact absurd ⟨c, hc, he⟩ (hlast [] l ls rfl hmiss hpres l' hl')
        obtain ⟨c0, hc0, _⟩ := hpres
        have hp1 : p = [c0] := by
          match p, hc0, hn, hall with
          | [c], hc0, _, _ => rw [List.mem_singleton.1 hc0]
          | c :: c' :: r, _, hn, hall =>
            rw [List.map_cons, List.nodup_cons] at hn
            exact absurd (List.mem_map.2 ⟨c', .head _, by rw [hall c (.head _), hall c' (.tail _ (.head _))]⟩) hn.1
        have hp1' : p' = [c0] := by
          have : p'.Perm [c0] := by rw [← hp1]; exact hp
          exact this.eq_singleton
        have hcq := hall c0 hc0
        rw [hp1, readLeaf_next_same hcq] at hw
        simp only [Res.bind_eq_ok] at hw
        obtain ⟨w0, hw0, hw⟩ := hw
        cases hw
        refine step _ ?_ ?_ rfl
        · rw [hp1', readLeaf_next_same hcq, hw0]
          simp [hcq]
        · simp [hp1, hcq]
      · have habs : ∀ c ∈ p, c.1.name ≠ q := fun c hc he => hpres ⟨c, hc, by rw [hq, he]⟩
        have filt : ∀ l' : List Elem, (∀ c ∈ l', c.1.name ≠ q) → l'.filter (fun ch => decide (¬ ch.1.name = q)) = l' := by
          intro l' hl'
          rw [List.filter_eq_self]
          intro c hc
          simpa using hl' c hc
        have habs' : ∀ c ∈ p', c.1.name ≠ q := fun c hc => habs c (hp.mem_iff.1 hc)
        rw [readLeaf_next_other (fun ch r he => habs ch (by rw [he]; exact .head _))] at hw
        cases hw
        refine step _ ?_ ?_ rfl
        · rw [readLeaf_next_other (fun ch r he => habs' ch (by rw [he]; exact .head _)), filt p' habs']
        · rw [filt p habs]
    · rw [if_neg hmiss] at hw step ⊢
      obtain ⟨ch, hf, hr, hs⟩ := readLeaf_child hw
      refine step _ ?_ ?_ rfl
      · rw [readLeaf_child_of (find_perm hp hn hf) hr, eraseP_nodup_names hn']
      · rw [hs, eraseP_nodup_names hn]

end

/-- **C21, exactly.** An `xs:all` group of elements, and a document of it with at most one element for each member and no others, which is read as
`v`. Every reordering is read as `v` exactly if no optional member that has an element is declared before another member that has one. -/
theorem C21_iff (G : Generated x S P) {n : Name} {i : Str} (hi : typeIdent x n = .ok i) {ls : List Leaf} {as : List Attribute}
    (hd : IsElement S n ls as) (hl : ∀ l ∈ ls, l.InAll) (hdist : ls.Pairwise fun l l' => S.expanded l.name ≠ S.expanded l'.name)
    {info : ElemInfo} {cs : List XNode} (hn : ((elemKids cs).map fun e => e.1.name).Nodup)
    (hm : ∀ c ∈ elemKids cs, ∃ l ∈ ls, S.expanded l.name = .ok c.1.name) {v : Val} (h : FromXml x P i ⟨(info, cs)⟩ (.ok v)) :
    (∀ cs', (elemKids cs').Perm (elemKids cs) → FromXml x P i ⟨(info, cs')⟩ (.ok v)) ↔
      ∀ pre o post, ls = pre ++ o :: post → o.mayMiss = true → Present S o (elemKids cs) → ∀ m ∈ post, ¬ Present S m (elemKids cs) := by
  have hsome : (S.get n).isSome = true := by obtain ⟨_, h, _⟩ := hd; rw [h]; rfl
  obtain ⟨r0, t, hr0, hft, _, hg⟩ := G.find' hi hsome
  obtain ⟨d, hget, hc, rfl⟩ := hd
  rw [hget] at hr0; cases hr0
  have hrd := hg.read
  simp only [rootRead, Res.bind_eq_ok] at hrd
  obtain ⟨c, hcr, ras, has, hrd⟩ := hrd
  rw [hc] at hcr
  simp only [elementContentRead, Res.bind_eq_ok] at hcr
  obtain ⟨rs, hrs, hcr⟩ := hcr
  have run : ∀ {k cs v}, fromXml x cursorOps P k i ⟨(info, cs)⟩ = .ok v → ∃ k' fs w s, k = k' + 1 ∧ v = .struct (fs ++ w) ∧
      readLeaves x queueOps (fromNode x queueOps P k') (lookahead queueOps P k') k' rs ⟨(info, cs), elemKids cs⟩ = .ok (fs, s) ∧
      readAttrs x queueOps P ras s = .ok w := by
    intro k cs v h
    rw [fromXml_eq G hi hsome hg.rootName] at h
    split at h
    · cases k with
      | zero => cases h
      | succ k =>
        simp only [fromNode, hft, runFrom, ← Res.ok.inj hrd, ← Res.ok.inj hcr, readContent, Res.bind_eq_ok] at h
        obtain ⟨r, ⟨⟨fs, s⟩, h1, w, h2, h3⟩, h4⟩ := h
        cases h3
        cases h4
        exact ⟨k, fs, w, s, rfl, rfl, h1, h2⟩
    · cases h
  constructor
  · intro hall pre o post he ho hpo m hmp hpm
    obtain ⟨eo, heo, hqo⟩ := hpo
    obtain ⟨em, hem, hqm⟩ := hpm
    -- Two orders: the element of the optional member first, and the one of the other member first.
    have lay : ∀ c ∈ elemKids cs, ∃ cs', ∃ rest, elemKids cs' = c :: rest ∧ (elemKids cs').Perm (elemKids cs) := by
      intro c hc
      obtain ⟨l, r, hlr⟩ := List.append_of_mem hc
      have ek : ∀ es : List Elem, elemKids (es.map fun e => XNode.elem e.1 e.2) = es := by
        intro es
        induction es with
        | nil => rfl
        | cons e es ih => exact congrArg (e :: ·) ih
      refine ⟨(c :: (l ++ r)).map (fun e => XNode.elem e.1 e.2), l ++ r, ek _, ?_⟩
      rw [ek, hlr]
      exact List.perm_middle.symm
    rw [he] at hdist hl hrs
    have field : ∀ c ∈ elemKids cs, (∀ l ∈ pre, S.expanded l.name ≠ .ok c.1.name) →
        ∃ fs w f u, v = .struct (fs ++ w) ∧ fs[pre.length]? = some (f, u) ∧ (u = .none ↔ S.expanded o.name ≠ .ok c.1.name) := by
      intro c hc hpre
      obtain ⟨cs', rest, hcs, hperm⟩ := lay c hc
      obtain ⟨_, k, hk⟩ := hall cs' hperm
      obtain ⟨k', fs, w, s, rfl, hv, h1, _⟩ := run hk
      rw [hcs] at h1
      obtain ⟨f, u, hu, hiff⟩ := readLeaves_optional hl ho hrs hpre h1
      exact ⟨fs, w, f, u, hv, hu, hiff⟩
    have sep := List.pairwise_append.1 hdist
    obtain ⟨fs1, w1, f1, u1, hv1, hu1, hi1⟩ := field eo heo fun l hl' => by
      rw [← hqo]; exact sep.2.2 l hl' o (.head _)
    obtain ⟨fs2, w2, f2, u2, hv2, hu2, hi2⟩ := field em hem fun l hl' => by
      rw [← hqm]; exact sep.2.2 l hl' m (.tail _ hmp)
    have e1 : u1 ≠ .none := fun hu => absurd hqo (hi1.1 hu)
    have e2 : u2 = .none := hi2.2 (by rw [← hqm]; exact (List.pairwise_cons.1 sep.2.1).1 m hmp)
    have hfs : fs1 ++ w1 = fs2 ++ w2 := by
      rw [hv1] at hv2
      injection hv2
    have g1 : (fs1 ++ w1)[pre.length]? = some (f1, u1) := by
      rw [List.getElem?_append_left (List.getElem?_eq_some_iff.1 hu1).1, hu1]
    have g2 : (fs2 ++ w2)[pre.length]? = some (f2, u2) := by
      rw [List.getElem?_append_left (List.getElem?_eq_some_iff.1 hu2).1, hu2]
    rw [hfs, g2] at g1
    injection g1 with g1
    injection g1 with _ g1
    exact e1 (g1 ▸ e2)
  · intro hcond cs' hperm
    obtain ⟨_, k, hk⟩ := h
    obtain ⟨k', fs, w, s, rfl, rfl, h1, h2⟩ := run hk
    obtain ⟨hs, s', hs', h3⟩ := readLeaves_perm ls hl hrs (e' := (info, cs')) hperm hn hm hcond h1
    refine ⟨by nofun, k' + 1, ?_⟩
    rw [fromXml_eq G hi hsome hg.rootName] at hk ⊢
    split at hk
    · next hname =>
      rw [if_pos (show (info, cs').1.name = _ from hname)]
      have hw : readAttrs x queueOps P ras s' = .ok w := by
        rw [← h2]
        exact readAttrs_rel _ has fun _ _ => by rw [hs, hs']
      simp only [fromNode, hft, runFrom, ← Res.ok.inj hrd, ← Res.ok.inj hcr, readContent, h3, Res.bind_ok, hw]
      rfl
    · cases hk

namespace AllOrder
open Sample (nm nss)
open Sample2 (all' elem root kid kidE)

/-- An `xs:all` whose last member is optional. -/
def leaves : List Leaf := [all' c!"b" (.literal .int32) 1, all' c!"a" (.literal .string) 0]

def sch : SchemaContext := { elements := [(nm c!"AllLast", elem leaves)], target := .id 1, isQualified := true, namespaces := nss }
def pgm : List TypeDef := moduleOf sampleExt sch
theorem generated : Generated sampleExt sch pgm := generatesB_sound (by decide +kernel)

theorem inAll : ∀ l ∈ leaves, l.InAll := by
  intro l hl
  simp only [leaves, List.mem_cons, List.not_mem_nil, or_false] at hl
  rcases hl with rfl | rfl <;> exact ⟨rfl, rfl, rfl⟩

/-- The members of this type can be in any order, -/
example : ∀ cs', (elemKids cs').Perm (elemKids [kid c!"a" c!"s", kid c!"b" c!"4"]) →
    FromXml sampleExt pgm c!"AllLast" ⟨((root c!"AllLast" []).1, cs')⟩ (.ok (.struct [(c!"b", .int 4), (c!"a", .some (.str c!"s"))])) := by
  refine (C21_iff generated (n := nm c!"AllLast") (by rfl) (ls := leaves) ⟨_, rfl, rfl, rfl⟩ inAll
    (.cons (by simpa using (by decide +kernel)) (.cons (by simp) .nil)) (by decide +kernel) (by decide +kernel) ⟨by simp, 9, by rfl⟩).2 ?_
  intro pre o post he ho _ m hm
  match pre, he with
  | [], he => cases he; exact absurd ho (by decide +kernel)
  | [_], he => cases he; cases hm
  | _ :: _ :: r, he =>
    have := congrArg List.length he
    simp [leaves] at this

/-- but not those of a type with the optional member first. -/
example : ¬ ∀ cs', (elemKids cs').Perm (elemKids [kid c!"a" c!"s", kid c!"b" c!"4"]) →
    FromXml sampleExt Sample2.pgm c!"AllOpt" ⟨((root c!"AllOpt" []).1, cs')⟩ (.ok (.struct [(c!"a", .some (.str c!"s")), (c!"b", .int 4)])) := by
  intro h
  refine (C21_iff Sample2.generated (n := nm c!"AllOpt") (by rfl) (ls := Sample2.allOptLeaves) ⟨_, rfl, rfl, rfl⟩ ?_
    (.cons (by simpa using (by decide +kernel)) (.cons (by simp) .nil)) (by decide +kernel) (by decide +kernel) ⟨by simp, 9, by rfl⟩).1 h
    [] _ _ rfl rfl ⟨kidE c!"a" c!"s", .head _, by rfl⟩ _ (.head _) ⟨kidE c!"b" c!"4", .tail _ (.head _), by rfl⟩
  intro l hl
  simp only [Sample2.allOptLeaves, List.mem_cons, List.not_mem_nil, or_false] at hl
  rcases hl with rfl | rfl <;> exact ⟨rfl, rfl, rfl⟩

end AllOrder

end Xsd
