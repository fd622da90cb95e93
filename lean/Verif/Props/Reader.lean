import Verif.Props.Sample
import Verif.Lemmas.ExecRel
import Verif.Lemmas.Complete
/-!
# Properties of generated readers as a whole (C06, C07, C13, C14, C28)
-/
namespace Xsd

variable {x : Ext} {S : SchemaContext} {P : List TypeDef} {b : Bool}

/-- **C06.** `from_xml` on a document whose root element differs from the one that the type stands for, in local
name or in namespace, fails with `MissingElement` naming the requested element; otherwise decoding starts at
the root. For every generated module, type and document. -/
theorem C06_from_xml_root (G : Generated x S P) {n : Name} {i : Str} {q : QName} (hi : typeIdent x n = .ok i)
    (hn : (S.get n).isSome = true) (hq : S.expanded n = .ok q) (d : Doc) :
    (d.root.1.name ≠ q → ∀ r, FromXml x P i d r ↔ r = .err (.missingElement q.loc q.ns)) ∧
    (d.root.1.name = q → ∀ v, FromXml x P i d (.ok v) ↔
      ∃ k s', fromNode x cursorOps P k i (Cursor.new d.root) = .ok (v, s')) := by
  constructor
  · intro h r
    have he : FromXml x P i d (.err (.missingElement q.loc q.ns)) :=
      ⟨(by intro hh; cases hh), 0, by rw [fromXml_eq G hi hn hq, if_neg h]⟩
    exact ⟨fun hr => hr.unique he, fun hr => hr ▸ he⟩
  · intro h v
    rw [FromXml.ok_iff G hi hn hq]
    constructor
    · rintro ⟨_, k, s', hk⟩
      have := fromNode_hom (x := x) (P := P) cursor_hom k i (Cursor.new d.root)
      rw [Cursor.abs_new] at this
      have this : fromNode x queueOps P k i ⟨d.root, elemKids d.root.2⟩ = _ := this
      rw [hk] at this
      cases hc : fromNode x cursorOps P k i (Cursor.new d.root) with
      | ok a =>
        rw [hc] at this
        simp only [Res.mapSt, Res.ok.injEq, Prod.mk.injEq] at this
        exact ⟨k, a.2, by rw [hc, this.1]⟩
      | err e => rw [hc] at this; cases this
      | panic => rw [hc] at this; cases this
      | diverge => rw [hc] at this; cases this
    · rintro ⟨k, s', hk⟩
      have := fromNode_hom (x := x) (P := P) cursor_hom k i (Cursor.new d.root)
      rw [Cursor.abs_new] at this
      rw [hk] at this
      exact ⟨h, k, s'.abs, this⟩

/-- **C13.** If `from_xml` returns a value, the value is a reading of the document under the schema
(`DocRepr`, defined on the schema alone in `Verif/Spec/Repr.lean`). -/
theorem C13_sound (G : Generated x S P) {n : Name} {i : Str} (hi : typeIdent x n = .ok i)
    (hn : (S.get n).isSome = true) {d : Doc} {v : Val} (h : FromXml x P i d (.ok v)) :
    DocRepr x .lenient S n v d.root := by
  obtain ⟨r, hr⟩ := Option.isSome_iff_exists.1 hn
  obtain ⟨t, _, _, hg⟩ := G.find hr
  obtain ⟨hq, k, s', hk⟩ := (FromXml.ok_iff G hi hn hg.rootName).1 h
  obtain ⟨_, es, he, hcat⟩ := fromNode_sound G k n i _ v s' hi hn hk
  exact ⟨hq ▸ hg.rootName, k, es, s'.pending, hcat, fun hh => (by cases hh), he⟩

/-- **C14.** If the schema can be read with one element of lookahead, every document that represents a value under
the schema is accepted, and read as that value. -/
theorem C14_complete (G : Generated x S P) (hdet : Deterministic x S) {n : Name} {i : Str}
    (hi : typeIdent x n = .ok i) (hn : (S.get n).isSome = true) {d : Doc} {v : Val}
    (h : DocRepr x .exact S n v d.root) : FromXml x P i d (.ok v) := by
  obtain ⟨C, hdet⟩ := hdet
  obtain ⟨hq, j, es, junk, hcat, hj, ht⟩ := h
  obtain ⟨_, hc⟩ := fromNode_complete G hdet j n v d.root es ht
  obtain ⟨k, hk⟩ := hc i [] hi (by rfl)
  have he : elemKids d.root.2 = es ++ [] := by
    have := hj rfl; subst this; exact hcat
  rw [FromXml.ok_iff G hi hn hq]
  exact ⟨rfl, k, _, by rw [he]; exact hk k (Nat.le_refl k)⟩

/-- **C14**, uniqueness: such a document represents one value only. -/
theorem C14_unique (G : Generated x S P) (hdet : Deterministic x S) {n : Name} {i : Str}
    (hi : typeIdent x n = .ok i) (hn : (S.get n).isSome = true) {d : Doc} {v w : Val}
    (h : DocRepr x .exact S n v d.root) (h' : DocRepr x .exact S n w d.root) : v = w := by
  have := (C14_complete G hdet hi hn h).unique (C14_complete G hdet hi hn h')
  cases this; rfl

theorem fromXml_same (G : Generated x S P) {n : Name} {i : Str} (hi : typeIdent x n = .ok i)
    (hn : (S.get n).isSome = true) {d d' : Doc} (h : SameDoc S true n d.root d'.root) (k : Nat) :
    fromXml x cursorOps P k i d' = fromXml x cursorOps P k i d := by
  obtain ⟨r, hr⟩ := Option.isSome_iff_exists.1 hn
  obtain ⟨t, _, _, hg⟩ := G.find hr
  obtain ⟨h1, h2, h3⟩ := h
  rw [fromXml_eq G hi hn hg.rootName, fromXml_eq G hi hn hg.rootName, h1.1]
  split
  · have hs : SRel S true ⟨d.root, elemKids d.root.2⟩ ⟨d'.root, elemKids d'.root.2⟩ := ⟨h1, h3⟩
    have := fromNode_rel (b := true) G k n i _ _ hi hn hs h2
    cases hc : fromNode x queueOps P k i ⟨d.root, elemKids d.root.2⟩ with
    | ok a => rw [hc] at this; obtain ⟨a', ha, hv, _⟩ := this; rw [ha]; simp [hv]
    | err e => rw [hc] at this; rw [this rfl]
    | panic => rw [hc] at this; rw [this rfl]
    | diverge => rw [hc] at this; rw [this rfl]
  · rfl

/-- **C28.** Undeclared attributes and trailing child elements with undeclared names, on the root element and
on any element below it, do not change the result of `from_xml`, be it a value or an error. `SameDoc` also
allows the differences of C07. -/
theorem C28_unknown_content_ignored (G : Generated x S P) {n : Name} {i : Str} (hi : typeIdent x n = .ok i)
    (hn : (S.get n).isSome = true) {d d' : Doc} (h : SameDoc S true n d.root d'.root) (r : Res DErr Val) :
    FromXml x P i d r ↔ FromXml x P i d' r := by
  simp only [FromXml, fromXml_same G hi hn h]

mutual
theorem sameNode_refl : (c : XNode) → ∀ e, c.asElem = some e → SameElem S b e e
  | .elem i cs, e, h => by
    simp only [XNode.asElem, Option.some.injEq] at h
    subst h
    exact .mk ⟨rfl, fun _ _ _ _ => rfl⟩ (.inl ⟨fun _ h => h, fun _ _ h => h⟩) (sameKids_refl cs)
  | .text s, e, h => by cases h
  | .other, e, h => by cases h
theorem sameKids_refl : (cs : List XNode) → SameKids S b (elemKids cs) (elemKids cs)
  | [] => .junk (by simp [elemKids])
  | c :: cs => by
    have h1 := sameNode_refl c
    have h2 := sameKids_refl cs
    unfold elemKids at *
    rw [List.filterMap_cons]
    cases hc : c.asElem with
    | none => exact h2
    | some e => exact .cons (h1 e hc) h2
end

/-- **C07.** Non-element nodes (white space, other text, comments, processing instructions) can be inserted or
removed anywhere in an element that is not read as text, and (`SameDoc`) at the same time in all such
elements below it, without changing the result of `from_xml`, be it a value or an error. -/
theorem C07_non_elements_ignored (G : Generated x S P) {n : Name} {i : Str} (hi : typeIdent x n = .ok i)
    (hn : (S.get n).isSome = true) {d d' : Doc} (h : SameDoc S true n d.root d'.root) (r : Res DErr Val) :
    FromXml x P i d r ↔ FromXml x P i d' r := C28_unknown_content_ignored G hi hn h r

/-- **C07** for one node inserted in (or, read from right to left, removed from) the root element. -/
theorem C07_insert (G : Generated x S P) {n : Name} {i : Str} (hi : typeIdent x n = .ok i)
    (hn : (S.get n).isSome = true) (hr : ¬ ReadsText S n) {info : ElemInfo} {as bs : List XNode} {c : XNode}
    (hc : c.asElem = none) (r : Res DErr Val) :
    FromXml x P i ⟨(info, as ++ bs)⟩ r ↔ FromXml x P i ⟨(info, as ++ c :: bs)⟩ r := by
  refine C07_non_elements_ignored G hi hn (d := ⟨(info, as ++ bs)⟩) (d' := ⟨(info, as ++ c :: bs)⟩)
    ⟨⟨rfl, fun _ _ _ _ => rfl⟩, .inr hr, ?_⟩ r
  have : elemKids (as ++ c :: bs) = elemKids (as ++ bs) := by
    simp [elemKids, List.filterMap_append, List.filterMap_cons, hc]
  simp only [this]
  exact sameKids_refl _

theorem indented_text {cs cs' : List XNode} (h : IndentedL false cs cs') (i i' : ElemInfo) (s : Str)
    (ht : Queue.textVal (i, cs) = .ok s) : Queue.textVal (i', cs') = .ok s := by
  cases h with
  | nil => exact ht
  | cons h _ =>
    cases h with
    | text s => exact ht
    | other => cases ht
    | same _ => cases ht
    | sep _ _ => cases ht

mutual
theorem indented_same : ∀ {c c' : XNode}, Indented c c' → (c.asElem = none ∧ c'.asElem = none) ∨
    ∃ e e', c.asElem = some e ∧ c'.asElem = some e' ∧ SameElem S false e e'
  | _, _, .text s => .inl ⟨rfl, rfl⟩
  | _, _, .other => .inl ⟨rfl, rfl⟩
  | _, _, .same h => .inr ⟨_, _, rfl, rfl, .mk ⟨rfl, fun _ _ _ _ => rfl⟩
      (.inl ⟨fun s hs => indented_text h _ _ s hs, fun hh => (by cases hh)⟩) (indentedL_same h)⟩
  | _, _, @Indented.sep i c cs cs' h htx => .inr ⟨_, _, rfl, rfl, .mk ⟨rfl, fun _ _ _ _ => rfl⟩
      (.inl ⟨fun s hs => (by
        cases c with
        | text t => exact absurd rfl (htx t)
        | elem i cs => cases hs
        | other => cases hs), fun hh => (by cases hh)⟩) (indentedL_same h)⟩
theorem indentedL_same : ∀ {w : Bool} {cs cs' : List XNode}, IndentedL w cs cs' →
    SameKids S false (elemKids cs) (elemKids cs')
  | _, _, _, .nil => .junk (by simp [elemKids])
  | _, _, _, .cons h hs => by
    have h2 := indentedL_same hs
    unfold elemKids at *
    rcases indented_same h with ⟨h1, h1'⟩ | ⟨e, e', h1, h1', h3⟩
    · rw [List.filterMap_cons_none h1, List.filterMap_cons_none h1']; exact h2
    · rw [List.filterMap_cons_some h1, List.filterMap_cons_some h1']; exact .cons h3 h2
  | _, _, _, .space hw h => by
    have h2 := indentedL_same h
    unfold elemKids at *
    rw [List.filterMap_cons_none (by rfl)]; exact h2
end

/-- Like `C28_unknown_content_ignored` for values only: a text that is not there may become one. -/
theorem fromXml_same_ok (G : Generated x S P) {n : Name} {i : Str} (hi : typeIdent x n = .ok i)
    (hn : (S.get n).isSome = true) {d d' : Doc} (h : SameDoc S false n d.root d'.root) {v : Val}
    (hv : FromXml x P i d (.ok v)) : FromXml x P i d' (.ok v) := by
  obtain ⟨r, hr⟩ := Option.isSome_iff_exists.1 hn
  obtain ⟨t, _, _, hg⟩ := G.find hr
  obtain ⟨h1, h2, h3⟩ := h
  obtain ⟨hq, k, s', hk⟩ := (FromXml.ok_iff G hi hn hg.rootName).1 hv
  have hs : SRel S false ⟨d.root, elemKids d.root.2⟩ ⟨d'.root, elemKids d'.root.2⟩ := ⟨h1, h3⟩
  have := fromNode_rel (b := false) G k n i _ _ hi hn hs h2
  rw [hk] at this
  obtain ⟨⟨v', s2⟩, ha, hv', _⟩ := this
  simp only at hv'; subst hv'
  exact (FromXml.ok_iff G hi hn hg.rootName).2 ⟨h1.1 ▸ hq, k, s2, ha⟩

/-- **C07** for the indentation that `to_xml` writes: whatever can be read from a document can be read, with the
same value, from the indented document. -/
theorem C07_indentation (G : Generated x S P) {n : Name} {i : Str} (hi : typeIdent x n = .ok i)
    (hn : (S.get n).isSome = true) {e e' : Elem} (h : Indented (.elem e.1 e.2) (.elem e'.1 e'.2)) {v : Val}
    (hv : FromXml x P i ⟨e⟩ (.ok v)) : FromXml x P i ⟨e'⟩ (.ok v) := by
  refine fromXml_same_ok G hi hn ?_ hv
  rcases indented_same (S := S) h with ⟨h1, _⟩ | ⟨a, a', h1, h1', h2⟩
  · cases h1
  · simp only [XNode.asElem, Option.some.injEq] at h1 h1'
    subst h1; subst h1'
    obtain ⟨i, cs⟩ := e
    obtain ⟨i', cs'⟩ := e'
    cases h with
    | same hk => exact ⟨⟨rfl, fun _ _ _ _ => rfl⟩,
        .inl ⟨fun s hs => indented_text hk _ _ s hs, fun hh => (by cases hh)⟩, indentedL_same hk⟩
    | @sep i c cs cs' hk htx => exact ⟨⟨rfl, fun _ _ _ _ => rfl⟩, .inl ⟨fun s hs => (by
        cases c with
        | text t => exact absurd rfl (htx t)
        | elem i cs => cases hs
        | other => cases hs), fun hh => (by cases hh)⟩, indentedL_same hk⟩

/-- **C28** for child elements with declared names: in a deterministic schema, if a document represents a value and
the added children do not start with an element that the reader would take for a continuation of the
value, the result does not change. -/
theorem C28_trailing_declared (G : Generated x S P) {C : Cert} (hdet : detOK x S C = true) {n : Name} {i : Str}
    (hi : typeIdent x n = .ok i) (hn : (S.get n).isSome = true) {e e' : Elem} {v : Val}
    (h : DocRepr x .exact S n v e) (ht : SameTag S e e') (hx : TextRel false e e' ∨ ¬ ReadsText S n)
    {junk : List Elem} (hk : elemKids e'.2 = elemKids e.2 ++ junk) (hj : headIn (C.stop n) junk = false) :
    FromXml x P i ⟨e'⟩ (.ok v) := by
  obtain ⟨hq, j, es, jk, hcat, hj', htr⟩ := h
  obtain ⟨_, hc⟩ := fromNode_complete G hdet j n v e es htr
  obtain ⟨k, hk'⟩ := hc i junk hi hj
  have he : elemKids e.2 = es := by have := hj' rfl; subst this; simpa [Cat] using hcat
  have hs : SRel S false ⟨e, es ++ junk⟩ ⟨e', elemKids e'.2⟩ := by
    refine ⟨ht, ?_⟩
    simp only [hk, he]
    exact sameKids_refl2 (es ++ junk)
  have := fromNode_rel (b := false) G k n i _ _ hi hn hs hx
  rw [hk' k (Nat.le_refl k)] at this
  obtain ⟨⟨v', s2⟩, ha, hv', _⟩ := this
  simp only at hv'; subst hv'
  exact (FromXml.ok_iff G hi hn hq).2 ⟨ht.1, k, s2, ha⟩
where
  sameKids_refl2 (es : List Elem) : SameKids S false es es := by
    have := sameKids_refl (S := S) (b := false) (es.map (fun e => .elem e.1 e.2))
    have h2 : elemKids (es.map (fun e => XNode.elem e.1 e.2)) = es := by
      induction es with
      | nil => rfl
      | cons e es ih =>
        simp only [elemKids, List.map_cons] at *
        rw [List.filterMap_cons_some (b := e) (by rfl), ih (sameKids_refl _)]
    rw [h2] at this
    exact this

/-! Non-vacuity, on the schema of `Verif/Props/Sample.lean`. -/
section Examples
open Sample

theorem article_ident : typeIdent sampleExt (nm c!"Article") = .ok c!"Article" := by rfl

/-- C06: another namespace. -/
example : FromXml sampleExt pgm c!"Article" ⟨(⟨⟨c!"Article", none⟩, [], [], 0⟩, [])⟩
    (.err (.missingElement c!"Article" (some c!"urn:a"))) :=
  ((C06_from_xml_root generated article_ident (by rfl) (q := q c!"Article") (by rfl) ⟨(⟨⟨c!"Article", none⟩, [], [], 0⟩, [])⟩).1 (by decide) _).2 rfl

/-- C13 on the sample document. -/
example : DocRepr sampleExt .lenient sch (nm c!"Article") val doc := C13_sound generated article_ident (by rfl) doc_decodes

/-- The sample type is not read as text. -/
theorem article_structured : ¬ ReadsText sch (nm c!"Article") := by
  have hget : sch.get (nm c!"Article") = some article := by rfl
  have haut : sch.get (nm c!"ArticleAuthor") = some (.choice [leaf c!"user" (.named (nm c!"User")) 1 (.number 1),
        leaf c!"bot" (.literal .string) 1 (.number 1)] true none) := by rfl
  have h2 : ¬ ReadsText sch (nm c!"ArticleAuthor") := by
    intro h
    cases h with
    | leaf h _ => rw [haut] at h; cases h
    | enum h => rw [haut] at h; cases h
    | content h _ _ => rw [haut] at h; cases h
    | leaves h _ _ _ _ => rw [haut] at h; cases h
    | choice h hl hv _ =>
      rw [haut] at h; cases h
      revert hv
      simp only [List.mem_cons, List.not_mem_nil, or_false] at hl
      rcases hl with rfl | rfl <;> decide
  intro h
  cases h with
  | leaf h _ => rw [hget] at h; cases h
  | enum h => rw [hget] at h; cases h
  | content h hd _ => rw [hget] at h; cases h; cases hd
  | choice h _ _ _ => rw [hget] at h; cases h
  | leaves h hd hl hv hc =>
    rw [hget] at h; cases h; cases hd
    simp only [List.mem_cons, List.not_mem_nil, or_false] at hl
    rcases hl with rfl | rfl | rfl | rfl
    · cases hv
    · cases hv
    · have hm : Means sch (.named (nm c!"ArticleAuthor")) (.named (nm c!"ArticleAuthor")) :=
        .name (fun d hd => by rw [haut] at hd; cases hd)
      cases hc with
      | literal hm' => have := hm.functional hm'; cases this
      | fixed hm' => have := hm.functional hm'; cases this
      | named hm' hr => have := hm.functional hm'; cases this; exact h2 hr
    · cases hv

/-- C07: a comment at the front of the sample document. -/
example : FromXml sampleExt pgm c!"Article" ⟨(doc.1, [] ++ .other :: doc.2)⟩ (.ok val) :=
  (C07_insert generated article_ident (by rfl) article_structured (info := doc.1) (as := []) (bs := doc.2)
    (c := .other) rfl _).1 doc_decodes

/-- C28: an undeclared attribute and an undeclared trailing element on the sample document. -/
example : FromXml sampleExt pgm c!"Article"
    ⟨({ doc.1 with attrs := doc.1.attrs ++ [at' c!"zz" c!"1"] }, doc.2 ++ [el c!"extra" []])⟩ (.ok val) := by
  refine (C28_unknown_content_ignored generated article_ident (by rfl) (d := ⟨doc⟩)
    (d' := ⟨({ doc.1 with attrs := doc.1.attrs ++ [at' c!"zz" c!"1"] }, doc.2 ++ [el c!"extra" []])⟩)
    ⟨⟨rfl, ?_⟩, .inr article_structured, ?_⟩ _).1
    doc_decodes
  · decide +kernel
  · have h : ∀ (es : List Elem), SameKids sch true es (es ++ elemKids [el c!"extra" []]) := by
      intro es
      induction es with
      | nil =>
        refine .junk ?_
        simp only [el, elemKids, List.filterMap_cons, XNode.asElem, List.filterMap_nil, List.nil_append, List.mem_cons, List.not_mem_nil, or_false]
        rintro e rfl ⟨p, hp, l, hl, _, hq⟩
        revert p
        simp only [sch, article, List.mem_cons, List.not_mem_nil, or_false]
        rintro p (rfl | rfl | rfl | rfl | rfl) hl <;>
          simp only [Root.leaves, List.mem_cons, List.not_mem_nil, or_false] at hl
        · rcases hl with rfl | rfl <;> exact absurd hq (by decide)
        · rcases hl with rfl | rfl <;> exact absurd hq (by decide)
        · rcases hl with rfl | rfl | rfl | rfl <;> exact absurd hq (by decide)
      | cons e es ih => exact .cons (sameNode_refl (.elem e.1 e.2) e rfl) ih
    have := h (elemKids doc.2)
    simpa [elemKids, List.filterMap_append] using this

end Examples

end Xsd
