import Verif.Spec.Restated
import Verif.Props.XmlTextSample
/-!
# The value does not depend on how the document is written down (C74)
-/
namespace Xsd

theorem find_plain {as : List XAttr} (hu : (as.map fun a => (a.ns, a.loc)).Nodup) (n v : Str) :
    (as.find? (fun a => a.ns = none ∧ a.loc = n)).map XAttr.value = some v ↔ (none, n, v) ∈ as.map XAttr.plain := by
  induction as with
  | nil => simp
  | cons a as ih =>
    rw [List.map_cons, List.nodup_cons] at hu
    rw [List.find?_cons]
    by_cases h : a.ns = none ∧ a.loc = n
    · simp only [h, and_self, decide_true, Option.map_some, List.map_cons, List.mem_cons, XAttr.plain, Prod.mk.injEq, true_and]
      constructor
      · intro h; injection h with h; exact .inl h.symm
      · rintro (h' | h')
        · rw [h']
        · obtain ⟨b, hb, hb'⟩ := List.mem_map.1 h'
          simp only [XAttr.plain, Prod.mk.injEq] at hb'
          exact absurd (List.mem_map.2 ⟨b, hb, by rw [hb'.1, hb'.2.1, h.1, h.2]⟩) hu.1
    · simp only [h, decide_false, List.map_cons, List.mem_cons, ih hu.2]
      constructor
      · exact .inr
      · rintro (h' | h')
        · simp only [XAttr.plain, Prod.mk.injEq] at h'
          exact absurd ⟨h'.1.symm, h'.2.1.symm⟩ h
        · exact h'

/-- Attributes are found in any order. -/
theorem TagRestated.attr {i i' : ElemInfo} (h : TagRestated i i') (n : Str) : attrOf i' n = attrOf i n := by
  have hu : (i'.attrs.map fun a => (a.ns, a.loc)).Nodup := by
    have := (h.attrs.map fun p => (p.1, p.2.1)).nodup_iff
    simp only [List.map_map] at this
    exact this.1 h.unique
  have : ∀ v, attrOf i' n = some v ↔ attrOf i n = some v := fun v => by
    unfold attrOf
    rw [find_plain h.unique, find_plain hu]
    exact h.attrs.mem_iff.symm
  cases hv : attrOf i n with
  | some v => exact (this v).2 hv
  | none =>
    cases hv' : attrOf i' n with
    | none => rfl
    | some v => rw [(this v).1 hv'] at hv; cases hv

theorem TagRestated.same {i i' : ElemInfo} (h : TagRestated i i') (S : SchemaContext) (cs cs' : List XNode) : SameTag S (i, cs) (i', cs') :=
  ⟨h.name.symm, fun _ _ _ _ => h.attr _⟩

theorem RestatedKids.text {i i' : ElemInfo} (hn : i.name = i'.name) {cs cs' : List XNode} (h : RestatedKids cs cs') :
    TextRel true (i, cs) (i', cs') := by
  have : Queue.textVal (i', cs') = Queue.textVal (i, cs) := by
    cases h with
    | nil => rfl
    | cons h _ => cases h <;> simp only [Queue.textVal, hn]
  exact ⟨fun s hs => this.trans hs, fun _ s hs => this.trans hs⟩

mutual
theorem Restated.same {S : SchemaContext} : ∀ {c c' : XNode}, Restated c c' → (c.asElem = none ∧ c'.asElem = none) ∨
    ∃ e e', c.asElem = some e ∧ c'.asElem = some e' ∧ SameElem S true e e'
  | _, _, .text s => .inl ⟨rfl, rfl⟩
  | _, _, .other => .inl ⟨rfl, rfl⟩
  | _, _, .elem tag kids => .inr ⟨_, _, rfl, rfl, .mk (tag.same S _ _) (.inl (kids.text tag.name)) kids.same⟩
theorem RestatedKids.same {S : SchemaContext} : ∀ {cs cs' : List XNode}, RestatedKids cs cs' → SameKids S true (elemKids cs) (elemKids cs')
  | _, _, .nil => .junk (by simp [elemKids])
  | _, _, .cons h hs => by
    have h2 := hs.same (S := S)
    unfold elemKids at *
    rcases h.same (S := S) with ⟨h1, h1'⟩ | ⟨e, e', h1, h1', h3⟩
    · rw [List.filterMap_cons_none h1, List.filterMap_cons_none h1']; exact h2
    · rw [List.filterMap_cons_some h1, List.filterMap_cons_some h1']; exact .cons h3 h2
end

section
variable {x : Ext} {S : SchemaContext} {P : List TypeDef}

/-- **C74.** If two documents say the same, `from_xml` returns the same value or the same error for both. -/
theorem C74 (G : Generated x S P) {n : Name} {i : Str} (hi : typeIdent x n = .ok i) (hn : (S.get n).isSome = true) {d d' : Elem}
    (h : Restated (.elem d.1 d.2) (.elem d'.1 d'.2)) (r : Res DErr Val) : FromXml x P i ⟨d⟩ r ↔ FromXml x P i ⟨d'⟩ r := by
  cases h with
  | elem tag kids => exact C28_unknown_content_ignored G hi hn (d := ⟨d⟩) (d' := ⟨d'⟩) ⟨tag.same S _ _, .inl (kids.text tag.name), kids.same⟩ r

/-- **C74** for texts. -/
theorem C74_text (G : Generated x S P) {n : Name} {i : Str} (hi : typeIdent x n = .ok i) (hn : (S.get n).isSome = true) {s s' : Str}
    (h : TextRestated s s') (r : Res TextErr Val) : FromText x P i s r ↔ FromText x P i s' r := by
  have : ∀ k, fromXmlText x P k i s' = fromXmlText x P k i s := fun k => by
    unfold fromXmlText
    cases h with
    | none h h' => rw [h, h']
    | @doc e e' h h' hd =>
      rw [h, h']
      cases hd with
      | elem tag kids =>
        simp only
        rw [fromXml_same G hi hn (d := ⟨e⟩) (d' := ⟨e'⟩) ⟨tag.same S _ _, .inl (kids.text tag.name), kids.same⟩ k]
  simp only [FromText, this]

end

/-! ## A check -/

/-- `TagRestated`, as a check. -/
def tagRestatedB (i i' : ElemInfo) : Bool :=
  decide (i.name = i'.name) && (i.attrs.map XAttr.plain).isPerm (i'.attrs.map XAttr.plain) && decide (i.attrs.map fun a => (a.ns, a.loc)).Nodup

mutual
/-- `Restated`, as a check. -/
def restatedB : XNode → XNode → Bool
  | .elem i cs, .elem i' cs' => tagRestatedB i i' && restatedKidsB cs cs'
  | .text s, .text s' => decide (s = s')
  | .other, .other => true
  | _, _ => false
/-- `RestatedKids`, as a check. -/
def restatedKidsB : List XNode → List XNode → Bool
  | [], [] => true
  | c :: cs, c' :: cs' => restatedB c c' && restatedKidsB cs cs'
  | _, _ => false
end

theorem tagRestatedB_sound {i i' : ElemInfo} (h : tagRestatedB i i' = true) : TagRestated i i' := by
  unfold tagRestatedB at h
  simp only [Bool.and_eq_true, decide_eq_true_eq, List.isPerm_iff] at h
  exact ⟨h.1.1, h.1.2, h.2⟩

mutual
theorem restatedB_sound : ∀ {c c' : XNode}, restatedB c c' = true → Restated c c'
  | .elem i cs, .elem i' cs', h => by
    rw [restatedB, Bool.and_eq_true] at h
    exact .elem (tagRestatedB_sound h.1) (restatedKidsB_sound h.2)
  | .text s, .text s', h => by
    rw [restatedB, decide_eq_true_eq] at h
    exact h ▸ .text s
  | .other, .other, _ => .other
  | .elem _ _, .text _, h | .elem _ _, .other, h | .text _, .elem _ _, h | .text _, .other, h | .other, .elem _ _, h | .other, .text _, h => by
    simp [restatedB] at h
theorem restatedKidsB_sound : ∀ {cs cs' : List XNode}, restatedKidsB cs cs' = true → RestatedKids cs cs'
  | [], [], _ => .nil
  | c :: cs, c' :: cs', h => by
    rw [restatedKidsB, Bool.and_eq_true] at h
    exact .cons (restatedB_sound h.1) (restatedKidsB_sound h.2)
  | [], _ :: _, h | _ :: _, [], h => by simp [restatedKidsB] at h
end

/-- `TextRestated`, as a check. -/
theorem textRestated_of {s s' : Str} (h : (match XmlText.readXml s, XmlText.readXml s' with
    | some e, some e' => restatedB (.elem e.1 e.2) (.elem e'.1 e'.2)
    | none, none => true
    | _, _ => false) = true) : TextRestated s s' := by
  cases he : XmlText.readXml s with
  | none =>
    cases he' : XmlText.readXml s' with
    | none => exact .none he he'
    | some e' => rw [he, he'] at h; cases h
  | some e =>
    cases he' : XmlText.readXml s' with
    | none => rw [he, he'] at h; cases h
    | some e' => rw [he, he'] at h; exact .doc he he' (restatedB_sound h)

namespace Sample

/-- The sample text with other prefixes, attributes in another order, another comment, other references to
characters and an unused namespace. -/
def restatedText : Str := c!"<Article
    lang='de' xmlns=\"urn:a\" xmlns:unused='urn:z' id='7'><!-- machine made -->
  <title >a &#60; b &#38; &quot;c&#34;\td&lt;i></title>
  <tag></tag>
  <b:user xmlns:b='urn:a'><b:name>Bo</b:name></b:user>
  <q:kind xmlns:q='urn:a' xmlns=''>news</q:kind>
</Article>"

/-- C74 for the sample. -/
theorem restated_reads : FromText sampleExt pgm c!"Article" restatedText (.ok textVal) :=
  (C74_text generated article_ident (by rfl) (textRestated_of (by decide +kernel)) _).1 text_reads

/-- C74 for an error: the element `title` is missing. -/
example (r : Res TextErr Val) : FromText sampleExt pgm c!"Article" c!"<Article xmlns='urn:a' id='1' lang='de'><kind>news</kind></Article>" r ↔
    FromText sampleExt pgm c!"Article" c!"<a:Article lang='de' id='1' xmlns:a='urn:a' ><a:kind >news</a:kind></a:Article>" r :=
  C74_text generated article_ident (by rfl) (textRestated_of (by decide +kernel)) r

end Sample

end Xsd
