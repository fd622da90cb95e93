import Verif.Props.RoundTrip
/-!
# Written tags are balanced (C16)

No assumption on the schema, the module or the value: whenever a generated `to_xml` returns, start and end tags match.
-/
namespace Xsd

variable {x : Ext} {P : List TypeDef}

/-- Specification: a sequence of characters and elements, where an element is a start tag, such a sequence, and the end
tag. -/
inductive Balanced : List Ev → Prop where
  | nil : Balanced []
  | chars (s : Str) {b : List Ev} (hb : Balanced b) : Balanced (.chars s :: b)
  | elem (n : Str) (as ns : List (Str × Str)) {a b : List Ev} (ha : Balanced a) (hb : Balanced b) :
      Balanced (.start n as ns :: (a ++ .fin :: b))

theorem Balanced.append {a b : List Ev} (ha : Balanced a) (hb : Balanced b) : Balanced (a ++ b) := by
  induction ha with
  | nil => exact hb
  | chars s _ ih => exact .chars s ih
  | elem n as ns h1 _ _ ih =>
    have := Balanced.elem n as ns h1 ih
    simpa [List.append_assoc] using this

/-- A statement that writes balanced tags and keeps the kind of the context. -/
def BalW (body : Ctx → WRes) : Prop :=
  ∀ c evs c', body c = .ok (evs, c') → c'.virt = c.virt ∧ Balanced evs

theorem writeStart_cases (c : Ctx) : (c.writeStart.2.virt = c.virt) ∧
    ((c.virt = true ∧ c.writeStart.1 = []) ∨
     (c.virt = false ∧ c.writeStart.1 = [.start c.inner.name c.inner.attrs c.inner.nss])) := by
  obtain ⟨b, i⟩ := c
  cases b
  · exact ⟨rfl, .inr ⟨rfl, rfl⟩⟩
  · exact ⟨rfl, .inl ⟨rfl, rfl⟩⟩

theorem withTags_bal {tags : Bool} {body : Ctx → WRes} (h : BalW body) : BalW (withTags tags body) := by
  unfold withTags
  cases tags
  · exact h
  · intro c evs c' hr
    simp only [if_true, Res.bind_eq_ok] at hr
    obtain ⟨⟨evs1, c1⟩, h1, hr⟩ := hr
    cases hr
    obtain ⟨hv, hb⟩ := h _ _ _ h1
    obtain ⟨hs, hc⟩ := writeStart_cases c
    rw [hs] at hv
    refine ⟨hv, ?_⟩
    have hv : c1.virt = c.virt := hv
    rcases hc with ⟨hc, he⟩ | ⟨hc, he⟩
    · rw [hc] at hv
      simp only [he, Ctx.writeEnd, hv]
      simpa using hb
    · rw [hc] at hv
      simp only [he, Ctx.writeEnd, hv]
      exact .elem _ _ _ hb .nil

theorem forEach_bal {body : Val → Ctx → WRes} (h : ∀ v, BalW (body v)) (vs : List Val) : BalW (forEach body vs) := by
  induction vs with
  | nil => intro c evs c' hr; cases hr; exact ⟨rfl, .nil⟩
  | cons v vs ih =>
    intro c evs c' hr
    simp only [forEach, Res.bind_eq_ok] at hr
    obtain ⟨⟨e1, c1⟩, h1, ⟨e2, c2⟩, h2, hr⟩ := hr
    cases hr
    obtain ⟨a1, b1⟩ := h v _ _ _ h1
    obtain ⟨a2, b2⟩ := ih _ _ _ h2
    exact ⟨a2.trans a1, b1.append b2⟩

section
variable {callW : Str → Val → Ctx → WRes} (hcall : ∀ i v, BalW (callW i v))
include hcall

theorem writeVal_bal (w : ValWrite) (v : Val) : BalW (writeVal x callW w v) := by
  cases w with
  | chars t =>
    intro c evs c' hr
    simp only [writeVal] at hr
    split at hr
    · next s _ =>
      cases hr
      refine ⟨rfl, ?_⟩
      split
      · exact .nil
      · exact .chars s .nil
    · cases hr
  | fixed s => intro c evs c' hr; cases hr; exact ⟨rfl, .chars s .nil⟩
  | call i => exact hcall i v

theorem writeItem_bal (l : LeafWrite) (v : Val) : BalW (writeItem x callW l v) := by
  intro c evs c' hr
  unfold writeItem at hr
  have hb := withTags_bal (tags := l.tags) (writeVal_bal (x := x) hcall l.inner v)
  split at hr
  all_goals
    simp only [Res.bind_eq_ok] at hr
    obtain ⟨⟨e1, c1⟩, h1, hr⟩ := hr
    cases hr
    exact ⟨rfl, (hb _ _ _ h1).2⟩

theorem writeMany_bal (l : LeafWrite) (v : Val) : BalW (writeMany x callW l v) := by
  intro c evs c' hr
  unfold writeMany at hr
  split at hr
  · split at hr
    · exact forEach_bal (writeItem_bal hcall l) _ _ _ _ hr
    · cases hr
  · exact writeItem_bal hcall l v _ _ _ hr

theorem writeLeaf_bal (l : LeafWrite) (fs : List (Str × Val)) : BalW (writeLeaf x callW l fs) := by
  intro c evs c' hr
  unfold writeLeaf at hr
  split at hr
  · cases hr
  · split at hr
    · split at hr
      · cases hr; exact ⟨rfl, .nil⟩
      · exact writeMany_bal hcall l _ _ _ _ hr
      · cases hr
    · exact writeMany_bal hcall l _ _ _ _ hr

theorem writeLeaves_bal (fs : List (Str × Val)) (ls : List LeafWrite) : BalW (writeLeaves x callW fs ls) := by
  induction ls with
  | nil => intro c evs c' hr; cases hr; exact ⟨rfl, .nil⟩
  | cons l ls ih =>
    intro c evs c' hr
    simp only [writeLeaves, Res.bind_eq_ok] at hr
    obtain ⟨⟨e1, c1⟩, h1, ⟨e2, c2⟩, h2, hr⟩ := hr
    cases hr
    obtain ⟨a1, b1⟩ := writeLeaf_bal hcall l fs _ _ _ h1
    obtain ⟨a2, b2⟩ := ih _ _ _ h2
    exact ⟨a2.trans a1, b1.append b2⟩

theorem writeContent_bal (fs : List (Str × Val)) (w : ContentWrite) : BalW (writeContent x callW fs w) := by
  intro c evs c' hr
  unfold writeContent at hr
  split at hr
  · cases hr; exact ⟨rfl, .nil⟩
  · split at hr
    · exact writeVal_bal hcall _ _ _ _ _ hr
    · cases hr
  · exact writeLeaves_bal hcall fs _ _ _ _ hr

theorem writeVarItem_bal (w : VarWrite) (v : Val) : BalW (writeVarItem x callW w v) := by
  intro c evs c' hr
  simp only [writeVarItem, Res.bind_eq_ok] at hr
  obtain ⟨⟨e1, c1⟩, h1, hr⟩ := hr
  cases hr
  exact ⟨rfl, (withTags_bal (writeVal_bal hcall w.inner v) _ _ _ h1).2⟩

theorem writeChoice_bal (vs : List VarWrite) (v : Val) : BalW (writeChoice x callW vs v) := by
  intro c evs c' hr
  unfold writeChoice at hr
  split at hr
  · split at hr
    · cases hr
    · split at hr
      · split at hr
        · exact forEach_bal (writeVarItem_bal hcall _) _ _ _ _ hr
        · cases hr
      · exact writeVarItem_bal hcall _ _ _ _ _ hr
  · cases hr

end

theorem setAttr_virt (c : Ctx) (n v : Str) : (c.setAttr n v).virt = c.virt := by
  obtain ⟨b, i⟩ := c; cases b <;> rfl

theorem setNss_virt' (ns : List (Str × Str)) (c : Ctx) : (setNss ns c).virt = c.virt := by
  induction ns generalizing c with
  | nil => rfl
  | cons b ns ih =>
    show (setNss ns _).virt = _
    rw [ih]
    obtain ⟨v, i⟩ := c
    show (if b.1 = [] then Ctx.setDefaultNs _ b.2 else Ctx.setNs _ b.1 b.2).virt = _
    split <;> cases v <;> rfl

theorem writeAttr_virt {a : AttrWrite} {fs : List (Str × Val)} {c c' : Ctx} (h : writeAttr x P a fs c = .ok c') :
    c'.virt = c.virt := by
  unfold writeAttr at h
  split at h
  · cases h
  · split at h
    · split at h
      · cases h; rfl
      · split at h
        · cases h; exact setAttr_virt ..
        · cases h
      · cases h
    · split at h
      · cases h; exact setAttr_virt ..
      · cases h

theorem writeAttrs_virt {as : List AttrWrite} {fs : List (Str × Val)} {c c' : Ctx} (h : writeAttrs x P fs as c = .ok c') :
    c'.virt = c.virt := by
  induction as generalizing c with
  | nil => cases h; rfl
  | cons a as ih =>
    simp only [writeAttrs, Res.bind_eq_ok] at h
    obtain ⟨c1, h1, h⟩ := h
    exact (ih h).trans (writeAttr_virt h1)

theorem BalW.from_same {body : Ctx → WRes} (h : BalW body) {c c0 : Ctx} (hc : c0.virt = c.virt) {evs : List Ev} {c' : Ctx}
    (hr : body c0 = .ok (evs, c')) : c'.virt = c.virt ∧ Balanced evs :=
  ⟨(h _ _ _ hr).1.trans hc, (h _ _ _ hr).2⟩

theorem toXmlWriter_bal (k : Nat) (i : Str) (v : Val) : BalW (toXmlWriter x P k i v) := by
  induction k generalizing i v with
  | zero => intro c evs c' h; cases h
  | succ k ih =>
    intro c evs c' hr
    simp only [toXmlWriter] at hr
    split at hr
    · cases hr
    · next t _ =>
      have hs := setNss_virt' t.nss c
      unfold runTo at hr
      simp only at hr
      split at hr
      · split at hr
        · exact (withTags_bal (writeVal_bal ih _ _)).from_same hs hr
        · cases hr
      · split at hr
        · split at hr
          · refine (withTags_bal ?_).from_same hs hr
            intro c evs c' hr
            cases hr
            refine ⟨rfl, ?_⟩
            split
            · exact .nil
            · exact .chars _ .nil
          · cases hr
        · cases hr
      · split at hr
        · rw [Res.bind_eq_ok] at hr
          obtain ⟨c1, h1, hr⟩ := hr
          exact (withTags_bal (writeContent_bal ih _ _)).from_same ((writeAttrs_virt h1).trans hs) hr
        · cases hr
      · exact (withTags_bal (writeChoice_bal ih _ _)).from_same hs hr

/-- **C16.** For every module, type and value (of that type or not): if `to_xml` returns successfully, then what it has
written is balanced. -/
theorem C16_balanced {i : Str} {v : Val} {evs : List Ev} (h : ToXml x P i v (.ok evs)) : Balanced evs := by
  obtain ⟨_, k, h⟩ := h
  unfold toXml at h
  split at h
  · cases h
  · simp only [Res.bind_eq_ok] at h
    obtain ⟨⟨evs', c'⟩, h1, h⟩ := h
    cases h
    exact (toXmlWriter_bal k i v _ _ _ h1).2

/-- The number of elements that are open at the end of a sequence of events. -/
def depthAfter : List Ev → Int
  | [] => 0
  | .start _ _ _ :: es => 1 + depthAfter es
  | .fin :: es => -1 + depthAfter es
  | .chars _ :: es => depthAfter es

theorem depthAfter_append (a b : List Ev) : depthAfter (a ++ b) = depthAfter a + depthAfter b := by
  induction a with
  | nil => simp [depthAfter]
  | cons e a ih => cases e <;> simp only [List.cons_append, depthAfter, ih] <;> omega

/-- What `Balanced` says in terms of counting: all elements are closed at the end, and never more end tags than start
tags have been written. -/
theorem Balanced.depth {evs : List Ev} (h : Balanced evs) :
    depthAfter evs = 0 ∧ ∀ p s, evs = p ++ s → 0 ≤ depthAfter p := by
  induction h with
  | nil =>
    refine ⟨rfl, fun p s hp => ?_⟩
    have := List.append_eq_nil_iff.1 hp.symm
    rw [this.1]; simp [depthAfter]
  | @chars s b _ ih =>
    refine ⟨ih.1, fun p t hp => ?_⟩
    cases p with
    | nil => simp [depthAfter]
    | cons e p =>
      simp only [List.cons_append, List.cons.injEq] at hp
      rw [← hp.1]
      exact ih.2 p t hp.2
  | @elem n as ns a b _ _ iha ihb =>
    refine ⟨?_, fun p t hp => ?_⟩
    · simp only [depthAfter, depthAfter_append, iha.1, ihb.1]; omega
    · cases p with
      | nil => simp [depthAfter]
      | cons e p =>
        simp only [List.cons_append, List.cons.injEq] at hp
        rw [← hp.1]
        simp only [depthAfter]
        have hp := hp.2
        rcases List.append_eq_append_iff.1 hp with ⟨q, rfl, hq⟩ | ⟨q, rfl, hq⟩
        · rw [depthAfter_append, iha.1]
          cases q with
          | nil => simp [depthAfter]
          | cons e q =>
            simp only [List.cons_append, List.cons.injEq] at hq
            rw [← hq.1]
            have := ihb.2 q t hq.2
            simp only [depthAfter]; omega
        · have := iha.2 p q rfl
          omega

theorem C16_depth {i : Str} {v : Val} {evs : List Ev} (h : ToXml x P i v (.ok evs)) :
    depthAfter evs = 0 ∧ ∀ p s, evs = p ++ s → 0 ≤ depthAfter p := (C16_balanced h).depth

namespace Sample

/-- The events written for the sample value. -/
def written : List Ev :=
  [.start c!"Article" [(c!"id", c!"7"), (c!"lang", c!"de")] [([], c!"urn:a")],
   .start c!"title" [] [], .chars c!"Hi", .fin,
   .start c!"tag" [] [], .chars c!"a", .fin, .start c!"tag" [] [], .fin,
   .start c!"user" [] [([], c!"urn:a")], .start c!"name" [] [], .chars c!"Bo", .fin,
   .start c!"age" [] [], .chars c!"-3", .fin, .fin,
   .start c!"kind" [] [], .chars c!"news", .fin, .fin]

theorem val_written : ToXml sampleExt pgm c!"Article" val (.ok written) := ⟨(by intro h; cases h), 9, by rfl⟩

/-- The hypothesis of C16 is met, by a value with nested elements. -/
example : Balanced written := C16_balanced val_written

theorem written_doc : buildDoc written = some doc := by rfl

/-- The sample document represents the sample value exactly (the hypothesis of C11 and C14). -/
theorem doc_repr : DocRepr sampleExt .exact sch (nm c!"Article") val doc := by
  obtain ⟨evs, e1, h1, h2, h3, _⟩ := C12_stable generated numLaws deterministic faithful article_ident docType doc_decodes
  have := h1.unique val_written
  cases this
  rw [written_doc] at h2
  cases h2
  exact h3

example : FromXml sampleExt pgm c!"Article" ⟨doc⟩ (.ok val) :=
  C14_complete generated deterministic article_ident (by rfl) doc_repr

example : ∃ evs e1, ToXml sampleExt pgm c!"Article" val (.ok evs) ∧ buildDoc evs = some e1 ∧
    ∀ e2 : Elem, Indented (.elem e1.1 e1.2) (.elem e2.1 e2.2) → FromXml sampleExt pgm c!"Article" ⟨e2⟩ (.ok val) :=
  C11_roundtrip generated numLaws deterministic faithful article_ident docType ⟨doc, doc_repr⟩

end Sample

end Xsd
