import Verif.Lemmas.XmlTree
/-!
# The text that xml-rs writes is a text of the event stream
-/
namespace Xsd
namespace XmlText

theorem escText_spells {k : Nat} {s : Str} (h : ∀ c ∈ s, isXmlChar c = true ∧ c ≠ '\r') : ∃ k', SpellsText k s (s.flatMap escText) k' := by
  induction s generalizing k with
  | nil => exact ⟨k, .nil⟩
  | cons c s ih =>
    have hs : ∀ d ∈ s, isXmlChar d = true ∧ d ≠ '\r' := fun d hd => h d (by simp [hd])
    obtain ⟨hx, hr⟩ := h c (by simp)
    rw [List.flatMap_cons]
    unfold escText
    split
    · next e => subst e; obtain ⟨k', hk⟩ := ih (k := 0) hs; exact ⟨k', .ref hx .lt hk⟩
    · next h1 =>
      split
      · next e => subst e; obtain ⟨k', hk⟩ := ih (k := 0) hs; exact ⟨k', .ref hx .gt hk⟩
      · next h2 =>
        split
        · next e => subst e; obtain ⟨k', hk⟩ := ih (k := 0) hs; exact ⟨k', .ref hx .amp hk⟩
        · next h3 =>
          obtain ⟨k', hk⟩ := ih (k := if c = ']' then min 2 (k + 1) else 0) hs
          exact ⟨k', .lit hx h1 h3 hr (fun e => absurd e h2) hk⟩

theorem escAttr_spells {s : Str} (h : ∀ c ∈ s, isXmlChar c = true ∧ c ≠ '\t') : SpellsAttr '"' s (s.flatMap escAttr) := by
  induction s with
  | nil => exact .nil
  | cons c s ih =>
    have ih := ih (fun d hd => h d (by simp [hd]))
    obtain ⟨hx, hr⟩ := h c (by simp)
    rw [List.flatMap_cons]
    unfold escAttr
    split
    · next e => subst e; exact .ref hx .lt ih
    split
    · next e => subst e; exact .ref hx .gt ih
    split
    · next e => subst e; exact .ref hx .amp ih
    split
    · next e => subst e; exact .ref hx .quot ih
    split
    · next e => subst e; exact .ref hx .apos ih
    split
    · next e => subst e; exact .ref hx (.hex (ds := c!"A") (.one (d := 10) (.inr rfl) (by decide))) ih
    split
    · next e => subst e; exact .ref hx (.hex (ds := c!"D") (.one (d := 13) (.inr rfl) (by decide))) ih
    · next h1 _ h3 h4 _ h6 h7 => exact .lit hx h1 h3 ⟨hr, h6, h7⟩ h4 ih

theorem emitAttr_text {as : List (Str × Str)} (h : ∀ a ∈ as, ∀ c ∈ a.2, isXmlChar c = true ∧ c ≠ '\t') : AttrsText as (as.flatMap emitAttr) := by
  induction as with
  | nil => exact .nil
  | cons a as ih =>
    obtain ⟨n, v⟩ := a
    have h1 := AttrsText.cons (a := n) (w := c!" ") (w1 := []) (w2 := []) (q := '"') (by simp [Blank]) (by simp) (by simp [Blank]) (by simp [Blank]) (.inl rfl)
      (escAttr_spells (h (n, v) (by simp))) (ih (fun a ha => h a (by simp [ha])))
    rw [List.flatMap_cons]
    simpa [emitAttr] using h1

theorem newLine_blank (n : Nat) : Blank (newLine n) := by
  intro c hc
  rcases List.mem_cons.1 hc with rfl | hc
  · simp
  · simp [(List.mem_replicate.1 hc).2]

/-- What the emitter remembers and what has been written. -/
structure Emu (o r : Open) : Prop where
  name : r.name = o.name
  elems : r.elems = o.elems
  text : r.text = true → o.text = true
  scope : ∀ p u, u ≠ [] → alookup o.scope p = some u → alookup r.scope p = some u

/-- As `Emu`, for all open elements. -/
inductive EmuL : List Open → List Open → Prop where
  | nil : EmuL [] []
  | cons {o r : Open} {os rs : List Open} (h : Emu o r) (hs : EmuL os rs) : EmuL (o :: os) (r :: rs)

theorem EmuL.addElem {os rs : List Open} (h : EmuL os rs) : EmuL (addElem os) (XmlText.addElem rs) := by
  cases h with
  | nil => exact .nil
  | cons h hs => exact .cons ⟨h.name, rfl, h.text, h.scope⟩ hs

theorem EmuL.scope {os rs : List Open} (h : EmuL os rs) {p u : Str} (hu : u ≠ []) (hp : alookup (openScope os) p = some u) :
    alookup (openScope rs) p = some u := by
  cases h with
  | nil => exact hp
  | cons h hs => exact h.scope p u hu hp

theorem EmuL.decls {os rs : List Open} (h : EmuL os rs) {n : Str} {as nss : List (Str × Str)} (hw : WellNamed (.start n as nss)) :
    DeclsFor (openScope rs) nss (tagDecls (openScope os) nss) := by
  refine ⟨_, rfl, fun b hb => ⟨fun hf e => ?_, fun hf => ?_⟩⟩
  · subst e; simp at hf
  · by_cases h0 : b = ([], [])
    · exact .inl h0
    · refine .inr ?_
      obtain ⟨_, h2, h3, h4, _, _⟩ := hw.2.2.2 b hb h0
      have e1 : (b.1 != c!"xml") = true := by simpa using h3
      have e2 : (b.1 != c!"xmlns") = true := by simpa using h4
      have e3 : (!(b.1 == [] && b.2 == [])) = true := by
        have : (b.2 == []) = false := by simpa using h2
        rw [this]; simp
      rw [e1, e2, e3] at hf
      simp only [Bool.and_self, Bool.true_and, bne_eq_false_iff_eq] at hf
      exact h.scope h2 hf

theorem EmuL.start {os rs : List Open} (h : EmuL os rs) {n : Str} {as nss : List (Str × Str)} (hw : WellNamed (.start n as nss)) :
    EmuL (⟨n, false, false, nss ++ openScope os⟩ :: XmlText.addElem os)
      (⟨n, false, false, tagDecls (openScope os) nss ++ openScope rs⟩ :: XmlText.addElem rs) := by
  refine .cons ⟨rfl, rfl, fun e => (by cases e), fun p u hu hp => ?_⟩ h.addElem
  obtain ⟨f, hd, hf⟩ := h.decls hw
  simp only at hp ⊢
  rw [hd]
  rw [alookup_append] at hp ⊢
  cases hl : alookup nss p with
  | none =>
    rw [hl] at hp
    rw [alookup_filter_none hl]
    exact h.scope hu hp
  | some v =>
    rw [hl] at hp
    simp only [Option.some_or, Option.some.injEq] at hp
    subst hp
    rw [alookup_filter_some hw.2.2.1 hl]
    cases hfb : f (p, v) with
    | true => rfl
    | false =>
      rcases (hf _ (alookup_mem hl)).2 hfb with e | e
      · cases e; exact absurd rfl hu
      · exact e

/-- The depth of the tree being built. -/
def InB : BState → List Open → Prop
  | .before, st => st = []
  | .inside _ r, st => st.length = r.length + 1
  | .done _, st => st = []

theorem addElem_length (st : List Open) : (addElem st).length = st.length := by cases st <;> rfl

theorem addChars_length (st : List Open) : (addChars st).length = st.length := by cases st <;> rfl

theorem emitEvs_pending (st : List Open) (n s : Str) (as nss : List (Str × Str)) (evs : List Ev) :
    emitEvs st true (.start n as nss :: evs) = '>' :: emitEvs st false (.start n as nss :: evs) ∧
    emitEvs st true (.chars s :: evs) = '>' :: emitEvs st false (.chars s :: evs) := by
  constructor <;> simp [emitEvs]

/-- What the emitter writes is a text of the events. -/
theorem emitEvs_written {evs : List Ev} (hw : ∀ ev ∈ evs, WellNamed ev) (hx : ∀ ev ∈ evs, Expressible ev) {B : BState} {e : Elem}
    (hB : brun B evs = some (.done e)) {os rs : List Open} (hI : InB B os) (h : EmuL os rs) :
    (∀ k, Written rs k evs (emitEvs os false evs)) ∧
    (os ≠ [] → (∃ t, emitEvs os true evs = '>' :: t ∧ Written rs 0 evs t) ∨
      ∃ evs' t, evs = .fin :: evs' ∧ emitEvs os true evs = c!" />" ++ t ∧ Written rs.tail 0 evs' t) := by
  induction evs generalizing B os rs with
  | nil =>
    simp only [brun, Option.some.injEq] at hB
    subst hB
    simp only [InB] at hI
    subst hI
    cases h
    exact ⟨fun k => .nil (by simp [Blank, emitEvs]), fun hn => absurd rfl hn⟩
  | cons ev evs ih =>
    obtain ⟨B1, h1, h2⟩ := brun_cons hB
    have ih' : ∀ {os rs : List Open}, InB B1 os → EmuL os rs → _ := fun a b =>
      ih (fun ev he => hw ev (by simp [he])) (fun ev he => hx ev (by simp [he])) h2 a b
    have hwn := hw ev (by simp)
    have hxn := hx ev (by simp)
    cases ev with
    | start n as nss =>
      have first : ∀ k, Written rs k (.start n as nss :: evs) (emitEvs os false (.start n as nss :: evs)) := by
        intro k
        have hI1 : InB B1 (⟨n, false, false, nss ++ openScope os⟩ :: addElem os) := by
          cases B with
          | before =>
            simp only [bstep, Option.map_eq_some_iff] at h1
            obtain ⟨f, _, rfl⟩ := h1
            simp only [InB] at hI; subst hI; rfl
          | inside t r =>
            simp only [bstep, Option.map_eq_some_iff] at h1
            obtain ⟨f, _, rfl⟩ := h1
            simp only [InB] at hI
            simp [InB, addElem_length, hI]
          | done e => cases h1
        have hta : TagText (openScope rs) n as nss (tagDecls (openScope os) nss) (n ++ (((tagDecls (openScope os) nss).map declAttr ++ as).flatMap emitAttr ++ [])) ∧
            TagText (openScope rs) n as nss (tagDecls (openScope os) nss) (n ++ (((tagDecls (openScope os) nss).map declAttr ++ as).flatMap emitAttr ++ c!" ")) := by
          have hat : AttrsText ((tagDecls (openScope os) nss).map declAttr ++ as) (((tagDecls (openScope os) nss).map declAttr ++ as).flatMap emitAttr) := by
            refine emitAttr_text fun a ha => ?_
            rcases List.mem_append.1 ha with ha | ha
            · obtain ⟨b, hb, rfl⟩ := List.mem_map.1 ha
              exact hxn.2 b (List.mem_filter.1 hb).1
            · exact hxn.1 a ha
          exact ⟨⟨h.decls hwn, _, _, hat, by simp [Blank], rfl⟩, ⟨h.decls hwn, _, _, hat, by simp [Blank], rfl⟩⟩
        have hind : Blank (indentBefore os) ∧ (indentBefore os = [] ∨ spaceBefore rs) := by
          cases h with
          | nil => exact ⟨newLine_blank _, .inr trivial⟩
          | @cons o r os rs ho hs =>
            simp only [indentBefore]
            split
            · exact ⟨by simp [Blank], .inl rfl⟩
            · next ht => exact ⟨newLine_blank _, .inr (by
                simp only [spaceBefore]
                cases hr : r.text with
                | false => rfl
                | true => exact absurd (ho.text hr) ht)⟩
        rcases (ih' hI1 (h.start hwn)).2 (by simp) with ⟨t, ht1, ht2⟩ | ⟨evs', t, rfl, ht1, ht2⟩
        · have := Written.start (k := k) hind.1 hind.2 hta.1 ht2
          simpa [emitEvs, ht1] using this
        · have := Written.empty (k := k) hind.1 hind.2 hta.2 ht2
          have ht : emitEvs (addElem os) false evs' = t := by simpa [emitEvs] using ht1
          simpa [emitEvs, ht] using this
      exact ⟨first, fun _ => .inl ⟨_, (emitEvs_pending os n [] as nss evs).1, first 0⟩⟩
    | chars s =>
      have first : ∀ k, Written rs k (.chars s :: evs) (emitEvs os false (.chars s :: evs)) := by
        intro k
        cases h with
        | nil =>
          have hsp : s.all isXmlSpace = true ∧ InB B1 [] := by
            cases B with
            | before =>
              simp only [bstep] at h1
              split at h1
              · next hs => cases h1; exact ⟨hs, rfl⟩
              · cases h1
            | inside t r => simp [InB] at hI
            | done e =>
              simp only [bstep] at h1
              split at h1
              · next hs => cases h1; exact ⟨hs, rfl⟩
              · cases h1
          have hb : Blank s := by
            intro c hc
            have h3 := List.all_eq_true.1 hsp.1 c hc
            simp only [isXmlSpace, Bool.or_eq_true, beq_iff_eq] at h3
            rcases h3 with ((h3 | h3) | h3) | h3
            · exact .inl h3
            · exact .inr (.inl h3)
            · exact .inr (.inr h3)
            · exact absurd h3 (hxn c hc).2
          have hesc : s.flatMap escText = s := by
            clear hxn hwn hx hw ih ih' hB h1 hsp
            induction s with
            | nil => rfl
            | cons c s ihs =>
              obtain ⟨h3, h4⟩ := blank_cons hb
              rw [List.flatMap_cons, ihs h4]
              rcases h3 with rfl | rfl | rfl <;> rfl
          have := Written.outer (k := k) hb ((ih' hsp.2 .nil).1 _)
          simpa [emitEvs, hesc, addChars] using this
        | @cons o r os rs ho hs =>
          have hI1 : InB B1 (addChars (o :: os)) := by
            cases B with
            | before => simp [InB] at hI
            | inside t r =>
              simp only [bstep, Option.some.injEq] at h1
              subst h1
              exact hI
            | done e => simp [InB] at hI
          obtain ⟨k', hk⟩ := escText_spells (k := k) hxn
          have := Written.chars (o := r) (st := rs) hk ((ih' hI1 (.cons (r := { r with text := r.text || s != [] })
            ⟨ho.name, ho.elems, fun _ => rfl, ho.scope⟩ hs)).1 _)
          simpa [emitEvs] using this
      exact ⟨first, fun _ => .inl ⟨_, (emitEvs_pending os [] s [] [] evs).2, first 0⟩⟩
    | fin =>
      cases h with
      | nil =>
        cases B with
        | before => cases h1
        | inside t r => simp [InB] at hI
        | done e => cases h1
      | @cons o r os rs ho hs =>
        have hI1 : InB B1 os := by
          cases B with
          | before => cases h1
          | done e => cases h1
          | inside t l =>
            cases l with
            | nil =>
              simp only [bstep, Option.some.injEq] at h1
              subst h1
              simp only [InB, List.length_cons, List.length_nil] at hI ⊢
              exact List.length_eq_zero_iff.1 (by omega)
            | cons u l =>
              simp only [bstep, Option.some.injEq] at h1
              subst h1
              simp only [InB, List.length_cons] at hI ⊢
              omega
        have hrest := (ih' hI1 hs).1 0
        refine ⟨fun k => ?_, fun _ => .inr ⟨evs, _, rfl, rfl, hrest⟩⟩
        have hsp : (if o.elems && !o.text then newLine os.length else []) = [] ∨ (r.text = false ∧ r.elems = true) := by
          split
          · next hc =>
            simp only [Bool.and_eq_true, Bool.not_eq_true'] at hc
            refine .inr ⟨?_, ho.elems.trans hc.1⟩
            cases hr : r.text with
            | false => rfl
            | true => rw [ho.text hr] at hc; cases hc.2
          · exact .inl rfl
        have hbl : Blank (if o.elems && !o.text then newLine os.length else []) := by
          split
          · exact newLine_blank _
          · simp [Blank]
        have := Written.fin (o := r) (st := rs) (k := k) (w' := []) hbl (by simp [Blank]) hsp hrest
        rw [ho.name] at this
        simpa [emitEvs] using this

/-- Reading the text that `to_xml` returns gives the tree that the events denote, up to white space. -/
theorem readXml_emit {evs : List Ev} (hw : ∀ ev ∈ evs, WellNamed ev) (hx : ∀ ev ∈ evs, Expressible ev) {e : Elem} (he : buildDoc evs = some e) :
    ∃ e', readXml (emitXml evs) = some e' ∧ Indented (.elem e.1 e.2) (.elem e'.1 e'.2) := by
  have hB : brun .before evs = some (.done e) := by
    unfold buildDoc at he
    split at he
    · next h => cases he; exact h
    · cases he
  have h := (emitEvs_written hw hx hB (os := []) rfl .nil).1 0
  exact readXml_written (b := c!"version=\"1.0\" encoding=\"UTF-8\"") (by unfold Plain; decide) (by decide) h hw he

end XmlText
end Xsd
