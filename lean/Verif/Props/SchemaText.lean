import Verif.Lemmas.SchemaText
import Verif.Props.ErrorPlaces
/-!
# Errors point to the text of schema files (C68)
-/
namespace Xsd
open XmlText (readXml readXmlAt AtByte TagPos AttrPos NodePos InfoPos)

/-- There is one text at a row and a column. -/
theorem AtRowCol.unique {s : Str} {row col : Nat} {t t' : Str} (h : AtRowCol s row col t) (h' : AtRowCol s row col t') : t = t' := by
  obtain ⟨b, l, h1, h2, h3, h4, h5⟩ := h
  obtain ⟨b', l', h1', h2', h3', h4', h5'⟩ := h'
  have key : ∀ {a b : Str}, (b = [] ∨ ∃ c, b = c ++ ['\n']) → b.count '\n' = a.count '\n' → (a = [] ∨ ∃ c, a = c ++ ['\n']) →
      ∀ {u v : Str}, a ++ u = b ++ v → b.length ≤ a.length := by
    intro a b hb hc ha u v he
    rcases ha with rfl | ⟨a, rfl⟩
    · rcases hb with rfl | ⟨b, rfl⟩
      · simp
      · simp [List.count_append] at hc
    · by_cases hl : b.length ≤ (a ++ ['\n']).length
      · exact hl
      · exfalso
        rcases hb with rfl | ⟨c, rfl⟩
        · simp at hl
        · have h1 : (a ++ ['\n']) ++ u = c ++ ('\n' :: v) := by rw [he]; simp
          rw [List.append_eq_append_iff] at h1
          rcases h1 with ⟨d, hd, _⟩ | ⟨d, hd, _⟩
          · rw [hd] at hc
            simp [List.count_append] at hc
          · have h2 := congrArg List.length hd
            simp only [List.length_append, List.length_cons, List.length_nil] at h2 hl
            have h3 : d = [] := List.length_eq_zero_iff.1 (by omega)
            rw [h3, List.append_nil] at hd
            rw [hd] at hc
            simp [List.count_append] at hc
  have hc : b'.count '\n' = b.count '\n' := by omega
  have hlen : b.length = b'.length := by
    have e1 : b ++ (l ++ t) = b' ++ (l' ++ t') := by rw [← List.append_assoc, ← List.append_assoc, ← h1, ← h1']
    have k1 := key h3' hc h3 e1
    have k2 := key h3 hc.symm h3' e1.symm
    omega
  have hl : (b ++ l).length = (b' ++ l').length := by simp; omega
  rw [h1'] at h1
  exact (List.append_inj h1.symm hl).2

theorem XmlText.NodePos.inside {s : Str} {o : List (Option Str × Str)} {e f : Elem} (h : NodePos s o (.elem e.1 e.2)) (hi : Inside e f) :
    ∃ o, NodePos s o (.elem f.1 f.2) := by
  induction hi generalizing o with
  | refl => exact ⟨_, h⟩
  | kid hm _ ih =>
    cases h with
    | elem _ hs => exact ih (hs _ hm)

theorem XmlText.NodePos.info {s : Str} {o : List (Option Str × Str)} {i : ElemInfo} {cs : List XNode} (h : NodePos s o (.elem i cs)) : InfoPos s o i := by
  cases h with
  | elem h _ => exact h

theorem XmlText.Prefixed.local {nss : List (Option Str × Str)} {q : Str} {n : QName} (h : XmlText.Prefixed nss q n) : HasLocal q n.loc := by
  obtain ⟨p, _, h1, h2, _⟩ := h
  exact .inr ⟨p, h1, h2⟩

theorem XmlText.AttrsPos.mem {s : Str} {raw : List (Str × Str)} {ps : List Nat} (h : XmlText.AttrsPos s (raw.map Prod.fst) ps) {a : Str × Str} {p : Nat}
    (hm : (a, p) ∈ raw.zip ps) : AttrPos s p a.1 := by
  induction raw generalizing ps with
  | nil => cases hm
  | cons r raw ih =>
    cases h with
    | cons h hs =>
      rcases List.mem_cons.1 hm with hm | hm
      · cases hm; exact h
      · exact ih hs hm

/-- Where an element starts, there is its start tag. -/
theorem XmlText.InfoPos.tag {s : Str} {o : List (Option Str × Str)} {i : ElemInfo} (h : InfoPos s o i) : ∃ t, AtByte s i.start t ∧ TagAt i.name.loc t := by
  obtain ⟨q, _, _, ⟨rest, h1, h2⟩, _, _, _, h3, _⟩ := h
  refine ⟨_, h1, q, rest, rfl, ?_, h2⟩
  rcases h3 with h3 | h3
  · exact h3.local
  · exact .inl h3.1

/-- Where an attribute starts, there is its name. -/
theorem XmlText.InfoPos.attr {s : Str} {o : List (Option Str × Str)} {i : ElemInfo} (h : InfoPos s o i) {a : XAttr} (ha : a ∈ i.attrs) :
    ∃ t, AtByte s a.start t ∧ AttrAt a.loc t := by
  obtain ⟨_, raw, ps, _, h1, _, _, _, h2, _⟩ := h
  obtain ⟨n, h3, _, h4⟩ := h2 a ha
  obtain ⟨sp, rest, h5, h6⟩ := h1.mem h3
  refine ⟨_, h5, n, sp, rest, rfl, ?_, h6⟩
  rcases h4 with h4 | h4
  · exact h4.local
  · exact .inl h4.1

theorem Blames.points {x : Ext} {r : Elem} {s : Str} {o : List (Option Str × Str)} {e : Elem} (hp : NodePos s o (.elem e.1 e.2)) {err : XErr}
    (h : Blames x r err e) {n : Nat} (hn : err.start = some n) :
    ∃ t, AtByte s n t ∧ PointsAt err t := by
  have ht := hp.info.tag
  have ha := fun a (h : a ∈ e.1.attrs) => hp.info.attr h
  cases err with
  | xml => exact h.elim
  | missingChild c st =>
    cases hn
    obtain ⟨rfl, _⟩ := h
    obtain ⟨t, h1, h2⟩ := ht
    exact ⟨t, h1, _, h2⟩
  | missingAttribute c el st => cases hn; obtain ⟨rfl, rfl, _⟩ := h; exact ht
  | textExpected c st => cases hn; obtain ⟨rfl, rfl, _⟩ := h; exact ht
  | unsupportedAttribute c el st => cases hn; obtain ⟨_, ⟨a, h1, rfl, _, rfl⟩, _⟩ := h; exact ha a h1
  | unsupportedChild c p st =>
    cases hn
    obtain ⟨_, l, i, cs, r, h0, h2, rfl, _⟩ := h
    have h1 : XNode.elem i cs ∈ e.2 := h0 ▸ List.mem_append_right _ (.head _)
    cases hp with
    | elem _ hs =>
      obtain ⟨t, h3, h4⟩ := (hs _ h1).info.tag
      rw [h2] at h4
      exact ⟨t, h3, h4⟩
  | unsupportedElement c st => cases hn; obtain ⟨rfl, rfl, _⟩ := h; exact ht
  | unsupportedAttributeValue c v el st =>
    cases hn
    obtain ⟨rfl, a, h1, rfl, _, rfl | rfl, _⟩ := h
    · obtain ⟨t, h2, h3⟩ := ha a h1
      exact ⟨t, h2, .inl h3⟩
    · obtain ⟨t, h2, h3⟩ := ht
      exact ⟨t, h2, .inr h3⟩
  | unexpectedAttribute c el st => cases hn; obtain ⟨rfl, rfl, _⟩ := h; exact ht
  | missingElement c p st => cases hn; obtain ⟨rfl, rfl, _⟩ := h; exact ht
  | missingNamespace p st =>
    cases hn
    obtain ⟨a, h1, rfl, _⟩ := h
    obtain ⟨t, h2, h3⟩ := ha a h1
    exact ⟨t, h2, _, h3⟩
  | parseInt st =>
    cases hn
    obtain ⟨a, h1, rfl, h4⟩ := h
    obtain ⟨t, h2, h3⟩ := ha a h1
    refine ⟨t, h2, ?_⟩
    rcases h4 with ⟨h4, _⟩ | ⟨h4 | ⟨h4, _⟩, _⟩
    · rw [h4] at h3; exact .inl h3
    · rw [h4] at h3; exact .inr (.inl h3)
    · rw [h4] at h3; exact .inr (.inr h3)
  | parseDecimal st =>
    cases hn
    obtain ⟨a, h1, rfl, h4, _⟩ := h
    have := ha a h1
    rw [h4] at this
    exact this
  | unsupportedType c st =>
    cases hn
    obtain ⟨a, h1, rfl, _⟩ := h
    obtain ⟨t, h2, h3⟩ := ha a h1
    exact ⟨t, h2, _, h3⟩

/-- What an error of `Schema::parse_file` says, in terms of the texts of the files.

* An error of the parser names a file that is reached. Its text is a document; at the row and column of the error, there is the
  start of the element or attribute that the error names, and what the error says of it is true.
* Or its text is not well-formed.
* A file that cannot be read is reached and cannot be read. -/
def LocatedText (x : Ext) (T : TextFiles) (path : Str) : SErr → Prop
  | .xsd err file row col => Reached T.files path file ∧ ∃ s, T.read file = some s ∧
    ((err = .xml ∧ readXml s = none ∧ (row, col) = T.err s) ∨
      ∃ root e t, readXmlAt s = some root ∧ Inside root e ∧ Blames x root err e ∧ AtRowCol s row col t ∧ PointsAt err t)
  | .openFile file => Reached T.files path file ∧ T.read file = none
  | .notFound _ => False

/-- **C68**: errors point to the text that they are about, for every set of files, whatever the depth of includes. -/
theorem C68 (x : Ext) (T : TextFiles) (k : Nat) (path : Str) (e : SErr) (h : parseFile x T.files k path = .err e) : LocatedText x T path e := by
  have h := C41 x T.files k path e h
  cases e with
  | notFound n => exact h.elim
  | openFile file =>
    refine ⟨h.1, ?_⟩
    have := h.2
    simpa [TextFiles.files] using this
  | xsd err file row col =>
    refine ⟨h.1, ?_⟩
    have hread : T.files.read file = (T.read file).map (fileContent T.err) := rfl
    rcases h.2 with ⟨d, el, n, h1, h2, h3, h4, h5⟩ | ⟨h1, h2⟩
    · rw [hread, Option.map_eq_some_iff] at h1
      obtain ⟨s, hs, hd⟩ := h1
      unfold fileContent at hd
      split at hd
      · next root hroot =>
        cases hd
        refine ⟨s, hs, .inr ?_⟩
        obtain ⟨_, hp⟩ := (XmlText.readXmlAt_pos hroot).inside h2
        obtain ⟨t, h6, h7⟩ := Blames.points hp h3 h4
        exact ⟨root, el, t, hroot, h2, h3, XmlText.textPos_at h6 h5, h7⟩
      · cases hd
    · rw [hread, Option.map_eq_some_iff] at h2
      obtain ⟨s, hs, hd⟩ := h2
      unfold fileContent at hd
      split at hd
      · cases hd
      · next hroot =>
        cases hd
        refine ⟨s, hs, .inl ⟨h1, ?_, rfl⟩⟩
        rw [← XmlText.readXmlAt_bare, hroot]
        rfl

/-- **C68** (trees): the tree of a schema file has its names, attributes, positions and namespaces from the text of the file: for each element, there is a start tag in the text
that has its name, its attributes and declares the namespaces that are in scope there but not outside. Without positions and namespaces it
is the tree of `readXml`, and there is one exactly for well-formed texts. -/
theorem C68_document (s : Str) :
    (readXmlAt s).map bareElem = readXml s ∧ ∀ root, readXmlAt s = some root → NodePos s [] (.elem root.1 root.2) :=
  ⟨XmlText.readXmlAt_bare s, fun _ h => XmlText.readXmlAt_pos h⟩

end Xsd
