import Verif.Lemmas.CleanText
import Verif.Lemmas.XmlChars
import Verif.Lemmas.TreeIndent
import Verif.Props.TreeEndToEnd
/-!
# Texts (C67)

`from_xml` reads what `to_xml` writes, as text.
-/
namespace Xsd
open XmlText (readXml emitXml NoTabs ValAll CleanNumbers CleanCode Written)

section
variable {x : Ext} {S : SchemaContext} {P : List TypeDef}

/-- `from_xml` of a text that can be read is `from_xml` of the tree. -/
theorem FromText.of_read {i s : Str} {e : Elem} (he : readXml s = some e) {v : Val} : FromText x P i s (.ok v) ↔ FromXml x P i ⟨e⟩ (.ok v) := by
  refine ⟨fun ⟨_, k, h⟩ => ⟨nofun, k, ?_⟩, fun ⟨_, k, h⟩ => ⟨nofun, k, ?_⟩⟩
  · unfold fromXmlText at h
    rw [he] at h
    simp only at h
    split at h
    · next h' => rw [h']; injection h with h; rw [h]
    · exact absurd h nofun
    · exact absurd h nofun
    · exact absurd h nofun
  · unfold fromXmlText
    rw [he]
    simp only [h]

theorem FromText.ok_iff {i s : Str} {v : Val} : FromText x P i s (.ok v) ↔ ∃ e, readXml s = some e ∧ FromXml x P i ⟨e⟩ (.ok v) := by
  refine ⟨fun h => ?_, fun ⟨e, he, h⟩ => (FromText.of_read he).2 h⟩
  cases he : readXml s with
  | some e => exact ⟨e, rfl, (FromText.of_read he).1 h⟩
  | none =>
    obtain ⟨_, k, h⟩ := h
    unfold fromXmlText at h
    rw [he] at h
    exact absurd h nofun

theorem ToText.ok_iff {i : Str} {v : Val} {t : Str} : ToText x P i v (.ok t) ↔ ∃ evs, ToXml x P i v (.ok evs) ∧ t = emitXml evs := by
  refine ⟨fun ⟨_, k, h⟩ => ?_, fun ⟨evs, ⟨_, k, h⟩, e⟩ => ⟨nofun, k, ?_⟩⟩
  · unfold toXmlText at h
    split at h
    · next evs h' => injection h with h; exact ⟨evs, ⟨nofun, k, h'⟩, h.symm⟩
    · exact absurd h nofun
    · exact absurd h nofun
    · exact absurd h nofun
  · unfold toXmlText
    rw [h, e]

/-- Texts that cannot be read give the error of the XML library; others what the reader of the tree gives. -/
theorem FromText.of_tree {i s : Str} {e : Elem} (he : readXml s = some e) {r : Res DErr Val} (h : FromXml x P i ⟨e⟩ r) (hp : r ≠ .panic) :
    ∃ r', FromText x P i s r' ∧ r' ≠ .panic := by
  obtain ⟨hd, k, h⟩ := h
  cases r with
  | ok v => exact ⟨.ok v, ⟨nofun, k, by unfold fromXmlText; rw [he]; simp only [h]⟩, nofun⟩
  | err d => exact ⟨.err (.decode d), ⟨nofun, k, by unfold fromXmlText; rw [he]; simp only [h]⟩, nofun⟩
  | panic => exact absurd rfl hp
  | diverge => exact absurd rfl hd

theorem FromText.of_none {i s : Str} (he : readXml s = none) : FromText x P i s (.err .xml) :=
  ⟨nofun, 0, by unfold fromXmlText; rw [he]⟩

/-- **C67**, characters: what is read from a text consists of characters of XML. -/
theorem C67_characters (G : Generated x S P) {n : Name} {i : Str} (hi : typeIdent x n = .ok i) (hn : (S.get n).isSome = true) {s : Str} {v : Val}
    (h : FromText x P i s (.ok v)) : ValAll (fun c => XmlText.isXmlChar c = true) v := by
  obtain ⟨e, he, h⟩ := FromText.ok_iff.1 h
  exact XmlText.docRepr_all (XmlText.readXml_chars he) (C13_sound G hi hn h)

/-- The strings in a value have only characters that occur in the texts and attribute values of the document. -/
theorem C67_from_document (G : Generated x S P) {n : Name} {i : Str} (hi : typeIdent x n = .ok i) (hn : (S.get n).isSome = true) {s : Str} {e : Elem}
    {v : Val} (he : readXml s = some e) {p : Char → Prop} (hp : XmlText.ElemAll p e) (h : FromText x P i s (.ok v)) : ValAll p v :=
  XmlText.docRepr_all hp (C13_sound G hi hn ((FromText.of_read he).1 h))

/-- What is written for a value of characters of XML is read as a document, with some white space added. -/
theorem text_of_events (hc : CleanNumbers x) (hP : CleanCode P) {i : Str} {v : Val} (hv : ValAll (fun c => XmlText.isXmlChar c = true) v)
    (hk : WritesKept x P i v) {evs : List Ev} (h : ToXml x P i v (.ok evs)) {e : Elem} (he : buildDoc evs = some e) :
    ∃ e', readXml (emitXml evs) = some e' ∧ Indented (.elem e.1 e.2) (.elem e'.1 e'.2) := by
  obtain ⟨_, k, hk'⟩ := id h
  have hg := XmlText.toXml_good (fun _ h => h.1) hc hP hv hk'
  exact XmlText.readXml_emit (fun ev he => (hg ev he).1) (fun ev he => XmlText.expressible_of (hg ev he).2 (hk evs h ev he)) he

/-- The same for any writer, and any value. -/
theorem text_of_written (hc : CleanNumbers x) (hP : CleanCode P) {i : Str} {v : Val} {evs : List Ev}
    (h : ToXml x P i v (.ok evs)) {e : Elem} (he : buildDoc evs = some e) {b t : Str} (hb : XmlText.Plain b) (hb' : '?' ∉ b) (hw : Written [] 0 evs t) :
    ∃ e', readXml (c!"<?xml " ++ b ++ c!"?>" ++ t) = some e' ∧ Indented (.elem e.1 e.2) (.elem e'.1 e'.2) := by
  obtain ⟨_, k, hk⟩ := id h
  exact XmlText.readXml_written hb hb' hw (fun ev he => (XmlText.toXml_good (p := fun _ => True) (fun _ _ => trivial) hc hP (ValAll.any v) hk ev he).1) he

/-- Values without tabs and carriage returns are written so that they come back. -/
theorem NoTabs.kept (hc : CleanNumbers x) (hP : CleanCode P) {i : Str} {v : Val} (hv : NoTabs v) : WritesKept x P i v := by
  intro evs h ev he
  obtain ⟨_, k, hk⟩ := h
  exact XmlText.kept_of (XmlText.toXml_good (fun _ h => h.2) hc hP hv hk ev he).2

/-- **C67**, any writer. Whatever is read from a text can be written, and every text that an XML writer may produce for the events — whatever
characters it escapes, however it breaks lines, quotes attributes and repeats namespace declarations — is read as the same value. -/
theorem C67_any_writer_partial (G : Generated x S P) (hx : x.NumLaws) (hdet : Deterministic x S) (hS : Faithful x S) {n : Name}
    {i : Str} (hi : typeIdent x n = .ok i) (hn : DocType S n) (hc : CleanNumbers x) (hP : CleanCode P) {s : Str} {v : Val}
    (h : FromText x P i s (.ok v)) :
    ∃ evs, ToXml x P i v (.ok evs) ∧ ∀ b t, XmlText.Plain b → '?' ∉ b → Written [] 0 evs t →
      FromText x P i (c!"<?xml " ++ b ++ c!"?>" ++ t) (.ok v) := by
  obtain ⟨e, _, h⟩ := FromText.ok_iff.1 h
  obtain ⟨evs, e1, h1, h2, _, h4⟩ := C12_stable G hx hdet hS hi hn h
  refine ⟨evs, h1, fun b t hb hb' hw => ?_⟩
  obtain ⟨e2, h5, h6⟩ := text_of_written hc hP h1 h2 hb hb' hw
  exact FromText.ok_iff.2 ⟨e2, h5, h4 e2 h6⟩

/-- **C67**. Whatever is read from a text, valid or not, is written, and what is written is a text that is read as the same value: if no text with
a carriage return and no attribute value with a tab is written. Without that it is false (`C67_return_false`, `C67_tab_false`). -/
theorem C67_stable_partial (G : Generated x S P) (hx : x.NumLaws) (hdet : Deterministic x S) (hS : Faithful x S) {n : Name}
    {i : Str} (hi : typeIdent x n = .ok i) (hn : DocType S n) (hc : CleanNumbers x) (hP : CleanCode P) {s : Str} {v : Val}
    (h : FromText x P i s (.ok v)) : ∃ t, ToText x P i v (.ok t) ∧ (WritesKept x P i v → FromText x P i t (.ok v)) := by
  have hv := C67_characters G hi (tagged_isSome hn.1) h
  obtain ⟨e, _, h⟩ := FromText.ok_iff.1 h
  obtain ⟨evs, e1, h1, h2, _, h4⟩ := C12_stable G hx hdet hS hi hn h
  refine ⟨_, ToText.ok_iff.2 ⟨evs, h1, rfl⟩, fun hk => ?_⟩
  obtain ⟨e2, h6, h7⟩ := text_of_events hc hP hv hk h1 h2
  exact FromText.ok_iff.2 ⟨e2, h6, h4 e2 h7⟩

/-- **C67**, for documents: if no text and no attribute value of the document has a tab or a carriage return, what is written comes back. -/
theorem C67_document_partial (G : Generated x S P) (hx : x.NumLaws) (hdet : Deterministic x S) (hS : Faithful x S) {n : Name}
    {i : Str} (hi : typeIdent x n = .ok i) (hn : DocType S n) (hc : CleanNumbers x) (hP : CleanCode P) {s : Str} {e : Elem} {v : Val}
    (he : readXml s = some e) (hs : XmlText.ElemAll (fun c => c ≠ '\t' ∧ c ≠ '\r') e) (h : FromText x P i s (.ok v)) :
    ∃ t, ToText x P i v (.ok t) ∧ FromText x P i t (.ok v) := by
  obtain ⟨t, h1, h2⟩ := C67_stable_partial G hx hdet hS hi hn hc hP h
  exact ⟨t, h1, h2 (NoTabs.kept hc hP (C67_from_document G hi (tagged_isSome hn.1) he hs h))⟩

/-- **C67**, for values: every value that a document represents is read back from the text written for it. -/
theorem C67_roundtrip_partial (G : Generated x S P) (hx : x.NumLaws) (hdet : Deterministic x S) (hS : Faithful x S) {n : Name}
    {i : Str} (hi : typeIdent x n = .ok i) (hn : DocType S n) (hc : CleanNumbers x) (hP : CleanCode P) {v : Val}
    (hv : ∃ e, DocRepr x .exact S n v e) (hcv : ValAll (fun c => XmlText.isXmlChar c = true) v) :
    ∃ t, ToText x P i v (.ok t) ∧ (WritesKept x P i v → FromText x P i t (.ok v)) := by
  obtain ⟨evs, e1, h1, h2, h4⟩ := C11_roundtrip G hx hdet hS hi hn hv
  refine ⟨_, ToText.ok_iff.2 ⟨evs, h1, rfl⟩, fun hk => ?_⟩
  obtain ⟨e2, h6, h7⟩ := text_of_events hc hP hcv hk h1 h2
  exact FromText.ok_iff.2 ⟨e2, h6, h4 e2 h7⟩

end

namespace Tree
open Xsd.Flat (Names TypeOf)
variable {x : Ext} {F : Files} {path : Str} {k : Nat} {P : PSchema}

/-- `v` is written, as the text of a valid document that is read as `v`: by `emitXml` if what it writes comes back, and by any other writer. -/
def WritesText (x : Ext) (F : Files) (path : Str) (occ : Rule) (q : QName) (ds : List TypeDef) (i : Str) (v : Val) : Prop :=
  ∃ evs, ToXml x ds i v (.ok evs) ∧ ToText x ds i v (.ok (emitXml evs)) ∧
    (WritesKept x ds i v → ∃ e, readXml (emitXml evs) = some e ∧ ValidDoc x F path false occ q e ∧ FromText x ds i (emitXml evs) (.ok v)) ∧
    ∀ b t, XmlText.Plain b → '?' ∉ b → Written [] 0 evs t → ∃ e, readXml (c!"<?xml " ++ b ++ c!"?>" ++ t) = some e ∧
      ValidDoc x F path false occ q e ∧ FromText x ds i (c!"<?xml " ++ b ++ c!"?>" ++ t) (.ok v)

/-- **C67**, from schema files to texts, under the requirements of `C65_partial`, when the names and strings in the code are those of XML. For every top-level
element and type `q`, with the functions `from_xml` and `to_xml` of its type,

* reading ends without panic, for every text, well-formed or not;
* the text of every valid document in which no choice is left empty, and the members of an `xs:all` with optional members are in the declared order, is read;
* whatever is read is the text of a document that is valid up to the number of repetitions and what comes after the declared content, and leaves no choice
  empty;
* the value of such a valid document is written as the text of a valid document, which is read as the same value, if no carriage returns are written in texts and no
  tabs in attribute values;
* without that condition, every text that an XML writer may produce for what is written is the text of a valid document and is read as the same value;
* the same, up to the number of repetitions, holds for whatever is read;
* for every value of the type some text is written. -/
theorem C67_files_partial (hxn : x.NameLaws) (hxu : x.NumLaws) (hc : CleanNumbers x) (B : TreeFiles F path) (h : parseFile x F k path = .ok P)
    (hcount : TypeCount F path P.context.elements.length) {ds : List TypeDef} (hds : generateAll x P.context = .ok ds)
    (hS : SchemaOK x P.context) (hP : CleanCode ds) :
    ∀ q d c, Top F path q d c → ∃ n i, Names P.context.namespaces n q ∧ (P.context.get n).isSome = true ∧ TypeOf x q i ∧
      (∀ s, ∃ r, FromText x ds i s r ∧ r ≠ .panic) ∧
      (∀ s e, readXml s = some e → ValidDoc x F path false OccursTidy q e → ∃ v, FromText x ds i s (.ok v)) ∧
      (∀ s v, FromText x ds i s (.ok v) → ∃ e, readXml s = some e ∧ ValidDoc x F path true (Loosely true) q e) ∧
      (DocType P.context n →
        (∀ s e v, readXml s = some e → ValidDoc x F path false OccursTidy q e → FromText x ds i s (.ok v) → WritesText x F path OccursTidy q ds i v) ∧
        (∀ s v, FromText x ds i s (.ok v) → WritesText x F path (Loosely true) q ds i v) ∧
        (∀ v, HasTy ds (.named i) v → ∃ t, ToText x ds i v (.ok t))) := by
  have G := hS.build.generated hxn (parsed_keys h) hds
  intro q d c ht
  obtain ⟨n, i, hn, hsome, hty, h1, h2, h3, h4⟩ := (C65_partial hxn hxu B h hcount hds hS).2 q d c ht
  have hi : typeIdent x n = .ok i := by
    unfold typeIdent
    rw [hn.1]
    exact hty
  refine ⟨n, i, hn, hsome, hty, ?_, ?_, ?_, fun hd => ?_⟩
  · intro s
    cases he : readXml s with
    | none => exact ⟨_, FromText.of_none he, nofun⟩
    | some e =>
      obtain ⟨r, hr, hp⟩ := h1 ⟨e⟩
      exact FromText.of_tree he hr hp
  · intro s e he hv
    obtain ⟨v, hr, _⟩ := h2 ⟨e⟩ hv
    exact ⟨v, FromText.ok_iff.2 ⟨e, he, hr⟩⟩
  · intro s v hr
    obtain ⟨e, he, hr⟩ := FromText.ok_iff.1 hr
    exact ⟨e, he, (h3 ⟨e⟩ v hr).1⟩
  · obtain ⟨h5, h6, h7⟩ := h4 hd
    have hwrite : ∀ {s v evs e1 occ}, FromText x ds i s (.ok v) → ToXml x ds i v (.ok evs) → buildDoc evs = some e1 →
        ValidDoc x F path false occ q e1 → (∀ e2 : Elem, Indented (.elem e1.1 e1.2) (.elem e2.1 e2.2) → FromXml x ds i ⟨e2⟩ (.ok v)) →
        WritesText x F path occ q ds i v := by
      intro s v evs e1 occ hr hw hb hval hind
      refine ⟨evs, hw, ToText.ok_iff.2 ⟨evs, hw, rfl⟩, fun hk => ?_, fun b t hb1 hb2 ht => ?_⟩
      · obtain ⟨e2, h9, h10⟩ := text_of_events hc hP (C67_characters G hi hsome hr) hk hw hb
        exact ⟨e2, h9, validDoc_indent h10 hval, FromText.ok_iff.2 ⟨e2, h9, hind e2 h10⟩⟩
      · obtain ⟨e2, h9, h10⟩ := text_of_written hc hP hw hb hb1 hb2 ht
        exact ⟨e2, h9, validDoc_indent h10 hval, FromText.ok_iff.2 ⟨e2, h9, hind e2 h10⟩⟩
    refine ⟨?_, ?_, ?_⟩
    · intro s e v he hval hr
      obtain ⟨v', evs, e1, h8, h9, h10, h11, h12⟩ := h5 ⟨e⟩ hval
      have := ((FromText.of_read he).1 hr).unique h8
      cases this
      exact hwrite hr h9 h10 h11 h12
    · intro s v hr
      obtain ⟨e, he, hr'⟩ := FromText.ok_iff.1 hr
      obtain ⟨evs, e1, h9, h10, h11, h12⟩ := h6 ⟨e⟩ v hr'
      exact hwrite hr h9 h10 h11 h12
    · intro v hv
      obtain ⟨evs, _, h8, _⟩ := h7 v hv
      exact ⟨_, ToText.ok_iff.2 ⟨evs, h8, rfl⟩⟩

end Tree
end Xsd
