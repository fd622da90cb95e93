import Verif.Props.XmlText
import Verif.Props.TreeEndToEndSample
/-!
# Concrete cases for `Verif/Props/XmlText.lean`
-/
namespace Xsd
open XmlText (readXml emitXml CleanStr NoTabs ValAll ElemAll NodeAll CleanNumbers CleanCode Written)

mutual
/-- `NodeAll`, decided. -/
def nodeAllB (p : Char → Bool) : XNode → Bool
  | .text s => s.all p
  | .other => true
  | .elem i cs => i.attrs.all (fun a => a.value.all p) && nodesAllB p cs
def nodesAllB (p : Char → Bool) : List XNode → Bool
  | [] => true
  | c :: cs => nodeAllB p c && nodesAllB p cs
end

mutual
theorem nodeAllB_sound {p : Char → Bool} {n : XNode} (h : nodeAllB p n = true) : NodeAll (fun c => p c = true) n := by
  match n with
  | .text s => exact .text (List.all_eq_true.1 h)
  | .other => exact .other
  | .elem i cs =>
    simp only [nodeAllB, Bool.and_eq_true] at h
    exact .elem (fun a ha => List.all_eq_true.1 (List.all_eq_true.1 h.1 a ha)) (nodesAllB_sound h.2)
theorem nodesAllB_sound {p : Char → Bool} {cs : List XNode} (h : nodesAllB p cs = true) : ∀ n ∈ cs, NodeAll (fun c => p c = true) n := by
  match cs with
  | [] => intro n hn; simp at hn
  | c :: cs =>
    simp only [nodesAllB, Bool.and_eq_true] at h
    have h1 := nodeAllB_sound h.1
    have h2 := nodesAllB_sound h.2
    intro n hn
    rcases List.mem_cons.1 hn with rfl | hn
    · exact h1
    · exact h2 n hn
end

theorem sample_numbers : CleanNumbers sampleExt := by
  have h : ∀ n, CleanStr (showNat n) := fun n => XmlText.showDigits_clean _ _
  exact ⟨h, h⟩

/-- A writer may refer to the euro sign with a hexadecimal number. -/
example : XmlText.Refers c!"#x20aC" '€' :=
  .hex (.more (.more (.more (.one (d := 2) (.inl rfl) (by decide)) (d := 0) (.inl rfl) (by decide)) (d := 10) (.inl rfl) (by decide))
    (d := 12) (.inr rfl) (by decide))

namespace Sample

/-- A text with references, a CDATA section, comments, quotes of both kinds and a prefix. -/
def text : Str := c!"<?xml version='1.0'?>
<a:Article xmlns:a=\"urn:a\" id = '7' lang=\"&#x64;e\"><!-- by hand -->
  <a:title>a &lt; b &amp; \"c\"&#9;&#100;<![CDATA[<i>]]></a:title>
  <a:tag/>
  <user xmlns='urn:a'><name>Bo</name></user>
  <a:kind>news</a:kind>
</a:Article>
"

/-- Its value. -/
def textVal : Val := .struct
  [(c!"title", .str c!"a < b & \"c\"\td<i>"), (c!"tag", .some (.vec [.str []])),
   (c!"author", .some (.variant c!"User" (.struct [(c!"name", .str c!"Bo"), (c!"age", .none)]))),
   (c!"kind", .unit), (c!"id", .int 7), (c!"lang", .some (.enumv c!"De"))]

set_option maxRecDepth 100000 in
theorem text_reads : FromText sampleExt pgm c!"Article" text (.ok textVal) := ⟨nofun, 9, by rfl⟩

theorem clean : CleanCode pgm := by decide +kernel

/-- Neither a tab nor a carriage return. -/
def noTab (c : Char) : Bool := c != '\t' && c != '\r'

theorem noTabs_of {v : Val} (h : ValAll (fun c => noTab c = true) v) : NoTabs v := by
  induction h with
  | str h => exact .str fun c hc => by simpa [noTab] using h c hc
  | bool b => exact .bool b
  | int i => exact .int i
  | dec n => exact .dec n
  | flt n => exact .flt n
  | unit => exact .unit
  | none => exact .none
  | some _ ih => exact .some ih
  | vec _ ih => exact .vec ih
  | newtype _ ih => exact .newtype ih
  | struct _ ih => exact .struct ih
  | variant _ ih => exact .variant ih
  | enumv n => exact .enumv n

/-- The document has none. -/
def noTabsB (s : Str) : Bool :=
  match readXml s with
  | some e => nodeAllB noTab (.elem e.1 e.2)
  | none => false

theorem noTabsB_sound {s : Str} (h : noTabsB s = true) : ∃ e, readXml s = some e ∧ ElemAll (fun c => noTab c = true) e := by
  unfold noTabsB at h
  split at h
  · next e he => exact ⟨e, he, nodeAllB_sound h⟩
  · exact absurd h nofun

/-- What `to_xml` writes within some steps comes back. -/
def keptB (P : List TypeDef) (k : Nat) (i : Str) (v : Val) : Bool :=
  match toXml sampleExt P k i v with
  | .ok evs => decide (∀ ev ∈ evs, XmlText.Kept ev)
  | _ => false

theorem keptB_sound {P : List TypeDef} {k : Nat} {i : Str} {v : Val} (h : keptB P k i v = true) : WritesKept sampleExt P i v := by
  unfold keptB at h
  split at h
  · next evs he =>
    intro evs' h'
    have he' : ToXml sampleExt P i v (.ok evs) := ⟨nofun, k, he⟩
    have := he'.unique h'
    cases this
    exact of_decide_eq_true h
  · exact absurd h nofun

/-- The tab in `textVal` is in a text, where it comes back. -/
theorem textVal_kept : WritesKept sampleExt pgm c!"Article" textVal := keptB_sound (k := 9) (by decide +kernel)

/-- `C67_stable_partial` applies. -/
example : ∃ t, ToText sampleExt pgm c!"Article" textVal (.ok t) ∧ FromText sampleExt pgm c!"Article" t (.ok textVal) := by
  obtain ⟨t, h1, h2⟩ := C67_stable_partial generated numLaws deterministic faithful article_ident docType sample_numbers clean text_reads
  exact ⟨t, h1, h2 textVal_kept⟩

/-- `C67_roundtrip_partial` applies to the same value. -/
example : ∃ t, ToText sampleExt pgm c!"Article" textVal (.ok t) ∧ FromText sampleExt pgm c!"Article" t (.ok textVal) := by
  obtain ⟨e, _, h⟩ := FromText.ok_iff.1 text_reads
  obtain ⟨evs, e1, _, _, h3, _⟩ := C12_stable generated numLaws deterministic faithful article_ident docType h
  obtain ⟨t, h1, h2⟩ := C67_roundtrip_partial generated numLaws deterministic faithful article_ident docType sample_numbers clean ⟨_, h3⟩
    (C67_characters generated article_ident (tagged_isSome docType.1) text_reads)
  exact ⟨t, h1, h2 textVal_kept⟩

/-- `C67_document_partial` applies to a document without tabs. -/
def plainText : Str := c!"<Article xmlns='urn:a' id='7'><title>x</title><kind>news</kind></Article>"
def plainVal : Val := .struct
  [(c!"title", .str c!"x"), (c!"tag", .none), (c!"author", .none), (c!"kind", .unit), (c!"id", .int 7), (c!"lang", .none)]

set_option maxRecDepth 100000 in
example : ∃ t, ToText sampleExt pgm c!"Article" plainVal (.ok t) ∧ FromText sampleExt pgm c!"Article" t (.ok plainVal) := by
  obtain ⟨e, he, h⟩ := noTabsB_sound (s := plainText) (by decide +kernel)
  exact C67_document_partial generated numLaws deterministic faithful article_ident docType sample_numbers clean he
    (by simpa only [noTab, Bool.and_eq_true, bne_iff_ne] using h) ⟨nofun, 9, by rfl⟩

/-- The text that is written. -/
example : ToText sampleExt pgm c!"Article" textVal (.ok c!"<?xml version=\"1.0\" encoding=\"UTF-8\"?>
<Article xmlns=\"urn:a\" id=\"7\" lang=\"de\">
  <title>a &lt; b &amp; \"c\"\td&lt;i&gt;</title>
  <tag />
  <user>
    <name>Bo</name>
  </user>
  <kind>news</kind>
</Article>") := ⟨nofun, 9, by decide +kernel⟩

/-- `C67_any_writer_partial` applies: the same without line breaks, with other quotes and with a character reference. -/
example : ∃ evs, ToXml sampleExt pgm c!"Article" textVal (.ok evs) ∧ ∀ b t, XmlText.Plain b → '?' ∉ b → Written [] 0 evs t →
    FromText sampleExt pgm c!"Article" (c!"<?xml " ++ b ++ c!"?>" ++ t) (.ok textVal) :=
  C67_any_writer_partial generated numLaws deterministic faithful article_ident docType sample_numbers clean text_reads

/-- Texts that are not well-formed give an error: end tags that do not match, an unknown entity, `]]>`, two root elements. -/
example : FromText sampleExt pgm c!"Article" c!"<Article xmlns=\"urn:a\"></article>" (.err .xml) := FromText.of_none (by decide +kernel)
example : FromText sampleExt pgm c!"Article" c!"<Article xmlns=\"urn:a\">&nbsp;</Article>" (.err .xml) := FromText.of_none (by decide +kernel)
example : FromText sampleExt pgm c!"Article" c!"<Article xmlns=\"urn:a\">]]></Article>" (.err .xml) := FromText.of_none (by decide +kernel)
example : FromText sampleExt pgm c!"Article" c!"<Article/><Article/>" (.err .xml) := FromText.of_none (by decide +kernel)

/-- A carriage return in a text does not come back: `WritesKept` is needed. It is written as it is and read as a line feed. -/
def returnVal : Val := .struct
  [(c!"title", .str c!"a\rb"), (c!"tag", .none), (c!"author", .none), (c!"kind", .unit), (c!"id", .int 7), (c!"lang", .none)]

set_option maxRecDepth 100000 in
theorem C67_return_false : ∃ s t, FromText sampleExt pgm c!"Article" s (.ok returnVal) ∧ ToText sampleExt pgm c!"Article" returnVal (.ok t) ∧
    ¬ FromText sampleExt pgm c!"Article" t (.ok returnVal) := by
  refine ⟨c!"<Article xmlns='urn:a' id='7'><title>a&#13;b</title><kind>news</kind></Article>",
    c!"<?xml version=\"1.0\" encoding=\"UTF-8\"?>\n<Article xmlns=\"urn:a\" id=\"7\">\n  <title>a\rb</title>\n  <kind>news</kind>\n</Article>",
    ⟨nofun, 9, by rfl⟩, ⟨nofun, 9, by decide +kernel⟩, fun h => ?_⟩
  have h' : FromText sampleExt pgm c!"Article"
      c!"<?xml version=\"1.0\" encoding=\"UTF-8\"?>\n<Article xmlns=\"urn:a\" id=\"7\">\n  <title>a\rb</title>\n  <kind>news</kind>\n</Article>"
      (.ok (.struct [(c!"title", .str c!"a\nb"), (c!"tag", .none), (c!"author", .none), (c!"kind", .unit), (c!"id", .int 7), (c!"lang", .none)])) :=
    ⟨nofun, 9, by rfl⟩
  obtain ⟨e, he, h⟩ := FromText.ok_iff.1 h
  have h2 := ((FromText.of_read he).1 h').unique h
  simp [returnVal] at h2

/-- It does with a writer that escapes it: `C67_any_writer_partial` applies to this value. -/
example : ¬ WritesKept sampleExt pgm c!"Article" returnVal ∧ ∃ evs, ToXml sampleExt pgm c!"Article" returnVal (.ok evs) ∧
    ∀ b t, XmlText.Plain b → '?' ∉ b → Written [] 0 evs t → FromText sampleExt pgm c!"Article" (c!"<?xml " ++ b ++ c!"?>" ++ t) (.ok returnVal) := by
  obtain ⟨s, t, h1, h2, h3⟩ := C67_return_false
  refine ⟨fun hk => ?_, C67_any_writer_partial generated numLaws deterministic faithful article_ident docType sample_numbers clean h1⟩
  obtain ⟨t', h4, h5⟩ := C67_stable_partial generated numLaws deterministic faithful article_ident docType sample_numbers clean h1
  obtain ⟨evs, h6, rfl⟩ := ToText.ok_iff.1 h2
  obtain ⟨evs', h7, rfl⟩ := ToText.ok_iff.1 h4
  cases h6.unique h7
  exact h3 (h5 hk)

/-- `<xs:element name="note"><xs:complexType><xs:attribute name="by" type="xs:string"/></xs:complexType></xs:element>` -/
def tabSch : SchemaContext where
  elements := [(nm c!"note", .element ⟨[⟨⟨c!"by", .none⟩, .literal .string, none, true, none⟩], none, false, none⟩)]
  target := .id 1
  isQualified := true
  namespaces := nss

/-- A tab in an attribute value does not come back, either: it is written as it is and read as a space. -/
theorem C67_tab_false : ∃ P i v s t, Generated sampleExt tabSch P ∧ FromText sampleExt P i s (.ok v) ∧ ToText sampleExt P i v (.ok t) ∧
    ¬ FromText sampleExt P i t (.ok v) := by
  refine ⟨moduleOf sampleExt tabSch, c!"Note", .struct [(c!"by", .some (.str c!"a\tb"))], c!"<note xmlns='urn:a' by='a&#9;b'/>",
    c!"<?xml version=\"1.0\" encoding=\"UTF-8\"?>\n<note xmlns=\"urn:a\" by=\"a\tb\" />",
    generatesB_sound (by decide +kernel), ⟨nofun, 9, by rfl⟩, ⟨nofun, 9, by decide +kernel⟩, fun h => ?_⟩
  have h' : FromText sampleExt (moduleOf sampleExt tabSch) c!"Note"
      c!"<?xml version=\"1.0\" encoding=\"UTF-8\"?>\n<note xmlns=\"urn:a\" by=\"a\tb\" />"
      (.ok (.struct [(c!"by", .some (.str c!"a b"))])) :=
    ⟨nofun, 9, by rfl⟩
  obtain ⟨e, he, h⟩ := FromText.ok_iff.1 h
  have h2 := ((FromText.of_read he).1 h').unique h
  simp at h2

end Sample

namespace Tree.Sample
open SchemaSample Conformance
open Xsd.Sample (noTab noTabsB noTabsB_sound noTabs_of)

/-- The text of the document `order`. -/
def orderText : Str := c!"<t:order xmlns:t='urn:o' id='7'><t:title>first</t:title><t:note>urgent</t:note><t:sku>a-1</t:sku><t:count>3</t:count><t:payer kind='big'><t:label>me</t:label></t:payer></t:order>"

set_option maxRecDepth 100000 in
theorem orderText_reads : readXml orderText = some order := by rfl

/-- `C67_files_partial` applies: this text is read, and written as the text of a valid document, which is read as the same value. -/
example : ∃ k P ds i v t e, parseFile sampleExt files k main = .ok P ∧ generateAll sampleExt P.context = .ok ds ∧ Flat.TypeOf sampleExt qOrder i ∧
    FromText sampleExt ds i orderText (.ok v) ∧ ToText sampleExt ds i v (.ok t) ∧ readXml t = some e ∧
    ValidDoc sampleExt files main false OccursTidy qOrder e ∧ FromText sampleExt ds i t (.ok v) := by
  obtain ⟨k, P, ds, h1, h2, h3, h4, h5, hcl, hd⟩ := shop_meets.ex
  obtain ⟨n, i, hn, hs, h8, _, h9, _, h10⟩ := C67_files_partial sampleExt_nameLaws Xsd.Sample.numLaws sample_numbers h1 h2 h3 h4 h5 hcl _ _ _ top_order
  obtain ⟨v, hv⟩ := h9 _ _ orderText_reads order_valid
  have G := h5.build.generated sampleExt_nameLaws (parsed_keys h2) h4
  have hi : typeIdent sampleExt n = .ok i := by unfold typeIdent; rw [hn.1]; exact h8
  have hnt := noTabs_of (C67_from_document G hi hs orderText_reads (nodeAllB_sound (by decide +kernel)) hv)
  obtain ⟨evs, _, h11, h12, _⟩ := (h10 (hd n hs (by rw [hn.1]; decide))).1 _ _ v orderText_reads order_valid hv
  obtain ⟨e, h13, h14, h15⟩ := h12 (NoTabs.kept sample_numbers hcl hnt)
  exact ⟨k, P, ds, i, v, _, e, h2, h4, h8, hv, h11, h13, h14, h15⟩

end Tree.Sample
end Xsd
