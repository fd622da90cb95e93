import Verif.Props.Balanced
/-!
# What the generated writer loses (C15, C27, C54; conditions of C11)

Each section is a small schema, in the form the parser produces it, on which the generated `to_xml` loses
something: the shapes that `Faithful` (`Verif/Spec/Write.lean`) excludes.
-/
namespace Xsd
namespace Defects

open Sample (nm leaf nss at')

/-- A qualified schema with the target namespace `urn:a`. -/
def mk (es : List (Name × Root)) : SchemaContext := ⟨es, .id 1, true, nss⟩

def run (es : List (Name × Root)) : List TypeDef := moduleOf sampleExt (mk es)

def a (s : Str) : QName := ⟨s, some c!"urn:a"⟩
def el (s : Str) (cs : List XNode) (as : List XAttr := []) : XNode := .elem ⟨a s, as, [], 0⟩ cs
def root (s : Str) (cs : List XNode) (as : List XAttr := []) : Elem := (⟨a s, as, [], 0⟩, cs)

/-- `xs:simpleType` with a string base. -/
def text : Root := .leaf ⟨.literal .string, [], none⟩

/-! ### A top-level element with a named simple type (root.rs:175-189): no tags at all -/

def alias : List (Name × Root) :=
  [(nm c!"T", text), (nm c!"Item", .leaf ⟨.named (nm c!"T"), [], none⟩)]

theorem alias_generated : Generated sampleExt (mk alias) (run alias) := generatesB_sound (by decide +kernel)

theorem alias_reads : FromXml sampleExt (run alias) c!"Item" ⟨root c!"Item" [.text c!"x"]⟩
    (.ok (.newtype (.str c!"x"))) := ⟨(by intro h; cases h), 9, by rfl⟩

theorem alias_writes : ToXml sampleExt (run alias) c!"Item" (.newtype (.str c!"x")) (.ok [.chars c!"x"]) :=
  ⟨(by intro h; cases h), 9, by rfl⟩

/-! ### An alternative with a named simple type (root.rs:212-225): no tags around its text -/

def variant : List (Name × Root) :=
  [(nm c!"T", text), (nm c!"Pick", .choice [leaf c!"a" (.named (nm c!"T")) 1 (.number 1)] false none)]

theorem variant_generated : Generated sampleExt (mk variant) (run variant) := generatesB_sound (by decide +kernel)

theorem variant_reads : FromXml sampleExt (run variant) c!"Pick" ⟨root c!"Pick" [el c!"a" [.text c!"x"]]⟩
    (.ok (.variant c!"A" (.str c!"x"))) := ⟨(by intro h; cases h), 9, by rfl⟩

theorem variant_writes : ∃ evs, ToXml sampleExt (run variant) c!"Pick" (.variant c!"A" (.str c!"x")) (.ok evs) ∧
    buildDoc evs = some (root c!"Pick" [.text c!"x"]) :=
  ⟨[.start c!"Pick" [] [([], c!"urn:a")], .chars c!"x", .fin], ⟨(by intro h; cases h), 9, by rfl⟩, by rfl⟩

theorem variant_unreadable (v : Val) : ¬ FromXml sampleExt (run variant) c!"Pick" ⟨root c!"Pick" [.text c!"x"]⟩ (.ok v) := by
  intro h
  have : FromXml sampleExt (run variant) c!"Pick" ⟨root c!"Pick" [.text c!"x"]⟩ (.err (.missingVariant c!"Pick")) :=
    ⟨(by intro h; cases h), 9, by rfl⟩
  cases h.unique this

/-! ### An alternative that is an element of another namespace (root.rs:210): written without its prefix -/

def nss2 : Namespaces := (nss.getOrInsert c!"urn:b").2

def foreign : List (Name × Root) :=
  [(nm c!"Pick", .choice [⟨⟨c!"a", .id 2⟩, ⟨.literal .string, [], none⟩, false, false, 1, .number 1⟩] false none)]

def foreignS : SchemaContext := ⟨foreign, .id 1, true, nss2⟩

theorem foreign_generated : Generated sampleExt foreignS (moduleOf sampleExt foreignS) :=
  generatesB_sound (by decide +kernel)

theorem foreign_reads : FromXml sampleExt (moduleOf sampleExt foreignS) c!"Pick"
    ⟨root c!"Pick" [.elem ⟨⟨c!"a", some c!"urn:b"⟩, [], [], 0⟩ [.text c!"x"]]⟩
    (.ok (.variant c!"A" (.str c!"x"))) := ⟨(by intro h; cases h), 9, by rfl⟩

theorem foreign_writes : ∃ evs, ToXml sampleExt (moduleOf sampleExt foreignS) c!"Pick" (.variant c!"A" (.str c!"x"))
      (.ok evs) ∧ buildDoc evs = some (root c!"Pick" [el c!"a" [.text c!"x"]]) :=
  ⟨[.start c!"Pick" [] [([], c!"urn:a"), (c!"ns2", c!"urn:b")], .start c!"a" [] [], .chars c!"x", .fin, .fin],
    ⟨(by intro h; cases h), 9, by rfl⟩, by rfl⟩

/-! ### A reference to a top-level element with a fixed value (leaf.rs:88-103): its tag is lost -/

def fixedRef : List (Name × Root) :=
  [(nm c!"ver", .leaf ⟨.fixed c!"1", [], none⟩),
   (nm c!"Doc", .element ⟨[], some (.leaves [leaf c!"ver" (.named (nm c!"ver")) 1 (.number 1)]), false, none⟩)]

theorem fixedRef_generated : Generated sampleExt (mk fixedRef) (run fixedRef) := generatesB_sound (by decide +kernel)

theorem fixedRef_reads : FromXml sampleExt (run fixedRef) c!"Doc" ⟨root c!"Doc" [el c!"ver" [.text c!"1"]]⟩
    (.ok (.struct [(c!"ver", .unit)])) := ⟨(by intro h; cases h), 9, by rfl⟩

theorem fixedRef_writes : ∃ evs, ToXml sampleExt (run fixedRef) c!"Doc" (.struct [(c!"ver", .unit)]) (.ok evs) ∧
    buildDoc evs = some (root c!"Doc" [.text c!"1"]) :=
  ⟨[.start c!"Doc" [] [([], c!"urn:a")], .chars c!"1", .fin], ⟨(by intro h; cases h), 9, by rfl⟩, by rfl⟩

/-! ### simpleContent with a named simple base (element_definition.rs:44-54): no tags, no attributes -/

def simpleContent : List (Name × Root) :=
  [(nm c!"T", text),
   (nm c!"Price", .element ⟨[⟨⟨c!"unit", .none⟩, .literal .string, none, false, none⟩],
      some (.leaf (nm c!"value") ⟨.named (nm c!"T"), [], none⟩), false, none⟩)]

theorem simpleContent_generated : Generated sampleExt (mk simpleContent) (run simpleContent) :=
  generatesB_sound (by decide +kernel)

theorem simpleContent_reads : FromXml sampleExt (run simpleContent) c!"Price"
    ⟨root c!"Price" [.text c!"5"] [at' c!"unit" c!"EUR"]⟩
    (.ok (.struct [(c!"value", .str c!"5"), (c!"unit", .str c!"EUR")])) := ⟨(by intro h; cases h), 9, by rfl⟩

theorem simpleContent_writes : ToXml sampleExt (run simpleContent) c!"Price"
    (.struct [(c!"value", .str c!"5"), (c!"unit", .str c!"EUR")]) (.ok [.chars c!"5"]) :=
  ⟨(by intro h; cases h), 9, by rfl⟩

/-! ### complexContent extension with a sequence (complex_content.rs:100-113): the attributes of the base are lost -/

def extension : List (Name × Root) :=
  [(nm c!"Person", .element ⟨[⟨⟨c!"id", .none⟩, .literal .uint64, none, false, none⟩],
      some (.leaves [leaf c!"name" (.literal .string) 1 (.number 1)]), false, none⟩),
   (nm c!"EmployeePerson", .element ⟨[], some (.leaves [leaf c!"job" (.literal .string) 1 (.number 1)]), true, none⟩),
   (nm c!"Employee", .element ⟨[], some (.leaves [leaf c!"base" (.named (nm c!"Person")) 1 (.number 1) true,
      leaf c!"Person" (.named (nm c!"EmployeePerson")) 1 (.number 1) true]), false, none⟩)]

def employee : Val := .struct
  [(c!"base", .struct [(c!"name", .str c!"Bo"), (c!"id", .int 7)]),
   (c!"person", .struct [(c!"job", .str c!"cook")])]

theorem extension_generated : Generated sampleExt (mk extension) (run extension) := generatesB_sound (by decide +kernel)

theorem extension_reads : FromXml sampleExt (run extension) c!"Employee"
    ⟨root c!"Employee" [el c!"name" [.text c!"Bo"], el c!"job" [.text c!"cook"]] [at' c!"id" c!"7"]⟩ (.ok employee) :=
  ⟨(by intro h; cases h), 9, by rfl⟩

/-- The document written for an employee has no attribute. -/
theorem extension_writes : ∃ evs, ToXml sampleExt (run extension) c!"Employee" employee (.ok evs) ∧
    buildDoc evs = some (root c!"Employee" [el c!"name" [.text c!"Bo"], el c!"job" [.text c!"cook"]] []) :=
  ⟨[.start c!"Employee" [] [([], c!"urn:a")], .start c!"name" [] [], .chars c!"Bo", .fin,
    .start c!"job" [] [], .chars c!"cook", .fin, .fin], ⟨(by intro h; cases h), 9, by rfl⟩, by rfl⟩

/-- It cannot be read back. -/
theorem extension_unreadable (v : Val) : ¬ FromXml sampleExt (run extension) c!"Employee"
    ⟨root c!"Employee" [el c!"name" [.text c!"Bo"], el c!"job" [.text c!"cook"]] []⟩ (.ok v) := by
  intro h
  have : FromXml sampleExt (run extension) c!"Employee"
      ⟨root c!"Employee" [el c!"name" [.text c!"Bo"], el c!"job" [.text c!"cook"]] []⟩
      (.err (.missingAttribute c!"id")) := ⟨(by intro h; cases h), 9, by rfl⟩
  cases h.unique this

/-! ### An unqualified name in a qualified schema (context.rs:152-164): written into the default namespace -/

def unqualified : List (Name × Root) :=
  [(nm c!"Doc", .element ⟨[], some (.leaves [⟨⟨c!"b", .none⟩, ⟨.literal .string, [], none⟩, false, false, 1, .number 1⟩]),
      false, none⟩)]

theorem unqualified_generated : Generated sampleExt (mk unqualified) (run unqualified) :=
  generatesB_sound (by decide +kernel)

theorem unqualified_reads : FromXml sampleExt (run unqualified) c!"Doc"
    ⟨root c!"Doc" [.elem ⟨⟨c!"b", none⟩, [], [], 0⟩ [.text c!"x"]]⟩
    (.ok (.struct [(c!"b", .str c!"x")])) := ⟨(by intro h; cases h), 9, by rfl⟩

theorem unqualified_writes : ∃ evs, ToXml sampleExt (run unqualified) c!"Doc" (.struct [(c!"b", .str c!"x")]) (.ok evs) ∧
    buildDoc evs = some (root c!"Doc" [el c!"b" [.text c!"x"]]) :=
  ⟨[.start c!"Doc" [] [([], c!"urn:a")], .start c!"b" [] [], .chars c!"x", .fin, .fin],
    ⟨(by intro h; cases h), 9, by rfl⟩, by rfl⟩

theorem unqualified_unreadable (v : Val) :
    ¬ FromXml sampleExt (run unqualified) c!"Doc" ⟨root c!"Doc" [el c!"b" [.text c!"x"]]⟩ (.ok v) := by
  intro h
  have : FromXml sampleExt (run unqualified) c!"Doc" ⟨root c!"Doc" [el c!"b" [.text c!"x"]]⟩
      (.err (.missingElement c!"b" none)) := ⟨(by intro h; cases h), 9, by rfl⟩
  cases h.unique this

/-! ### Values without a representation: `Some` of an empty list -/

def emptyTags : Val := .struct
  [(c!"title", .str c!"Hi"), (c!"tag", .some (.vec [])), (c!"author", .none), (c!"kind", .unit), (c!"id", .int 7),
   (c!"lang", .none)]

def noTags : Val := .struct
  [(c!"title", .str c!"Hi"), (c!"tag", .none), (c!"author", .none), (c!"kind", .unit), (c!"id", .int 7), (c!"lang", .none)]

/-- The value is written successfully, and another one is read back. -/
theorem emptyTags_changes : ∃ evs e, ToXml sampleExt Sample.pgm c!"Article" emptyTags (.ok evs) ∧
    buildDoc evs = some e ∧ FromXml sampleExt Sample.pgm c!"Article" ⟨e⟩ (.ok noTags) :=
  ⟨[.start c!"Article" [(c!"id", c!"7")] [([], c!"urn:a")], .start c!"title" [] [], .chars c!"Hi", .fin,
     .start c!"kind" [] [], .chars c!"news", .fin, .fin],
   root c!"Article" [el c!"title" [.text c!"Hi"], el c!"kind" [.text c!"news"]] [at' c!"id" c!"7"],
   ⟨(by intro h; cases h), 9, by rfl⟩, by rfl, ⟨(by intro h; cases h), 9, by rfl⟩⟩

/-- So it has no representation: C11 does not apply to it. -/
theorem emptyTags_unrepresented (e : Elem) : ¬ DocRepr sampleExt .exact Sample.sch (nm c!"Article") emptyTags e := by
  intro h
  obtain ⟨evs, e1, h1, h2, h3⟩ := C11_roundtrip Sample.generated Sample.numLaws Sample.deterministic Sample.faithful
    article_ident Sample.docType ⟨e, h⟩
  obtain ⟨evs', e', h1', h2', h3'⟩ := emptyTags_changes
  cases h1.unique h1'
  rw [h2] at h2'
  cases h2'
  have : FromXml sampleExt Sample.pgm c!"Article" ⟨e1⟩ (.ok emptyTags) :=
    C14_complete Sample.generated Sample.deterministic article_ident (by rfl) (by
      obtain ⟨evs'', e'', k1, k2, k3, _⟩ := roundtrip rfl Sample.generated Sample.numLaws Sample.deterministic
        Sample.faithful article_ident Sample.docType h
      cases h1.unique k1
      rw [h2] at k2
      cases k2
      exact k3)
  have := this.unique h3'
  simp [emptyTags, noTags] at this

/-! ### The type of a group written on its own: no root element, no namespace declarations -/

theorem group_writes : ToXml sampleExt (run extension) c!"EmployeePerson" (.struct [(c!"job", .str c!"cook")])
    (.ok [.start c!"job" [] [], .chars c!"cook", .fin]) :=
  ⟨(by intro h; cases h), 9, by rfl⟩

/-! ### Consequences -/

end Defects

open Defects Sample in
/-- **C15** is false of the code in general: `to_xml` of an element with a named simple type writes text only. -/
theorem C15_false : ¬ ∀ (S : SchemaContext) (P : List TypeDef) (n : Name) (i : Str) (v : Val), Generated sampleExt S P →
    typeIdent sampleExt n = .ok i → DocType S n → HasTy P (.named i) v →
    ∃ evs e, ToXml sampleExt P i v (.ok evs) ∧ buildDoc evs = some e ∧ S.expanded n = .ok e.1.name := by
  intro h
  have hty := C18_decoded_has_type_partial alias_generated (variantsTypedB_sound (by decide +kernel)) (n := nm c!"Item") (by decide +kernel)
    (by rfl) alias_reads
  obtain ⟨evs, e, h1, h2, _⟩ := h _ _ (nm c!"Item") c!"Item" _ alias_generated (by decide +kernel)
    ⟨by rfl, [([], c!"urn:a")], by rfl, by decide +kernel⟩ hty
  cases h1.unique alias_writes
  cases h2

open Defects Sample in
/-- **C27** is false of the code in general: the child element of a qualified schema with an unqualified name is
written into the namespace of the schema. -/
theorem C27_false : ¬ ∀ (S : SchemaContext) (P : List TypeDef) (n : Name) (i : Str) (v : Val) (evs : List Ev) (e : Elem),
    Generated sampleExt S P → typeIdent sampleExt n = .ok i → DocType S n → HasTy P (.named i) v →
    ToXml sampleExt P i v (.ok evs) → buildDoc evs = some e → DocRepr sampleExt .written S n v e := by
  intro h
  have hty := C18_decoded_has_type_partial unqualified_generated (variantsTypedB_sound (by decide +kernel)) (n := nm c!"Doc")
    (by decide +kernel) (by rfl) unqualified_reads
  obtain ⟨evs, h1, h2⟩ := unqualified_writes
  obtain ⟨_, k, es, junk, hcat, hj, hrep⟩ := h _ _ (nm c!"Doc") c!"Doc" _ _ _ unqualified_generated (by decide +kernel)
    ⟨by rfl, [([], c!"urn:a")], by rfl, by decide +kernel⟩ hty h1 h2
  have := hj rfl
  subst this
  cases k with
  | zero => cases hrep
  | succ k =>
    obtain ⟨r, hr, hrep⟩ := hrep
    have hr' : r = _ := (Option.some.inj hr).symm
    subst hr'
    obtain ⟨fc, fa, _, hc, _⟩ := hrep
    obtain ⟨es0, ⟨f, v, fs', es1, es2, _, _, h1, h2, hcat2⟩, harr⟩ := hc
    cases harr.eq (.head _) (by rfl)
    obtain ⟨ch, rfl, hq, _⟩ := h1
    obtain ⟨_, rfl⟩ := h2
    have hcat2 : es = _ := hcat2
    have hcat : _ = es ++ [] := hcat
    rw [hcat2] at hcat
    cases hcat
    cases hq

open Defects Sample in
/-- **C54** is false of the code: an extension with a sequence is written without the attributes of its base. -/
theorem C54_false : ∃ (P : List TypeDef) (v : Val) (evs : List Ev) (e : Elem), Generated sampleExt (mk extension) P ∧
    (∃ d, FromXml sampleExt P c!"Employee" d (.ok v) ∧ attrOf d.root.1 c!"id" = some c!"7") ∧
    ToXml sampleExt P c!"Employee" v (.ok evs) ∧ buildDoc evs = some e ∧ e.1.attrs = [] ∧
    ∀ w, ¬ FromXml sampleExt P c!"Employee" ⟨e⟩ (.ok w) := by
  obtain ⟨evs, h1, h2⟩ := extension_writes
  exact ⟨_, _, evs, _, extension_generated, ⟨_, extension_reads, by rfl⟩, h1, h2, rfl, extension_unreadable⟩

section
variable {x : Ext} {S : SchemaContext} {P : List TypeDef}

/-- **C54** for extensions without a sequence, in faithful schemas: the root element written for a value of the extension
has the attributes of the base type and those of the extension, each with the value it has in the respective
struct.

Missing: extensions with a sequence, for which it is false (`C54_false`). -/
theorem C54_base_attributes_partial (G : Generated x S P) (hx : x.NumLaws) (hS : Faithful x S) {n b : Name} {i : Str}
    (hi : typeIdent x n = .ok i) (hn : DocType S n) {d db : ElementDef} (hd : S.get n = some (.element d))
    {f : Name} {c : LeafDef} (hc : d.content = some (.leaf f c)) (hb : Means S c.content (.named b))
    (hdb : S.get b = some (.element db)) {v : Val} (hv : HasTy P (.named i) v) {evs : List Ev}
    (h : ToXml x P i v (.ok evs)) :
    ∃ e f' fc fa fs, buildDoc evs = some e ∧ v = .struct ((f', .struct (fc ++ fa)) :: fs) ∧
      RAttrs x .written S db.attributes fa e ∧ RAttrs x .written S d.attributes fs e := by
  obtain ⟨e, he, _, k, es, junk, _, _, hr⟩ := C27_names_partial G hx hS hi hn hv h
  cases k with
  | zero => cases hr
  | succ k =>
    obtain ⟨r, hr', hr⟩ := hr
    rw [hd] at hr'; cases hr'
    obtain ⟨fc, fs, rfl, h1, h2⟩ := hr
    rw [hc] at h1
    obtain ⟨f', w, rfl, _, c', hm, h1⟩ := h1
    cases hm.functional hb
    cases k with
    | zero => cases h1
    | succ k =>
      obtain ⟨r, hr', h1⟩ := h1
      rw [hdb] at hr'; cases hr'
      obtain ⟨fc, fa, rfl, _, h3⟩ := h1
      exact ⟨e, f', fc, fa, fs, he, rfl, h3, h2⟩

end

namespace Defects

open Sample (nm leaf nss at')

/-! A schema that meets the hypotheses of `C54_base_attributes_partial`. -/

def plainExtension : List (Name × Root) :=
  [(nm c!"Person", .element ⟨[⟨⟨c!"id", .none⟩, .literal .uint64, none, false, none⟩],
      some (.leaves [leaf c!"name" (.literal .string) 1 (.number 1)]), false, none⟩),
   (nm c!"Employee", .element ⟨[⟨⟨c!"job", .none⟩, .literal .string, none, false, none⟩],
      some (.leaf (nm c!"Person") ⟨.named (nm c!"Person"), [], none⟩), false, none⟩)]

def plainEmployee : Val := .struct
  [(c!"person", .struct [(c!"name", .str c!"Bo"), (c!"id", .int 7)]), (c!"job", .str c!"cook")]

theorem plainExtension_generated : Generated sampleExt (mk plainExtension) (run plainExtension) :=
  generatesB_sound (by decide +kernel)

theorem plainExtension_faithful : Faithful sampleExt (mk plainExtension) :=
  ⟨WCert.compute (mk plainExtension), by decide +kernel⟩

theorem plainEmployee_reads : FromXml sampleExt (run plainExtension) c!"Employee"
    ⟨root c!"Employee" [el c!"name" [.text c!"Bo"]] [at' c!"id" c!"7", at' c!"job" c!"cook"]⟩ (.ok plainEmployee) :=
  ⟨(by intro h; cases h), 9, by rfl⟩

example : ∃ evs e f' fc fa fs, ToXml sampleExt (run plainExtension) c!"Employee" plainEmployee (.ok evs) ∧
    buildDoc evs = some e ∧ plainEmployee = .struct ((f', .struct (fc ++ fa)) :: fs) ∧
    RAttrs sampleExt .written (mk plainExtension) [⟨⟨c!"id", .none⟩, .literal .uint64, none, false, none⟩] fa e ∧
    RAttrs sampleExt .written (mk plainExtension) [⟨⟨c!"job", .none⟩, .literal .string, none, false, none⟩] fs e := by
  have hty := C18_decoded_has_type_partial plainExtension_generated (variantsTypedB_sound (by decide +kernel))
    (n := nm c!"Employee") (by decide +kernel) (by rfl) plainEmployee_reads
  have hdt : DocType (mk plainExtension) (nm c!"Employee") := ⟨by rfl, [([], c!"urn:a")], by rfl, by decide +kernel⟩
  obtain ⟨evs, _, h, _⟩ := C15_written_partial plainExtension_generated Sample.numLaws plainExtension_faithful
    (n := nm c!"Employee") (by decide +kernel) hdt hty
  have hm : Means (mk plainExtension) (.named (nm c!"Person")) (.named (nm c!"Person")) :=
    .name (by intro d hh; cases hh)
  have hg : (mk plainExtension).get (nm c!"Person") = some (plainExtension[0]).2 := by rfl
  exact ⟨evs, by
    obtain ⟨e, f', fc, fa, fs, h1, h2, h3, h4⟩ := C54_base_attributes_partial plainExtension_generated Sample.numLaws
      plainExtension_faithful (n := nm c!"Employee") (by decide +kernel) hdt (by rfl) rfl hm hg hty h
    exact ⟨e, f', fc, fa, fs, h, h1, h2, h3, h4⟩⟩

end Defects

end Xsd
