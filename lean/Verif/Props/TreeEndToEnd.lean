import Verif.Lemmas.TreeSolid
import Verif.Props.ReadTerminatesFiles
import Verif.Props.EndToEnd
/-!
# From schema files to documents, with choices, nested groups, `xs:all`, anonymous types and extensions (C65)
-/
namespace Xsd.Tree
open Xsd.Flat (Names TypeOf)

section
variable {x : Ext} {F : Files} {path : Str} {k : Nat} {P : PSchema}

/-- What is required of the schema that the files are parsed to. Each of these conditions can be computed
(`Verif/Lemmas/TreeCheck.lean`). -/
structure SchemaOK (x : Ext) (S : SchemaContext) : Prop where
  /-- the generated code compiles (C58) -/
  build : Buildable x S
  /-- one element of lookahead suffices (C14) -/
  lookahead : Deterministic x S
  /-- no shape is used for which the writer is known to lose something (C09) -/
  faithful : Faithful x S

theorem parsed_keys (h : parseFile x F k path = .ok P) : (P.context.elements.map Prod.fst).Nodup := by
  exact (parseFileWith_log k path _ _ P ⟨[], rfl⟩ h).1

/-- The schema that the files are parsed to has the definitions made of the nodes of the files. -/
theorem parsed_tree (B : TreeFiles F path) (h : parseFile x F k path = .ok P) (hc : TypeCount F path P.context.elements.length)
    {ds : List TypeDef} (G : Generated x P.context ds) : Parsed x F path P.context where
  tops := parsed_for B h hc
  inv := Flat.parsed_inv h
  idents n r hr := idents_ok G hr
  nodes q d c ht := by
    cases ht with
    | mk hr hc' _ _ => exact B.nodes _ _ hr _ hc'

/-- **C65**, for files as in `TreeFiles`, when no two types get the same name
(`TypeCount`), for schemas whose code compiles, reads with one element of lookahead and writes without loss (`SchemaOK`).
Every top-level element and type `q` of the files has a type in the generated module, and with its `from_xml` and `to_xml`

* reading ends without panic, for every document;
* every valid document in which no choice is left empty, and the members of an `xs:all` with optional members are in the declared order, is read.
  The value has the type, and is written as another such document, which is, indented in any way, read as the same value;
* whatever is read is valid up to the number of repetitions and what comes after the declared content of an element, and leaves no choice
  empty; and it is written as a document that is valid up to the number of repetitions, leaves no choice empty and, indented in any way,
  is read as the same value;
* every value of the type is written as a document that is valid up to the number of repetitions.

A choice with alternatives that may be empty can be left out if it is optional or repeated. Otherwise the third of these says that documents
in which it is empty are not read, although they are valid; this is missing, and so are other orders of an `xs:all` with optional members (see
C21 for which of them are read), and what does not meet the requirements (see the notes of
C15, C21, C44, C54, C56 and C58). Where no choice can be empty and the members of every `xs:all` are required, all valid documents are read: `C65_solid_partial`. -/
theorem C65_partial (hxn : x.NameLaws) (hxu : x.NumLaws) (B : TreeFiles F path) (h : parseFile x F k path = .ok P)
    (hc : TypeCount F path P.context.elements.length) {ds : List TypeDef} (hds : generateAll x P.context = .ok ds)
    (hS : SchemaOK x P.context) :
    Compiles x ds ∧ ∀ q d c, Top F path q d c → ∃ n i, Names P.context.namespaces n q ∧ (P.context.get n).isSome = true ∧ TypeOf x q i ∧
      (∀ d, ∃ r, FromXml x ds i d r ∧ r ≠ .panic) ∧
      (∀ d : Doc, ValidDoc x F path false OccursTidy q d.root → ∃ v, FromXml x ds i d (.ok v) ∧ HasTy ds (.named i) v) ∧
      (∀ d v, FromXml x ds i d (.ok v) → ValidDoc x F path true (Loosely true) q d.root ∧ HasTy ds (.named i) v) ∧
      (DocType P.context n →
        (∀ d : Doc, ValidDoc x F path false OccursTidy q d.root → ∃ v evs e1, FromXml x ds i d (.ok v) ∧ ToXml x ds i v (.ok evs) ∧
          buildDoc evs = some e1 ∧ ValidDoc x F path false OccursTidy q e1 ∧
          ∀ e2 : Elem, Indented (.elem e1.1 e1.2) (.elem e2.1 e2.2) → FromXml x ds i ⟨e2⟩ (.ok v)) ∧
        (∀ d v, FromXml x ds i d (.ok v) → ∃ evs e1, ToXml x ds i v (.ok evs) ∧ buildDoc evs = some e1 ∧
          ValidDoc x F path false (Loosely true) q e1 ∧
          ∀ e2 : Elem, Indented (.elem e1.1 e1.2) (.elem e2.1 e2.2) → FromXml x ds i ⟨e2⟩ (.ok v)) ∧
        (∀ v, HasTy ds (.named i) v → ∃ evs e1, ToXml x ds i v (.ok evs) ∧ buildDoc evs = some e1 ∧
          ValidDoc x F path false (Loosely false) q e1)) := by
  have hk := parsed_keys h
  have G := hS.build.generated hxn hk hds
  have hcomp := C58_compiles_partial hxn hk hds hS.build
  have A := parsed_tree B h hc G
  have hf := hS.faithful
  obtain ⟨W, hW⟩ := hf
  have V := writeOK_variantsDistinct hW
  have VT := writeOK_variantsTyped hW
  refine ⟨hcomp, fun q d c ht => ?_⟩
  obtain ⟨n, r, hn, hr, hR⟩ := A.tops q d c ht
  have hsome : (P.context.get n).isSome = true := by rw [hr]; rfl
  obtain ⟨t, htm, hti, hg⟩ := G.find hr
  have hi : typeIdent x n = .ok t.ident := hg.ident
  refine ⟨n, t.ident, hn, hsome, ?_, ?_, ?_, ?_, fun hdoc => ⟨?_, ?_, ?_⟩⟩
  · have := hi
    unfold typeIdent at this
    rw [hn.1] at this
    exact this
  · intro d
    obtain ⟨r', h1⟩ := C17_files_partial hxn B.refs h hc G hS.build.sized t.ident d
    exact ⟨r', h1, (C59_reads hcomp ⟨t, htm, rfl⟩ h1).1⟩
  · intro d hv
    obtain ⟨v, h1, _⟩ := valid_represents A V hn hv
    have h3 := C14_complete G hS.lookahead hi hsome h1
    exact ⟨v, h3, C18_decoded_has_type_partial G VT hi hsome h3⟩
  · intro d v h3
    obtain ⟨C, hC⟩ := hS.lookahead
    obtain ⟨hq, k', s', hk'⟩ := (FromXml.ok_iff G hi hsome hg.rootName).1 h3
    obtain ⟨_, es, he, hcat⟩ := fromNode_tidy G hC k' n t.ident _ v s' hi hsome hk'
    have h4 : DocRepr x .tidy P.context n v d.root := ⟨hq ▸ hg.rootName, k', es, s'.pending, hcat, fun hh => (by cases hh), he⟩
    exact ⟨represents_valid A ht hn (m := .tidy) h4, C18_decoded_has_type_partial G VT hi hsome h3⟩
  · intro d hv
    obtain ⟨v, h1, h2⟩ := valid_represents A V hn hv
    have h3 := C14_complete G hS.lookahead hi hsome h1
    obtain ⟨evs, e1, h4, h5, h6, h7⟩ := C12_stable G hxu hS.lookahead hS.faithful hi hdoc h3
    exact ⟨v, evs, e1, h3, h4, h5, h2 e1 h6, h7⟩
  · intro d v h3
    obtain ⟨evs, e1, h4, h5, h6, h7⟩ := C12_stable G hxu hS.lookahead hS.faithful hi hdoc h3
    exact ⟨evs, e1, h4, h5, represents_valid A ht hn (m := .exact) h6, h7⟩
  · intro v hv
    obtain ⟨evs, e1, h1, _, h3, h4⟩ := write_typed G hxu hS.faithful hi hdoc hv
    exact ⟨evs, e1, h1, h3, represents_valid A ht hn (m := .written) h4⟩

/-- **C65** where no choice can be empty and the members of every `xs:all` are required, as in all test schemas but one: under the same requirements, every valid document is read, and written as
a valid document. -/
theorem C65_solid_partial (hxn : x.NameLaws) (hxu : x.NumLaws) (B : TreeFiles F path) (hF : SolidFiles F path) (h : parseFile x F k path = .ok P)
    (hc : TypeCount F path P.context.elements.length) {ds : List TypeDef} (hds : generateAll x P.context = .ok ds)
    (hS : SchemaOK x P.context) :
    ∀ q d c, Top F path q d c → ∃ n i, Names P.context.namespaces n q ∧ (P.context.get n).isSome = true ∧ TypeOf x q i ∧
      (∀ d : Doc, ValidDoc x F path false Occurs q d.root → ∃ v, FromXml x ds i d (.ok v) ∧ HasTy ds (.named i) v) ∧
      (DocType P.context n → ∀ d : Doc, ValidDoc x F path false Occurs q d.root → ∃ v evs e1, FromXml x ds i d (.ok v) ∧ ToXml x ds i v (.ok evs) ∧
          buildDoc evs = some e1 ∧ ValidDoc x F path false Occurs q e1 ∧
          ∀ e2 : Elem, Indented (.elem e1.1 e1.2) (.elem e2.1 e2.2) → FromXml x ds i ⟨e2⟩ (.ok v)) := by
  intro q d c ht
  obtain ⟨n, i, h1, h2, h3, _, h4, _, h5⟩ := (C65_partial hxn hxu B h hc hds hS).2 q d c ht
  refine ⟨n, i, h1, h2, h3, fun d hv => h4 d (tidy_of_solid hF hv), fun hdoc d hv => ?_⟩
  obtain ⟨v, evs, e1, h6, h7, h8, h9, h10⟩ := (h5 hdoc).1 d (tidy_of_solid hF hv)
  exact ⟨v, evs, e1, h6, h7, h8, h9.occurs, h10⟩

end
end Xsd.Tree
