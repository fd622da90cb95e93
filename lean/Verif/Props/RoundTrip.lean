import Verif.Lemmas.Transfer
import Verif.Lemmas.Progress
/-!
# Writing and reading back (C11, C12, C15, C27)

The schemas are those that satisfy `Faithful` (`Verif/Spec/Write.lean`); `Verif/Props/Defects.lean` shows what happens
outside.
-/
namespace Xsd

variable {x : Ext} {S : SchemaContext} {P : List TypeDef}

/-- The type writes an element of its own, and the name it writes stands for the name of the type: what is needed of
the type of the root element of a document. -/
def DocType (S : SchemaContext) (n : Name) : Prop :=
  tagged S n = true ∧ ∃ N, schemaNss S = .ok N ∧ nameOK N (S.xmlName n) (S.expanded n) = true

theorem nameOK_inv {N : List (Str × Str)} {w : Res Str Str} {q : Res Str QName} (h : nameOK N w q = true) :
    ∃ w' q', w = .ok w' ∧ q = .ok q' ∧ resolveName N w' = some q' := by
  unfold nameOK at h
  split at h
  · exact ⟨_, _, rfl, rfl, of_decide_eq_true h⟩
  · cases h

/-- What `to_xml` does with a value: it succeeds, and writes one element with the name of the type, that represents
the value. -/
theorem write_typed (G : Generated x S P) (hx : x.NumLaws) (hS : Faithful x S) {n : Name} {i : Str}
    (hi : typeIdent x n = .ok i) (hn : DocType S n) {v : Val} (hv : HasTy P (.named i) v) :
    ∃ evs e, ToXml x P i v (.ok evs) ∧ (∃ nm as ns mid, evs = .start nm as ns :: (mid ++ [.fin])) ∧
      buildDoc evs = some e ∧ DocRepr x .written S n v e := by
  obtain ⟨W, hok⟩ := hS
  obtain ⟨htag, N, hN, hname⟩ := hn
  obtain ⟨w, q, hw, hq, hres⟩ := nameOK_inv hname
  have htv := hasTy_tv G (fun n d hd => writeOK_attrSimple hok hd) (sizeOf v) n i v (tagged_isSome htag) hi
    (Nat.le_refl _) hv
  obtain ⟨evs, e, h1, h2, h3, h4, h5⟩ := toXml_ok G hx hok hi htag (q := q) (by
    intro N' nm hN' hnm
    rw [hN] at hN'; cases hN'
    rw [hw] at hnm; cases hnm
    exact hres) htv
  refine ⟨evs, e, ⟨(by intro hh; cases hh), _, h1⟩, h2, h3, by rw [hq, h4], sizeOf v, _, [], ?_, fun _ => rfl, h5⟩
  show _ = _ ++ []
  simp

/-- **C15**, for faithful schemas: for every value of the generated type, `to_xml` returns successfully; what is written
starts with a start tag and ends with an end tag, is a document, and its only root element has the name of
the type.

Missing: schemas that are not `Faithful`, for which the claim is false in general (`C15_false` in
`Verif/Props/Defects.lean`). -/
theorem C15_written_partial (G : Generated x S P) (hx : x.NumLaws) (hS : Faithful x S) {n : Name} {i : Str}
    (hi : typeIdent x n = .ok i) (hn : DocType S n) {v : Val} (hv : HasTy P (.named i) v) :
    ∃ evs e, ToXml x P i v (.ok evs) ∧ (∃ nm as ns mid, evs = .start nm as ns :: (mid ++ [.fin])) ∧
      buildDoc evs = some e ∧ S.expanded n = .ok e.1.name := by
  obtain ⟨evs, e, h1, h2, h3, h4, _⟩ := write_typed G hx hS hi hn hv
  exact ⟨evs, e, h1, h2, h3, h4⟩

/-- **C27**, for faithful schemas: after resolving the written names in the namespace declarations in scope, every
element has the name (and attributes and text) that the schema requires at its place.

Missing: schemas that are not `Faithful`. -/
theorem C27_names_partial (G : Generated x S P) (hx : x.NumLaws) (hS : Faithful x S) {n : Name} {i : Str}
    (hi : typeIdent x n = .ok i) (hn : DocType S n) {v : Val} (hv : HasTy P (.named i) v) {evs : List Ev}
    (h : ToXml x P i v (.ok evs)) : ∃ e, buildDoc evs = some e ∧ DocRepr x .written S n v e := by
  obtain ⟨evs', e, h1, _, h3, h4⟩ := write_typed G hx hS hi hn hv
  have := h.unique h1
  cases this
  exact ⟨e, h3, h4⟩

theorem docRepr_transfer {m : Mode} (hm : m.ne = true) (hS : Faithful x S) {n : Name} {v : Val} {e e' : Elem}
    (h : DocRepr x m S n v e) (h' : DocRepr x .written S n v e') : DocRepr x .exact S n v e' := by
  obtain ⟨W, hok⟩ := hS
  obtain ⟨_, k, es, _, _, _, h⟩ := h
  obtain ⟨hq, k', es', j', hc', hj', h'⟩ := h'
  exact ⟨hq, k', es', j', hc', hj', (trepr_transfer hm (writeOK_variantsDistinct hok) k k' n v e es e' es' h h').1⟩

theorem docRepr_typed {m : Mode} (G : Generated x S P) (hS : Faithful x S) {n : Name} {i : Str}
    (hi : typeIdent x n = .ok i) {v : Val} {e : Elem} (h : DocRepr x m S n v e) : HasTy P (.named i) v := by
  obtain ⟨W, hok⟩ := hS
  obtain ⟨_, k, es, _, _, _, h⟩ := h
  exact trepr_typed G (writeOK_variantsTyped hok) k n i v e es hi h

/-- Whatever is represented without empty groups can be written and is read back. -/
theorem roundtrip {m : Mode} (hm : m.ne = true) (G : Generated x S P) (hx : x.NumLaws) (hdet : Deterministic x S)
    (hS : Faithful x S) {n : Name} {i : Str} (hi : typeIdent x n = .ok i) (hn : DocType S n) {v : Val} {e : Elem}
    (h : DocRepr x m S n v e) :
    ∃ evs e1, ToXml x P i v (.ok evs) ∧ buildDoc evs = some e1 ∧ DocRepr x .exact S n v e1 ∧
      ∀ e2 : Elem, Indented (.elem e1.1 e1.2) (.elem e2.1 e2.2) → FromXml x P i ⟨e2⟩ (.ok v) := by
  obtain ⟨evs, e1, h1, _, h3, h4⟩ := write_typed G hx hS hi hn (docRepr_typed G hS hi h)
  have h5 := docRepr_transfer hm hS h h4
  exact ⟨evs, e1, h1, h3, h5, fun e2 hind =>
    C07_indentation G hi (tagged_isSome hn.1) hind (C14_complete G hdet hi (tagged_isSome hn.1) h5)⟩

/-- **C11.** Every value that some document represents is written successfully, what is written is a
document, and reading that document, indented in any way, gives back the value. -/
theorem C11_roundtrip (G : Generated x S P) (hx : x.NumLaws) (hdet : Deterministic x S) (hS : Faithful x S) {n : Name}
    {i : Str} (hi : typeIdent x n = .ok i) (hn : DocType S n) {v : Val} (hv : ∃ e, DocRepr x .exact S n v e) :
    ∃ evs e1, ToXml x P i v (.ok evs) ∧ buildDoc evs = some e1 ∧
      ∀ e2 : Elem, Indented (.elem e1.1 e1.2) (.elem e2.1 e2.2) → FromXml x P i ⟨e2⟩ (.ok v) := by
  obtain ⟨e, h⟩ := hv
  obtain ⟨evs, e1, h1, h2, _, h3⟩ := roundtrip rfl G hx hdet hS hi hn h
  exact ⟨evs, e1, h1, h2, h3⟩

/-- **C12.** Whatever value is read from a document, valid or not, is written successfully, and reading what is written,
indented in any way, gives the same value again. Moreover, what is written is valid. -/
theorem C12_stable (G : Generated x S P) (hx : x.NumLaws) (hdet : Deterministic x S) (hS : Faithful x S) {n : Name}
    {i : Str} (hi : typeIdent x n = .ok i) (hn : DocType S n) {d : Doc} {v : Val} (h : FromXml x P i d (.ok v)) :
    ∃ evs e1, ToXml x P i v (.ok evs) ∧ buildDoc evs = some e1 ∧ DocRepr x .exact S n v e1 ∧
      ∀ e2 : Elem, Indented (.elem e1.1 e1.2) (.elem e2.1 e2.2) → FromXml x P i ⟨e2⟩ (.ok v) := by
  obtain ⟨C, hC⟩ := hdet
  obtain ⟨r, hr⟩ := Option.isSome_iff_exists.1 (tagged_isSome hn.1)
  obtain ⟨t, _, _, hg⟩ := G.find hr
  obtain ⟨hq, k, s', hk⟩ := (FromXml.ok_iff G hi (tagged_isSome hn.1) hg.rootName).1 h
  obtain ⟨_, es, he, hcat⟩ := fromNode_tidy G hC k n i _ v s' hi (tagged_isSome hn.1) hk
  have : DocRepr x .tidy S n v d.root := ⟨hq ▸ hg.rootName, k, es, s'.pending, hcat, fun hh => (by cases hh), he⟩
  exact roundtrip rfl G hx ⟨C, hC⟩ hS hi hn this

/-! ## The hypotheses are met -/

namespace Sample

theorem faithful : Faithful sampleExt sch := ⟨WCert.compute sch, by decide +kernel⟩

theorem docType : DocType sch (nm c!"Article") := ⟨by rfl, [([], c!"urn:a")], by rfl, by decide +kernel⟩

theorem numLaws : sampleExt.NumLaws := ⟨parseNat_showNat, parseNat_showNat⟩

/-- The value of the sample document is read back from what is written for it. -/
example : ∃ evs e1, ToXml sampleExt pgm c!"Article" val (.ok evs) ∧ buildDoc evs = some e1 ∧
    DocRepr sampleExt .exact sch (nm c!"Article") val e1 ∧
    ∀ e2 : Elem, Indented (.elem e1.1 e1.2) (.elem e2.1 e2.2) → FromXml sampleExt pgm c!"Article" ⟨e2⟩ (.ok val) :=
  C12_stable generated numLaws deterministic faithful article_ident docType doc_decodes

end Sample

end Xsd
