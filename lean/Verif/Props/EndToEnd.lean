import Verif.Lemmas.Validity
import Verif.Props.ReadTerminates
import Verif.Props.TypeSafety
/-!
# From schema files to documents (C63)
-/
namespace Xsd.Flat

section
variable {x : Ext} {F : Files} {path : Str}

/-- The laws that the external functions are assumed to obey: conversion to snake case keeps names in ASCII; what is accepted as
an identifier, and what Pascal case makes of a word; printed numbers are parsed again; `Variant1`, `Variant2`, … are identifiers. -/
structure ExtLaws (x : Ext) : Prop where
  snake : x.SnakeAscii
  names : x.NameLaws
  nums : x.NumLaws
  variants : x.VariantLaw

/-- The code that is generated for a schema file, for the component `q`: the identifier of its type. -/
def TypeOf (x : Ext) (q : QName) (i : Str) : Prop := escapeIdent x (x.pascal q.loc) = .ok i

section
variable {k : Nat} {P : PSchema} (h : parseFile x F k path = .ok P) (B : FlatFile x F path) {q : QName} {D : Def} {n : Name}
  (hD : Component F path q D) (hn : Names P.context.namespaces n q)
include h B hD hn

theorem get_of_names : ∃ r, P.context.get n = some r ∧ RootIs P.context.namespaces n D r := by
  obtain ⟨n', r, hn', hr, hR⟩ := B.definition h hD
  cases hn.same hn'
  exact ⟨r, hr, hR⟩

/-- A valid document represents a value. -/
theorem valid_represents {occ : ElementDecl → Nat → Prop} (hocc : ∀ l n, occ l n → OccursLoosely l n) {e : Elem}
    (hv : ValidDocument x F path false occ q D e) : ∃ v, DocRepr x .exact P.context n v e ∧
      ∀ e', DocRepr x .exact P.context n v e' → ValidDocument x F path false occ q D e' := by
  obtain ⟨r, hr, hR⟩ := get_of_names h B hD hn
  obtain ⟨h1, h2⟩ := hv
  obtain ⟨w, j, h3, h4⟩ := validDef_repr h B hocc h2 hD hn
  have hex := hn.expanded (parsed_inv h)
  have back : ∀ v e', (r.Structured ∧ v = w ∨ ¬ r.Structured ∧ v = .newtype w) → DocRepr x .exact P.context n v e' →
      ValidDocument x F path false occ q D e' := by
    rintro v e' hvw ⟨h5, j', es, junk, h6, h7, h8⟩
    cases h7 rfl
    replace h6 : elemKids e'.2 = es ++ [] := h6
    rw [List.append_nil] at h6
    subst h6
    constructor
    · rw [hex] at h5
      injection h5 with h5
      exact h5.symm
    · rcases rval_of_root h B hr h8 with ⟨hs, h9⟩ | ⟨hs, w', rfl, h9⟩
      · rcases hvw with ⟨_, rfl⟩ | ⟨hns, _⟩
        · exact countDef_valid h B (m := .exact) h4 hD hn seg_all h9
        · exact absurd hs hns
      · rcases hvw with ⟨hs', _⟩ | ⟨_, h10⟩
        · exact absurd hs' hs
        · cases h10
          exact countDef_valid h B (m := .exact) h4 hD hn seg_all h9
  rcases root_of_rval h B hr h3 with ⟨hs, h5⟩ | ⟨hs, h5⟩
  · exact ⟨w, ⟨by rw [h1]; exact hex, j, _, [], (List.append_nil _).symm, fun _ => rfl, h5⟩, fun e' => back w e' (.inl ⟨hs, rfl⟩)⟩
  · exact ⟨.newtype w, ⟨by rw [h1]; exact hex, j + 1, _, [], (List.append_nil _).symm, fun _ => rfl, h5⟩,
      fun e' => back _ e' (.inr ⟨hs, rfl⟩)⟩

/-- A document that represents a value is valid, up to the number of repetitions. -/
theorem represents_valid {m : Mode} {v : Val} {e : Elem} (hv : DocRepr x m P.context n v e) :
    ValidDocument x F path (!m.strict) OccursLoosely q D e := by
  obtain ⟨r, hr, hR⟩ := get_of_names h B hD hn
  obtain ⟨h5, j, es, junk, h6, h7, h8⟩ := hv
  have hseg : Seg m es e := ⟨junk, (cat_append (B.ordered h).not_loose).1 h6, h7⟩
  constructor
  · rw [hn.expanded (parsed_inv h)] at h5
    injection h5 with h5
    exact h5.symm
  · have key : ∀ w, RVal x m P.context (TRepr x m P.context j) (.named n) w e es → ValidDef x F path (!m.strict) OccursLoosely D e := by
      intro w hw
      cases rval_count h B j (.own hn) hw with
      | @own _ D' _ hD' hc =>
        have := countDef_valid h B hc hD' hn hseg hw
        obtain ⟨r', hr', hR'⟩ := get_of_names h B hD' hn
        rw [hr] at hr'
        cases hr'
        exact hR.unique (parsed_inv h) hR' ▸ this
    rcases rval_of_root h B hr h8 with ⟨hs, h9⟩ | ⟨hs, w', rfl, h9⟩
    · exact key _ h9
    · exact key _ h9

end

theorem Occurs.loosely {l : ElementDecl} {n : Nat} (h : Occurs l n) : OccursLoosely l n := by
  obtain ⟨h1, h2⟩ := h
  rintro (hm | hm)
  · have := h2 0 hm
    exact ⟨by omega, fun h0 => by omega⟩
  · have := h2 1 hm
    exact ⟨this, fun h0 => by omega⟩

/-- **C63**, for files of records. The file is parsed, and a module is generated from it that compiles. For every component `q` of the
file there is a type in that module, and with its `from_xml` and `to_xml`

* reading ends without panic, for every document;
* every valid document is read. The value has the type, and is written as a document that is valid too and, indented in any way, read
  as the same value. The same for documents that are valid up to the number of repetitions;
* whatever is read is valid up to the number of repetitions and what comes after the declared content of an element; and it is written
  as a document that is valid up to the number of repetitions and, indented in any way, read as the same value;
* every value of the type is written as a document that is valid up to the number of repetitions.

Missing are the other declarations of schemas: choices, nested groups, `xs:all`, anonymous types inside records, and extensions of types
of the schema; and the requirements on names in `FlatFile`, without which the generated code need not compile (`C58_false`). -/
theorem C63_partial (hx : ExtLaws x) (B : FlatFile x F path) :
    ∃ k P ds, parseFile x F k path = .ok P ∧ generateAll x P.context = .ok ds ∧ Compiles x ds ∧
      ∀ q D, Component F path q D → ∃ i, TypeOf x q i ∧
        (∀ d, ∃ r, FromXml x ds i d r ∧ r ≠ .panic) ∧
        (∀ occ ∈ [Occurs, OccursLoosely], ∀ d : Doc, ValidDocument x F path false occ q D d.root →
          ∃ v, FromXml x ds i d (.ok v) ∧ HasTy ds (.named i) v ∧
            ∃ evs e1, ToXml x ds i v (.ok evs) ∧ buildDoc evs = some e1 ∧ ValidDocument x F path false occ q D e1 ∧
              ∀ e2 : Elem, Indented (.elem e1.1 e1.2) (.elem e2.1 e2.2) → FromXml x ds i ⟨e2⟩ (.ok v)) ∧
        (∀ d v, FromXml x ds i d (.ok v) → ValidDocument x F path true OccursLoosely q D d.root ∧ HasTy ds (.named i) v ∧
            ∃ evs e1, ToXml x ds i v (.ok evs) ∧ buildDoc evs = some e1 ∧ ValidDocument x F path false OccursLoosely q D e1 ∧
              ∀ e2 : Elem, Indented (.elem e1.1 e1.2) (.elem e2.1 e2.2) → FromXml x ds i ⟨e2⟩ (.ok v)) ∧
        (∀ v, HasTy ds (.named i) v → ∃ evs e1, ToXml x ds i v (.ok evs) ∧ buildDoc evs = some e1 ∧
          ValidDocument x F path false OccursLoosely q D e1) := by
  obtain ⟨k, P, h⟩ := B.parsed hx.snake
  have hS := B.schema h
  obtain ⟨ds, hds⟩ := (C60_generated_iff x F k path P h P.context.elements (.refl _)).2 (hS.generable hx.variants)
  replace hds : generateAll x P.context = .ok ds := hds
  have hb := hS.buildable hx.variants
  have G := hb.generated hx.names hS.keys hds
  have hc := C58_compiles_partial hx.names hS.keys hds hb
  refine ⟨k, P, ds, h, hds, hc, ?_⟩
  intro q D hD
  obtain ⟨n, r, hn, hr, hR⟩ := B.definition h hD
  have hsome : (P.context.get n).isSome = true := by rw [hr]; rfl
  obtain ⟨i, hi⟩ := (Good.escapeIdent_iff x).2 (hS.types n r hr).1
  have hdet := hS.deterministic
  have hfaith := hS.faithful hx.names
  have hdoc := hS.docType hsome
  refine ⟨i, ?_, ?_, ?_, ?_, ?_⟩
  · have := hi
    unfold typeIdent at this
    rw [hn.1] at this
    exact this
  · intro d
    obtain ⟨r', h1⟩ := C17_partial G hS.finite hS.groups.look i d
    obtain ⟨t, ht, hti, hg⟩ := G.find hr
    exact ⟨r', h1, (C59_reads hc ⟨t, ht, Res.ok.inj (hg.ident.symm.trans hi)⟩ h1).1⟩
  · intro occ hocc d hv
    have hl : ∀ l n, occ l n → OccursLoosely l n := by
      cases hocc with
      | head => exact fun _ _ h => h.loosely
      | tail _ h => cases h with
        | head => exact fun _ _ h => h
        | tail _ h => cases h
    obtain ⟨v, h1, h2⟩ := valid_represents h B hD hn hl hv
    have h3 := C14_complete G hdet hi hsome h1
    obtain ⟨evs, e1, h4, h5, h6, h7⟩ := C12_stable G hx.nums hdet hfaith hi hdoc h3
    exact ⟨v, h3, C18_decoded_has_type_partial G hS.variantsTyped hi hsome h3, evs, e1, h4, h5, h2 e1 h6, h7⟩
  · intro d v h3
    obtain ⟨evs, e1, h4, h5, h6, h7⟩ := C12_stable G hx.nums hdet hfaith hi hdoc h3
    exact ⟨represents_valid h B hD hn (m := .lenient) (C13_sound G hi hsome h3),
      C18_decoded_has_type_partial G hS.variantsTyped hi hsome h3, evs, e1, h4, h5, represents_valid h B hD hn (m := .exact) h6, h7⟩
  · intro v hv
    obtain ⟨evs, e1, h1, _, h3, h4⟩ := write_typed G hx.nums hfaith hi hdoc hv
    exact ⟨evs, e1, h1, h3, represents_valid h B hD hn (m := .written) h4⟩

end
end Xsd.Flat
