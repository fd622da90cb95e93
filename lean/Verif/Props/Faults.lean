import Verif.Lemmas.Faults
import Verif.Lemmas.Blame
import Verif.Props.ReadTerminatesSample
import Verif.Props.ContentExamples
/-!
# Errors of generated readers name what is wrong with the document (C66)
-/
namespace Xsd

variable {x : Ext} {S : SchemaContext} {P : List TypeDef}

/-- **C66.** If `from_xml` fails, then either the root element is not the one asked for, and the error says so, or the error names something
that is wrong at a place that is reached by following the schema through the document (`Faults`, defined on the schema and the document
alone in `Verif/Spec/Faults.lean`): the first required member that is not there, a choice none of whose alternatives can start with the next child
element, an element with something else where text is due, a text or an attribute value that is not of the type, or the first required attribute that is
not there. For every generated module in which groups are groups, type, document and error. -/
theorem C66_faults (G : Generated x S P) (hG : LooksAtGroups x S) {n : Name} {i : Str} {q : QName} (hi : typeIdent x n = .ok i)
    (hn : (S.get n).isSome = true) (hq : S.expanded n = .ok q) {d : Doc} {E : DErr} (h : FromXml x P i d (.err E)) :
    (d.root.1.name ≠ q ∧ E = .missingElement q.loc q.ns) ∨ (d.root.1.name = q ∧ Faults x S n d.root E) := by
  obtain ⟨_, k, hk⟩ := h
  rw [fromXml_eq G hi hn hq] at hk
  split at hk
  · next hr =>
    refine .inr ⟨hr, ?_⟩
    rcases bind_err hk with hk | ⟨_, _, hk⟩
    · exact fromNode_faults G hG k n i _ E hi hn hk .root
    · cases hk
  · next hr => cases hk; exact .inl ⟨hr, rfl⟩

/-! ## Without following the schema -/

theorem Cat.mem {u : Prop} {a b c : List Elem} (h : Cat u .lenient a b c) {ch : Elem} (hb : ch ∈ b) : ch ∈ c :=
  h.1.perm.mem_iff.2 (List.mem_append.2 (.inr hb))

theorem Passed.mem {ls : List Leaf} {e : Elem} {rest rest' : List Elem} (h : Passed x S ls e rest rest') {ch : Elem} (hc : ch ∈ rest') :
    ch ∈ rest := by
  induction h with
  | nil => exact hc
  | cons _ hcat _ _ ih => exact hcat.mem (ih hc)

theorem Turn.mem {m : Name} {e : Elem} {rest rest' : List Elem} {l : Leaf} (h : Turn x S m e rest l rest') {ch : Elem} (hc : ch ∈ rest') :
    ch ∈ rest := by
  cases h with
  | field _ _ hp ha => obtain ⟨_, _, _, _, hcat, _⟩ := ha; exact hp.mem (hcat.mem hc)
  | variant _ _ _ _ ha => obtain ⟨_, _, _, _, hcat, _⟩ := ha; exact hcat.mem hc

/-- The place is an element of the document, and what is not read yet are child elements of it. -/
theorem At.inside {n : Name} {e0 : Elem} {c : LeafContent} {e : Elem} {rest : List Elem} (h : At x S n e0 c e rest) :
    Inside e0 e ∧ ∀ ch ∈ rest, ch ∈ elemKids e.2 := by
  induction h with
  | root => exact ⟨.refl _, fun _ h => h⟩
  | value _ _ _ ih => exact ih
  | group _ ht _ _ ih => exact ⟨ih.1, fun ch hc => ih.2 ch (ht.mem hc)⟩
  | @child m e rest l rest' ch before after _ ht _ _ hr _ _ ih =>
    have hm := ih.2 ch (ht.mem (by rw [hr]; simp))
    refine ⟨ih.1.trans (.kid (i := ch.1) (cs := ch.2) ?_ (.refl _)), fun _ h => h⟩
    obtain ⟨nd, hnd, ha⟩ := List.mem_filterMap.1 hm
    cases nd with
    | elem i cs => cases ha; exact hnd
    | text s => cases ha
    | other => cases ha

/-- `s` is the text of the element or the value of one of its attributes. -/
def Holds (e : Elem) (s : Str) : Prop := TextIs .lenient e s ∨ ∃ a ∈ e.1.attrs, a.ns = none ∧ a.value = s

/-- What can be seen in a document without knowing the schema. -/
def Visible (e0 : Elem) : DErr → Prop
  | .missingElement _ _ => True
  | .missingVariant _ => True
  | .missingAttribute a => ∃ e, Inside e0 e ∧ ∀ b ∈ e.1.attrs, b.ns = none → b.loc ≠ a
  | .textExpected l => ∃ e, Inside e0 e ∧ e.1.name.loc = l ∧ e.2 ≠ [] ∧ ∀ s r, e.2 ≠ .text s :: r
  | .parseType _ s => ∃ e, Inside e0 e ∧ Holds e s
  | .invalidVariant s => ∃ e, Inside e0 e ∧ Holds e s
  | .fixedMismatch f s => ∃ e, Inside e0 e ∧ TextIs .lenient e s ∧ s ≠ f

theorem attrOf_none {e : Elem} {a : Str} (h : attrOf e.1 a = none) : ∀ b ∈ e.1.attrs, b.ns = none → b.loc ≠ a := by
  intro b hb hn hl
  simp only [attrOf, Option.map_eq_none_iff, List.find?_eq_none] at h
  exact h b hb (by simp [hn, hl])

theorem attrOf_some {e : Elem} {a s : Str} (h : attrOf e.1 a = some s) : ∃ b ∈ e.1.attrs, b.ns = none ∧ b.value = s := by
  simp only [attrOf, Option.map_eq_some_iff] at h
  obtain ⟨b, hb, hv⟩ := h
  have := List.find?_some hb
  simp only [decide_eq_true_eq] at this
  exact ⟨b, List.mem_of_find?_eq_some hb, this.1, hv⟩

/-- **C66, for a reader without the schema.** The text that an error quotes is in the document; an element of the document has no attribute of the
name that is missing; an element of the name where text was expected does not start with text. -/
theorem C66_visible (G : Generated x S P) (hG : LooksAtGroups x S) {n : Name} {i : Str} {q : QName} (hi : typeIdent x n = .ok i)
    (hn : (S.get n).isSome = true) (hq : S.expanded n = .ok q) {d : Doc} {E : DErr} (h : FromXml x P i d (.err E)) : Visible d.root E := by
  rcases C66_faults G hG hi hn hq h with ⟨_, rfl⟩ | ⟨_, hf⟩
  · trivial
  · cases hf with
    | element => trivial
    | variant => trivial
    | text ha _ he hno => exact ⟨_, ha.inside.1, rfl, he, hno⟩
    | literal ha _ hs _ => exact ⟨_, ha.inside.1, .inl hs⟩
    | fixed ha _ hs hne => exact ⟨_, ha.inside.1, hs, hne⟩
    | enum ha _ _ hs _ => exact ⟨_, ha.inside.1, .inl hs⟩
    | noAttribute ha _ _ _ _ hno => exact ⟨_, ha.inside.1, attrOf_none hno⟩
    | attrLiteral ha _ _ _ hs _ _ => exact ⟨_, ha.inside.1, .inr (attrOf_some hs)⟩
    | attrEnum ha _ _ _ hs _ _ _ => exact ⟨_, ha.inside.1, .inr (attrOf_some hs)⟩

namespace Sample2
open Sample (nm leaf nss q el at')

theorem groups : GroupsAreGroups sampleExt sch := groupsB_sound (by decide +kernel)

/-- The group of a choice is entered on its optional member `x`, and its required member `y` is not there. -/
def noY : Elem := root c!"Pick" [kid c!"x" c!"s", kid c!"z" c!"s"]

theorem noY_fails : FromXml sampleExt pgm c!"Pick" ⟨noY⟩ (.err (.missingElement c!"y" (some c!"urn:a"))) := ⟨by simp, 9, by rfl⟩

example : Faults sampleExt sch (nm c!"Pick") noY (.missingElement c!"y" (some c!"urn:a")) :=
  ((C66_faults generated groups.look (n := nm c!"Pick") (by rfl) (by rfl) (by rfl) noY_fails).resolve_left fun h => by cases h.2).2

/-- A text that is not a number. -/
def notInt : Elem := root c!"Pair" [kid c!"a" c!"s", kid c!"b" c!"four"] [at' c!"k" c!"z"]

theorem notInt_fails : FromXml sampleExt pgm c!"Pair" ⟨notInt⟩ (.err (.parseType LiteralType.int32.xsdName c!"four")) := ⟨by simp, 9, by rfl⟩

example : Visible notInt (.parseType LiteralType.int32.xsdName c!"four") :=
  C66_visible generated groups.look (n := nm c!"Pair") (by rfl) (by rfl) (by rfl) notInt_fails

/-- `Visible` says something: no attribute is missing in a document that consists of one element with that attribute. -/
example : ¬ Visible (root c!"Top" [.text c!"t"] [at' c!"k" c!"z"]) (.missingAttribute c!"k") := by
  rintro ⟨e, he, hno⟩
  cases he with
  | refl => exact hno (at' c!"k" c!"z") (by simp [root]) rfl rfl
  | kid h _ => simp [root] at h

end Sample2

end Xsd
