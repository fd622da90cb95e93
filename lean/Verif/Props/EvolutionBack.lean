import Verif.Props.Evolution
import Verif.Props.ReadTerminatesSample
import Verif.Props.RoundTrip
/-!
# C73: going back to the old schema
-/
namespace Xsd
variable {x : Ext} {S S' : SchemaContext} {P P' : List TypeDef} {N : Additions}

/-- **C73, back.** Conversely, if the old code always returns (`FiniteTypes` and `LooksAtGroups`, see C17): whatever the new module makes of
a document in which nothing occurs that was added, the old one has made of it, too. -/
theorem C73_back (W : Wider S S' N) (G : Generated x S P) (G' : Generated x S' P') (H : Compiles x P) (H' : Compiles x P')
    (hF : FiniteTypes S) (hL : LooksAtGroups x S) {i : Str} (hi : DeclaresType P i) {d : Doc} (hd : Without N d.root) :
    (∀ v', FromXml x P' i d (.ok v') → ∃ v, FromXml x P i d (.ok v) ∧ Upgrade P P' (.named i) v v') ∧
    ∀ e, FromXml x P' i d (.err e) → FromXml x P i d (.err e) := by
  obtain ⟨h1, h2⟩ := C73_reads W G G' H H' hi hd
  obtain ⟨r, hr⟩ := C17_partial G hF hL i d
  cases r with
  | ok v =>
    obtain ⟨w, hw, hu⟩ := h1 v hr
    refine ⟨fun v' hv' => ?_, fun e he => ?_⟩
    · cases hw.unique hv'
      exact ⟨v, hr, hu⟩
    · cases hw.unique he
  | err e =>
    have hw := h2 e hr
    refine ⟨fun v' hv' => ?_, fun e' he => ?_⟩
    · cases hw.unique hv'
    · cases hw.unique he
      exact hr
  | panic => exact absurd rfl (C59_reads H hi hr).1
  | diverge => exact absurd rfl hr.1

/-- **C73, exchange.** What the new code writes for the counterpart of a value that the old code has read is a document that the old code,
however the document is indented, reads as that value. -/
theorem C73_exchange (W : Wider S S' N) (G : Generated x S P) (G' : Generated x S' P') (H : Compiles x P) (H' : Compiles x P')
    (hx : x.NumLaws) (hdet : Deterministic x S) (hS : Faithful x S) {n : Name} {i : Str} (hi : typeIdent x n = .ok i) (hn : DocType S n)
    {d : Doc} {v v' : Val} (h : FromXml x P i d (.ok v)) (hu : Upgrade P P' (.named i) v v') :
    ∃ evs e1, ToXml x P' i v' (.ok evs) ∧ buildDoc evs = some e1 ∧
      ∀ e2 : Elem, Indented (.elem e1.1 e1.2) (.elem e2.1 e2.2) → FromXml x P i ⟨e2⟩ (.ok v) := by
  obtain ⟨evs, e1, h1, h2, _, h3⟩ := C12_stable G hx hdet hS hi hn h
  exact ⟨evs, e1, (C73_writes W G G' H H' hu _).2 h1, h2, h3⟩

namespace EvolutionSample

open Sample

theorem finite : FiniteTypes sch := rankB_sound (rank := rank') (by decide +kernel)

theorem groups : GroupsAreGroups sampleExt sch := groupsB_sound (by decide +kernel)

theorem article_declared : DeclaresType pgm c!"Article" := (by decide +kernel : ∃ t ∈ pgm, t.ident = c!"Article")

/-- The hypotheses are met by the example: what the new module reads, the old one reads. -/
example : ∃ v, FromXml sampleExt pgm c!"Article" ⟨doc⟩ (.ok v) ∧ Upgrade pgm pgm' (.named c!"Article") v val' :=
  (C73_back wider generated generated' Sample.compiles compiles' finite groups.look article_declared (d := ⟨doc⟩) doc_without).1 val'
    ⟨(by intro h; cases h), 9, by rfl⟩

/-- A document with the new alternative. -/
def docTeam : Elem := (⟨q c!"Article", [at' c!"id" c!"7"], [], 0⟩,
  [el c!"title" [.text c!"Hi"], el c!"team" [.text c!"us"], el c!"kind" [.text c!"news"]])

/-- The condition on documents is needed for the way back, too: the new module reads the new alternative. -/
theorem C73_back_needed : (∃ v, FromXml sampleExt pgm' c!"Article" ⟨docTeam⟩ (.ok v)) ∧
    ∃ e, FromXml sampleExt pgm c!"Article" ⟨docTeam⟩ (.err e) :=
  ⟨⟨_, (by intro h; cases h), 9, by rfl⟩, _, (by intro h; cases h), 9, by rfl⟩

/-- A value that the old code has read, written by the new code, read by the old code. -/
example : ∃ evs e1, ToXml sampleExt pgm' c!"Article" val' (.ok evs) ∧ buildDoc evs = some e1 ∧
    ∀ e2 : Elem, Indented (.elem e1.1 e1.2) (.elem e2.1 e2.2) → FromXml sampleExt pgm c!"Article" ⟨e2⟩ (.ok val) := by
  obtain ⟨w, hw, hu⟩ := (C73_reads wider generated generated' Sample.compiles compiles' article_declared (d := ⟨doc⟩) doc_without).1 val doc_decodes
  cases FromXml.unique (r := .ok val') ⟨(by intro h; cases h), 9, by rfl⟩ hw
  exact C73_exchange wider generated generated' Sample.compiles compiles' numLaws deterministic faithful article_ident docType doc_decodes hu

end EvolutionSample

end Xsd
