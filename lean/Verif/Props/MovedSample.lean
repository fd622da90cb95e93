import Verif.Props.Moved
import Verif.Props.AgainSample
/-!
# Concrete cases for C77
-/
namespace Xsd
namespace MovedSample
open SchemaSample AgainSample

/-- The files of `AgainSample` in a directory, and another file. -/
def inDir : Files where
  read p := (alookup [(c!"dir/base.xsd", baseDoc), (c!"dir/mid.xsd", midDoc), (c!"dir/main.xsd", tDoc (AgainSample.pre ++ AgainSample.post)),
    (c!"base.xsd", tDoc [])] p).map .doc
  parent _ := c!"dir/"
  push b l := b ++ l

/-- Which file is which. -/
def Where (q q' : Str) : Prop :=
  (q, q') ∈ [(c!"once.xsd", c!"dir/main.xsd"), (c!"mid.xsd", c!"dir/mid.xsd"), (c!"base.xsd", c!"dir/base.xsd")]

theorem sameTree : SameTree AgainSample.files inDir Where where
  read := by
    intro q q' h
    unfold Where at h
    simp only [List.mem_cons, Prod.mk.injEq, List.not_mem_nil, or_false] at h
    rcases h with ⟨rfl, rfl⟩ | ⟨rfl, rfl⟩ | ⟨rfl, rfl⟩ <;> rfl
  step := by
    intro q q' d c l h hd hc hn hl
    unfold Where at h
    simp only [List.mem_cons, Prod.mk.injEq, List.not_mem_nil, or_false] at h
    have key : ∀ (d0 : XDoc) (P : Str → Prop), (∀ c ∈ (Nd.of d0.root).xsdKids, (c.name = c!"include" ∨ c.name = c!"import") →
        ∃ l0, c.value c!"schemaLocation" = some l0 ∧ P l0) → d = d0 → P l := by
      rintro d0 P hP rfl
      obtain ⟨l0, h1, h2⟩ := hP c hc hn
      rw [hl] at h1
      cases h1
      exact h2
    rcases h with ⟨rfl, rfl⟩ | ⟨rfl, rfl⟩ | ⟨rfl, rfl⟩
    · refine key (tDoc (AgainSample.pre ++ AgainSample.post)) (fun l => Where l (c!"dir/" ++ l)) ?_ (by cases hd; rfl)
      intro c hc hn
      rcases hc with _ | ⟨_, hc⟩
      · exact ⟨c!"mid.xsd", rfl, .tail _ (.head _)⟩
      · rcases hc with _ | ⟨_, hc⟩
        · exact absurd hn (by decide)
        · rcases hc with _ | ⟨_, hc⟩
          · exact absurd hn (by decide)
          · cases hc
    · refine key midDoc (fun l => Where l (c!"dir/" ++ l)) ?_ (by cases hd; rfl)
      intro c hc hn
      rcases hc with _ | ⟨_, hc⟩
      · exact ⟨c!"base.xsd", rfl, .tail _ (.tail _ (.head _))⟩
      · rcases hc with _ | ⟨_, hc⟩
        · exact absurd hn (by decide)
        · cases hc
    · refine key baseDoc (fun l => Where l (c!"dir/" ++ l)) ?_ (by cases hd; rfl)
      intro c hc hn
      rcases hc with _ | ⟨_, hc⟩
      · exact absurd hn (by decide)
      · rcases hc with _ | ⟨_, hc⟩
        · exact absurd hn (by decide)
        · cases hc

/-- The hypotheses of C77 are met: the files in the directory give the same schema, although there is another `base.xsd`. -/
example : parseFile sampleExt inDir 3 c!"dir/main.xsd" = .ok (parsed c!"once.xsd") := by
  have h := C77 (x := sampleExt) sameTree (path := c!"once.xsd") (path' := c!"dir/main.xsd") (.head _) 3
  have h0 : parseFile sampleExt AgainSample.files 3 c!"once.xsd" = .ok (parsed c!"once.xsd") := by decide +kernel
  rw [h0] at h
  revert h
  generalize parseFile sampleExt inDir 3 c!"dir/main.xsd" = r
  generalize parsed c!"once.xsd" = S
  intro h
  cases h
  rfl

end MovedSample
end Xsd
