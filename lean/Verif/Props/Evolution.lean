import Verif.Lemmas.WiderVals
import Verif.Props.CompilesSample
/-!
# C73: changing a schema without breaking the documents there are
-/
namespace Xsd
variable {x : Ext} {S S' : SchemaContext} {P P' : List TypeDef} {N : Additions}

/-- **C73, values.** Every value of a type of the old module has exactly one counterpart in the new module: a value of the type with the
same name, in which all fields that were added are `None`. -/
theorem C73_values (W : Wider S S' N) (G : Generated x S P) (G' : Generated x S' P') (H : Compiles x P) (H' : Compiles x P') {ty : Ty} {v : Val}
    (hv : HasTy P ty v) :
    ∃ v', (Upgrade P P' ty v v' ∧ HasTy P' ty v') ∧ ∀ w, Upgrade P P' ty v w → w = v' := by
  obtain ⟨v', h⟩ := hv.upgrade (moduleDeclsWider W G G')
  exact ⟨v', ⟨h, h.typed.2⟩, fun w hw => hw.unique H H' h⟩

/-- **C73, reading.** A document in which nothing occurs that was added is read by the new module as by the old one: the same value, in
which all fields that were added are `None`, or the same error. Variants of an enumeration correspond if they stand for the same value:
the name of a variant may change when values are added. -/
theorem C73_reads (W : Wider S S' N) (G : Generated x S P) (G' : Generated x S' P') (H : Compiles x P) (H' : Compiles x P') {i : Str}
    (hi : DeclaresType P i) {d : Doc} (hd : Without N d.root) :
    (∀ v, FromXml x P i d (.ok v) → ∃ v', FromXml x P' i d (.ok v') ∧ Upgrade P P' (.named i) v v') ∧
    ∀ e, FromXml x P i d (.err e) → FromXml x P' i d (.err e) := by
  have key : ∀ k, (fromXml x cursorOps P k i d).Sim (Upgrade P P' (.named i)) (fromXml x cursorOps P' (k + 1) i d) := by
    intro k
    rw [← fromXml_hom cursor_hom, ← fromXml_hom cursor_hom]
    have M := moduleWider W G G' H'
    obtain ⟨t, ht, rfl, hf⟩ := hi.find H.unique
    obtain ⟨t', hf', T⟩ := M _ _ hf
    simp only [fromXml, hf, hf', T.1.rootName, Doc.tryChild, Doc.child]
    by_cases h : d.root.1.name = t.rootName
    · rw [if_pos ((Elem.is_iff _ _).2 h)]
      have M' : ModuleReadsWider N P P' := fun i t hf => by
        obtain ⟨t', hf', T⟩ := M i t hf
        exact ⟨t', hf', T.1⟩
      exact (fromNode_sim H H' M' k t.ident (Queue.new d.root) (Queue.Free.new hd) hi).bind fun a b h => .ok h.1
    · rw [if_neg (fun h' => h ((Elem.is_iff _ _).1 h'))]
      exact rfl
  refine ⟨fun v ⟨_, k, hk⟩ => ?_, fun e ⟨_, k, hk⟩ => ?_⟩
  · have := key k
    rw [hk] at this
    obtain ⟨v', h1, h2⟩ := this
    exact ⟨v', ⟨(by intro h; cases h), _, h1⟩, h2⟩
  · have := key k
    rw [hk] at this
    exact ⟨(by intro h; cases h), _, this⟩

/-- **C73, writing.** The counterpart is written as the same document. -/
theorem C73_writes (W : Wider S S' N) (G : Generated x S P) (G' : Generated x S' P') (H : Compiles x P) (H' : Compiles x P') {i : Str}
    {v v' : Val} (h : Upgrade P P' (.named i) v v') (r : Res Unit (List Ev)) : ToXml x P' i v' r ↔ ToXml x P i v r := by
  have M : ModuleWritesWider P P' := fun i t hf => by
    obtain ⟨t', hf', T⟩ := moduleWider W G G' H' i t hf
    exact ⟨t', hf', T.2⟩
  simp only [ToXml, toXml_up H H' M h]

/-! ## An example -/

/-- Decidable form of the condition of `Without` on text. -/
def textFreeB (N : Additions) : List XNode → Bool
  | [] => decide ([] ∉ N.values)
  | .text s :: _ => decide (s ∉ N.values)
  | _ => true

theorem textFreeB_sound {ns : List XNode} (h : textFreeB N ns = true) :
    (ns = [] → [] ∉ N.values) ∧ ∀ s ms, ns = .text s :: ms → s ∉ N.values := by
  constructor
  · rintro rfl
    exact of_decide_eq_true h
  · rintro s ms rfl
    exact of_decide_eq_true h

/-- Decidable form of `Without`. -/
def withoutB (N : Additions) : Nat → Elem → Bool
  | 0, _ => false
  | k + 1, e => decide (e.1.name ∉ N.elems) && e.1.attrs.all (fun a => decide (a.ns = none → a.loc ∉ N.attrs ∧ a.value ∉ N.values)) &&
    textFreeB N e.2 && (elemKids e.2).all (withoutB N k)

theorem withoutB_sound {k : Nat} {e : Elem} (h : withoutB N k e = true) : Without N e := by
  induction k generalizing e with
  | zero => cases h
  | succ k ih =>
    simp only [withoutB, Bool.and_eq_true, decide_eq_true_eq, List.all_eq_true] at h
    obtain ⟨⟨⟨h1, h2⟩, h4⟩, h3⟩ := h
    intro d hd
    cases hd with
    | self => exact ⟨h1, h2, textFreeB_sound h4⟩
    | child hc hd => exact ih (h3 _ hc) d hd

namespace EvolutionSample

open Sample

/-- The content of `Article` with an element `summary`, which may be missing, in front of `kind`, and the attribute `rank`. -/
def article' : Root := .element
  ⟨[⟨⟨c!"id", .none⟩, .literal .uint64, none, false, none⟩, ⟨⟨c!"rank", .none⟩, .literal .int32, none, true, none⟩,
    ⟨⟨c!"lang", .none⟩, .named (nm c!"Lang"), none, true, none⟩],
   some (.leaves [leaf c!"title" (.named (nm c!"Text")) 1 (.number 1), leaf c!"tag" (.literal .string) 0 .unbounded,
     leaf c!"author" (.named (nm c!"ArticleAuthor")) 0 (.number 1) true, leaf c!"summary" (.named (nm c!"Summary")) 0 (.number 1),
     leaf c!"kind" (.fixed c!"news") 1 (.number 1)]),
   false, none⟩

/-- The schema of `Verif/Props/Sample.lean` with these, with another language, with another alternative for the author, with elements of `User` that may
occur several times, and with a new type. -/
def sch' : SchemaContext where
  elements :=
    [(nm c!"Lang", .enum [nm c!"en", nm c!"fr", nm c!"de"]),
     (nm c!"Text", .leaf ⟨.literal .string, [], none⟩),
     (nm c!"Summary", .element ⟨[], some (.leaves [leaf c!"line" (.literal .string) 1 .unbounded]), false, none⟩),
     (nm c!"User", .element ⟨[], some (.leaves [leaf c!"mail" (.literal .string) 0 .unbounded, leaf c!"name" (.literal .string) 1 (.number 1),
        leaf c!"age" (.literal .int32) 0 (.number 1)]), false, none⟩),
     (nm c!"ArticleAuthor", .choice [leaf c!"team" (.literal .string) 1 (.number 1), leaf c!"user" (.named (nm c!"User")) 1 (.number 1),
        leaf c!"bot" (.literal .string) 1 (.number 1)] true none),
     (nm c!"Article", article')]
  target := .id 1
  isQualified := true
  namespaces := nss

def pgm' : List TypeDef := moduleOf sampleExt sch'

theorem generated' : Generated sampleExt sch' pgm' := generatesB_sound (by decide +kernel)

def rank' (n : Name) : Nat := if n.name = c!"Article" then 2 else if n.name = c!"ArticleAuthor" then 1 else 0

theorem compiles' : Compiles sampleExt pgm' :=
  (C58_exact_partial sampleExt_nameLaws (by decide +kernel) generated'.gen (refsDistinctB_sound (by decide +kernel))).2
    (buildableB_sound (rank := rank') (by decide +kernel))

/-- What was added. -/
def added : Additions := ⟨[q c!"summary", q c!"mail", q c!"team"], [c!"rank"], [c!"fr"]⟩

theorem wider : Wider sch sch' added where
  target := rfl
  qualified := rfl
  namespaces := rfl
  types := by
    intro n r hr
    have hm := alookup_mem hr
    simp only [sch, List.mem_cons, List.not_mem_nil, or_false, Prod.mk.injEq] at hm
    rcases hm with ⟨rfl, rfl⟩ | ⟨rfl, rfl⟩ | ⟨rfl, rfl⟩ | ⟨rfl, rfl⟩ | ⟨rfl, rfl⟩
    · exact ⟨_, rfl, .values (.keep (.new (by decide) (.keep .nil))) (by decide)⟩
    · exact ⟨_, rfl, .leaf _⟩
    · exact ⟨_, rfl, .element (.more (.new ⟨⟨rfl, q c!"mail", by decide, by decide +kernel⟩, rfl⟩ (.keep (.keep .nil)))) .nil rfl⟩
    · exact ⟨_, rfl, .choice (.new ⟨rfl, q c!"team", by decide, by decide +kernel⟩ (.keep (.keep .nil)))⟩
    · exact ⟨_, rfl, .element (.more (.keep (.keep (.keep (.new ⟨⟨rfl, q c!"summary", by decide, by decide +kernel⟩, rfl⟩ (.keep .nil))))))
        (.keep (.new ⟨rfl, by decide⟩ (.keep .nil))) rfl⟩

theorem doc_without : Without added doc := withoutB_sound (k := 9) (by decide +kernel)

/-- The value that the new module reads. -/
def val' : Val := .struct
  [(c!"title", .str c!"Hi"), (c!"tag", .some (.vec [.str c!"a", .str []])),
   (c!"author", .some (.variant c!"User" (.struct [(c!"mail", .none), (c!"name", .str c!"Bo"), (c!"age", .some (.int (-3)))]))),
   (c!"summary", .none), (c!"kind", .unit), (c!"id", .int 7), (c!"rank", .none), (c!"lang", .some (.enumv c!"De"))]

/-- The hypotheses of C73 are met by these schemas and the document of `Verif/Props/Sample.lean`. -/
example : FromXml sampleExt pgm' c!"Article" ⟨doc⟩ (.ok val') ∧ Upgrade pgm pgm' (.named c!"Article") val val' ∧
    ∀ r, ToXml sampleExt pgm' c!"Article" val' r ↔ ToXml sampleExt pgm c!"Article" val r := by
  have h' : FromXml sampleExt pgm' c!"Article" ⟨doc⟩ (.ok val') := ⟨(by intro h; cases h), 9, by rfl⟩
  obtain ⟨w, hw, hu⟩ := (C73_reads wider generated generated' Sample.compiles compiles' (i := c!"Article")
    (by decide +kernel : ∃ t ∈ pgm, t.ident = c!"Article") (d := ⟨doc⟩) doc_without).1 val doc_decodes
  cases h'.unique hw
  exact ⟨h', hu, C73_writes wider generated generated' Sample.compiles compiles' hu⟩

/-- An attribute that the old module does not know. -/
def docRank : Elem := (⟨q c!"Article", [at' c!"id" c!"7", at' c!"rank" c!"high", at' c!"lang" c!"de"], [], 0⟩, doc.2)

/-- **C73**: the condition on documents is needed. The old module does not look at an attribute that it does not know; the new one
rejects the document. -/
theorem C73_without_needed : FromXml sampleExt pgm c!"Article" ⟨docRank⟩ (.ok val) ∧
    ∃ e, FromXml sampleExt pgm' c!"Article" ⟨docRank⟩ (.err e) :=
  ⟨⟨(by intro h; cases h), 9, by rfl⟩, _, (by intro h; cases h), 9, by rfl⟩

/-- A value of the enumeration that the old module does not know. -/
def docFr : Elem := (⟨q c!"Article", [at' c!"id" c!"7", at' c!"lang" c!"fr"], [], 0⟩, doc.2)

/-- **C73**: the same for values of enumerations. The old module rejects the document, the new one reads it. -/
theorem C73_values_needed : (∃ e, FromXml sampleExt pgm c!"Article" ⟨docFr⟩ (.err e)) ∧
    ∃ v, FromXml sampleExt pgm' c!"Article" ⟨docFr⟩ (.ok v) :=
  ⟨⟨_, (by intro h; cases h), 9, by rfl⟩, _, (by intro h; cases h), 9, by rfl⟩

end EvolutionSample

end Xsd
