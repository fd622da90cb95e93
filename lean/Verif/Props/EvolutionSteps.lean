import Verif.Props.EvolutionBack
/-!
# C73: several changes of a schema, one after the other
-/
namespace Xsd
variable {x : Ext} {S S' S'' : SchemaContext} {N N' : Additions}

/-- What was added in one of two steps. -/
def Additions.and (N N' : Additions) : Additions := ⟨N.elems ++ N'.elems, N.attrs ++ N'.attrs, N.values ++ N'.values⟩

theorem Inserts.trans {α : Type} {p : α → Prop} {as bs cs : List α} (h : Inserts p as bs) (h' : Inserts p bs cs) : Inserts p as cs := by
  induction h' generalizing as with
  | nil => exact h
  | keep _ ih =>
    cases h with
    | keep h => exact .keep (ih h)
    | new hb h => exact .new hb (ih h)
  | new hb _ ih => exact .new hb (ih h)

theorem expanded_namespaces (h : S'.namespaces = S.namespaces) (n : Name) : S'.expanded n = S.expanded n := by
  simp only [SchemaContext.expanded, SchemaContext.uriOf, h]

theorem NewMember.mono (hns : S'.namespaces = S.namespaces) (he : ∀ q ∈ N.elems, q ∈ N'.elems) {l : Leaf} (h : NewMember S N l) :
    NewMember S' N' l := by
  obtain ⟨hv, q, hq, hx⟩ := h
  exact ⟨hv, q, he q hq, (expanded_namespaces hns _).trans hx⟩

/-- The same additions, with names for more. -/
theorem RootWider.mono (hns : S'.namespaces = S.namespaces) (he : ∀ q ∈ N.elems, q ∈ N'.elems) (ha : ∀ a ∈ N.attrs, a ∈ N'.attrs)
    (hv : ∀ a ∈ N.values, a ∈ N'.values) {r r' : Root} (h : RootWider S N r r') : RootWider S' N' r r' := by
  cases h with
  | leaf d => exact .leaf d
  | enum ns => exact .enum ns
  | values h hd => exact .values (h.mono fun n => hv _) hd
  | element hc hat hvt =>
    refine .element ?_ (hat.mono fun a h => ⟨h.1, ha _ h.2⟩) hvt
    generalize ElementDef.content _ = c at hc ⊢
    generalize ElementDef.content _ = c' at hc ⊢
    cases hc with
    | same => exact .same _
    | first h => exact .first (h.mono fun l h => ⟨h.1.mono hns he, h.2⟩)
    | more h => exact .more (h.mono fun l h => ⟨h.1.mono hns he, h.2⟩)
  | choice h => exact .choice (h.mono fun l h => h.mono hns he)

theorem ContentWider.trans {c c' c'' : Option ElementContent} (h : ContentWider S N c c') (h' : ContentWider S N c' c'') :
    ContentWider S N c c'' := by
  cases h with
  | same => exact h'
  | first h =>
    cases h' with
    | same => exact .first h
    | more h' => exact .first (h.trans h')
  | more h =>
    cases h' with
    | same => exact .more h
    | more h' => exact .more (h.trans h')

theorem RootWider.trans {r r' r'' : Root} (h : RootWider S N r r') (h' : RootWider S N r' r'') : RootWider S N r r'' := by
  cases h with
  | leaf d => exact h'
  | enum ns => exact h'
  | values h hd =>
    cases h' with
    | enum => exact .values h hd
    | values h' hd' => exact .values (h.trans h') hd'
  | element hc ha hv =>
    cases h' with
    | element hc' ha' hv' => exact .element (hc.trans hc') (ha.trans ha') (hv'.trans hv)
  | choice h =>
    cases h' with
    | choice h' => exact .choice (h.trans h')

/-- **C73, steps.** Two extensions of a schema, one after the other, are one extension. -/
theorem C73_steps (W : Wider S S' N) (W' : Wider S' S'' N') : Wider S S'' (N.and N') where
  target := W'.target.trans W.target
  qualified := W'.qualified.trans W.qualified
  namespaces := W'.namespaces.trans W.namespaces
  types := by
    intro n r hr
    obtain ⟨r', hr', h⟩ := W.types n r hr
    obtain ⟨r'', hr'', h'⟩ := W'.types n r' hr'
    refine ⟨r'', hr'', (h.mono W'.namespaces ?_ ?_ ?_).trans (h'.mono rfl ?_ ?_ ?_)⟩
    · exact fun _ => List.mem_append_left _
    · exact fun _ => List.mem_append_left _
    · exact fun _ => List.mem_append_left _
    · exact fun _ => List.mem_append_right _
    · exact fun _ => List.mem_append_right _
    · exact fun _ => List.mem_append_right _

theorem Wider.refl (S : SchemaContext) : Wider S S ⟨[], [], []⟩ where
  target := rfl
  qualified := rfl
  namespaces := rfl
  types := by
    intro n r hr
    refine ⟨r, hr, ?_⟩
    cases r with
    | leaf d => exact .leaf d
    | enum ns => exact .enum ns
    | element d => exact .element (.same _) (.refl _) rfl
    | choice vs b docs => exact .choice (.refl _)

/-- A document without what was added in either step is one without what was added at all. -/
theorem Without.both {e : Elem} : Without (N.and N') e ↔ Without N e ∧ Without N' e := by
  constructor
  · intro h
    refine ⟨fun d hd => ?_, fun d hd => ?_⟩
    · obtain ⟨h1, h2, h3, h4⟩ := h d hd
      exact ⟨fun hm => h1 (List.mem_append_left _ hm), fun a ha hn => ⟨fun hm => (h2 a ha hn).1 (List.mem_append_left _ hm),
        fun hm => (h2 a ha hn).2 (List.mem_append_left _ hm)⟩, fun hk hm => h3 hk (List.mem_append_left _ hm),
        fun s ns hk hm => h4 s ns hk (List.mem_append_left _ hm)⟩
    · obtain ⟨h1, h2, h3, h4⟩ := h d hd
      exact ⟨fun hm => h1 (List.mem_append_right _ hm), fun a ha hn => ⟨fun hm => (h2 a ha hn).1 (List.mem_append_right _ hm),
        fun hm => (h2 a ha hn).2 (List.mem_append_right _ hm)⟩, fun hk hm => h3 hk (List.mem_append_right _ hm),
        fun s ns hk hm => h4 s ns hk (List.mem_append_right _ hm)⟩
  · rintro ⟨h, h'⟩ d hd
    obtain ⟨h1, h2, h3, h4⟩ := h d hd
    obtain ⟨g1, g2, g3, g4⟩ := h' d hd
    refine ⟨fun hm => (List.mem_append.1 hm).elim h1 g1, fun a ha hn => ⟨fun hm => (List.mem_append.1 hm).elim (h2 a ha hn).1 (g2 a ha hn).1,
      fun hm => (List.mem_append.1 hm).elim (h2 a ha hn).2 (g2 a ha hn).2⟩, fun hk hm => (List.mem_append.1 hm).elim (h3 hk) (g3 hk),
      fun s ns hk hm => (List.mem_append.1 hm).elim (h4 s ns hk) (g4 s ns hk)⟩

mutual
theorem Upgrade.trans {P P' P'' : List TypeDef} (H' : Compiles x P') {ty : Ty} {v v' v'' : Val} :
    Upgrade P P' ty v v' → Upgrade P' P'' ty v' v'' → Upgrade P P'' ty v v''
  | h, .prim _ => by rw [h.prim_eq] at *; cases h with | prim h => exact .prim h
  | h, .unit => by cases h; exact .unit
  | h, .none => by cases h; exact .none
  | h, .some h' => by cases h with | some h => exact .some (h.trans H' h')
  | h, .vec h' => by cases h with | vec h => exact .vec (h.trans H' h')
  | h, .named (t := t) hf hf' h' => by
    cases h with
    | named gf gf' h =>
      rw [hf] at gf'
      cases gf'
      exact .named gf hf' (h.trans H' (H'.typed t (findType_mem hf).1).distinct h')
termination_by structural _ h => h
theorem UpgradeAll.trans {P P' P'' : List TypeDef} (H' : Compiles x P') {ty : Ty} {vs vs' vs'' : List Val} :
    UpgradeAll P P' ty vs vs' → UpgradeAll P' P'' ty vs' vs'' → UpgradeAll P P'' ty vs vs''
  | h, .nil => by cases h; exact .nil
  | h, .cons h' hs' => by cases h with | cons h hs => exact .cons (h.trans H' h') (hs.trans H' hs')
termination_by structural _ h => h
theorem UpgradeDecl.trans {P P' P'' : List TypeDef} (H' : Compiles x P') {d d' d'' : Decl} {v v' v'' : Val} :
    UpgradeDecl P P' d d' v v' → d'.labels.Nodup → UpgradeDecl P' P'' d' d'' v' v'' → UpgradeDecl P P'' d d'' v v''
  | h, _, .newtype h' => by cases h with | newtype h => exact .newtype (h.trans H' h')
  | h, _, .enum _ => by
    cases h with
    | enum h => exact .enum h
    | values h h' hu => exact .values h h' hu
  | h, hn, .values g g' gu => by
    cases h with
    | enum h => exact .values g g' gu
    | values h h' hu =>
      cases nodup_fst_unique hn h' g
      exact .values h g' gu
  | h, _, .struct h' => by cases h with | struct h => exact .struct (h.trans H' h')
  | h, hn, .choice gm gm' h' => by
    cases h with
    | choice hm hm' h =>
      cases nodup_fst_unique hn hm' gm
      exact .choice hm gm' (h.trans H' h')
termination_by structural _ _ h => h
theorem UpgradeFields.trans {P P' P'' : List TypeDef} (H' : Compiles x P') {ds ds' ds'' : List (Str × Ty)} {fs fs' fs'' : List (Str × Val)} :
    UpgradeFields P P' ds ds' fs fs' → UpgradeFields P' P'' ds' ds'' fs' fs'' → UpgradeFields P P'' ds ds'' fs fs''
  | h, .nil => by cases h; exact .nil
  | h, .keep h' hs' => by
    cases h with
    | keep h hs => exact .keep (h.trans H' h') (hs.trans H' hs')
    | new hs => cases h'; exact .new (hs.trans H' hs')
  | h, .new hs' => .new (h.trans H' hs')
termination_by structural _ h => h
end

/-- **C73, steps, values.** The counterpart of a value after two steps is the counterpart of its counterpart after the first one. -/
theorem C73_steps_values {P P' P'' : List TypeDef} (W : Wider S S' N) (W' : Wider S' S'' N') (G : Generated x S P) (G' : Generated x S' P')
    (G'' : Generated x S'' P'') (H : Compiles x P) (H' : Compiles x P') (H'' : Compiles x P'') {ty : Ty} {v v'' : Val} :
    Upgrade P P'' ty v v'' ↔ ∃ v', Upgrade P P' ty v v' ∧ Upgrade P' P'' ty v' v'' := by
  constructor
  · intro h
    obtain ⟨v', ⟨h1, h2⟩, _⟩ := C73_values W G G' H H' h.typed.1
    obtain ⟨w, ⟨h3, _⟩, _⟩ := C73_values W' G' G'' H' H'' h2
    cases (h1.trans H' h3).unique H H'' h
    exact ⟨v', h1, h3⟩
  · rintro ⟨v', h, h'⟩
    exact h.trans H' h'

namespace EvolutionSample

open Sample

/-- The schema once more extended, by a third language. -/
def sch'' : SchemaContext := { sch' with elements := (nm c!"Lang", .enum [nm c!"en", nm c!"fr", nm c!"de", nm c!"it"]) :: sch'.elements.tail }

theorem wider' : Wider sch' sch'' ⟨[], [], [c!"it"]⟩ where
  target := rfl
  qualified := rfl
  namespaces := rfl
  types := by
    intro n r hr
    have hm := alookup_mem hr
    simp only [sch', List.mem_cons, List.not_mem_nil, or_false, Prod.mk.injEq] at hm
    rcases hm with ⟨rfl, rfl⟩ | ⟨rfl, rfl⟩ | ⟨rfl, rfl⟩ | ⟨rfl, rfl⟩ | ⟨rfl, rfl⟩ | ⟨rfl, rfl⟩
    · exact ⟨_, rfl, .values (.keep (.keep (.keep (.new (by decide) .nil)))) (by decide)⟩
    · exact ⟨_, rfl, .leaf _⟩
    · exact ⟨_, rfl, .element (.same _) (.refl _) rfl⟩
    · exact ⟨_, rfl, .element (.same _) (.refl _) rfl⟩
    · exact ⟨_, rfl, .choice (.refl _)⟩
    · exact ⟨_, rfl, .element (.same _) (.refl _) rfl⟩

example : Wider sch sch'' (added.and ⟨[], [], [c!"it"]⟩) := C73_steps wider wider'

example : Without (added.and ⟨[], [], [c!"it"]⟩) doc := Without.both.2 ⟨doc_without, withoutB_sound (k := 9) (by decide +kernel)⟩

def pgm'' : List TypeDef := moduleOf sampleExt sch''

theorem generated'' : Generated sampleExt sch'' pgm'' := generatesB_sound (by decide +kernel)

theorem compiles'' : Compiles sampleExt pgm'' :=
  (C58_exact_partial sampleExt_nameLaws (by decide +kernel) generated''.gen (refsDistinctB_sound (by decide +kernel))).2
    (buildableB_sound (rank := rank') (by decide +kernel))

/-- The value of the example, in two steps. -/
example : ∃ v'', Upgrade pgm pgm'' (.named c!"Article") val v'' ∧ ∃ v', Upgrade pgm pgm' (.named c!"Article") val v' ∧
    Upgrade pgm' pgm'' (.named c!"Article") v' v'' := by
  have hv := (C59_reads Sample.compiles article_declared doc_decodes).2 val rfl
  obtain ⟨v'', ⟨h, _⟩, _⟩ := C73_values (C73_steps wider wider') generated generated'' Sample.compiles compiles'' hv
  exact ⟨v'', h, (C73_steps_values wider wider' generated generated' generated'' Sample.compiles compiles' compiles'').1 h⟩

end EvolutionSample

end Xsd
