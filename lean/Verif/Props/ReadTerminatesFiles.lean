import Verif.Lemmas.GrowsFiles
import Verif.Lemmas.TreeCheck
import Verif.Props.CompilesSample
import Verif.Props.Faults
/-!
# Readers return, in terms of schema files (C17, C66)

The conditions of `C17_partial` and `C66_faults` are about the parsed schema. Here they are derived from what files are given: it suffices that
the parsed schema has as many types as the files have nodes that become types, so that no type has overwritten another one.
-/
namespace Xsd.Tree

section
variable {x : Ext} {S : SchemaContext} {P : List TypeDef}

/-- The identifier of a type is not escaped: of the words that are, only `Self` is in Pascal case, and it cannot be escaped. -/
theorem pascalIdent_eq (hx : x.NameLaws) {n : Name} {i : Str} (h : typeIdent x n = .ok i) : pascalIdent x n = typeIdent x n := by
  rw [h]
  unfold typeIdent escapeIdent at h
  split at h
  · next hw =>
    split at h
    · cases h
    · next hok =>
      exfalso
      simp only [Bool.or_eq_true, Bool.not_eq_true', not_or, Bool.not_eq_true, Bool.not_eq_false] at hok
      have hw : x.pascal n.name ∈ escapedWords := by simpa using hw
      have hk : x.pascal n.name ∈ rustKeywords ∨ ' ' ∈ x.pascal n.name := by
        have : ∀ w ∈ escapedWords, w ∈ rustKeywords ∨ ' ' ∈ w := by decide +kernel
        exact this _ hw
      rcases hk with hk | hk
      · rw [hx.pascal _ hk] at hok
        exact absurd hok.1 (by decide)
      · exact (hx.chars _ hok.2).2 hk
  · exact h

theorem isGroup_of {G : Name → Option Root} (hG : G = S.get) {m : Name} {r : Root} (hm : G m = some r)
    (hr : r = groupRoot r.leaves ∨ ∃ b, r = .choice r.leaves b none) : isGroup S m = true := by
  subst hG
  unfold isGroup
  rw [hm]
  rcases hr with hr | ⟨b, hr⟩ <;> rw [hr] <;> rfl

/-- What readers look ahead for are groups. -/
theorem looks_of (hx : x.NameLaws) (G : Generated x S P) (hR : ∀ n r, S.get n = some r → RootGroups S.get r) : LooksAtGroups x S := by
  have key : ∀ {l : Leaf}, GroupLeaf S.get l → l.isVirtual = true → ∃ m, l.definition.content = .named m ∧
      ∃ r, S.get m = some r ∧ (r = groupRoot r.leaves ∨ ∃ b, r = .choice r.leaves b none) ∧ ∀ l ∈ r.leaves, GroupLeaf S.get l := by
    intro l h hv
    cases h with
    | plain h => rw [h] at hv; cases hv
    | group hc hm hr hl => exact ⟨_, hc, _, hm, hr, hl⟩
  intro n r hr l hl hv hs
  rcases hR n r hr l hl with h | ⟨h1, h2, e, h3⟩
  · obtain ⟨m, hm, hΓ⟩ := key h hv
    refine ⟨m, hm, fun m => ∃ r, S.get m = some r ∧ (r = groupRoot r.leaves ∨ ∃ b, r = .choice r.leaves b none) ∧
      ∀ l ∈ r.leaves, GroupLeaf S.get l, hΓ, ?_⟩
    rintro m ⟨r, hm, hr, hl⟩
    obtain ⟨t, _, _, hg⟩ := G.find hm
    refine ⟨isGroup_of rfl hm hr, pascalIdent_eq hx hg.ident, fun r' hr' l hl' hv' => ?_⟩
    rw [hm] at hr'
    cases hr'
    exact key (hl l hl') hv'
  · subst h3
    rcases hs with h | h | ⟨vs, b, dd, h⟩
    · rw [h1] at h; cases h
    · rw [h2] at h; cases h
    · cases h

/-- If no value has one of its own type inside, no type contains itself: groups are not part of cycles. -/
theorem finite_of (hR : ∀ n r, S.get n = some r → RootGroups S.get r) (hS : WellFounded (fun m n => HoldsA S n m)) : FiniteTypes S := by
  have grp : ∀ {l : Leaf}, GroupLeaf S.get l → l.isVirtual = true → ∀ m, Means S l.definition.content (.named m) →
      Acc (fun m n => Contains S n m) m := by
    intro l h
    induction h with
    | plain h => intro hv; rw [h] at hv; cases hv
    | @group l m0 r hc hm hr hl ih =>
      intro hv m hM
      rw [hc] at hM
      have hg : isGroup S m0 = true := isGroup_of rfl hm hr
      cases hM.functional (group_means hg)
      refine ⟨_, fun m' hm' => ?_⟩
      cases hm' with
      | simple h hM' => rw [hm] at h; cases h; rcases hr with hr | ⟨b, hr⟩ <;> cases hr
      | base h hc' hM' =>
        rw [hm] at h
        cases h
        rcases hr with hr | ⟨b, hr⟩
        · rw [Root.element.inj hr] at hc'; cases hc'
        · cases hr
      | group h hl' hv' hM' =>
        rw [hm] at h
        cases h
        exact ih _ hl' hv' _ hM'
  refine ⟨fun n => ?_⟩
  induction n using hS.induction with
  | _ n ih =>
    refine ⟨_, fun m hm => ?_⟩
    cases hm with
    | simple h hM => exact ih m ⟨_, h, _, List.mem_singleton.2 rfl, hM⟩
    | @base f e d h hc hM =>
      refine ih m ⟨_, h, d.content, ?_, hM⟩
      simp only [Root.inlineContents, hc]
      exact List.mem_append_left _ (List.mem_singleton.2 rfl)
    | @group r l h hl hv hM =>
      rcases hR n r h l hl with hg | ⟨h1, _, e, rfl⟩
      · exact grp hg hv m hM
      · refine ih m ⟨_, h, l.definition.content, ?_, hM⟩
        simp only [Root.leaves] at hl
        split at hl
        · next ls hc =>
          simp only [Root.inlineContents, hc]
          refine List.mem_append_left _ (List.mem_map.2 ⟨l, List.mem_filter.2 ⟨hl, by simp [h1]⟩, rfl⟩)
        · cases hl

end

section
variable {x : Ext} {F : Files} {path : Str} {k : Nat} {P : PSchema} {ds : List TypeDef}

/-- **C17, for schema files.** If the files are parsed and no type has overwritten another one, no value of a type has one of the same type
inside, and the module generated has all types, under different names, then every call of `from_xml` returns, for every document.

Missing: schemas in which a type has overwritten another one. `C17_false` has one for which a reader runs forever. -/
theorem C17_files_partial (hx : x.NameLaws) (B : NoForeignRefs F path) (h : parseFile x F k path = .ok P)
    (hc : TypeCount F path P.context.elements.length) (G : Generated x P.context ds)
    (hS : WellFounded (fun m n => HoldsA P.context n m)) (i : Str) (d : Doc) : ∃ r, FromXml x ds i d r :=
  C17_partial G (finite_of (parsed_groups B h hc) hS) (looks_of hx G (parsed_groups B h hc)) i d

/-- **C17, for generated code that compiles.** The same if the compiler accepts the generated module. (`RefsDistinct`: no reference to an undefined
name is spelled like a defined one.) -/
theorem C17_compiled_partial (hx : x.NameLaws) (B : NoForeignRefs F path) (h : parseFile x F k path = .ok P)
    (hc : TypeCount F path P.context.elements.length) (hds : generateAll x P.context = .ok ds) (hd : RefsDistinct x P.context)
    (hC : Compiles x ds) (i : Str) (d : Doc) : ∃ r, FromXml x ds i d r := by
  have hk := (parseFileWith_log k path _ _ P ⟨[], rfl⟩ h).1
  have hB := (C58_exact_partial hx hk hds hd).1 hC
  exact C17_files_partial hx B h hc (hB.generated hx hk hds) hB.sized i d

/-- **C66, for schema files.** What errors of generated readers say is wrong with the document is wrong with it. -/
theorem C66_files (hx : x.NameLaws) (B : NoForeignRefs F path) (h : parseFile x F k path = .ok P)
    (hc : TypeCount F path P.context.elements.length) (G : Generated x P.context ds) {n : Name} {i : Str} {q : QName}
    (hi : typeIdent x n = .ok i) (hn : (P.context.get n).isSome = true) (hq : P.context.expanded n = .ok q) {d : Doc} {E : DErr}
    (hE : FromXml x ds i d (.err E)) :
    (d.root.1.name ≠ q ∧ E = .missingElement q.loc q.ns) ∨ (d.root.1.name = q ∧ Faults x P.context n d.root E) :=
  C66_faults G (looks_of hx G (parsed_groups B h hc)) hi hn hq hE

end

/-- The conditions of `C17_compiled_partial` on the files and the schema, decided up to a depth. -/
def returnsB (x : Ext) (F : Files) (k : Nat) (path : Str) (rank : SchemaContext → Name → Nat) : Bool :=
  match parseFile x F k path, docsOf F k path with
  | .ok P, some L =>
    L.all (fun d => (Nd.of d.root).xsdKids.all (fun c => c.info.attrs.all (fun a => decide (a.loc = c!"ref" → a.ns = none)))) &&
    shallowFile F k path && decide (typesOf F k path = P.context.elements.length) && generatesB x P.context &&
    buildableB x P.context (rank P.context) && refsDistinctB x P.context
  | _, _ => false

/-- The conditions of `C17_compiled_partial`. -/
structure Returns (x : Ext) (F : Files) (path : Str) : Prop where
  ex : ∃ k P ds, NoForeignRefs F path ∧ parseFile x F k path = .ok P ∧ TypeCount F path P.context.elements.length ∧
    generateAll x P.context = .ok ds ∧ RefsDistinct x P.context ∧ Compiles x ds

theorem returnsB_sound {x : Ext} (hx : x.NameLaws) {F : Files} {k : Nat} {path : Str} {rank : SchemaContext → Name → Nat}
    (h : returnsB x F k path rank = true) : Returns x F path := by
  unfold returnsB at h
  split at h
  · next P L hP hL =>
    simp only [Bool.and_eq_true, decide_eq_true_eq] at h
    obtain ⟨⟨⟨⟨⟨h1, h2⟩, h3⟩, h4⟩, h5⟩, h6⟩ := h
    have hk := (parseFileWith_log k path _ _ P ⟨[], rfl⟩ hP).1
    have hG := generatesB_sound h4
    refine ⟨k, P, _, fun p d hr c hc a ha => ?_, hP, ⟨k, fun k' hk' => ?_⟩, hG.gen, refsDistinctB_sound h6,
      C58_compiles_partial hx hk hG.gen (buildableB_sound h5)⟩
    · have := List.all_eq_true.1 (List.all_eq_true.1 (List.all_eq_true.1 h1 d ((docsOf_spec k hL).1 p d hr)) c hc) a ha
      exact of_decide_eq_true this
    · rw [shallowFile_count k h2 k' hk', h3]
  · cases h

open SchemaSample in
/-- The conditions are met by a recursive type with a repeated choice. -/
example : Returns sampleExt (repeatedChoice []) c!"a.xsd" :=
  returnsB_sound sampleExt_nameLaws (k := 9) (rank := fun _ n => if n.name = c!"ABC" then 1 else 0) (by decide +kernel)

open SchemaSample in
/-- They are not met by the schema of `C17_false`: its files have three nodes that become types, and it has two types. -/
example : typesOf (repeatedChoice [stringABC]) 9 c!"a.xsd" = 3 ∧ endless.context.elements.length = 2 := by decide +kernel

end Xsd.Tree
