import Verif.Lemmas.Deps
/-!
# Generating everything (C55)
-/
namespace Xsd

/-- The result is not an error. -/
def Res.NoErr {ε α : Type} (r : Res ε α) : Prop := ∀ e, r ≠ .err e

namespace NoErr
variable {α β : Type}

theorem ok (a : α) : (Res.ok a : Res Str α).NoErr := by nofun
theorem panic : (Res.panic : Res Str α).NoErr := by nofun
theorem diverge : (Res.diverge : Res Str α).NoErr := by nofun

theorem bind {r : Res Str α} {f : α → Res Str β} (hr : r.NoErr) (hf : ∀ a, (f a).NoErr) : (r >>= f).NoErr := by
  cases r with
  | ok a => exact hf a
  | err e => exact absurd rfl (hr e)
  | panic => exact panic
  | diverge => exact diverge

theorem ite {p : Prop} [Decidable p] {r r' : Res Str α} (h : r.NoErr) (h' : r'.NoErr) : (if p then r else r').NoErr := by
  split
  · exact h
  · exact h'

theorem mapRes {f : α → Res Str β} {l : List α} (h : ∀ a ∈ l, (f a).NoErr) : (mapRes f l).NoErr := by
  induction l with
  | nil => exact ok _
  | cons a l ih =>
    exact bind (h a (.head _)) fun b => bind (ih fun c hc => h c (.tail _ hc)) fun bs => ok _

variable (x : Ext) (S : SchemaContext)

theorem formatIdent (s : Str) : (Xsd.formatIdent x s).NoErr := ite (ok _) panic

theorem escapeIdent (s : Str) : (Xsd.escapeIdent x s).NoErr := ite (ite panic (ok _)) (formatIdent x s)

theorem inlineAlias : ∀ (k : Nat) (c : LeafContent), (Xsd.inlineAlias S k c).NoErr
  | 0, .literal t => ok _
  | 0, .fixed s => ok _
  | 0, .named n => diverge
  | k + 1, .literal t => ok _
  | k + 1, .fixed s => ok _
  | k + 1, .named n => by
    unfold Xsd.inlineAlias
    split
    · exact inlineAlias k _
    · exact ok _

theorem resolveFrom : ∀ (k : Nat) (r : Option Root), (S.resolveFrom k r).NoErr
  | 0, _ => diverge
  | k + 1, r => by
    unfold SchemaContext.resolveFrom
    split
    · split
      · exact resolveFrom k _
      · exact ok _
    · exact ok _

theorem xmlName (n : Name) : (S.xmlName n).NoErr := by
  unfold SchemaContext.xmlName
  split
  · exact ok _
  · refine ite (ok _) ?_
    split
    · exact ok _
    · exact panic

theorem qname (n : Name) : (S.qname n).NoErr := by
  unfold SchemaContext.qname
  split
  · exact ok _
  · split
    · exact ok _
    · exact panic

theorem contentTy (c : LeafContent) : (Xsd.contentTy x S c).NoErr := by
  refine bind (inlineAlias S _ c) fun c => ?_
  cases c with
  | literal t => exact ok _
  | named n => exact bind (escapeIdent x _) fun _ => ok _
  | fixed s => exact ok _

theorem contentWrite (c : LeafContent) : (Xsd.contentWrite x S c).NoErr := by
  refine bind (inlineAlias S _ c) fun c => ?_
  cases c with
  | literal t => exact ok _
  | named n => exact bind (escapeIdent x _) fun _ => ok _
  | fixed s => exact ok _

theorem contentRead (c : LeafContent) : (Xsd.contentRead x S c).NoErr := by
  refine bind (inlineAlias S _ c) fun c => ?_
  cases c with
  | literal t => exact ok _
  | named n => exact bind (escapeIdent x _) fun _ => ok _
  | fixed s => exact ok _

theorem leafDecl (l : Leaf) : (Xsd.leafDecl x S l).NoErr :=
  bind (escapeIdent x _) fun _ => bind (contentTy x S _) fun _ => ok _

theorem leafWrite (l : Leaf) : (Xsd.leafWrite x S l).NoErr := by
  refine bind (escapeIdent x _) fun _ => bind (xmlName S _) fun _ => bind (contentWrite x S _) fun _ => ?_
  refine ite (ok _) ?_
  split
  · refine bind (resolveFrom S _ _) fun r => ?_
    split
    · split
      · exact ok _
      · exact ok _
    · exact ok _
  · exact ok _

theorem leafRead (l : Leaf) : (Xsd.leafRead x S l).NoErr := by
  refine bind (escapeIdent x _) fun _ => bind (qname S _) fun _ => bind (contentRead x S _) fun _ => ?_
  refine ite (ite ?_ (ite ?_ (ok _))) (ite (ok _) (ite (ok _) (ite (ok _) (ok _))))
  · split
    · exact bind (formatIdent x _) fun _ => ok _
    · exact panic
  · split
    · exact bind (formatIdent x _) fun _ => ok _
    · exact panic

theorem attrDecl (a : Attribute) : (Xsd.attrDecl x S a).NoErr :=
  bind (escapeIdent x _) fun _ => bind (contentTy x S _) fun _ => ok _

theorem attrWrite (a : Attribute) : (Xsd.attrWrite x S a).NoErr := by
  refine bind (escapeIdent x _) fun _ => bind (xmlName S _) fun _ => ?_
  dsimp only
  split
  · exact ok _
  · exact bind (contentTy x S _) fun _ => ok _
  · exact ok _

theorem attrRead (a : Attribute) : (Xsd.attrRead x S a).NoErr := by
  refine bind (escapeIdent x _) fun _ => ?_
  dsimp only
  split
  · exact ok _
  · exact bind (contentTy x S _) fun _ => ok _
  · exact ok _

theorem contentDecl : ∀ c : Option ElementContent, (Xsd.contentDecl x S c).NoErr
  | none => ok _
  | some (.leaf n d) => bind (escapeIdent x _) fun _ => bind (contentTy x S _) fun _ => ok _
  | some (.leaves ls) => mapRes fun _ _ => leafDecl x S _

theorem elementContentWrite : ∀ c : Option ElementContent, (Xsd.elementContentWrite x S c).NoErr
  | none => ok _
  | some (.leaf n d) => bind (escapeIdent x _) fun _ => bind (contentWrite x S _) fun _ => ok _
  | some (.leaves ls) => bind (mapRes fun _ _ => leafWrite x S _) fun _ => ok _

theorem elementContentRead : ∀ c : Option ElementContent, (Xsd.elementContentRead x S c).NoErr
  | none => ok _
  | some (.leaf n d) => bind (escapeIdent x _) fun _ => bind (contentRead x S _) fun _ => ok _
  | some (.leaves ls) => bind (mapRes fun _ _ => leafRead x S _) fun _ => ok _

theorem escapeEnumFrom : ∀ (ns : List Name) (m : List (Str × Str)) (c : Nat), (Xsd.escapeEnumFrom x m c ns).NoErr
  | [], _, _ => ok _
  | n :: ns, m, c => by
    unfold Xsd.escapeEnumFrom
    split
    · exact escapeEnumFrom ns _ _
    · exact diverge

theorem variantDecl (l : Leaf) : (Xsd.variantDecl x S l).NoErr :=
  bind (formatIdent x _) fun _ => bind (contentTy x S _) fun _ => ok _

theorem variantWrite (l : Leaf) : (Xsd.variantWrite x S l).NoErr :=
  bind (formatIdent x _) fun _ => bind (contentWrite x S _) fun _ => ok _

theorem variantRead (l : Leaf) : (Xsd.variantRead x S l).NoErr := by
  refine bind (formatIdent x _) fun _ => bind (contentRead x S _) fun _ => bind (qname S _) fun _ => ite ?_ (ite (ok _) (ok _))
  split
  · exact bind (formatIdent x _) fun _ => ok _
  · exact panic

theorem leafCheck (l : Leaf) : (Xsd.leafCheck x S l).NoErr := by
  refine ite ?_ (bind (qname S _) fun _ => ok _)
  split
  · exact bind (formatIdent x _) fun _ => ok _
  · exact panic

theorem rootDecl : ∀ r : Root, (Xsd.rootDecl x S r).NoErr
  | .leaf d => bind (contentTy x S _) fun _ => ok _
  | .enum ns => bind (escapeEnumFrom x _ _ _) fun _ => bind (mapRes fun _ _ => bind (formatIdent x _) fun _ => ok _) fun _ => ok _
  | .element d => bind (contentDecl x S _) fun _ => bind (mapRes fun _ _ => attrDecl x S _) fun _ => ok _
  | .choice vs _ _ => bind (mapRes fun _ _ => variantDecl x S _) fun _ => ok _

theorem rootWrite : ∀ r : Root, (Xsd.rootWrite x S r).NoErr
  | .leaf d => bind (contentWrite x S _) fun _ => ok _
  | .enum ns => ok _
  | .element d => bind (mapRes fun _ _ => attrWrite x S _) fun _ => bind (elementContentWrite x S _) fun _ => ok _
  | .choice vs _ _ => bind (mapRes fun _ _ => variantWrite x S _) fun _ => ok _

theorem rootRead : ∀ r : Root, (Xsd.rootRead x S r).NoErr
  | .leaf d => bind (contentRead x S _) fun _ => ok _
  | .enum ns => ok _
  | .element d => bind (elementContentRead x S _) fun _ => bind (mapRes fun _ _ => attrRead x S _) fun _ => ok _
  | .choice vs _ _ => bind (mapRes fun _ _ => variantRead x S _) fun _ => ok _

theorem rootLook : ∀ r : Root, (Xsd.rootLook x S r).NoErr
  | .leaf d => ok _
  | .enum ns => ok _
  | .element d => by
    show (match d.content with
      | some (.leaves ls) => (do
        let cs ← Xsd.mapRes (Xsd.leafCheck x S) (lookLeaves ls)
        pure (.checks cs))
      | _ => pure (.checks []) : Res Str Look).NoErr
    split
    · exact bind (mapRes fun _ _ => leafCheck x S _) fun _ => ok _
    · exact ok _
  | .choice vs _ _ => bind (mapRes fun _ _ => leafCheck x S _) fun _ => ok _

theorem schemaNss : (Xsd.schemaNss S).NoErr := by
  unfold Xsd.schemaNss
  dsimp only
  split
  · split
    · exact ok _
    · exact panic
  · exact ok _

end NoErr

/-- Only names without a definition are not found. -/
theorem generateElement_err {x : Ext} {S : SchemaContext} {n : Name} {e : Str} (h : generateElement x S n = .err e) :
    S.get n = none ∧ e = n.name := by
  unfold generateElement at h
  cases hg : S.get n with
  | none => rw [hg] at h; cases h; exact ⟨rfl, rfl⟩
  | some r =>
    rw [hg] at h
    refine absurd h ?_
    exact NoErr.bind (NoErr.escapeIdent x _) (fun _ => NoErr.bind (NoErr.rootDecl x S r) fun _ =>
      NoErr.bind (NoErr.rootWrite x S r) fun _ => NoErr.bind (NoErr.xmlName S n) fun _ => NoErr.bind (NoErr.schemaNss S) fun _ =>
      NoErr.bind (NoErr.qname S n) fun _ => NoErr.bind (NoErr.rootRead x S r) fun _ =>
      NoErr.bind (NoErr.rootLook x S r) fun _ => NoErr.ok _) e

theorem generateElement_ident {x : Ext} {S : SchemaContext} {n : Name} {d : TypeDef} (h : generateElement x S n = .ok d) :
    typeIdent x n = .ok d.ident := by
  unfold generateElement at h
  cases hg : S.get n with
  | none => rw [hg] at h; cases h
  | some r =>
    rw [hg] at h
    obtain ⟨ident, h1, h⟩ := Res.bind_eq_ok.1 h
    obtain ⟨_, _, h⟩ := Res.bind_eq_ok.1 h
    obtain ⟨_, _, h⟩ := Res.bind_eq_ok.1 h
    obtain ⟨_, _, h⟩ := Res.bind_eq_ok.1 h
    obtain ⟨_, _, h⟩ := Res.bind_eq_ok.1 h
    obtain ⟨_, _, h⟩ := Res.bind_eq_ok.1 h
    obtain ⟨_, _, h⟩ := Res.bind_eq_ok.1 h
    obtain ⟨_, _, h⟩ := Res.bind_eq_ok.1 h
    cases h
    exact h1

theorem mapRes_eq_map {α β : Type} {f : α → Res Str β} : ∀ {l : List α} {bs : List β}, mapRes f l = .ok bs → l.map f = bs.map Res.ok
  | [], bs, h => by cases h; rfl
  | a :: l, bs, h => by
    obtain ⟨b, h1, h⟩ := Res.bind_eq_ok.1 h
    obtain ⟨cs, h2, h⟩ := Res.bind_eq_ok.1 h
    cases h
    rw [List.map_cons, List.map_cons, h1, mapRes_eq_map h2]

/-- C55: for every schema that was parsed, in every order of its definitions: generating all does not fail because of a name that is not found;
and if it succeeds, the items are those of the names of the schema, one for each name (the names are distinct), in that order, each under
the identifier of its name. -/
theorem C55 (x : Ext) (F : Files) (k : Nat) (path : Str) (P : PSchema) (h : parseFile x F k path = .ok P)
    (elements : List (Name × Root)) (hp : elements.Perm P.context.elements) :
    (elements.map Prod.fst).Nodup ∧ (∀ n, n ∈ elements.map Prod.fst ↔ P.context.get n ≠ none) ∧
    (∀ e, generateAll x { P.context with elements := elements } ≠ .err e) ∧
    ∀ ds, generateAll x { P.context with elements := elements } = .ok ds →
      (elements.map Prod.fst).map (generateElement x { P.context with elements := elements }) = ds.map Res.ok ∧
      (elements.map Prod.fst).map (typeIdent x) = ds.map (fun d => Res.ok d.ident) := by
  have hnd := (parseFileWith_deps k _ _ _ _ h).nodup
  have hnd' : (elements.map Prod.fst).Nodup := (hp.map Prod.fst).nodup_iff.2 hnd
  refine ⟨hnd', fun n => ?_, fun e he => ?_, fun ds hds => ?_⟩
  · rw [(hp.map Prod.fst).mem_iff]
    show _ ↔ alookup P.context.elements n ≠ none
    rw [Ne, alookup_eq_none_iff, Decidable.not_not]
  · refine NoErr.mapRes ?_ e he
    intro n hn e he
    obtain ⟨h1, _⟩ := generateElement_err he
    replace h1 : alookup elements n = none := h1
    rw [alookup_eq_none_iff] at h1
    exact h1 hn
  · have hm := mapRes_eq_map hds
    refine ⟨hm, ?_⟩
    generalize elements.map Prod.fst = l at hm
    clear hds
    induction l generalizing ds with
    | nil => cases ds with | nil => rfl | cons d ds => cases hm
    | cons a l ih =>
      cases ds with
      | nil => cases hm
      | cons d ds =>
        rw [List.map_cons, List.map_cons, List.cons.injEq] at hm
        rw [List.map_cons, List.map_cons, ih ds hm.2, generateElement_ident hm.1]

namespace SchemaSample

/-- The hypotheses are met by the sample files, with the definitions in reverse. -/
example : (match generateAll sampleExt { parsedSchema.context with elements := parsedSchema.context.elements.reverse } with
    | .ok ds => ds.map TypeDef.ident
    | _ => []) = [c!"Order", c!"OrderNoteData", c!"Order", c!"Country", c!"City"] := by decide +kernel

end SchemaSample

end Xsd
