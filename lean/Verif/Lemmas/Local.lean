import Verif.Props.SelfContained
import Verif.Props.Alias
import Verif.Lemmas.ExecMono
/-!
# Generated code runs alike in two modules that agree on what it refers to

`I` is a set of identifiers at which the two modules (or the two sets of callable functions) agree.
-/
namespace Xsd

section
variable {σ : Type} {x : Ext} {o : Ops σ} {P P' : List TypeDef} {I : Str → Prop}
variable {cF cF' : Str → σ → DRes σ Val} {cL cL' : Str → σ → DRes σ Bool}

theorem runChecks_local (hL : ∀ i, I i → ∀ s, cL i s = cL' i s) : ∀ (cs : List Check), (∀ i ∈ (Look.checks cs).refs, I i) → ∀ (s : σ),
    runChecks o cL cs s = runChecks o cL' cs s
  | [], _, _ => rfl
  | .call i :: cs, h, s => by
    have ih := runChecks_local hL cs (fun j hj => h j (by simp only [Look.refs, List.flatMap_cons]; exact List.mem_append_right _ hj))
    simp only [runChecks, hL i (h i (by simp [Look.refs])), ih]
  | .peek q :: cs, h, s => by
    have ih := runChecks_local hL cs (fun j hj => h j (by simp only [Look.refs, List.flatMap_cons]; exact List.mem_append_right _ hj))
    simp only [runChecks, ih]

theorem readVal_local (hF : ∀ i, I i → ∀ s, cF i s = cF' i s) (v : ValRead) (h : ∀ i ∈ v.refs, I i) (s : σ) :
    readVal x o cF v s = readVal x o cF' v s := by
  cases v with
  | call i => exact hF i (h i (.head _)) s
  | _ => rfl

theorem readOn_local (hF : ∀ i, I i → ∀ s, cF i s = cF' i s) (v : ValRead) (h : ∀ i ∈ v.refs, I i) (e : Elem) :
    readOn x o cF v e = readOn x o cF' v e := by
  simp only [readOn, readVal_local hF v h]

theorem loopNext_local (hF : ∀ i, I i → ∀ s, cF i s = cF' i s) (q : QName) (v : ValRead) (h : ∀ i ∈ v.refs, I i) (k : Nat) (s : σ) :
    loopNext x o cF q v k s = loopNext x o cF' q v k s := by
  induction k generalizing s with
  | zero => rfl
  | succ k ih => simp only [loopNext, readOn_local hF v h, ih]

theorem loopLook_local (hF : ∀ i, I i → ∀ s, cF i s = cF' i s) (hL : ∀ i, I i → ∀ s, cL i s = cL' i s) (i : Str) (hi : I i)
    (v : ValRead) (h : ∀ i ∈ v.refs, I i) (k : Nat) (s : σ) : loopLook x o cF cL i v k s = loopLook x o cF' cL' i v k s := by
  induction k generalizing s with
  | zero => rfl
  | succ k ih => simp only [loopLook, hL i hi, readVal_local hF v h, ih]

theorem readLeaf_local (hF : ∀ i, I i → ∀ s, cF i s = cF' i s) (hL : ∀ i, I i → ∀ s, cL i s = cL' i s) (k : Nat) (l : LeafRead)
    (h : ∀ i ∈ l.refs, I i) (s : σ) : readLeaf x o cF cL k l s = readLeaf x o cF' cL' k l s := by
  cases l with
  | plain v => exact readVal_local hF v h s
  | whileLookahead i v opt =>
    simp only [readLeaf, loopLook_local hF hL i (h i (.head _)) v (fun j hj => h j (.tail _ hj))]
  | ifLookahead i v => simp only [readLeaf, hL i (h i (.head _)), readVal_local hF v (fun j hj => h j (.tail _ hj))]
  | whileNext q v opt => simp only [readLeaf, loopNext_local hF q v h]
  | ifNext q v => simp only [readLeaf, readOn_local hF v h]
  | tryChild q v => simp only [readLeaf, readOn_local hF v h]
  | tryNext q v => simp only [readLeaf, readOn_local hF v h]

theorem readLeaves_local (hF : ∀ i, I i → ∀ s, cF i s = cF' i s) (hL : ∀ i, I i → ∀ s, cL i s = cL' i s) (k : Nat) :
    ∀ (ls : List (Str × LeafRead)), (∀ p ∈ ls, ∀ i ∈ p.2.refs, I i) → ∀ (s : σ),
      readLeaves x o cF cL k ls s = readLeaves x o cF' cL' k ls s
  | [], _, _ => rfl
  | (f, l) :: ls, h, s => by
    simp only [readLeaves, readLeaf_local hF hL k l (h _ (.head _)),
      readLeaves_local hF hL k ls (fun p hp => h p (.tail _ hp))]

theorem readContent_local (hF : ∀ i, I i → ∀ s, cF i s = cF' i s) (hL : ∀ i, I i → ∀ s, cL i s = cL' i s) (k : Nat) (c : ContentRead)
    (h : ∀ i ∈ c.refs, I i) (s : σ) : readContent x o cF cL k c s = readContent x o cF' cL' k c s := by
  cases c with
  | nothing => rfl
  | single f v => simp only [readContent, readVal_local hF v h]
  | leaves ls => exact readLeaves_local hF hL k ls (fun p hp i hi => h i (List.mem_flatMap.2 ⟨p, hp, hi⟩)) s

theorem readChoice_local (hF : ∀ i, I i → ∀ s, cF i s = cF' i s) (hL : ∀ i, I i → ∀ s, cL i s = cL' i s) (k : Nat) (self : Str) :
    ∀ (vs : List (Str × VarRead)), (∀ p ∈ vs, ∀ i ∈ p.2.refs, I i) → ∀ (s : σ),
      readChoice x o cF cL k self vs s = readChoice x o cF' cL' k self vs s
  | [], _, _ => rfl
  | (n, .virt i v) :: vs, h, s => by
    have h0 := h _ (.head _)
    simp only [readChoice, hL i (h0 i (.head _)), readVal_local hF v (fun j hj => h0 j (.tail _ hj)),
      readChoice_local hF hL k self vs (fun p hp => h p (.tail _ hp))]
  | (n, .vec q v) :: vs, h, s => by
    simp only [readChoice, loopNext_local hF q v (h _ (.head _)),
      readChoice_local hF hL k self vs (fun p hp => h p (.tail _ hp))]
  | (n, .single q v) :: vs, h, s => by
    simp only [readChoice, readOn_local hF v (h _ (.head _)),
      readChoice_local hF hL k self vs (fun p hp => h p (.tail _ hp))]

/-- The two modules agree on a set of identifiers that contains all identifiers their code refers to. -/
structure AgreeOn (P P' : List TypeDef) (I : Str → Prop) : Prop where
  same : ∀ i, I i → findType P i = findType P' i
  closed : ∀ i t, I i → findType P i = some t → ∀ j ∈ t.refs, I j

theorem AgreeOn.look (h : AgreeOn P P' I) {i : Str} {t : TypeDef} (hi : I i) (ht : findType P i = some t) : ∀ j ∈ t.look.refs, I j :=
  fun j hj => h.closed i t hi ht j (List.mem_append_right _ hj)

theorem AgreeOn.from (h : AgreeOn P P' I) {i : Str} {t : TypeDef} (hi : I i) (ht : findType P i = some t) : ∀ j ∈ t.fromXml.refs, I j :=
  fun j hj => h.closed i t hi ht j (List.mem_append_left _ (List.mem_append_right _ hj))

theorem AgreeOn.to (h : AgreeOn P P' I) {i : Str} {t : TypeDef} (hi : I i) (ht : findType P i = some t) : ∀ j ∈ t.toXml.refs, I j :=
  fun j hj => h.closed i t hi ht j (List.mem_append_left _ (List.mem_append_left _ (List.mem_append_right _ hj)))

theorem lookahead_local (h : AgreeOn P P' I) (k : Nat) (i : Str) (hi : I i) (s : σ) : lookahead o P k i s = lookahead o P' k i s := by
  induction k generalizing i s with
  | zero => rfl
  | succ k ih =>
    rw [lookahead, lookahead, ← h.same i hi]
    cases ht : findType P i with
    | none => rfl
    | some t =>
      have hl := h.look hi ht
      cases hk : t.look with
      | always => simp only [hk]
      | checks cs =>
        simp only [hk]
        exact runChecks_local (fun j hj s => ih j hj s) cs (hk ▸ hl) s

theorem fromStrAt_local (h : AgreeOn P P' I) (ty : Ty) (ht : ∀ i ∈ ty.refs, I i) (s : Str) : fromStrAt x P ty s = fromStrAt x P' ty s := by
  cases ty with
  | named i => simp only [fromStrAt, h.same i (ht i (.head _))]
  | prim p => cases p <;> rfl
  | _ => rfl

theorem readAttr_local (h : AgreeOn P P' I) (a : AttrRead) (ha : ∀ i ∈ a.inner.refs, I i) (s : σ) :
    readAttr x o P a s = readAttr x o P' a s := by
  have : ∀ v, readStr x P a.inner v = readStr x P' a.inner v := by
    intro v
    unfold readStr
    revert ha
    cases a.inner with
    | fromStr ty => exact fun ha => fromStrAt_local h ty ha v
    | _ => exact fun _ => rfl
  simp only [readAttr, this]

theorem readAttrs_local (h : AgreeOn P P' I) : ∀ (as : List AttrRead), (∀ a ∈ as, ∀ i ∈ a.inner.refs, I i) → ∀ (s : σ),
    readAttrs x o P as s = readAttrs x o P' as s
  | [], _, _ => rfl
  | a :: as, ha, s => by
    simp only [readAttrs, readAttr_local h a (ha a (.head _)), readAttrs_local h as (fun b hb => ha b (.tail _ hb))]

theorem fromNode_local (h : AgreeOn P P' I) (k : Nat) (i : Str) (hi : I i) (s : σ) : fromNode x o P k i s = fromNode x o P' k i s := by
  induction k generalizing i s with
  | zero => rfl
  | succ k ih =>
    rw [fromNode, fromNode, ← h.same i hi]
    cases ht : findType P i with
    | none => rfl
    | some t =>
      have hl := h.from hi ht
      have hF : ∀ i, I i → ∀ s, fromNode x o P k i s = fromNode x o P' k i s := fun j hj s => ih j hj s
      have hL : ∀ i, I i → ∀ s, lookahead o P k i s = lookahead o P' k i s := fun j hj s => lookahead_local h k j hj s
      simp only [runFrom]
      cases hb : t.fromXml with
      | leaf v =>
        rw [hb] at hl
        simp only [readVal_local hF v hl]
      | enumText => rfl
      | element c as =>
        rw [hb] at hl
        simp only [readContent_local hF hL k c (fun j hj => hl j (List.mem_append_left _ hj)),
          readAttrs_local h as (fun a ha j hj => hl j (List.mem_append_right _ (List.mem_flatMap.2 ⟨a, ha, hj⟩)))]
      | choice vs =>
        rw [hb] at hl
        exact readChoice_local hF hL k t.ident vs (fun p hp j hj => hl j (List.mem_flatMap.2 ⟨p, hp, hj⟩)) s

theorem fromXml_local (h : AgreeOn P P' I) (k : Nat) (i : Str) (hi : I i) (d : Doc) : fromXml x o P k i d = fromXml x o P' k i d := by
  simp only [fromXml, ← h.same i hi, fromNode_local h k i hi]

end

section
variable {x : Ext} {P P' : List TypeDef} {I : Str → Prop} {cW cW' : Str → Val → Ctx → WRes}

theorem writeVal_local (hW : ∀ i, I i → ∀ v c, cW i v c = cW' i v c) (w : ValWrite) (h : ∀ i ∈ w.refs, I i) :
    writeVal x cW w = writeVal x cW' w := by
  funext v c
  cases w with
  | call i => exact hW i (h i (.head _)) v c
  | _ => rfl

theorem writeLeaf_local (hW : ∀ i, I i → ∀ v c, cW i v c = cW' i v c) (l : LeafWrite) (h : ∀ i ∈ l.inner.refs, I i) :
    writeLeaf x cW l = writeLeaf x cW' l := by
  have hi : writeItem x cW l = writeItem x cW' l := by
    funext v c
    simp only [writeItem, writeVal_local hW l.inner h]
  have hm : writeMany x cW l = writeMany x cW' l := by
    funext v c
    simp only [writeMany, hi]
  funext f c
  simp only [writeLeaf, hm]

theorem writeLeaves_local (hW : ∀ i, I i → ∀ v c, cW i v c = cW' i v c) (fs : List (Str × Val)) : ∀ (ls : List LeafWrite),
    (∀ l ∈ ls, ∀ i ∈ l.inner.refs, I i) → ∀ c, writeLeaves x cW fs ls c = writeLeaves x cW' fs ls c
  | [], _, _ => rfl
  | l :: ls, h, c => by
    simp only [writeLeaves, writeLeaf_local hW l (h l (.head _)), writeLeaves_local hW fs ls (fun m hm => h m (.tail _ hm))]

theorem writeContent_local (hW : ∀ i, I i → ∀ v c, cW i v c = cW' i v c) (fs : List (Str × Val)) (w : ContentWrite)
    (h : ∀ i ∈ w.refs, I i) : writeContent x cW fs w = writeContent x cW' fs w := by
  funext c
  cases w with
  | nothing => rfl
  | single f v => simp only [writeContent, writeVal_local hW v h]
  | leaves ls => exact writeLeaves_local hW fs ls (fun l hl i hi => h i (List.mem_flatMap.2 ⟨l, hl, hi⟩)) c

theorem writeChoice_local (hW : ∀ i, I i → ∀ v c, cW i v c = cW' i v c) (vs : List VarWrite) (h : ∀ w ∈ vs, ∀ i ∈ w.inner.refs, I i)
    (v : Val) : writeChoice x cW vs v = writeChoice x cW' vs v := by
  funext c
  cases v with
  | variant n w =>
    simp only [writeChoice]
    cases hf : vs.find? (fun a => decide (a.variant = n)) with
    | none => rfl
    | some a =>
      have hi : writeVarItem x cW a = writeVarItem x cW' a := by
        funext v c
        simp only [writeVarItem, writeVal_local hW a.inner (h a (List.mem_of_find?_eq_some hf))]
      simp only [hi]
  | _ => rfl

theorem writeAttr_local (h : AgreeOn P P' I) (a : AttrWrite) (ha : ∀ i ∈ a.inner.refs, I i) : writeAttr x P a = writeAttr x P' a := by
  have : ∀ v, showAttr x P a.inner v = showAttr x P' a.inner v := by
    intro v
    unfold showAttr
    revert ha
    cases a.inner with
    | display ty =>
      intro ha
      cases ty with
      | named i => simp only [displayAt, h.same i (ha i (.head _))]
      | _ => rfl
    | _ => exact fun _ => rfl
  funext fs c
  simp only [writeAttr, this]

theorem writeAttrs_local (h : AgreeOn P P' I) (fs : List (Str × Val)) : ∀ (as : List AttrWrite), (∀ a ∈ as, ∀ i ∈ a.inner.refs, I i) →
    ∀ c, writeAttrs x P fs as c = writeAttrs x P' fs as c
  | [], _, _ => rfl
  | a :: as, ha, c => by
    simp only [writeAttrs, writeAttr_local h a (ha a (.head _)), writeAttrs_local h fs as (fun b hb => ha b (.tail _ hb))]

theorem toXmlWriter_local (h : AgreeOn P P' I) (k : Nat) (i : Str) (hi : I i) (v : Val) (c : Ctx) :
    toXmlWriter x P k i v c = toXmlWriter x P' k i v c := by
  induction k generalizing i v c with
  | zero => rfl
  | succ k ih =>
    rw [toXmlWriter, toXmlWriter, ← h.same i hi]
    cases ht : findType P i with
    | none => rfl
    | some t =>
      have hl := h.to hi ht
      have hW : ∀ i, I i → ∀ v c, toXmlWriter x P k i v c = toXmlWriter x P' k i v c := fun j hj v c => ih j hj v c
      simp only [runTo]
      cases hb : t.toXml with
      | leaf w tags =>
        rw [hb] at hl
        simp only [writeVal_local hW w hl]
      | enumText => rfl
      | element as tags w =>
        rw [hb] at hl
        have hc : ∀ fs, writeContent x (toXmlWriter x P k) fs w = writeContent x (toXmlWriter x P' k) fs w :=
          fun fs => writeContent_local hW fs w (fun j hj => hl j (List.mem_append_right _ hj))
        have ha : ∀ fs c, writeAttrs x P fs as c = writeAttrs x P' fs as c :=
          fun fs c => writeAttrs_local h fs as (fun a ha j hj => hl j (List.mem_append_left _ (List.mem_flatMap.2 ⟨a, ha, hj⟩))) c
        simp only [hc, ha]
      | choice vs tags =>
        rw [hb] at hl
        simp only [writeChoice_local hW vs (fun w hw j hj => hl j (List.mem_flatMap.2 ⟨w, hw, hj⟩)) v]

theorem toXml_local (h : AgreeOn P P' I) (k : Nat) (i : Str) (hi : I i) (v : Val) : toXml x P k i v = toXml x P' k i v := by
  simp only [toXml, ← h.same i hi, toXmlWriter_local h k i hi]

end

/-! ## Generation -/

section
variable {x : Ext} {S S' : SchemaContext} {A : Name → Prop}

/-- The two schemas have the same namespaces and agree on a set of names that contains all names its definitions refer to. -/
structure SameOn (S S' : SchemaContext) (A : Name → Prop) : Prop where
  target : S.target = S'.target
  qualified : S.isQualified = S'.isQualified
  namespaces : S.namespaces = S'.namespaces
  get : ∀ n, A n → S.get n = S'.get n
  closed : ClosedSet S A

theorem fuel_agree {ε α : Type} {f g : Nat → Res ε α} (hfg : ∀ k, f k = g k) (mono : ∀ k, (f k).le (f (k + 1))) {F G : Nat}
    (hF : f F = .diverge → ∀ k, f k = .diverge) (hG : g G = .diverge → ∀ k, g k = .diverge) : f F = g G := by
  have up : ∀ a b, a ≤ b → (f a).le (f b) := by
    intro a b h
    induction h with
    | refl => exact Res.le_refl _
    | step _ ih => exact Res.le_trans ih (mono _)
  rcases up F (max F G) (Nat.le_max_left _ _) with h | h
  · rw [h, ← hfg, hF h]
  · rcases up G (max F G) (Nat.le_max_right _ _) with h' | h'
    · rw [hfg] at h'
      rw [h, hfg, hG h', h']
    · rw [h, ← h', hfg]

theorem inlineAlias_mono (k : Nat) (c : LeafContent) : (inlineAlias S k c).le (inlineAlias S (k + 1) c) := by
  induction k generalizing c with
  | zero =>
    cases c with
    | named n => exact .inl rfl
    | _ => exact .inr rfl
  | succ k ih =>
    cases c with
    | named n =>
      unfold inlineAlias
      split
      · exact ih _
      · exact .inr rfl
    | _ => exact .inr rfl

theorem resolveFrom_mono (k : Nat) (r : Option Root) : (S.resolveFrom k r).le (S.resolveFrom (k + 1) r) := by
  induction k generalizing r with
  | zero => exact .inl rfl
  | succ k ih =>
    unfold SchemaContext.resolveFrom
    split
    · split
      · exact ih _
      · exact .inr rfl
    · exact .inr rfl

theorem resolveFrom_diverge (k : Nat) (n : Name) : S.resolveFrom k (S.get n) = .diverge ↔ inlineAlias S k (.named n) = .diverge := by
  induction k generalizing n with
  | zero => exact ⟨fun _ => rfl, fun _ => rfl⟩
  | succ k ih =>
    unfold SchemaContext.resolveFrom inlineAlias
    cases hr : S.get n with
    | none => simp
    | some r =>
      cases r with
      | leaf d =>
        dsimp only
        cases hc : d.content with
        | named m => exact ih m
        | literal t => simp [inlineAlias]
        | fixed t => simp [inlineAlias]
      | _ => simp

theorem resolve_fuel {n : Name} (h : S.resolve n = .diverge) (k : Nat) : S.resolveFrom k (S.get n) = .diverge :=
  (resolveFrom_diverge k n).2 (inlined_fuel S _ ((resolveFrom_diverge _ n).1 h) k)

variable (h : SameOn S S' A)
include h

theorem inlineAlias_local : ∀ (k : Nat) (c : LeafContent), (∀ m ∈ c.refs, A m) → inlineAlias S k c = inlineAlias S' k c
  | 0, .literal _, _ => rfl
  | 0, .fixed _, _ => rfl
  | 0, .named _, _ => rfl
  | k + 1, .literal _, _ => rfl
  | k + 1, .fixed _, _ => rfl
  | k + 1, .named n, hc => by
    have hn := hc n (.head _)
    rw [inlineAlias, inlineAlias, ← h.get n hn]
    split
    · next d hd => exact inlineAlias_local k _ (fun m hm => h.closed n _ hn hd m hm)
    · rfl

theorem inlined_local {c : LeafContent} (hc : ∀ m ∈ c.refs, A m) : inlined S c = inlined S' c :=
  fuel_agree (f := fun k => inlineAlias S k c) (g := fun k => inlineAlias S' k c) (fun k => inlineAlias_local h k c hc)
    (fun k => inlineAlias_mono k c) (inlined_fuel S c) (inlined_fuel S' c)

theorem resolveFrom_local (k : Nat) (r : Option Root) (hr : ∀ r', r = some r' → ∀ m ∈ r'.refs, A m) :
    S.resolveFrom k r = S'.resolveFrom k r := by
  induction k generalizing r with
  | zero => rfl
  | succ k ih =>
    unfold SchemaContext.resolveFrom
    split
    · next d =>
      split
      · next m hm =>
        have hAm : A m := hr _ rfl m (by simp [Root.refs, hm, LeafContent.refs])
        rw [← h.get m hAm]
        exact ih _ (fun r' hr' => h.closed m r' hAm hr')
      · rfl
    · rfl

theorem resolve_local {n : Name} (hn : A n) : S.resolve n = S'.resolve n := by
  refine fuel_agree (f := fun k => S.resolveFrom k (S.get n)) (g := fun k => S'.resolveFrom k (S'.get n)) (fun k => ?_)
    (fun k => resolveFrom_mono k _) (fun hd => resolve_fuel hd) (fun hd => resolve_fuel hd)
  simp only [← h.get n hn]
  exact resolveFrom_local h k _ (fun r hr => h.closed n r hn hr)

theorem xmlName_local (n : Name) : S.xmlName n = S'.xmlName n := by
  simp only [SchemaContext.xmlName, h.qualified, h.target, h.namespaces]

theorem qname_local (n : Name) : S.qname n = S'.qname n := by
  simp only [SchemaContext.qname, h.namespaces]

theorem schemaNss_local : schemaNss S = schemaNss S' := by
  simp only [schemaNss, h.qualified, h.target, h.namespaces]

theorem contentTy_local {c : LeafContent} (hc : ∀ m ∈ c.refs, A m) : contentTy x S c = contentTy x S' c := by
  simp only [contentTy, inlined_local h hc]

theorem contentWrite_local {c : LeafContent} (hc : ∀ m ∈ c.refs, A m) : contentWrite x S c = contentWrite x S' c := by
  simp only [contentWrite, inlined_local h hc]

theorem contentRead_local {c : LeafContent} (hc : ∀ m ∈ c.refs, A m) : contentRead x S c = contentRead x S' c := by
  simp only [contentRead, inlined_local h hc]

theorem leafDecl_local {l : Leaf} (hc : ∀ m ∈ l.definition.content.refs, A m) : leafDecl x S l = leafDecl x S' l := by
  simp only [leafDecl, contentTy_local h hc]

theorem leafWrite_local {l : Leaf} (hc : ∀ m ∈ l.definition.content.refs, A m) : leafWrite x S l = leafWrite x S' l := by
  have hr : ∀ n, l.definition.content = .named n → S.resolve n = S'.resolve n :=
    fun n hn => resolve_local h (hc n (by rw [hn]; exact .head _))
  simp only [leafWrite, contentWrite_local h hc, xmlName_local h]
  cases hl : l.definition.content with
  | named n => simp only [hr n hl]
  | _ => rfl

theorem leafRead_local {l : Leaf} (hc : ∀ m ∈ l.definition.content.refs, A m) : leafRead x S l = leafRead x S' l := by
  simp only [leafRead, contentRead_local h hc, qname_local h]

theorem attrDecl_local {a : Attribute} (hc : ∀ m ∈ a.content.refs, A m) : attrDecl x S a = attrDecl x S' a := by
  simp only [attrDecl, contentTy_local h hc]

theorem attrWrite_local {a : Attribute} (hc : ∀ m ∈ a.content.refs, A m) : attrWrite x S a = attrWrite x S' a := by
  simp only [attrWrite, contentTy_local h hc, xmlName_local h]

theorem attrRead_local {a : Attribute} (hc : ∀ m ∈ a.content.refs, A m) : attrRead x S a = attrRead x S' a := by
  simp only [attrRead, contentTy_local h hc]

theorem variantDecl_local {l : Leaf} (hc : ∀ m ∈ l.definition.content.refs, A m) : variantDecl x S l = variantDecl x S' l := by
  simp only [variantDecl, contentTy_local h hc]

theorem variantWrite_local {l : Leaf} (hc : ∀ m ∈ l.definition.content.refs, A m) : variantWrite x S l = variantWrite x S' l := by
  simp only [variantWrite, contentWrite_local h hc]

theorem variantRead_local {l : Leaf} (hc : ∀ m ∈ l.definition.content.refs, A m) : variantRead x S l = variantRead x S' l := by
  simp only [variantRead, contentRead_local h hc, qname_local h]

theorem leafCheck_local (l : Leaf) : leafCheck x S l = leafCheck x S' l := by
  simp only [leafCheck, qname_local h]

omit h in
theorem mapRes_eq_on {α β : Type} {f g : α → Res Str β} : ∀ {as : List α}, (∀ a ∈ as, f a = g a) → mapRes f as = mapRes g as
  | [], _ => rfl
  | a :: as, hfg => by
    simp only [mapRes, hfg a (.head _), mapRes_eq_on (fun b hb => hfg b (.tail _ hb))]

theorem generateElement_local {n : Name} (hn : A n) : generateElement x S n = generateElement x S' n := by
  unfold generateElement
  rw [← h.get n hn]
  cases hr : S.get n with
  | none => rfl
  | some r =>
    have hA := h.closed n r hn hr
    have key : rootDecl x S r = rootDecl x S' r ∧ rootWrite x S r = rootWrite x S' r ∧ rootRead x S r = rootRead x S' r ∧
        rootLook x S r = rootLook x S' r := by
      cases r with
      | leaf d =>
        simp only [rootDecl, rootWrite, rootRead, rootLook, contentTy_local h hA, contentWrite_local h hA, contentRead_local h hA]
        exact ⟨trivial, trivial, trivial, trivial⟩
      | enum ns => exact ⟨rfl, rfl, rfl, rfl⟩
      | element d =>
        have hat : ∀ a ∈ d.attributes, ∀ m ∈ a.content.refs, A m :=
          fun a ha m hm => hA m (List.mem_append_left _ (List.mem_flatMap.2 ⟨a, ha, hm⟩))
        simp only [rootDecl, rootWrite, rootRead, rootLook, mapRes_eq_on (fun a ha => attrDecl_local (x := x) h (hat a ha)),
          mapRes_eq_on (fun a ha => attrWrite_local (x := x) h (hat a ha)), mapRes_eq_on (fun a ha => attrRead_local (x := x) h (hat a ha))]
        cases hc : d.content with
        | none => exact ⟨rfl, rfl, rfl, rfl⟩
        | some c =>
          have hco : ∀ m ∈ c.refs, A m := fun m hm => hA m (List.mem_append_right _ (by rw [hc]; exact hm))
          cases c with
          | leaf n d' =>
            simp only [contentDecl, elementContentWrite, elementContentRead, contentTy_local h hco, contentWrite_local h hco,
              contentRead_local h hco]
            exact ⟨trivial, trivial, trivial, trivial⟩
          | leaves ls =>
            have hls : ∀ l ∈ ls, ∀ m ∈ l.definition.content.refs, A m :=
              fun l hl m hm => hco m (List.mem_flatMap.2 ⟨l, hl, hm⟩)
            simp only [contentDecl, elementContentWrite, elementContentRead, mapRes_eq_on (fun l hl => leafDecl_local (x := x) h (hls l hl)),
              mapRes_eq_on (fun l hl => leafWrite_local (x := x) h (hls l hl)),
              mapRes_eq_on (fun l hl => leafRead_local (x := x) h (hls l hl)),
              mapRes_eq_on (as := lookLeaves ls) (fun l _ => leafCheck_local (x := x) h l)]
            exact ⟨trivial, trivial, trivial, trivial⟩
      | choice vs b docs =>
        have hls : ∀ l ∈ vs, ∀ m ∈ l.definition.content.refs, A m :=
          fun l hl m hm => hA m (List.mem_flatMap.2 ⟨l, hl, hm⟩)
        simp only [rootDecl, rootWrite, rootRead, rootLook, mapRes_eq_on (fun l hl => variantDecl_local (x := x) h (hls l hl)),
          mapRes_eq_on (fun l hl => variantWrite_local (x := x) h (hls l hl)),
          mapRes_eq_on (fun l hl => variantRead_local (x := x) h (hls l hl)),
          mapRes_eq_on (as := vs) (fun l _ => leafCheck_local (x := x) h l)]
        exact ⟨trivial, trivial, trivial, trivial⟩
    simp only [key.1, key.2.1, key.2.2.1, key.2.2.2, xmlName_local h, schemaNss_local h, qname_local h]

end

end Xsd
