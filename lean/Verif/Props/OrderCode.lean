import Verif.Props.Order
import Verif.Props.Namespaces
/-!
# C50: iteration order of maps, the generated code
-/
namespace Xsd

/-- Related results: values in the relation, or the same failure. -/
inductive Res.Rel {ε α β : Type} (R : α → β → Prop) : Res ε α → Res ε β → Prop where
  | ok {a b} (h : R a b) : Res.Rel R (.ok a) (.ok b)
  | err {e} : Res.Rel R (.err e) (.err e)
  | panic : Res.Rel R .panic .panic
  | diverge : Res.Rel R .diverge .diverge

namespace Res.Rel
variable {ε α β γ δ : Type} {R : α → β → Prop} {Q : γ → δ → Prop}

theorem bind {r : Res ε α} {r' : Res ε β} (h : Res.Rel R r r') {f : α → Res ε γ} {g : β → Res ε δ}
    (hf : ∀ a b, R a b → Res.Rel Q (f a) (g b)) : Res.Rel Q (r >>= f) (r' >>= g) := by
  cases h with
  | ok h => exact hf _ _ h
  | err => exact .err
  | panic => exact .panic
  | diverge => exact .diverge

theorem refl (hR : ∀ a, (R' : α → α → Prop) a a) (r : Res ε α) : Res.Rel R' r r := by
  cases r with
  | ok a => exact .ok (hR a)
  | err => exact .err
  | panic => exact .panic
  | diverge => exact .diverge

theorem same {r : Res ε α} {f g : α → Res ε γ} {Q : γ → γ → Prop} (h : ∀ a, Res.Rel Q (f a) (g a)) : Res.Rel Q (r >>= f) (r >>= g) := by
  cases r with
  | ok a => exact h a
  | err => exact .err
  | panic => exact .panic
  | diverge => exact .diverge

end Res.Rel

theorem mapRes_perm {α β : Type} {f : α → Res Str β} {l l' : List α} (h : l'.Perm l) :
    ∀ {bs : List β}, mapRes f l = .ok bs → ∃ bs' : List β, mapRes f l' = .ok bs' ∧ bs'.Perm bs := by
  induction h with
  | nil => intro bs h; exact ⟨bs, h, .refl _⟩
  | cons a _ ih =>
    intro bs h
    obtain ⟨b, cs, h1, h2, rfl⟩ := mapRes_cons_ok.1 h
    obtain ⟨cs', h3, hp⟩ := ih h2
    exact ⟨b :: cs', mapRes_cons_ok.2 ⟨b, cs', h1, h3, rfl⟩, hp.cons b⟩
  | swap a a' l =>
    intro bs h
    obtain ⟨b, cs, h1, h2, rfl⟩ := mapRes_cons_ok.1 h
    obtain ⟨b', cs', h3, h4, rfl⟩ := mapRes_cons_ok.1 h2
    exact ⟨b' :: b :: cs', mapRes_cons_ok.2 ⟨b', _, h3, mapRes_cons_ok.2 ⟨b, _, h1, h4, rfl⟩, rfl⟩, .swap _ _ _⟩
  | trans _ _ ih1 ih2 =>
    intro bs h
    obtain ⟨bs1, h1, hp1⟩ := ih2 h
    obtain ⟨bs2, h2, hp2⟩ := ih1 h1
    exact ⟨bs2, h2, hp2.trans hp1⟩

theorem mapRes_panics {α β : Type} {f : α → Res Str β} (hf : ∀ a, (∃ b, f a = .ok b) ∨ f a = .panic) (l : List α) :
    (∃ bs, mapRes f l = .ok bs) ∨ mapRes f l = .panic := by
  induction l with
  | nil => exact .inl ⟨[], rfl⟩
  | cons a l ih =>
    rcases hf a with ⟨b, hb⟩ | hb
    · rcases ih with ⟨bs, hbs⟩ | hbs
      · exact .inl ⟨b :: bs, mapRes_cons_ok.2 ⟨b, bs, hb, hbs, rfl⟩⟩
      · exact .inr (by unfold mapRes; rw [hb, hbs]; rfl)
    · exact .inr (by unfold mapRes; rw [hb]; rfl)

section
variable {x : Ext} {S : SchemaContext} {E : List (Name × Root)} {B : List (Nat × NsDef)}

/-- What the order of definitions and namespaces must satisfy: there is one entry for every key. -/
structure Reorders (S : SchemaContext) (E : List (Name × Root)) (B : List (Nat × NsDef)) : Prop where
  nodup : (S.elements.map Prod.fst).Nodup
  perm : E.Perm S.elements
  ids : (S.namespaces.byId.map Prod.fst).Nodup
  nss : B.Perm S.namespaces.byId

variable (h : Reorders S E B)
include h

theorem Reorders.get (n : Name) : (S.reordered E B).get n = S.get n := alookup_perm h.nodup h.perm n

theorem Reorders.getById (i : Nat) : (S.reordered E B).namespaces.getById i = S.namespaces.getById i := alookup_perm h.ids h.nss i

theorem Reorders.fuel : (S.reordered E B).aliasFuel = S.aliasFuel := by
  show E.length + 2 = S.elements.length + 2
  rw [h.perm.length_eq]

theorem Reorders.inlined : Xsd.inlined (S.reordered E B) = Xsd.inlined S := by
  have key : ∀ k c, inlineAlias (S.reordered E B) k c = inlineAlias S k c := by
    intro k
    induction k with
    | zero => intro c; cases c <;> rfl
    | succ k ih =>
      intro c
      cases c with
      | literal t => rfl
      | fixed s => rfl
      | named n =>
        unfold inlineAlias
        rw [h.get]
        split
        · exact ih _
        · rfl
  funext c
  unfold Xsd.inlined
  rw [h.fuel, key]

theorem Reorders.resolve : (S.reordered E B).resolve = S.resolve := by
  have key : ∀ k o, (S.reordered E B).resolveFrom k o = S.resolveFrom k o := by
    intro k
    induction k with
    | zero => intro o; rfl
    | succ k ih =>
      intro o
      unfold SchemaContext.resolveFrom
      split
      · split
        · rw [h.get, ih]
        · rfl
      · rfl
  funext n
  unfold SchemaContext.resolve
  rw [h.fuel, h.get, key]

theorem Reorders.xmlName : (S.reordered E B).xmlName = S.xmlName := by
  funext n
  unfold SchemaContext.xmlName
  split
  · rfl
  · rw [h.getById]; rfl

theorem Reorders.qname : (S.reordered E B).qname = S.qname := by
  funext n
  unfold SchemaContext.qname
  split
  · rfl
  · rw [h.getById]

theorem Reorders.contentTy : Xsd.contentTy x (S.reordered E B) = Xsd.contentTy x S := by
  funext c; unfold Xsd.contentTy; rw [h.inlined]

theorem Reorders.contentWrite : Xsd.contentWrite x (S.reordered E B) = Xsd.contentWrite x S := by
  funext c; unfold Xsd.contentWrite; rw [h.inlined]

theorem Reorders.contentRead : Xsd.contentRead x (S.reordered E B) = Xsd.contentRead x S := by
  funext c; unfold Xsd.contentRead; rw [h.inlined]

theorem Reorders.rootDecl (r : Root) : Xsd.rootDecl x (S.reordered E B) r = Xsd.rootDecl x S r := by
  have h1 : leafDecl x (S.reordered E B) = leafDecl x S := by funext l; unfold leafDecl; rw [h.contentTy]
  have h2 : attrDecl x (S.reordered E B) = attrDecl x S := by funext l; unfold attrDecl; rw [h.contentTy]
  have h3 : variantDecl x (S.reordered E B) = variantDecl x S := by funext l; unfold variantDecl; rw [h.contentTy]
  have h4 : contentDecl x (S.reordered E B) = contentDecl x S := by funext l; unfold contentDecl; rw [h.contentTy, h1]
  unfold Xsd.rootDecl
  rw [h.contentTy, h2, h3, h4]

theorem Reorders.rootWrite (r : Root) : Xsd.rootWrite x (S.reordered E B) r = Xsd.rootWrite x S r := by
  have h1 : leafWrite x (S.reordered E B) = leafWrite x S := by
    funext l; unfold leafWrite; rw [h.contentWrite, h.xmlName, h.resolve]
  have h2 : attrWrite x (S.reordered E B) = attrWrite x S := by funext l; unfold attrWrite; rw [h.contentTy, h.xmlName]
  have h3 : variantWrite x (S.reordered E B) = variantWrite x S := by funext l; unfold variantWrite; rw [h.contentWrite]
  have h4 : elementContentWrite x (S.reordered E B) = elementContentWrite x S := by
    funext l; unfold elementContentWrite; rw [h.contentWrite, h1]
  unfold Xsd.rootWrite
  rw [h.contentWrite, h2, h3, h4]

theorem Reorders.rootRead (r : Root) : Xsd.rootRead x (S.reordered E B) r = Xsd.rootRead x S r := by
  have h1 : leafRead x (S.reordered E B) = leafRead x S := by funext l; unfold leafRead; rw [h.contentRead, h.qname]
  have h2 : attrRead x (S.reordered E B) = attrRead x S := by funext l; unfold attrRead; rw [h.contentTy]
  have h3 : variantRead x (S.reordered E B) = variantRead x S := by funext l; unfold variantRead; rw [h.contentRead, h.qname]
  have h4 : elementContentRead x (S.reordered E B) = elementContentRead x S := by
    funext l; unfold elementContentRead; rw [h.contentRead, h1]
  unfold Xsd.rootRead
  rw [h.contentRead, h2, h3, h4]

theorem Reorders.rootLook (r : Root) : Xsd.rootLook x (S.reordered E B) r = Xsd.rootLook x S r := by
  have h1 : leafCheck x (S.reordered E B) = leafCheck x S := by funext l; unfold leafCheck; rw [h.qname]
  unfold Xsd.rootLook
  rw [h1]

theorem Reorders.schemaNss : Res.Rel (fun a b => List.Perm b a) (Xsd.schemaNss S) (Xsd.schemaNss (S.reordered E B)) := by
  unfold Xsd.schemaNss
  have hp : (B.filterMap (fun (p : Nat × NsDef) =>
      if S.isQualified && decide (Namespace.id p.1 = S.target) then none else some (p.2.pfx, p.2.uri))).Perm
      (S.namespaces.byId.filterMap (fun (p : Nat × NsDef) =>
      if S.isQualified && decide (Namespace.id p.1 = S.target) then none else some (p.2.pfx, p.2.uri))) := h.nss.filterMap _
  have e1 : (S.reordered E B).isQualified = S.isQualified := rfl
  have e2 : (S.reordered E B).target = S.target := rfl
  have e3 : (S.reordered E B).namespaces.byId = B := rfl
  simp only [e1, e2, e3, h.getById]
  split
  · split
    · exact .ok (.append (.refl _) hp)
    · exact .panic
  · exact .ok (.append (.refl _) hp)

/-- The declaration, up to the order of variants. -/
theorem Reorders.rootDeclIn {ord : List (Str × Str) → List (Str × Str)} (hord : ∀ m, (ord m).Perm m) (r : Root) :
    Res.Rel SameDecl (Xsd.rootDecl x S r) (Xsd.rootDeclIn x (S.reordered E B) ord r) := by
  cases r with
  | enum ns =>
    refine Res.Rel.same fun m => ?_
    have hf : ∀ p : Str × Str, (∃ b, (do let v ← formatIdent x p.1; pure (v, p.2) : Res Str (Str × Str)) = .ok b) ∨
        (do let v ← formatIdent x p.1; pure (v, p.2) : Res Str (Str × Str)) = .panic := by
      intro p
      unfold formatIdent
      split
      · exact .inl ⟨_, rfl⟩
      · exact .inr rfl
    rcases mapRes_panics hf m with ⟨bs, hbs⟩ | hp
    · obtain ⟨bs', hbs', hp⟩ := mapRes_perm (hord m) hbs
      rw [hbs, hbs']
      exact .ok (.enum hp)
    · rcases mapRes_panics hf (ord m) with ⟨bs, hbs⟩ | hp'
      · obtain ⟨bs', hbs', _⟩ := mapRes_perm (hord m).symm hbs
        rw [hp] at hbs'; cases hbs'
      · rw [hp, hp']
        exact .panic
  | leaf d => unfold Xsd.rootDeclIn; dsimp only; rw [h.rootDecl]; exact .refl .same _
  | element d => unfold Xsd.rootDeclIn; dsimp only; rw [h.rootDecl]; exact .refl .same _
  | choice a b c => unfold Xsd.rootDeclIn; dsimp only; rw [h.rootDecl]; exact .refl .same _

/-- The generated code of a definition. -/
theorem Reorders.generateElementIn {ord : List (Str × Str) → List (Str × Str)} (hord : ∀ m, (ord m).Perm m) (n : Name) :
    Res.Rel SameDef (Xsd.generateElement x S n) (Xsd.generateElementIn x (S.reordered E B) ord n) := by
  unfold Xsd.generateElement Xsd.generateElementIn
  rw [h.get]
  cases S.get n with
  | none => exact .err
  | some r =>
    dsimp only
    refine Res.Rel.same fun i => ?_
    refine (h.rootDeclIn hord r).bind fun d d' hd => ?_
    rw [h.rootWrite]
    refine Res.Rel.same fun w => ?_
    rw [h.xmlName]
    refine Res.Rel.same fun xn => ?_
    refine h.schemaNss.bind fun ns ns' hns => ?_
    rw [h.qname]
    refine Res.Rel.same fun q => ?_
    rw [h.rootRead]
    refine Res.Rel.same fun rd => ?_
    rw [h.rootLook]
    refine Res.Rel.same fun lk => ?_
    exact .ok ⟨hd, hns, rfl⟩

/-- All the generated code. -/
theorem Reorders.generateAllIn {ords : Name → List (Str × Str) → List (Str × Str)} (hord : ∀ n m, (ords n m).Perm m) {ds : List TypeDef}
    (hds : generateAll x S = .ok ds) : ∃ ds', Xsd.generateAllIn x (S.reordered E B) ords = .ok ds' ∧ SameCode ds ds' := by
  obtain ⟨es, hes, hp⟩ := mapRes_perm (h.perm.map Prod.fst) hds
  have key : ∀ (l : List Name) {es : List TypeDef}, mapRes (Xsd.generateElement x S) l = .ok es →
      ∃ ds', mapRes (fun n => Xsd.generateElementIn x (S.reordered E B) (ords n) n) l = .ok ds' ∧ SameDefs es ds' := by
    intro l
    induction l with
    | nil => intro es h; cases h; exact ⟨[], rfl, .nil⟩
    | cons n l ih =>
      intro es hes
      obtain ⟨b, cs, h1, h2, rfl⟩ := mapRes_cons_ok.1 hes
      obtain ⟨ds', h3, h4⟩ := ih h2
      have hr := h.generateElementIn (x := x) (hord n) n
      rw [h1] at hr
      generalize hg : Xsd.generateElementIn x (S.reordered E B) (ords n) n = g at hr
      cases hr with
      | ok hr => exact ⟨_, mapRes_cons_ok.2 ⟨_, _, hg, h3, rfl⟩, .cons hr h4⟩
  obtain ⟨ds', h3, h4⟩ := key _ hes
  exact ⟨ds', h3, es, hp, h4⟩

end

end Xsd
