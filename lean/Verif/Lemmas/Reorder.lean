import Verif.Lemmas.Split
import Verif.Spec.Reorder
/-!
# What the children of a schema element add to a context
-/
namespace Xsd
namespace Reord
open Again

/-- The dependencies with those of the list added: names with the type that depends on them. -/
def discoverAll (E : List (Name × Name)) (D : List (Name × List Name)) : List (Name × List Name) :=
  E.foldl (fun D p => ainsert D p.2 (sinsert ((alookup D p.2).getD []) p.1)) D

theorem discoverAll_append (E E' : List (Name × Name)) (D : List (Name × List Name)) :
    discoverAll (E ++ E') D = discoverAll E' (discoverAll E D) := List.foldl_append

theorem mem_discoverAll (E : List (Name × Name)) (D : List (Name × List Name)) (p n : Name) :
    n ∈ depsOf (discoverAll E D) p ↔ n ∈ depsOf D p ∨ (n, p) ∈ E := by
  induction E generalizing D with
  | nil => simp [discoverAll]
  | cons e E ih =>
    obtain ⟨m, q⟩ := e
    show n ∈ depsOf (discoverAll E (ainsert D q (sinsert ((alookup D q).getD []) m))) p ↔ _
    rw [ih]
    have := depsOf_discover ⟨[], none, .none, [], false, Namespaces.empty, D⟩ m q p n
    unfold PCtx.discoverType at this
    rw [this, List.mem_cons, Prod.mk.injEq]
    constructor
    · rintro ((h | ⟨h1, h2⟩) | h)
      · exact .inl h
      · exact .inr (.inl ⟨h2, h1⟩)
      · exact .inr (.inr h)
    · rintro (h | ⟨h1, h2⟩ | h)
      · exact .inl (.inl h)
      · exact .inl (.inr ⟨h2, h1⟩)
      · exact .inr h

/-- What a step did from `s` to `s1` it does from every context that knows the namespaces of `s1` already; the types and
dependencies it adds do not depend on those that are there. -/
structure Frame {ε α : Type} (m : PCtx → Res ε α) (out : PCtx → α) (s s1 : PCtx) : Prop where
  uris : UrisKnown s.nss s1.nss
  frame : ∃ W E, s1.roots = insertAll W s.roots ∧ s1.deps = discoverAll E s.deps ∧
    ∀ R N D, UrisKnown s1.nss N → m (recast s R N D) = .ok (out (recast s1 (insertAll W R) N (discoverAll E D)))

/-- Every successful run of the step adds the same in every context. -/
def Frames {α : Type} (m : P α) : Prop := ∀ s a s1, m s = .ok (a, s1) → Frame m (fun s => (a, s)) s s1

theorem keeps {α : Type} {m : P α} (h : ∀ s, ∃ r : Res XErr α, (∀ R N D, m (recast s R N D) = P.lift r (recast s R N D))) : Frames m := by
  intro s a s1 hm
  obtain ⟨r, hr⟩ := h s
  have := hr s.roots s.nss s.deps
  have h0 : recast s s.roots s.nss s.deps = s := rfl
  rw [h0, hm] at this
  cases r with
  | ok b =>
    cases this
    exact ⟨.refl _, [], [], rfl, rfl, fun R N D _ => hr R N D⟩
  | err e => cases this
  | panic => cases this
  | diverge => cases this

theorem frames_closed : ParseClosed @Frames where
  pure a := keeps fun s => ⟨.ok a, fun _ _ _ => rfl⟩
  lift r := keeps fun s => ⟨r, fun _ _ _ => rfl⟩
  fail e := keeps fun s => ⟨.err e, fun _ _ _ => rfl⟩
  diverge := keeps fun s => ⟨.diverge, fun _ _ _ => rfl⟩
  node n := keeps fun s => ⟨.ok (s.nodeName n false), fun _ _ _ => rfl⟩
  virtual x ns b := keeps fun s => ⟨match virtualName x (ns.map Name.name) b with
      | .ok n => .ok (s.nodeName n false)
      | .err _ => .panic
      | .panic => .panic
      | .diverge => .diverge, fun R N D => by
    unfold deriveVirtualName
    cases virtualName x (ns.map Name.name) b <;> rfl⟩
  bind := by
    intro α β m f hm hf s b s2 h
    change P.bnd m f s = _ at h
    unfold P.bnd at h
    cases h1 : m s with
    | ok p =>
      obtain ⟨a, s1⟩ := p
      rw [h1] at h
      obtain ⟨u1, W1, E1, w1, e1, r1⟩ := hm s a s1 h1
      obtain ⟨u2, W2, E2, w2, e2, r2⟩ := hf a s1 b s2 h
      refine ⟨u1.trans u2, W1 ++ W2, E1 ++ E2, by rw [insertAll_append, ← w1, w2], by rw [discoverAll_append, ← e1, e2], fun R N D hN => ?_⟩
      show P.bnd m f _ = _
      unfold P.bnd
      rw [r1 R N D (u2.trans hN), insertAll_append, discoverAll_append]
      exact r2 _ N _ hN
    | err e => rw [h1] at h; cases h
    | panic => rw [h1] at h; cases h
    | diverge => rw [h1] at h; cases h
  typeName a := by
    intro s c s1 h
    unfold getTypeName at h
    cases hs : splitn2 a.value with
    | mk pfx o =>
      rw [hs] at h
      cases o with
      | none =>
        refine keeps (m := fun s' => getTypeName a s') (fun s' => ⟨if s'.defaultNs = some nsXsd then literalOr pfx a else .ok (.named ⟨pfx, .none⟩), fun R N D => ?_⟩) s c s1 ?_
        · show getTypeName a _ = _
          unfold getTypeName
          rw [hs]
          show (if s'.defaultNs = some nsXsd then _ else _) = _
          split <;> rfl
        · show getTypeName a s = _
          unfold getTypeName
          rw [hs]
          exact h
      | some n =>
        dsimp only at h
        cases hu : alookup s.docNss pfx with
        | none => rw [hu] at h; cases h
        | some uri =>
          rw [hu] at h
          dsimp only at h
          have hm : ∀ R N D, getTypeName a (recast s R N D) =
              (if uri = nsXsd then P.lift (literalOr n a) (recast s R N D)
                else .ok (.named ⟨n, (N.getOrInsert uri).1⟩, recast s R (N.getOrInsert uri).2 D)) := by
            intro R N D
            unfold getTypeName
            rw [hs]
            show (match alookup s.docNss pfx with | none => _ | some uri => _) = _
            rw [hu]
            rfl
          by_cases hx : uri = nsXsd
          · rw [if_pos hx] at h
            simp only [if_pos hx] at hm
            cases hl : literalOr n a with
            | ok b =>
              rw [hl] at h
              cases h
              exact ⟨.refl _, [], [], rfl, rfl, fun R N D _ => by rw [hm, hl]; rfl⟩
            | err e => rw [hl] at h; cases h
            | panic => rw [hl] at h; cases h
            | diverge => rw [hl] at h; cases h
          · rw [if_neg hx] at h
            simp only [if_neg hx] at hm
            cases h
            refine ⟨getOrInsert_uris _ _, [], [], rfl, rfl, fun R N D hN => ?_⟩
            rw [hm, getOrInsert_again hN]
            rfl
  root n r := by
    intro s a s1 h
    cases h
    exact ⟨.refl _, [(n, r)], [], rfl, rfl, fun R N D _ => rfl⟩
  discover n p := by
    intro s a s1 h
    cases h
    exact ⟨.refl _, [], [(n, p)], rfl, rfl, fun R N D _ => rfl⟩

/-- Every successful run of reading files adds the same in every context. -/
def FileFrame (incl : Str → Namespaces → List (Name × List Name) → Res SErr PSchema) : Prop :=
  ∀ path t deps P, incl path t deps = .ok P → UrisKnown t P.context.namespaces ∧ ∃ E, P.deps = discoverAll E deps ∧
    ∀ N D, UrisKnown P.context.namespaces N → incl path N D = .ok ⟨{ P.context with namespaces := N }, discoverAll E D⟩

section
variable {x : Ext} {F : Files} {incl : Str → Namespaces → List (Name × List Name) → Res SErr PSchema} (hincl : FileFrame incl)
include hincl

theorem parseItem_frame {base : Str} {c : Nd} {s s1 : PCtx} (h : parseItem x F incl base c s = .ok s1) :
    Frame (parseItem x F incl base c) id s s1 := by
  replace h := parseItem_run h
  cases h with
  | «include» location schema hn hl h =>
    obtain ⟨h1, E, h2, h3⟩ := hincl _ _ _ _ h
    have ha : c.tryAttr c!"schemaLocation" = .ok location := tryAttr_ok.2 hl
    refine ⟨h1, schema.context.elements, E, ?_, h2, fun R N D hN => ?_⟩
    · exact (foldl_addRoot_keep _ _).2.2
    · unfold parseItem
      rw [if_pos hn, ha]
      show Res.bind (liftS (incl (F.push base location.value) N D)) _ = _
      rw [h3 N D hN]
      show Res.ok _ = _
      simp only [addAll_eq]
      rfl
  | definition nameAttr root s2 hn ha h =>
    obtain ⟨h1, W, E, h3, h2, h4⟩ := parseRoot_closed frames_closed x _ _ _ _ _ _ h
    have ha : c.tryAttr c!"name" = .ok nameAttr := tryAttr_ok.2 ha
    refine ⟨h1, W ++ [(⟨nameAttr.value, s.target⟩, root)], E, ?_, h2, fun R N D hN => ?_⟩
    · rw [insertAll_append, ← h3]; rfl
    · unfold parseItem
      rw [if_neg hn, ha]
      show Res.bind (liftX (parseRoot x c.fuel (c.see c!"name") ⟨nameAttr.value, s.target⟩ (recast s R N D))) _ = _
      rw [h4 R N D hN, insertAll_append]
      rfl

theorem parseItems_frame {base : Str} {cs : List Nd} {s s1 : PCtx} (h : parseItems x F incl base cs s = .ok s1) :
    Frame (parseItems x F incl base cs) id s s1 := by
  induction cs generalizing s with
  | nil => cases h; exact ⟨.refl _, [], [], rfl, rfl, fun R N D _ => rfl⟩
  | cons c cs ih =>
    obtain ⟨s2, h1, h2⟩ := Res.bind_eq_ok.1 h
    obtain ⟨u1, W1, E1, w1, e1, r1⟩ := parseItem_frame hincl h1
    obtain ⟨u2, W2, E2, w2, e2, r2⟩ := ih h2
    refine ⟨u1.trans u2, W1 ++ W2, E1 ++ E2, by rw [insertAll_append, ← w1, w2], by rw [discoverAll_append, ← e1, e2], fun R N D hN => ?_⟩
    show Res.bind (parseItem x F incl base c _) _ = _
    rw [r1 R N D (u2.trans hN), insertAll_append, discoverAll_append]
    exact r2 _ N _ hN

theorem parseDoc_frame {path : Str} {d : XDoc} {t : Namespaces} {deps : List (Name × List Name)} {P : PSchema}
    (h : parseDoc x F incl path d t deps = .ok P) :
    UrisKnown t P.context.namespaces ∧ ∃ E, P.deps = discoverAll E deps ∧ ∀ N D, UrisKnown P.context.namespaces N →
      parseDoc x F incl path d N D = .ok ⟨{ P.context with namespaces := N }, discoverAll E D⟩ := by
  unfold parseDoc at h
  cases hr : parseSchemaRoot x F incl (F.parent path) (Nd.of d.root) t deps with
  | ok Q =>
    rw [hr] at h
    cases h
    unfold parseSchemaRoot at hr
    split at hr
    · cases hr
    · next hc =>
      obtain ⟨s, h1, h2⟩ := Res.bind_eq_ok.1 hr
      cases h2
      obtain ⟨u, W, E, w, e, r⟩ := parseItems_frame hincl h1
      refine ⟨(new_uris _ _ _ _).trans u, E, e, fun N D hN => ?_⟩
      unfold parseDoc parseSchemaRoot
      rw [if_neg hc, new_again (u.trans hN)]
      have := r [] N D hN
      simp only [this]
      show Res.ok (recast s (insertAll W []) N _).intoSchema = _
      have : insertAll W [] = s.roots := w.symm
      rw [this]
      rfl
  | err e => rw [hr] at h; cases h
  | panic => rw [hr] at h; cases h
  | diverge => rw [hr] at h; cases h

end

theorem parseFileWith_frame {x : Ext} {F : Files} (k : Nat) : FileFrame (parseFileWith x F k) := by
  induction k with
  | zero => intro path t deps P h; cases h
  | succ k ih =>
    intro path t deps P h
    unfold parseFileWith at h ⊢
    split at h
    · cases h
    · cases h
    · exact parseDoc_frame ih h

/-! ## Children in any order -/

section
variable {x : Ext} {F : Files} {incl : Str → Namespaces → List (Name × List Name) → Res SErr PSchema} (hincl : FileFrame incl)
include hincl

/-- Each child adds types and dependencies of its own. -/
theorem effects {base : Str} {cs : List Nd} {s s1 : PCtx} {N : Namespaces} (h : parseItems x F incl base cs s = .ok s1)
    (hN : UrisKnown s1.nss N) : ∃ (w : Nd → List (Name × Root)) (e : Nd → List (Name × Name)), ∀ c ∈ cs, ∀ R D,
      parseItem x F incl base c (recast s R N D) = .ok (recast s (insertAll (w c) R) N (discoverAll (e c) D)) := by
  have key : ∀ c ∈ cs, ∃ p : List (Name × Root) × List (Name × Name), ∀ R D,
      parseItem x F incl base c (recast s R N D) = .ok (recast s (insertAll p.1 R) N (discoverAll p.2 D)) := by
    induction cs generalizing s with
    | nil => nofun
    | cons c cs ih =>
      obtain ⟨s2, h1, h2⟩ := Res.bind_eq_ok.1 h
      obtain ⟨u1, W1, E1, w1, e1, r1⟩ := parseItem_frame hincl h1
      have hd : s.SameDoc s2 := parseItems_doc (cs := [c]) (Res.bind_eq_ok.2 ⟨s2, h1, rfl⟩)
      intro b hb
      rcases List.mem_cons.1 hb with rfl | hb
      · exact ⟨(W1, E1), fun R D => by
          rw [r1 R N D ((parseItems_frame hincl h2).uris.trans hN), ← recast_congr hd]; rfl⟩
      · obtain ⟨p, hp⟩ := ih h2 b hb
        refine ⟨p, fun R D => ?_⟩
        have := hp R D
        rw [recast_congr hd, recast_congr hd] at this
        exact this
  classical
  refine ⟨fun c => if h : c ∈ cs then (key c h).choose.1 else [], fun c => if h : c ∈ cs then (key c h).choose.2 else [], fun c hc R D => ?_⟩
  simp only [dif_pos hc]
  exact (key c hc).choose_spec R D

omit hincl in
theorem parseItems_effects {base : Str} {s : PCtx} {N : Namespaces} {w : Nd → List (Name × Root)} {e : Nd → List (Name × Name)}
    (cs : List Nd) (h : ∀ c ∈ cs, ∀ R D,
      parseItem x F incl base c (recast s R N D) = .ok (recast s (insertAll (w c) R) N (discoverAll (e c) D)))
    (R : List (Name × Root)) (D : List (Name × List Name)) :
    parseItems x F incl base cs (recast s R N D) =
      .ok (recast s (insertAll (cs.flatMap w) R) N (discoverAll (cs.flatMap e) D)) := by
  induction cs generalizing R D with
  | nil => rfl
  | cons c cs ih =>
    show Res.bind (parseItem x F incl base c _) _ = _
    rw [h c (.head _)]
    rw [List.flatMap_cons, List.flatMap_cons, insertAll_append, discoverAll_append]
    exact ih (fun b hb => h b (.tail _ hb)) _ _

end

theorem lookup_over (W R : List (Name × Root)) (n : Name) :
    alookup (insertAll W R) n = (alookup (insertAll W []) n).or (alookup R n) := by
  rcases lookup_insertAll W R [] n with h | ⟨h, h'⟩
  · rw [h]
    cases hl : alookup (insertAll W []) n with
    | some r => rfl
    | none =>
      have : alookup R n = none := by
        rw [alookup_eq_none_iff]
        intro hm
        have := keys_insertAll_mono W R hm
        rw [← alookup_isSome_iff, h, hl] at this
        cases this
      rw [this]; rfl
  · rw [h, h']; rfl

theorem lookup_flatMap {w : Nd → List (Name × Root)} (cs : List Nd) (R : List (Name × Root)) (n : Name) :
    (∀ r, alookup (insertAll (cs.flatMap w) R) n = some r →
      (∃ c ∈ cs, alookup (insertAll (w c) []) n = some r) ∨ alookup R n = some r) ∧
    (alookup (insertAll (cs.flatMap w) R) n = none → ∀ c ∈ cs, alookup (insertAll (w c) []) n = none) := by
  induction cs generalizing R with
  | nil => exact ⟨fun r h => .inr h, fun _ => nofun⟩
  | cons c cs ih =>
    rw [List.flatMap_cons, insertAll_append]
    constructor
    · intro r h
      rcases (ih _).1 r h with ⟨b, hb, h⟩ | h
      · exact .inl ⟨b, .tail _ hb, h⟩
      · rw [lookup_over] at h
        cases hl : alookup (insertAll (w c) []) n with
        | none => rw [hl] at h; exact .inr h
        | some r' => rw [hl] at h; cases h; exact .inl ⟨c, .head _, hl⟩
    · intro h b hb
      rcases List.mem_cons.1 hb with rfl | hb
      · have : n ∉ (insertAll (w b) R).map Prod.fst := by
          intro hm
          have := keys_insertAll_mono (cs.flatMap w) _ hm
          rw [← alookup_isSome_iff, h] at this
          cases this
        rw [← alookup_eq_none_iff, lookup_over] at this
        cases hl : alookup (insertAll (w b) []) n with
        | none => rfl
        | some r => rw [hl] at this; cases this
      · exact (ih _).2 h b hb

/-- If no two of them give different types to one name, the order does not matter. -/
theorem lookup_same {w : Nd → List (Name × Root)} {cs cs' : List Nd} (hcs : ∀ c, c ∈ cs' ↔ c ∈ cs)
    (hw : ∀ c ∈ cs, ∀ c' ∈ cs, ∀ n r r', alookup (insertAll (w c) []) n = some r → alookup (insertAll (w c') []) n = some r' → r = r')
    (n : Name) : alookup (insertAll (cs'.flatMap w) []) n = alookup (insertAll (cs.flatMap w) []) n := by
  cases h : alookup (insertAll (cs.flatMap w) []) n with
  | none =>
    cases h' : alookup (insertAll (cs'.flatMap w) []) n with
    | none => rfl
    | some r =>
      rcases (lookup_flatMap cs' [] n).1 r h' with ⟨c, hc, hl⟩ | hl
      · rw [(lookup_flatMap cs [] n).2 h c ((hcs c).1 hc)] at hl; cases hl
      · cases hl
  | some r =>
    rcases (lookup_flatMap cs [] n).1 r h with ⟨c, hc, hl⟩ | hl
    · cases h' : alookup (insertAll (cs'.flatMap w) []) n with
      | none => rw [(lookup_flatMap cs' [] n).2 h' c ((hcs c).2 hc)] at hl; cases hl
      | some r' =>
        rcases (lookup_flatMap cs' [] n).1 r' h' with ⟨c', hc', hl'⟩ | hl'
        · rw [hw c hc c' ((hcs c').1 hc') n r r' hl hl']
        · cases hl'
    · cases hl

end Reord
end Xsd
