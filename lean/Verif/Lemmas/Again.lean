import Verif.Lemmas.ParseClosed
import Verif.Lemmas.Deps
import Verif.Props.Order
import Verif.Props.Terminates
import Verif.Spec.Files
/-!
# Doing again what has been done already
-/
namespace Xsd
namespace Again

/-- The namespaces of one table are in the other, with the same ids. -/
def UrisKnown (t t' : Namespaces) : Prop := ∀ u n, alookup t.byUri u = some n → alookup t'.byUri u = some n

theorem UrisKnown.refl (t : Namespaces) : UrisKnown t t := fun _ _ h => h

theorem UrisKnown.trans {a b c : Namespaces} (h : UrisKnown a b) (h' : UrisKnown b c) : UrisKnown a c :=
  fun u n hu => h' u n (h u n hu)

theorem _root_.Xsd.DepsGrow.refl (d : List (Name × List Name)) : DepsGrow d d := fun _ _ h => h

theorem _root_.Xsd.DepsGrow.trans {a b c : List (Name × List Name)} (h : DepsGrow a b) (h' : DepsGrow b c) : DepsGrow a c :=
  fun p n hn => h' p n (h p n hn)

/-- The context with other types, namespaces and dependencies. -/
def recast (s : PCtx) (R : List (Name × Root)) (N : Namespaces) (D : List (Name × List Name)) : PCtx :=
  { s with roots := R, nss := N, deps := D }

/-- What a step did from `s` to `s1` it does from every context that knows the namespaces and dependencies of `s1`
already, without adding any; the types it writes do not depend on those that are there. -/
structure Redo {ε α : Type} (m : PCtx → Res ε α) (out : PCtx → α) (s s1 : PCtx) : Prop where
  uris : UrisKnown s.nss s1.nss
  deps : DepsGrow s.deps s1.deps
  redo : ∃ W, s1.roots = insertAll W s.roots ∧
    (∀ R, m (recast s R s.nss s.deps) = .ok (out (recast s1 (insertAll W R) s1.nss s1.deps))) ∧
    ∀ R N D, UrisKnown s1.nss N → DepsGrow s1.deps D → m (recast s R N D) = .ok (out (recast s1 (insertAll W R) N D))

/-- Every successful run of the step can be done again. -/
def Redoes {α : Type} (m : P α) : Prop := ∀ s a s1, m s = .ok (a, s1) → Redo m (fun s => (a, s)) s s1

theorem insertAll_append (W W' R : List (Name × Root)) : insertAll (W ++ W') R = insertAll W' (insertAll W R) :=
  List.foldl_append

theorem ainsert_same {κ ν : Type} [DecidableEq κ] {m : List (κ × ν)} {k : κ} {v : ν} (h : alookup m k = some v) :
    ainsert m k v = m := by
  induction m with
  | nil => cases h
  | cons p m ih =>
    obtain ⟨k', v'⟩ := p
    unfold alookup at h
    unfold ainsert
    split
    · next hk => rw [if_pos hk] at h; cases h; rfl
    · next hk => rw [if_neg hk] at h; rw [ih h]

theorem getOrInsert_known {t : Namespaces} {u : Str} {n : Nat} (h : alookup t.byUri u = some n) : t.getOrInsert u = (.id n, t) := by
  unfold Namespaces.getOrInsert
  rw [h]

theorem getOrInsert_uris (t : Namespaces) (u : Str) : UrisKnown t (t.getOrInsert u).2 := by
  unfold Namespaces.getOrInsert
  split
  · exact .refl _
  · next h =>
    intro v n hv
    show alookup (ainsert t.byUri u _) v = _
    rw [alookup_ainsert, if_neg (by rintro rfl; rw [h] at hv; cases hv)]
    exact hv

theorem getOrInsert_again {t N : Namespaces} {u : Str} (h : UrisKnown (t.getOrInsert u).2 N) :
    N.getOrInsert u = ((t.getOrInsert u).1, N) := by
  obtain ⟨n, h1, h2⟩ := Namespaces.getOrInsert_get t u
  rw [getOrInsert_known (h _ _ h2), h1]

theorem discover_again {s : PCtx} {n p : Name} {R : List (Name × Root)} {N : Namespaces} {D : List (Name × List Name)}
    (h : DepsGrow (s.discoverType n p).deps D) : (recast s R N D).discoverType n p = recast (s.discoverType n p) R N D := by
  have hn : n ∈ depsOf D p := h p n ((depsOf_discover s n p p n).2 (.inr ⟨rfl, rfl⟩))
  unfold depsOf at hn
  unfold PCtx.discoverType recast
  congr 1
  show ainsert D p (sinsert ((alookup D p).getD []) n) = D
  cases hd : alookup D p with
  | none => rw [hd] at hn; cases hn
  | some l =>
    rw [hd] at hn
    show ainsert D p (sinsert l n) = D
    rw [show sinsert l n = l from if_pos hn]
    exact ainsert_same hd

theorem keeps {α : Type} {m : P α} (h : ∀ s, ∃ r : Res XErr α, (∀ R N D, m (recast s R N D) = P.lift r (recast s R N D))) : Redoes m := by
  intro s a s1 hm
  obtain ⟨r, hr⟩ := h s
  have := hr s.roots s.nss s.deps
  have h0 : recast s s.roots s.nss s.deps = s := rfl
  rw [h0, hm] at this
  cases r with
  | ok b =>
    cases this
    exact ⟨.refl _, .refl _, [], rfl, fun R => hr R _ _, fun R N D _ _ => hr R N D⟩
  | err e => cases this
  | panic => cases this
  | diverge => cases this

theorem redoes_closed : ParseClosed @Redoes where
  pure a := keeps fun s => ⟨.ok a, fun _ _ _ => rfl⟩
  lift r := keeps fun s => ⟨r, fun _ _ _ => rfl⟩
  fail e := keeps fun s => ⟨.err e, fun _ _ _ => rfl⟩
  diverge := keeps fun s => ⟨.diverge, fun _ _ _ => rfl⟩
  node n := keeps fun s => ⟨.ok (s.nodeName n false), fun _ _ _ => rfl⟩
  virtual x ns b := keeps fun s => ⟨match virtualName x (ns.map Name.name) b with
      | .ok n => .ok (s.nodeName n false)
      | .err _ => .panic
      | .panic => .panic
      | .diverge => .diverge, fun R N D => by
    unfold deriveVirtualName
    cases virtualName x (ns.map Name.name) b <;> rfl⟩
  bind := by
    intro α β m f hm hf s b s2 h
    change P.bnd m f s = _ at h
    unfold P.bnd at h
    cases h1 : m s with
    | ok p =>
      obtain ⟨a, s1⟩ := p
      rw [h1] at h
      obtain ⟨u1, d1, W1, w1, q1, r1⟩ := hm s a s1 h1
      obtain ⟨u2, d2, W2, w2, q2, r2⟩ := hf a s1 b s2 h
      refine ⟨u1.trans u2, d1.trans d2, W1 ++ W2, by rw [insertAll_append, ← w1, w2], fun R => ?_, fun R N D hN hD => ?_⟩
      · show P.bnd m f _ = _
        unfold P.bnd
        rw [q1 R, insertAll_append]
        exact q2 _
      show P.bnd m f _ = _
      unfold P.bnd
      rw [r1 R N D (u2.trans hN) (d2.trans hD), insertAll_append]
      exact r2 _ N D hN hD
    | err e => rw [h1] at h; cases h
    | panic => rw [h1] at h; cases h
    | diverge => rw [h1] at h; cases h
  typeName a := by
    intro s c s1 h
    unfold getTypeName at h
    cases hs : splitn2 a.value with
    | mk pfx o =>
      rw [hs] at h
      cases o with
      | none =>
        have hm : ∀ R N D, getTypeName a (recast s R N D) =
            P.lift (if s.defaultNs = some nsXsd then literalOr pfx a else .ok (.named ⟨pfx, .none⟩)) (recast s R N D) := by
          intro R N D
          unfold getTypeName
          rw [hs]
          show (if s.defaultNs = some nsXsd then _ else _) = _
          split <;> rfl
        refine keeps (m := fun s' => getTypeName a s') (fun s' => ⟨if s'.defaultNs = some nsXsd then literalOr pfx a else .ok (.named ⟨pfx, .none⟩), fun R N D => ?_⟩) s c s1 ?_
        · show getTypeName a _ = _
          unfold getTypeName
          rw [hs]
          show (if s'.defaultNs = some nsXsd then _ else _) = _
          split <;> rfl
        · show getTypeName a s = _
          unfold getTypeName
          rw [hs]
          exact h
      | some n =>
        dsimp only at h
        cases hu : alookup s.docNss pfx with
        | none => rw [hu] at h; cases h
        | some uri =>
          rw [hu] at h
          dsimp only at h
          have hm : ∀ R N D, getTypeName a (recast s R N D) =
              (if uri = nsXsd then P.lift (literalOr n a) (recast s R N D)
                else .ok (.named ⟨n, (N.getOrInsert uri).1⟩, recast s R (N.getOrInsert uri).2 D)) := by
            intro R N D
            unfold getTypeName
            rw [hs]
            show (match alookup s.docNss pfx with | none => _ | some uri => _) = _
            rw [hu]
            rfl
          by_cases hx : uri = nsXsd
          · rw [if_pos hx] at h
            simp only [if_pos hx] at hm
            cases hl : literalOr n a with
            | ok b =>
              rw [hl] at h
              cases h
              exact ⟨.refl _, .refl _, [], rfl, fun R => by rw [hm, hl]; rfl, fun R N D _ _ => by rw [hm, hl]; rfl⟩
            | err e => rw [hl] at h; cases h
            | panic => rw [hl] at h; cases h
            | diverge => rw [hl] at h; cases h
          · rw [if_neg hx] at h
            simp only [if_neg hx] at hm
            cases h
            refine ⟨getOrInsert_uris _ _, .refl _, [], rfl, fun R => by rw [hm]; rfl, fun R N D hN _ => ?_⟩
            rw [hm, getOrInsert_again hN]
            rfl
  root n r := by
    intro s a s1 h
    cases h
    exact ⟨.refl _, .refl _, [(n, r)], rfl, fun R => rfl, fun R N D _ _ => rfl⟩
  discover n p := by
    intro s a s1 h
    cases h
    refine ⟨.refl _, DepsGrow.discover s n p, [], rfl, fun R => rfl, fun R N D _ hD => ?_⟩
    show Res.ok ((), (recast s R N D).discoverType n p) = _
    rw [discover_again hD]
    rfl

/-- Every successful run of reading files can be done again. -/
def FileRedo (incl : Str → Namespaces → List (Name × List Name) → Res SErr PSchema) : Prop :=
  ∀ path t deps P, incl path t deps = .ok P → UrisKnown t P.context.namespaces ∧ DepsGrow deps P.deps ∧
    ∀ N D, UrisKnown P.context.namespaces N → DepsGrow P.deps D →
      incl path N D = .ok ⟨{ P.context with namespaces := N }, D⟩

theorem new_uris (i : ElemInfo) (o : Option Str) (t : Namespaces) (deps : List (Name × List Name)) :
    UrisKnown t (PCtx.new i o t deps).nss := by
  cases o with
  | none => exact .refl _
  | some u => exact getOrInsert_uris t u

theorem new_again {i : ElemInfo} {o : Option Str} {t N : Namespaces} {deps D : List (Name × List Name)}
    (h : UrisKnown (PCtx.new i o t deps).nss N) : PCtx.new i o N D = recast (PCtx.new i o t deps) [] N D := by
  cases o with
  | none => rfl
  | some u =>
    have := getOrInsert_again (t := t) (u := u) h
    unfold PCtx.new recast
    dsimp only
    rw [this]

section
variable {x : Ext} {F : Files} {incl : Str → Namespaces → List (Name × List Name) → Res SErr PSchema} (hincl : FileRedo incl)
include hincl

theorem parseItem_redo {base : Str} {c : Nd} {s s1 : PCtx} (h : parseItem x F incl base c s = .ok s1) :
    Redo (parseItem x F incl base c) id s s1 := by
  replace h := parseItem_run h
  cases h with
  | «include» location schema hn hl h =>
    obtain ⟨h1, h2, h3⟩ := hincl _ _ _ _ h
    have ha : c.tryAttr c!"schemaLocation" = .ok location := tryAttr_ok.2 hl
    refine ⟨h1, h2, schema.context.elements, ?_, fun R => ?_, fun R N D hN hD => ?_⟩
    · exact (foldl_addRoot_keep _ _).2.2
    · unfold parseItem
      rw [if_pos hn, ha]
      show Res.bind (liftS (incl (F.push base location.value) s.nss s.deps)) _ = _
      rw [h]
      show Res.ok _ = _
      simp only [addAll_eq]
      rfl
    · unfold parseItem
      rw [if_pos hn, ha]
      show Res.bind (liftS (incl (F.push base location.value) N D)) _ = _
      rw [h3 N D hN hD]
      show Res.ok _ = _
      simp only [addAll_eq]
      rfl
  | definition nameAttr root s2 hn ha h =>
    obtain ⟨h1, h2, W, h3, h5, h4⟩ := parseRoot_closed redoes_closed x _ _ _ _ _ _ h
    have ha : c.tryAttr c!"name" = .ok nameAttr := tryAttr_ok.2 ha
    refine ⟨h1, h2, W ++ [(⟨nameAttr.value, s.target⟩, root)], ?_, fun R => ?_, fun R N D hN hD => ?_⟩
    · rw [insertAll_append, ← h3]; rfl
    · unfold parseItem
      rw [if_neg hn, ha]
      show Res.bind (liftX (parseRoot x c.fuel (c.see c!"name") ⟨nameAttr.value, s.target⟩ (recast s R s.nss s.deps))) _ = _
      rw [h5 R, insertAll_append]
      rfl
    · unfold parseItem
      rw [if_neg hn, ha]
      show Res.bind (liftX (parseRoot x c.fuel (c.see c!"name") ⟨nameAttr.value, s.target⟩ (recast s R N D))) _ = _
      rw [h4 R N D hN hD, insertAll_append]
      rfl

theorem parseItems_redo {base : Str} {cs : List Nd} {s s1 : PCtx} (h : parseItems x F incl base cs s = .ok s1) :
    Redo (parseItems x F incl base cs) id s s1 := by
  induction cs generalizing s with
  | nil => cases h; exact ⟨.refl _, .refl _, [], rfl, fun R => rfl, fun R N D _ _ => rfl⟩
  | cons c cs ih =>
    obtain ⟨s2, h1, h2⟩ := Res.bind_eq_ok.1 h
    obtain ⟨u1, d1, W1, w1, q1, r1⟩ := parseItem_redo hincl h1
    obtain ⟨u2, d2, W2, w2, q2, r2⟩ := ih h2
    refine ⟨u1.trans u2, d1.trans d2, W1 ++ W2, by rw [insertAll_append, ← w1, w2], fun R => ?_, fun R N D hN hD => ?_⟩
    · show Res.bind (parseItem x F incl base c _) _ = _
      rw [q1 R, insertAll_append]
      exact q2 _
    show Res.bind (parseItem x F incl base c _) _ = _
    rw [r1 R N D (u2.trans hN) (d2.trans hD), insertAll_append]
    exact r2 _ N D hN hD

theorem parseDoc_redo {path : Str} {d : XDoc} {t : Namespaces} {deps : List (Name × List Name)} {P : PSchema}
    (h : parseDoc x F incl path d t deps = .ok P) :
    UrisKnown t P.context.namespaces ∧ DepsGrow deps P.deps ∧ ∀ N D, UrisKnown P.context.namespaces N → DepsGrow P.deps D →
      parseDoc x F incl path d N D = .ok ⟨{ P.context with namespaces := N }, D⟩ := by
  unfold parseDoc at h
  cases hr : parseSchemaRoot x F incl (F.parent path) (Nd.of d.root) t deps with
  | ok Q =>
    rw [hr] at h
    cases h
    unfold parseSchemaRoot at hr
    split at hr
    · cases hr
    · next hc =>
      obtain ⟨s, h1, h2⟩ := Res.bind_eq_ok.1 hr
      cases h2
      obtain ⟨u, g, W, w, _, r⟩ := parseItems_redo hincl h1
      refine ⟨(new_uris _ _ _ _).trans u, g, fun N D hN hD => ?_⟩
      unfold parseDoc parseSchemaRoot
      rw [if_neg hc, new_again (u.trans hN)]
      have := r [] N D hN hD
      simp only [this]
      show Res.ok (recast s (insertAll W []) N D).intoSchema = _
      have : insertAll W [] = s.roots := w.symm
      rw [this]
      rfl
  | err e => rw [hr] at h; cases h
  | panic => rw [hr] at h; cases h
  | diverge => rw [hr] at h; cases h

end

theorem parseFileWith_redo {x : Ext} {F : Files} (k : Nat) : FileRedo (parseFileWith x F k) := by
  induction k with
  | zero => intro path t deps P h; cases h
  | succ k ih =>
    intro path t deps P h
    unfold parseFileWith at h ⊢
    split at h
    · cases h
    · cases h
    · exact parseDoc_redo ih h

/-! ## What has been read already -/

theorem keys_insertAll_mono (W R : List (Name × Root)) {n : Name} (h : n ∈ R.map Prod.fst) :
    n ∈ (insertAll W R).map Prod.fst := by
  rw [← alookup_isSome_iff] at h ⊢
  have := foldl_ainsert_keep W R (n := n) (by intro h'; rw [h'] at h; cases h)
  show (alookup (W.foldl _ R) n).isSome = true
  cases hc : alookup (W.foldl (fun m p => ainsert m p.1 p.2) R) n with
  | none => exact absurd hc this
  | some v => rfl

theorem keys_insertAll_left (W R : List (Name × Root)) {n : Name} (h : n ∈ W.map Prod.fst) :
    n ∈ (insertAll W R).map Prod.fst := by
  induction W generalizing R with
  | nil => cases h
  | cons p W ih =>
    rcases List.mem_cons.1 h with rfl | h
    · refine keys_insertAll_mono W _ ?_
      rw [keys_ainsert]
      split
      · assumption
      · simp
    · exact ih _ h

/-- What a file added is known. -/
structure Knows (Q : PSchema) (names : List Name) (t : Namespaces) (deps : List (Name × List Name)) : Prop where
  uris : UrisKnown Q.context.namespaces t
  deps : DepsGrow Q.deps deps
  names : ∀ n, n ∈ Q.context.elements.map Prod.fst → n ∈ names

theorem parseItems_knows {x : Ext} {F : Files} {incl : Str → Namespaces → List (Name × List Name) → Res SErr PSchema}
    (hincl : FileRedo incl) {base : Str} {cs : List Nd} {s s' : PCtx} (h : parseItems x F incl base cs s = .ok s')
    {c : Nd} (hc : c ∈ cs) (hn : c.name = c!"include" ∨ c.name = c!"import") {l : Str} (hl : c.value c!"schemaLocation" = some l) :
    ∃ t deps Q, incl (F.push base l) t deps = .ok Q ∧ Knows Q (s'.roots.map Prod.fst) s'.nss s'.deps := by
  induction cs generalizing s with
  | nil => cases hc
  | cons b cs ih =>
    obtain ⟨s1, h1, h2⟩ := Res.bind_eq_ok.1 h
    rcases List.mem_cons.1 hc with rfl | hc
    · replace h1 := parseItem_run h1
      cases h1 with
      | definition _ _ _ hn' => exact absurd hn hn'
      | «include» location schema _ ha h1 =>
        unfold Nd.value at hl
        rw [ha] at hl
        cases hl
        obtain ⟨u, g, W, w, _, _⟩ := parseItems_redo hincl h2
        refine ⟨_, _, schema, h1, u, g, fun n hn => ?_⟩
        rw [w]
        refine keys_insertAll_mono _ _ ?_
        have := (foldl_addRoot_keep schema.context.elements s).2.2
        show n ∈ (List.foldl _ s schema.context.elements).roots.map Prod.fst
        rw [this]
        exact keys_insertAll_left _ _ hn
    · exact ih h2 hc

theorem parseFileWith_knows {x : Ext} {F : Files} {k : Nat} {path q : Str} {d : XDoc} {t : Namespaces} {deps : List (Name × List Name)}
    {P : PSchema} (h : parseFileWith x F k path t deps = .ok P) (hr : Reads F path q d) :
    ∃ t' deps' Q, parseFileWith x F k q t' deps' = .ok Q ∧ Knows Q (P.context.elements.map Prod.fst) P.context.namespaces P.deps := by
  have key : ∃ j, j ≤ k ∧ ∃ t' deps' Q, parseFileWith x F j q t' deps' = .ok Q ∧
      Knows Q (P.context.elements.map Prod.fst) P.context.namespaces P.deps := by
    induction hr with
    | here hf => exact ⟨k, Nat.le_refl k, t, deps, P, h, .refl _, .refl _, fun _ h => h⟩
    | @there q0 d0 c l d2 hr hc hn hl h' ih =>
      obtain ⟨j, hj, t', deps', Q, hQ, u, g, m⟩ := ih
      cases j with
      | zero => cases hQ
      | succ j =>
        have hf : F.read q0 = some (.doc d0) := by
          cases hr with
          | here h => exact h
          | there _ _ _ _ h => exact h
        unfold parseFileWith at hQ
        rw [hf] at hQ
        dsimp only at hQ
        unfold parseDoc at hQ
        split at hQ
        · next Q' hr' =>
          cases hQ
          unfold parseSchemaRoot at hr'
          split at hr'
          · cases hr'
          · obtain ⟨s, h1, h2⟩ := Res.bind_eq_ok.1 hr'
            cases h2
            obtain ⟨t2, deps2, Q2, h3, h4⟩ := parseItems_knows (parseFileWith_redo j) h1 hc hn hl
            exact ⟨j, by omega, t2, deps2, Q2, h3, h4.uris.trans u, h4.deps.trans g, fun n hn => m n (h4.names n hn)⟩
        all_goals cases hQ
  obtain ⟨j, hj, t', deps', Q, hQ, hk⟩ := key
  refine ⟨t', deps', Q, ?_, hk⟩
  rw [parseFileWith_le hj (by rw [Res.Tot, hQ]; nofun)]
  exact hQ

theorem parseItems_append {x : Ext} {F : Files} {incl : Str → Namespaces → List (Name × List Name) → Res SErr PSchema} {base : Str}
    (a b : List Nd) (s : PCtx) :
    parseItems x F incl base (a ++ b) s = (parseItems x F incl base a s >>= fun s => parseItems x F incl base b s) := by
  induction a generalizing s with
  | nil => rfl
  | cons c a ih =>
    show (parseItem x F incl base c s >>= _) = ((parseItem x F incl base c s >>= _) >>= _)
    cases parseItem x F incl base c s with
    | ok s1 => exact ih s1
    | err e => rfl
    | panic => rfl
    | diverge => rfl

/-! ## The types that are there afterwards -/

theorem keys_insertAll_congr (W : List (Name × Root)) {R R' : List (Name × Root)} (h : R.map Prod.fst = R'.map Prod.fst) :
    (insertAll W R).map Prod.fst = (insertAll W R').map Prod.fst := by
  induction W generalizing R R' with
  | nil => exact h
  | cons p W ih => exact ih (by rw [keys_ainsert, keys_ainsert, h])

theorem keys_insertAll_known (W : List (Name × Root)) {R : List (Name × Root)} (h : ∀ n ∈ W.map Prod.fst, n ∈ R.map Prod.fst) :
    (insertAll W R).map Prod.fst = R.map Prod.fst := by
  induction W generalizing R with
  | nil => rfl
  | cons p W ih =>
    have hp : (ainsert R p.1 p.2).map Prod.fst = R.map Prod.fst := by rw [keys_ainsert, if_pos (h _ (.head _))]
    show (insertAll W (ainsert R p.1 p.2)).map Prod.fst = _
    rw [ih (by rw [hp]; exact fun n hn => h n (.tail _ hn)), hp]

theorem eq_of_lookups {A B : List (Name × Root)} (hk : A.map Prod.fst = B.map Prod.fst) (hn : (A.map Prod.fst).Nodup)
    (h : ∀ n, alookup A n = alookup B n) : A = B := by
  induction A generalizing B with
  | nil => cases B with
    | nil => rfl
    | cons _ _ => cases hk
  | cons p A ih =>
    cases B with
    | nil => cases hk
    | cons q B =>
      obtain ⟨n, r⟩ := p
      obtain ⟨n', r'⟩ := q
      simp only [List.map_cons, List.cons.injEq] at hk
      obtain ⟨rfl, hk⟩ := hk
      rw [List.map_cons, List.nodup_cons] at hn
      have h0 := h n
      unfold alookup at h0
      rw [if_pos rfl, if_pos rfl] at h0
      cases h0
      rw [ih hk hn.2 fun m => ?_]
      by_cases hm : n = m
      · subst hm
        rw [(alookup_eq_none_iff _ _).2 hn.1, (alookup_eq_none_iff _ _).2 (hk ▸ hn.1)]
      · have := h m
        unfold alookup at this
        rwa [if_neg hm, if_neg hm] at this

theorem lookup_insertAll (W R R' : List (Name × Root)) (n : Name) :
    alookup (insertAll W R) n = alookup (insertAll W R') n ∨
      (alookup (insertAll W R) n = alookup R n ∧ alookup (insertAll W R') n = alookup R' n) := by
  induction W generalizing R R' with
  | nil => exact .inr ⟨rfl, rfl⟩
  | cons p W ih =>
    rcases ih (ainsert R p.1 p.2) (ainsert R' p.1 p.2) with h | ⟨h, h'⟩
    · exact .inl h
    · show alookup (insertAll W (ainsert R p.1 p.2)) n = alookup (insertAll W (ainsert R' p.1 p.2)) n ∨
        (alookup (insertAll W (ainsert R p.1 p.2)) n = _ ∧ alookup (insertAll W (ainsert R' p.1 p.2)) n = _)
      rw [h, h', alookup_ainsert, alookup_ainsert]
      by_cases hp : p.1 = n
      · rw [if_pos hp, if_pos hp]; exact .inl rfl
      · rw [if_neg hp, if_neg hp]; exact .inr ⟨rfl, rfl⟩

end Again
end Xsd
