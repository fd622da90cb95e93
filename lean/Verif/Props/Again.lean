import Verif.Lemmas.Again
import Verif.Spec.Again
/-!
# Including a file again (C75)
-/
namespace Xsd
open Again

/-- **C75**, files: a file that was read successfully is read again, with the namespaces and dependencies it added or
more, to the same types, without another namespace or dependency. -/
theorem C75_again {x : Ext} {F : Files} {k : Nat} {path : Str} {t : Namespaces} {deps : List (Name × List Name)} {P : PSchema}
    (h : parseFileWith x F k path t deps = .ok P) {t' : Namespaces} {deps' : List (Name × List Name)}
    (ht : ∀ u n, alookup P.context.namespaces.byUri u = some n → alookup t'.byUri u = some n)
    (hd : ∀ p n, n ∈ (alookup P.deps p).getD [] → n ∈ (alookup deps' p).getD []) :
    parseFileWith x F k path t' deps' = .ok ⟨{ P.context with namespaces := t' }, deps'⟩ :=
  (parseFileWith_redo k path t deps P h).2.2 t' deps' ht hd

theorem oneMore {x : Ext} {F : Files} {k : Nat} {p p' : Str} {S : PSchema} {d d' : XDoc} {pre post : List Nd} {l : Str}
    (h : parseFile x F k p = .ok S) (hd : F.read p = some (.doc d)) (hd' : F.read p' = some (.doc d')) (hp : F.parent p' = F.parent p)
    (hm : OneMore d d' pre post l) (hr : AlreadyRead F (F.parent p) pre (F.push (F.parent p) l)) :
    ∃ Q W R, parseFileWith x F k (F.push (F.parent p) l) S.context.namespaces S.deps = .ok Q ∧
      S.context.elements = insertAll W R ∧ (R.map Prod.fst).Nodup ∧ (Q.context.elements.map Prod.fst).Nodup ∧
      (∀ n ∈ Q.context.elements.map Prod.fst, n ∈ R.map Prod.fst) ∧
      parseFile x F k p' = .ok ⟨{ S.context with elements := insertAll W (insertAll Q.context.elements R) }, S.deps⟩ := by
  obtain ⟨hi, hk, c, hcn, hcl, hk'⟩ := hm
  obtain ⟨c0, l0, dq, hc0, hn0, hl0, hreads⟩ := hr
  cases k with
  | zero => cases h
  | succ k =>
    unfold parseFile parseFileWith at h
    rw [hd] at h
    dsimp only at h
    unfold parseDoc at h
    split at h
    case h_2 => cases h
    case h_3 => cases h
    case h_4 => cases h
    next P hP =>
    cases h
    unfold parseSchemaRoot at hP
    split at hP
    · cases hP
    next hcond =>
    obtain ⟨s3, h1, h2⟩ := Res.bind_eq_ok.1 hP
    cases h2
    rw [hk, parseItems_append] at h1
    obtain ⟨s1, h2, h3⟩ := Res.bind_eq_ok.1 h1
    have hredo := parseFileWith_redo (x := x) (F := F) k
    obtain ⟨t0, deps0, Q0, hQ0, hkn0⟩ := parseItems_knows hredo h2 hc0 hn0 hl0
    obtain ⟨t1, deps1, Q1, hQ1, hkn1⟩ := parseFileWith_knows hQ0 hreads
    obtain ⟨u, g, W, w, q, _⟩ := parseItems_redo hredo h3
    have hu1 : UrisKnown Q1.context.namespaces s1.nss := hkn1.uris.trans hkn0.uris
    have hg1 : DepsGrow Q1.deps s1.deps := hkn1.deps.trans hkn0.deps
    have hagain := (hredo _ _ _ _ hQ1).2.2
    have hnd : (s1.roots.map Prod.fst).Nodup := by
      obtain ⟨_, _, W0, w0, _⟩ := parseItems_redo hredo h2
      rw [w0]
      exact foldl_ainsert_nodup _ _ List.nodup_nil
    refine ⟨⟨{ Q1.context with namespaces := s3.nss }, s3.deps⟩, W, s1.roots, ?_, w, hnd, ?_, ?_, ?_⟩
    · have h4 := hagain s3.nss s3.deps (hu1.trans u) (hg1.trans g)
      show parseFileWith x F (k + 1) _ s3.nss s3.deps = _
      rw [parseFileWith_le (Nat.le_succ k) (by rw [Res.Tot, h4]; nofun)]
      exact h4
    · exact (parseFileWith_deps k _ _ _ _ hQ1).nodup
    · intro n hn
      exact hkn0.names n (hkn1.names n hn)
    · unfold parseFile parseFileWith
      rw [hd']
      dsimp only
      unfold parseDoc parseSchemaRoot
      have hroot : (Nd.of d'.root).info = (Nd.of d.root).info := hi
      have hname : (Nd.of d'.root).name = (Nd.of d.root).name := by unfold Nd.name; rw [hroot]
      have hattr : (Nd.of d'.root).attr c!"targetNamespace" = (Nd.of d.root).attr c!"targetNamespace" := by
        unfold Nd.attr; rw [hroot]
      have hitem : parseItem x F (parseFileWith x F k) (F.parent p) c s1 =
          .ok (recast s1 (insertAll Q1.context.elements s1.roots) s1.nss s1.deps) := by
        unfold parseItem
        rw [if_pos hcn]
        unfold Nd.value at hcl
        cases ha : c.attr c!"schemaLocation" with
        | none => rw [ha] at hcl; cases hcl
        | some a =>
          rw [ha] at hcl
          cases hcl
          have ha : c.tryAttr c!"schemaLocation" = .ok a := tryAttr_ok.2 ha
          rw [ha]
          show Res.bind (liftS (parseFileWith x F k (F.push (F.parent p) a.value) s1.nss s1.deps)) _ = _
          rw [hagain _ _ hu1 hg1]
          show Res.ok _ = _
          simp only [addAll_eq]
          rfl
      have hrest : parseItems x F (parseFileWith x F k) (F.parent p) (c :: post) s1 =
          .ok (recast s3 (insertAll W (insertAll Q1.context.elements s1.roots)) s3.nss s3.deps) := by
        show Res.bind (parseItem x F (parseFileWith x F k) (F.parent p) c s1) _ = _
        rw [hitem]
        exact q _
      have hall : parseItems x F (parseFileWith x F k) (F.parent p) (pre ++ c :: post)
          (PCtx.new (Nd.of d.root).info (((Nd.of d.root).attr c!"targetNamespace").map XAttr.value) Namespaces.empty []) =
          .ok (recast s3 (insertAll W (insertAll Q1.context.elements s1.roots)) s3.nss s3.deps) := by
        rw [parseItems_append]
        exact Res.bind_eq_ok.2 ⟨s1, h2, hrest⟩
      rw [hroot, hname, hattr, if_neg hcond, hp, hk']
      simp only [hall]
      rfl

/-- **C75**, in general: one more include of a file that has been read already. The schema has the same names, each of
which stands for the type it stood for or for the type that the file defines; nothing else changes. -/
theorem C75_names {x : Ext} {F : Files} {k : Nat} {p p' : Str} {S : PSchema} {d d' : XDoc} {pre post : List Nd} {l : Str}
    (h : parseFile x F k p = .ok S) (hd : F.read p = some (.doc d)) (hd' : F.read p' = some (.doc d')) (hp : F.parent p' = F.parent p)
    (hm : OneMore d d' pre post l) (hr : AlreadyRead F (F.parent p) pre (F.push (F.parent p) l)) :
    ∃ S' Q, parseFile x F k p' = .ok S' ∧
      parseFileWith x F k (F.push (F.parent p) l) S.context.namespaces S.deps = .ok Q ∧
      S' = ⟨{ S.context with elements := S'.context.elements }, S.deps⟩ ∧
      S'.context.elements.map Prod.fst = S.context.elements.map Prod.fst ∧
      ∀ n, S'.context.get n = S.context.get n ∨ S'.context.get n = Q.context.get n ∧ Q.context.get n ≠ none := by
  obtain ⟨Q, W, R, h1, h2, h3, h4, h5, h6⟩ := oneMore h hd hd' hp hm hr
  refine ⟨_, Q, h6, h1, rfl, ?_, fun n => ?_⟩
  · show (insertAll W _).map Prod.fst = _
    rw [h2]
    exact keys_insertAll_congr _ (keys_insertAll_known _ h5)
  · show alookup (insertAll W (insertAll Q.context.elements R)) n = alookup S.context.elements n ∨
      alookup (insertAll W (insertAll Q.context.elements R)) n = alookup Q.context.elements n ∧ alookup Q.context.elements n ≠ none
    rw [h2]
    rcases lookup_insertAll W (insertAll Q.context.elements R) R n with h | ⟨h, h'⟩
    · exact .inl h
    · rw [h, h']
      have : alookup (insertAll Q.context.elements R) n = _ := alookup_foldl_ainsert Q.context.elements R n h4
      rw [this]
      cases alookup Q.context.elements n with
      | none => exact .inl rfl
      | some r => exact .inr ⟨rfl, nofun⟩

/-- **C75**: one more include or import of a file that has been read already changes nothing, unless a definition of that
file was replaced by another one with the same name. -/
theorem C75 {x : Ext} {F : Files} {k : Nat} {p p' : Str} {S : PSchema} {d d' : XDoc} {pre post : List Nd} {l : Str}
    (h : parseFile x F k p = .ok S) (hd : F.read p = some (.doc d)) (hd' : F.read p' = some (.doc d')) (hp : F.parent p' = F.parent p)
    (hm : OneMore d d' pre post l) (hr : AlreadyRead F (F.parent p) pre (F.push (F.parent p) l))
    (hkeep : ∀ Q, parseFileWith x F k (F.push (F.parent p) l) S.context.namespaces S.deps = .ok Q →
      ∀ n r, Q.context.get n = some r → S.context.get n = some r) :
    parseFile x F k p' = .ok S := by
  obtain ⟨S', Q, h1, h2, h3, h4, h5⟩ := C75_names h hd hd' hp hm hr
  rw [h1, h3]
  have : S'.context.elements = S.context.elements := by
    refine eq_of_lookups h4 ?_ fun n => ?_
    · rw [h4]; exact (parseFileWith_deps k _ _ _ _ h).nodup
    · rcases h5 n with h | ⟨h, h'⟩
      · exact h
      · cases hq : Q.context.get n with
        | none => exact absurd hq h'
        | some r =>
          rw [hq] at h
          exact Eq.trans h (hkeep Q h2 n r hq).symm
  rw [this]

end Xsd
