import Verif.Props.EvolutionSteps
/-!
# C73: different values have different counterparts
-/
namespace Xsd
variable {x : Ext} {S S' : SchemaContext} {P P' : List TypeDef} {N : Additions}

/-- The enumerations that have changed do not list a value twice. -/
def EnumsKept (P P' : List TypeDef) : Prop :=
  ∀ i t t' vs vs', findType P i = some t → findType P' i = some t' → t.decl = .enum vs → t'.decl = .enum vs' →
    vs' = vs ∨ (vs.map Prod.snd).Nodup

theorem Inserts.map_nodup {α β : Type} {p : α → Prop} {as bs : List α} (h : Inserts p as bs) (f : α → β) (hn : (bs.map f).Nodup) :
    (as.map f).Nodup := by
  induction h with
  | nil => exact hn
  | keep h ih =>
    simp only [List.map_cons, List.nodup_cons] at hn ⊢
    exact ⟨fun hm => hn.1 (h.map f _ hm), ih hn.2⟩
  | new _ _ ih =>
    simp only [List.map_cons, List.nodup_cons] at hn
    exact ih hn.2

theorem enumsKept (W : Wider S S' N) (G : Generated x S P) (G' : Generated x S' P') : EnumsKept P P' := by
  intro i t t' vs vs' hf hf' hd hd'
  obtain ⟨ht, hi⟩ := findType_mem hf
  obtain ⟨n, hn, hg⟩ := (mapRes_ok G.gen).2 t ht
  obtain ⟨r, hr, g⟩ := generateElement_ok hg
  obtain ⟨r', hr', hw⟩ := W.types n r hr
  obtain ⟨u, hu, gf, g'⟩ := G'.find hr'
  have hid := g'.ident
  rw [g.ident] at hid
  rw [← Res.ok.inj hid, hi, hf'] at gf
  cases gf
  have h := g.decl
  have h' := g'.decl
  rw [hd] at h
  rw [hd'] at h'
  cases hw with
  | leaf e =>
    unfold rootDecl at h
    rw [Res.bind_eq_ok] at h
    obtain ⟨_, _, h⟩ := h
    cases h
  | enum ns =>
    cases (show (rootDecl x S (.enum ns)).Agree (rootDecl x S' (.enum ns)) from .refl _) _ _ h h'
    exact .inl rfl
  | @values ns ns' hi hdis =>
    obtain ⟨ws, hw, he, _⟩ := rootDecl_enum h
    cases he
    obtain ⟨tab, hv, hs, _⟩ := C25_variants (x := x) ns
    rw [hw] at hv
    cases hv
    rw [hs]
    exact .inr (hi.map_nodup _ hdis)
  | element hc ha hv =>
    simp only [rootDecl, Res.bind_eq_ok] at h
    obtain ⟨_, _, _, _, h⟩ := h
    cases h
  | choice hi =>
    simp only [rootDecl, Res.bind_eq_ok] at h
    obtain ⟨_, _, h⟩ := h
    cases h

mutual
theorem Upgrade.inj (E : EnumsKept P P') (H : Compiles x P) (H' : Compiles x P') {ty : Ty} {v w v' : Val} :
    Upgrade P P' ty v v' → Upgrade P P' ty w v' → v = w
  | .prim _, h2 => by cases h2; rfl
  | .unit, h2 => by cases h2; rfl
  | .none, h2 => by cases h2; rfl
  | .some h, h2 => by cases h2 with | some h' => rw [h.inj E H H' h']
  | .vec h, h2 => by cases h2 with | vec h' => rw [h.inj E H H' h']
  | .named hf hf' h, h2 => by
    cases h2 with
    | named gf gf' h' =>
      rw [hf] at gf; cases gf
      rw [hf'] at gf'; cases gf'
      exact h.inj E H H' (fun vs vs' => E _ _ _ vs vs' hf hf') (H.typed _ (findType_mem hf).1).distinct
        (H'.typed _ (findType_mem hf').1).distinct h'
termination_by structural h => h
theorem UpgradeAll.inj (E : EnumsKept P P') (H : Compiles x P) (H' : Compiles x P') {ty : Ty} {vs ws vs' : List Val} :
    UpgradeAll P P' ty vs vs' → UpgradeAll P P' ty ws vs' → vs = ws
  | .nil, h2 => by cases h2; rfl
  | .cons h hs, h2 => by cases h2 with | cons h' hs' => rw [h.inj E H H' h', hs.inj E H H' hs']
termination_by structural h => h
theorem UpgradeDecl.inj (E : EnumsKept P P') (H : Compiles x P) (H' : Compiles x P') {d d' : Decl} {v w v' : Val} :
    UpgradeDecl P P' d d' v v' → (∀ vs vs', d = .enum vs → d' = .enum vs' → vs' = vs ∨ (vs.map Prod.snd).Nodup) →
      d.labels.Nodup → d'.labels.Nodup → UpgradeDecl P P' d d' w v' → v = w
  | .newtype h, _, _, _, h2 => by cases h2 with | newtype h' => rw [h.inj E H H' h']
  | .enum _, _, _, _, h2 => by
    cases h2 with
    | enum _ => rfl
    | values h _ hu => rw [hu _ h]
  | .values h h' hu, hE, _, hn', h2 => by
    cases h2 with
    | enum _ => rw [hu _ h]
    | values g g' gu =>
      cases nodup_fst_unique hn' h' g'
      rcases hE _ _ rfl rfl with rfl | hd
      · rw [hu _ h, hu _ g]
      · rw [snd_unique hd h g]
  | .struct h, _, hn, hn', h2 => by cases h2 with | struct h' => rw [h.inj E H H' hn' h']
  | .choice hm hm' h, _, hn, hn', h2 => by
    cases h2 with
    | choice gm gm' h' =>
      cases nodup_fst_unique hn' hm' gm'
      rw [h.inj E H H' h']
termination_by structural h => h
theorem UpgradeFields.inj (E : EnumsKept P P') (H : Compiles x P) (H' : Compiles x P') {ds ds' : List (Str × Ty)}
    {fs gs fs' : List (Str × Val)} :
    UpgradeFields P P' ds ds' fs fs' → (ds'.map Prod.fst).Nodup → UpgradeFields P P' ds ds' gs fs' → fs = gs
  | .nil, _, h2 => by cases h2; rfl
  | .keep h hs, hn, h2 => by
    simp only [List.map_cons, List.nodup_cons] at hn
    cases h2 with
    | keep h' hs' => rw [h.inj E H H' h', hs.inj E H H' hn.2 hs']
    | new hs' => exact absurd (hs'.labels (List.mem_cons_self ..)) hn.1
  | .new hs, hn, h2 => by
    simp only [List.map_cons, List.nodup_cons] at hn
    cases h2 with
    | keep h' hs' => exact absurd (hs.labels (List.mem_cons_self ..)) hn.1
    | new hs' => rw [hs.inj E H H' hn.2 hs']
termination_by structural h => h
end

/-- **C73, nothing is lost.** Different values of a type have different counterparts. -/
theorem C73_injective (W : Wider S S' N) (G : Generated x S P) (G' : Generated x S' P') (H : Compiles x P) (H' : Compiles x P')
    {ty : Ty} {v w v' : Val} (hv : Upgrade P P' ty v v') (hw : Upgrade P P' ty w v') : v = w :=
  hv.inj (enumsKept W G G') H H' hw

namespace EvolutionSample

open Sample

/-- The value of the example is the only one with its counterpart. -/
example : ∃ v', Upgrade pgm pgm' (.named c!"Article") val v' ∧ ∀ w, Upgrade pgm pgm' (.named c!"Article") w v' → val = w := by
  have hv := (C59_reads Sample.compiles article_declared doc_decodes).2 val rfl
  obtain ⟨v', ⟨h, _⟩, _⟩ := C73_values wider generated generated' Sample.compiles compiles' hv
  exact ⟨v', h, fun w hw => C73_injective wider generated generated' Sample.compiles compiles' h hw⟩

end EvolutionSample

end Xsd
