import Verif.Lemmas.Again
/-!
# Parsing definitions in a file of their own
-/
namespace Xsd
namespace Again

/-! ## What belongs to the document stays -/

/-- The step does not change what belongs to the document. -/
def KeepsDoc {α : Type} (m : P α) : Prop := ∀ s a s1, m s = .ok (a, s1) → s.SameDoc s1

theorem SameDoc.refl (s : PCtx) : s.SameDoc s := ⟨rfl, rfl, rfl, rfl⟩

theorem SameDoc.trans {a b c : PCtx} (h : a.SameDoc b) (h' : b.SameDoc c) : a.SameDoc c :=
  ⟨h'.1.trans h.1, h'.2.1.trans h.2.1, h'.2.2.1.trans h.2.2.1, h'.2.2.2.trans h.2.2.2⟩

theorem lift_keeps {α : Type} (r : Res XErr α) : KeepsDoc (P.lift r) := by
  intro s a s1 h
  cases r with
  | ok b => cases h; exact SameDoc.refl _
  | err e => cases h
  | panic => cases h
  | diverge => cases h

theorem keepsDoc_closed : ParseClosed @KeepsDoc where
  pure a := lift_keeps (.ok a)
  lift r := lift_keeps r
  fail e := fun s a s1 h => by cases h
  diverge := fun s a s1 h => by cases h
  node n := fun s a s1 h => by cases h; exact SameDoc.refl _
  virtual x ns b := fun s a s1 h => by
    unfold deriveVirtualName at h
    cases hv : virtualName x (ns.map Name.name) b with
    | ok n => rw [hv] at h; cases h; exact SameDoc.refl _
    | err e => rw [hv] at h; cases h
    | panic => rw [hv] at h; cases h
    | diverge => rw [hv] at h; cases h
  bind := by
    intro α β m f hm hf s b s2 h
    change P.bnd m f s = _ at h
    unfold P.bnd at h
    cases h1 : m s with
    | ok p => rw [h1] at h; exact SameDoc.trans (hm _ _ _ h1) (hf _ _ _ _ h)
    | err e => rw [h1] at h; cases h
    | panic => rw [h1] at h; cases h
    | diverge => rw [h1] at h; cases h
  typeName a := fun s c s1 h => by
    unfold getTypeName at h
    split at h
    · split at h
      · cases h
      · split at h
        · exact lift_keeps _ _ _ _ h
        · cases h; exact SameDoc.refl _
    · split at h
      · exact lift_keeps _ _ _ _ h
      · cases h; exact SameDoc.refl _
  root n r := fun s a s1 h => by cases h; exact SameDoc.refl _
  discover n p := fun s a s1 h => by cases h; exact SameDoc.refl _

theorem parseItems_doc {x : Ext} {F : Files} {incl : Str → Namespaces → List (Name × List Name) → Res SErr PSchema} {base : Str}
    {cs : List Nd} {s s1 : PCtx} (h : parseItems x F incl base cs s = .ok s1) : s.SameDoc s1 := by
  induction cs generalizing s with
  | nil => cases h; exact SameDoc.refl _
  | cons c cs ih =>
    obtain ⟨s2, h1, h2⟩ := Res.bind_eq_ok.1 h
    refine SameDoc.trans ?_ (ih h2)
    replace h1 := parseItem_run h1
    cases h1 with
    | «include» location schema hn hl h => exact (foldl_addRoot_nss schema.context.elements s).2
    | definition nameAttr root s3 hn ha h =>
      have h3 : s.SameDoc s3 := parseRoot_closed keepsDoc_closed x _ _ _ _ _ _ h
      exact h3

theorem recast_congr {s s' : PCtx} (h : s.SameDoc s') (R : List (Name × Root)) (N : Namespaces) (D : List (Name × List Name)) :
    recast s' R N D = recast s R N D := by
  unfold recast
  rw [h.1, h.2.1, h.2.2.1, h.2.2.2]

/-! ## Types that are collected first -/

theorem ainsert_twice (R : List (Name × Root)) (k : Name) (v w : Root) : ainsert (ainsert R k v) k w = ainsert R k w := by
  induction R with
  | nil => simp [ainsert]
  | cons p R ih =>
    obtain ⟨k', v'⟩ := p
    by_cases hk : k' = k
    · simp [ainsert, hk]
    · simp [ainsert, hk, ih]

theorem ainsert_comm {R : List (Name × Root)} {k k' : Name} (hk : k ≠ k') (h : k ∈ R.map Prod.fst) (v v' : Root) :
    ainsert (ainsert R k' v') k v = ainsert (ainsert R k v) k' v' := by
  induction R with
  | nil => cases h
  | cons p R ih =>
    obtain ⟨q, w⟩ := p
    by_cases h1 : q = k
    · subst h1
      simp [ainsert, hk]
    · have h2 : k ∈ R.map Prod.fst := by
        rcases List.mem_cons.1 h with h | h
        · exact absurd h.symm h1
        · exact h
      by_cases h3 : q = k'
      · subst h3; simp [ainsert, h1]
      · simp [ainsert, h1, h3, ih h2]

theorem insertAll_ainsert_comm {E R : List (Name × Root)} {k : Name} (hE : k ∉ E.map Prod.fst) (h : k ∈ R.map Prod.fst) (v : Root) :
    ainsert (insertAll E R) k v = insertAll E (ainsert R k v) := by
  induction E generalizing R with
  | nil => rfl
  | cons p E ih =>
    obtain ⟨q, w⟩ := p
    have h1 : k ≠ q ∧ k ∉ E.map Prod.fst := by
      rw [List.map_cons, List.mem_cons] at hE
      exact ⟨fun h => hE (.inl h), fun h => hE (.inr h)⟩
    show ainsert (insertAll E (ainsert R q w)) k v = insertAll E (ainsert (ainsert R k v) q w)
    rw [ih h1.2 (by rw [keys_ainsert]; split; exact h; exact List.mem_append_left _ h), ainsert_comm h1.1 h]

theorem insertAll_ainsert (E : List (Name × Root)) (hE : (E.map Prod.fst).Nodup) (R : List (Name × Root)) (k : Name) (v : Root) :
    insertAll (ainsert E k v) R = ainsert (insertAll E R) k v := by
  induction E generalizing R with
  | nil => rfl
  | cons p E ih =>
    obtain ⟨q, w⟩ := p
    rw [List.map_cons, List.nodup_cons] at hE
    by_cases hq : q = k
    · subst hq
      have : ainsert ((q, w) :: E) q v = (q, v) :: E := by simp [ainsert]
      rw [this]
      show insertAll E (ainsert R q v) = ainsert (insertAll E (ainsert R q w)) q v
      rw [insertAll_ainsert_comm hE.1 ?_ v, ainsert_twice]
      rw [keys_ainsert]
      split
      · assumption
      · simp
    · have : ainsert ((q, w) :: E) k v = (q, w) :: ainsert E k v := by simp [ainsert, hq]
      rw [this]
      exact ih hE.2 _

theorem insertAll_collected (W R : List (Name × Root)) : insertAll (insertAll W []) R = insertAll W R := by
  have key : ∀ (W E R : List (Name × Root)), (E.map Prod.fst).Nodup → insertAll (insertAll W E) R = insertAll W (insertAll E R) := by
    intro W
    induction W with
    | nil => intro E R _; rfl
    | cons p W ih =>
      intro E R hE
      show insertAll (insertAll W (ainsert E p.1 p.2)) R = insertAll W (ainsert (insertAll E R) p.1 p.2)
      rw [ih _ _ (nodup_keys_ainsert hE _ _), insertAll_ainsert E hE]
  exact key W [] R List.nodup_nil

/-! ## A file of its own -/

section
variable {x : Ext} {F : Files} {incl : Str → Namespaces → List (Name × List Name) → Res SErr PSchema} (hincl : FileRedo incl)
include hincl

/-- Parsing children in a context without types, and adding the types that result, is parsing them. -/
theorem parseItems_apart {base : Str} {cs : List Nd} {s s2 : PCtx} :
    parseItems x F incl base cs s = .ok s2 ↔
      ∃ s3, parseItems x F incl base cs (recast s [] s.nss s.deps) = .ok s3 ∧
        s2 = recast s (insertAll s3.roots s.roots) s3.nss s3.deps := by
  constructor
  · intro h
    obtain ⟨_, _, W, w, q, _⟩ := parseItems_redo hincl h
    refine ⟨_, q [], ?_⟩
    show s2 = recast s (insertAll (insertAll W []) s.roots) s2.nss s2.deps
    rw [insertAll_collected, ← w, ← recast_congr (parseItems_doc h)]
    rfl
  · rintro ⟨s3, h, rfl⟩
    obtain ⟨_, _, W, w, q, _⟩ := parseItems_redo hincl h
    have h1 := q s.roots
    have h2 : s3.roots = insertAll W [] := w
    rw [h2, insertAll_collected]
    have h3 : s.SameDoc s3 := SameDoc.trans (b := recast s [] s.nss s.deps) ⟨rfl, rfl, rfl, rfl⟩ (parseItems_doc h)
    rw [← recast_congr h3]
    exact h1

end

theorem new_congr {i j : ElemInfo} (ha : i.attrs = j.attrs) (hn : i.nss = j.nss) (o : Option Str) (t : Namespaces)
    (deps : List (Name × List Name)) : PCtx.new i o t deps = PCtx.new j o t deps := by
  have h : ∀ n, attrOf i n = attrOf j n := fun n => by unfold attrOf; rw [ha]
  unfold PCtx.new
  rw [hn, h]

theorem parseItems_fuel {x : Ext} {F : Files} {base : Str} {cs : List Nd} {s s1 : PCtx} {k k' : Nat} (hk : k ≤ k')
    (h : parseItems x F (parseFileWith x F k) base cs s = .ok s1) : parseItems x F (parseFileWith x F k') base cs s = .ok s1 := by
  rw [parseItems_more (incl := parseFileWith x F k) (fun q t deps ht => parseFileWith_le hk ht) cs s (by rw [h]; nofun), h]

/-- What it takes for a file to be parsed. -/
theorem parseFileWith_iff {x : Ext} {F : Files} {k : Nat} {p : Str} {d : XDoc} (hd : F.read p = some (.doc d)) {t : Namespaces}
    {deps : List (Name × List Name)} {S : PSchema} : parseFileWith x F (k + 1) p t deps = .ok S ↔
      (d.root.1.name.ns = some nsXsd ∧ d.root.1.name.loc = c!"schema") ∧
      ∃ s, parseItems x F (parseFileWith x F k) (F.parent p) (Nd.of d.root).xsdKids
        (PCtx.new d.root.1 (((Nd.of d.root).attr c!"targetNamespace").map XAttr.value) t deps) = .ok s ∧ S = s.intoSchema := by
  unfold parseFileWith
  rw [hd]
  dsimp only
  unfold parseDoc parseSchemaRoot
  by_cases hc : (Nd.of d.root).info.name.ns ≠ some nsXsd ∨ (Nd.of d.root).name ≠ c!"schema"
  · rw [if_pos hc]
    constructor
    · intro h; cases h
    · rintro ⟨⟨h1, h2⟩, _⟩
      exact absurd hc (by rintro (h | h); exact h h1; exact h h2)
  · rw [if_neg hc]
    have hc' : d.root.1.name.ns = some nsXsd ∧ d.root.1.name.loc = c!"schema" :=
      ⟨Classical.byContradiction fun h => hc (.inl h), Classical.byContradiction fun h => hc (.inr h)⟩
    show (match (parseItems x F (parseFileWith x F k) (F.parent p) (Nd.of d.root).xsdKids
        (PCtx.new d.root.1 (((Nd.of d.root).attr c!"targetNamespace").map XAttr.value) t deps) >>= fun s => pure s.intoSchema) with
      | .ok s => Res.ok s | .err e => .err (locate p d e) | .panic => .panic | .diverge => .diverge) = _ ↔ _
    cases parseItems x F (parseFileWith x F k) (F.parent p) (Nd.of d.root).xsdKids
        (PCtx.new d.root.1 (((Nd.of d.root).attr c!"targetNamespace").map XAttr.value) t deps) with
    | ok s =>
      constructor
      · intro h; cases h; exact ⟨hc', s, rfl, rfl⟩
      · rintro ⟨_, s', h, rfl⟩; cases h; rfl
    | err e => exact ⟨fun h => (by cases h), fun ⟨_, _, h, _⟩ => (by cases h)⟩
    | panic => exact ⟨fun h => (by cases h), fun ⟨_, _, h, _⟩ => (by cases h)⟩
    | diverge => exact ⟨fun h => (by cases h), fun ⟨_, _, h, _⟩ => (by cases h)⟩

end Again
end Xsd
