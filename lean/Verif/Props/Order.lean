import Verif.Spec.Order
import Verif.Lemmas.RootFree
import Verif.Props.Definitions
/-!
# C50: iteration order of maps, the parser
-/
namespace Xsd

theorem nodup_of_map {α β : Type} (f : α → β) {l : List α} (h : (l.map f).Nodup) : l.Nodup := by
  induction l with
  | nil => exact .nil
  | cons a l ih =>
    rw [List.map_cons, List.nodup_cons] at h
    exact List.nodup_cons.2 ⟨fun ha => h.1 (List.mem_map_of_mem ha), ih h.2⟩

section
variable {κ ν : Type} [DecidableEq κ]

/-- Maps with the same entries have the same entry for every key. -/
theorem alookup_perm {m m' : List (κ × ν)} (hn : (m.map Prod.fst).Nodup) (h : m'.Perm m) (q : κ) : alookup m' q = alookup m q := by
  have hn' : (m'.map Prod.fst).Nodup := (h.map Prod.fst).nodup_iff.2 hn
  cases hq : alookup m q with
  | some v => exact alookup_of_mem hn' (h.mem_iff.2 (alookup_mem hq))
  | none =>
    rw [alookup_eq_none_iff] at hq ⊢
    exact fun hm => hq ((h.map Prod.fst).mem_iff.1 hm)

/-- Maps with the same entry for every key have the same entries. -/
theorem perm_of_alookup {m m' : List (κ × ν)} (hn : (m.map Prod.fst).Nodup) (hn' : (m'.map Prod.fst).Nodup)
    (h : ∀ q, alookup m' q = alookup m q) : m'.Perm m := by
  rw [List.perm_ext_iff_of_nodup (nodup_of_map _ hn') (nodup_of_map _ hn)]
  intro p
  constructor
  · intro hp
    have := alookup_of_mem hn' hp
    rw [h] at this
    exact alookup_mem this
  · intro hp
    have := alookup_of_mem hn hp
    rw [← h] at this
    exact alookup_mem this

end

/-- Adding the same definitions in another order, to a map in another order. -/
theorem insertAll_perm {w w' R R' : List (Name × Root)} (hw : (w.map Prod.fst).Nodup) (hR : (R.map Prod.fst).Nodup)
    (h : w'.Perm w) (h' : R'.Perm R) : (insertAll w' R').Perm (insertAll w R) := by
  have hw' : (w'.map Prod.fst).Nodup := (h.map Prod.fst).nodup_iff.2 hw
  have hR' : (R'.map Prod.fst).Nodup := (h'.map Prod.fst).nodup_iff.2 hR
  refine perm_of_alookup (foldl_ainsert_nodup _ _ hR) (foldl_ainsert_nodup _ _ hR') fun q => ?_
  show alookup (w'.foldl _ R') q = alookup (w.foldl _ R) q
  rw [alookup_foldl_ainsert _ _ _ hw', alookup_foldl_ainsert _ _ _ hw, alookup_perm hw h, alookup_perm hR h']

/-- The same definitions, in any order, added to a map in another order. -/
theorem insertAll_perm_right (w : List (Name × Root)) {R R' : List (Name × Root)} (hR : (R.map Prod.fst).Nodup) (h' : R'.Perm R) :
    (insertAll w R').Perm (insertAll w R) := by
  have hR' : (R'.map Prod.fst).Nodup := (h'.map Prod.fst).nodup_iff.2 hR
  refine perm_of_alookup (foldl_ainsert_nodup _ _ hR) (foldl_ainsert_nodup _ _ hR') fun q => ?_
  have key : ∀ (w R R' : List (Name × Root)), alookup R' q = alookup R q → alookup (insertAll w R') q = alookup (insertAll w R) q := by
    intro w
    induction w with
    | nil => exact fun _ _ h => h
    | cons p w ih =>
      intro R R' h
      refine ih _ _ ?_
      rw [alookup_ainsert, alookup_ainsert, h]
  exact key w R R' (alookup_perm hR h' q)

/-- Contexts, or failures, that only differ in the order of the definitions. -/
inductive SameCtx : Res PErr PCtx → Res PErr PCtx → Prop where
  | ok {s R} (hn : (s.roots.map Prod.fst).Nodup) (h : R.Perm s.roots) : SameCtx (.ok s) (.ok { s with roots := R })
  | fail {r} (h : ∀ s, r ≠ .ok s) : SameCtx r r

/-- Results of files that only differ in the order of the definitions. -/
inductive SameFile : Res SErr PSchema → Res SErr PSchema → Prop where
  | ok {P E} (hn : (P.context.elements.map Prod.fst).Nodup) (h : E.Perm P.context.elements) :
      SameFile (.ok P) (.ok { P with context := { P.context with elements := E } })
  | fail {r} (h : ∀ s, r ≠ .ok s) : SameFile r r

theorem SameFile.shuffled {r r' : Res SErr PSchema} (h : SameFile r r') : Shuffled r r' := by
  cases h with
  | ok hn h => exact .inr ⟨_, _, rfl, h, rfl⟩
  | fail h => exact .inl rfl

theorem SameFile.trans {r r' r'' : Res SErr PSchema} (h : SameFile r r') (h' : Shuffled r' r'') : SameFile r r'' := by
  rcases h' with rfl | ⟨P, E, rfl, hE, rfl⟩
  · exact h
  · cases h with
    | ok hn h => exact .ok hn (hE.trans h)
    | fail h => exact absurd rfl (h _)

theorem addAll_eq (l : List (Name × Root)) (s : PCtx) :
    l.foldl (fun s p => s.addRoot p.1 p.2) s = { s with roots := insertAll l s.roots } := by
  induction l generalizing s with
  | nil => rfl
  | cons p l ih => exact ih _

section
variable {x : Ext} {F : Files}

theorem liftX_cases {α : Type} (r : Res XErr α) :
    (∃ a, r = .ok a ∧ liftX r = .ok a) ∨ (∃ e, r = .err e ∧ liftX r = .err (.xsd e)) ∨ (r = .panic ∧ liftX r = .panic) ∨
      (r = .diverge ∧ liftX r = .diverge) := by
  cases r with
  | ok a => exact .inl ⟨a, rfl, rfl⟩
  | err e => exact .inr (.inl ⟨e, rfl, rfl⟩)
  | panic => exact .inr (.inr (.inl ⟨rfl, rfl⟩))
  | diverge => exact .inr (.inr (.inr ⟨rfl, rfl⟩))

theorem parseItem_same {incl0 incl : Str → Namespaces → List (Name × List Name) → Res SErr PSchema}
    (hi : ∀ q n d, SameFile (incl0 q n d) (incl q n d)) (base : Str) (c : Nd) {s : PCtx} {R : List (Name × Root)}
    (hn : (s.roots.map Prod.fst).Nodup) (hR : R.Perm s.roots) :
    SameCtx (parseItem x F incl0 base c s) (parseItem x F incl base c { s with roots := R }) := by
  unfold parseItem
  split
  · next hc =>
    rcases liftX_cases (c.tryAttr c!"schemaLocation") with ⟨a, _, ha⟩ | ⟨e, _, ha⟩ | ⟨_, ha⟩ | ⟨_, ha⟩
    · rw [ha]
      have hf := hi (F.push base a.value) s.nss s.deps
      show SameCtx (Res.bind (liftS (incl0 (F.push base a.value) s.nss s.deps)) _) (Res.bind (liftS (incl (F.push base a.value) s.nss s.deps)) _)
      generalize incl0 (F.push base a.value) s.nss s.deps = r0 at hf
      generalize incl (F.push base a.value) s.nss s.deps = r at hf
      cases hf with
      | @ok P E hn' h =>
        show SameCtx (.ok _) (.ok _)
        rw [addAll_eq, addAll_eq]
        exact .ok (s := { s with roots := insertAll P.context.elements s.roots, nss := P.context.namespaces, deps := P.deps })
          (foldl_ainsert_nodup _ _ hn) (insertAll_perm hn' hn h hR)
      | fail h =>
        cases r0 with
        | ok P => exact absurd rfl (h P)
        | err e => exact .fail nofun
        | panic => exact .fail nofun
        | diverge => exact .fail nofun
    all_goals rw [ha]; exact .fail nofun
  · next hc =>
    rcases liftX_cases (c.tryAttr c!"name") with ⟨a, _, ha⟩ | ⟨e, _, ha⟩ | ⟨_, ha⟩ | ⟨_, ha⟩
    · rw [ha]
      obtain ⟨w, o, h⟩ := (parseRoot_free x c.fuel (c.see c!"name") ⟨a.value, s.target⟩).run s
      have h1 : parseRoot x c.fuel (c.see c!"name") ⟨a.value, s.target⟩ s = withRoots w s.roots o := h s.roots
      have h2 : parseRoot x c.fuel (c.see c!"name") ⟨a.value, s.target⟩ { s with roots := R } = withRoots w R o := h R
      show SameCtx (Res.bind (liftX (parseRoot x c.fuel (c.see c!"name") ⟨a.value, s.target⟩ s)) _)
        (Res.bind (liftX (parseRoot x c.fuel (c.see c!"name") ⟨a.value, s.target⟩ { s with roots := R })) _)
      rw [h1, h2]
      cases o with
      | ok p =>
        show SameCtx (.ok _) (.ok _)
        have hp := insertAll_perm_right (w ++ [(⟨a.value, s.target⟩, p.1)]) hn hR
        have hn2 := foldl_ainsert_nodup (w ++ [(⟨a.value, s.target⟩, p.1)]) _ hn
        simp only [insertAll, List.foldl_append] at hp hn2
        exact .ok (s := { p.2 with roots := _ }) hn2 hp
      | err e => exact .fail nofun
      | panic => exact .fail nofun
      | diverge => exact .fail nofun
    all_goals rw [ha]; exact .fail nofun

theorem parseItems_same {incl0 : Str → Namespaces → List (Name × List Name) → Res SErr PSchema}
    {R : Str → Namespaces → List (Name × List Name) → Res SErr PSchema → Prop}
    (hi : ∀ q n d r, R q n d r → SameFile (incl0 q n d) r) {base : Str} {cs : List Nd} {s' : PCtx} {r : Res PErr PCtx}
    (h : RunsItems x F R base cs s' r) {s : PCtx} (hn : (s.roots.map Prod.fst).Nodup) {E : List (Name × Root)}
    (hE : E.Perm s.roots) (hs : s' = { s with roots := E }) : SameCtx (parseItems x F incl0 base cs s) r := by
  have key : ∀ {incl : Str → Namespaces → List (Name × List Name) → Res SErr PSchema}, (∀ q n d, ∃ r, R q n d r ∧ Shuffled r (incl q n d)) → ∀ q n d, SameFile (incl0 q n d) (incl q n d) := by
    intro incl hincl q n d
    obtain ⟨r, h1, h2⟩ := hincl q n d
    exact (hi q n d r h1).trans h2
  induction h generalizing s E with
  | nil => subst hs; exact .ok hn hE
  | @step c cs s0 s1 r incl hincl h hs' ih =>
    subst hs
    have hit := parseItem_same (x := x) (F := F) (key hincl) base c hn hE
    rw [h] at hit
    unfold parseItems
    generalize hr0 : parseItem x F incl0 base c s = r0 at hit
    cases hit with
    | @ok s2 R2 hn2 hR2 => exact ih hn2 hR2 rfl
    | fail h => exact absurd rfl (h _)
  | @stop c cs s0 r incl hincl h hr =>
    subst hs
    have hit := parseItem_same (x := x) (F := F) (key hincl) base c hn hE
    rw [h] at hit
    unfold parseItems
    generalize hr0 : parseItem x F incl0 base c s = r0 at hit
    cases hit with
    | ok => exact absurd rfl (hr _)
    | fail h' =>
      cases r with
      | ok P => exact absurd rfl (hr P)
      | err e => exact .fail nofun
      | panic => exact .fail nofun
      | diverge => exact .fail nofun

theorem runs_same (k : Nat) : ∀ (path : Str) (nss : Namespaces) (deps : List (Name × List Name)) (r : Res SErr PSchema),
    Runs x F k path nss deps r → SameFile (parseFileWith x F k path nss deps) r := by
  induction k with
  | zero =>
    intro path nss deps r h
    rw [show r = .diverge from h]
    exact .fail nofun
  | succ k ih =>
    intro path nss deps r h
    unfold Runs at h
    unfold parseFileWith
    split
    · next hf => rw [hf] at h; rw [show r = _ from h]; exact .fail nofun
    · next row col hf => rw [hf] at h; rw [show r = _ from h]; exact .fail nofun
    · next d hf =>
      rw [hf] at h
      simp only at h
      unfold parseDoc parseSchemaRoot
      split at h
      · next hq =>
        obtain ⟨r', hr', rfl⟩ := h
        rw [if_neg (by
          show ¬ (d.root.1.name.ns ≠ some nsXsd ∨ d.root.1.name.loc ≠ c!"schema")
          rw [hq]
          simp)]
        have hs := parseItems_same (incl0 := parseFileWith x F k) ih hr' (s := PCtx.new d.root.1 _ nss deps) (E := []) .nil .nil rfl
        show SameFile (match (Res.bind (parseItems x F (parseFileWith x F k) (F.parent path) (Nd.of d.root).xsdKids
          (PCtx.new d.root.1 (((Nd.of d.root).attr c!"targetNamespace").map XAttr.value) nss deps)) _ : Res PErr PSchema) with
          | .ok s => .ok s
          | .err e => .err (locate path d e)
          | .panic => .panic
          | .diverge => .diverge) _
        generalize parseItems x F (parseFileWith x F k) (F.parent path) (Nd.of d.root).xsdKids
          (PCtx.new d.root.1 (((Nd.of d.root).attr c!"targetNamespace").map XAttr.value) nss deps) = r0 at hs
        cases hs with
        | @ok s R hn hR => exact .ok (P := s.intoSchema) hn hR
        | fail h =>
          cases r' with
          | ok P => exact absurd rfl (h P)
          | err e => exact .fail nofun
          | panic => exact .fail nofun
          | diverge => exact .fail nofun
      · next hq =>
        rw [if_pos (by
          show d.root.1.name.ns ≠ some nsXsd ∨ d.root.1.name.loc ≠ c!"schema"
          false_or_by_contra
          next hc =>
            rw [not_or, Decidable.not_not, Decidable.not_not] at hc
            exact hq (by cases hq' : d.root.1.name; rw [hq'] at hc; cases hc.1; cases hc.2; rfl))]
        subst h
        exact .fail nofun

/-- The model takes one of the orders. -/
theorem runs_self (k : Nat) : ∀ (path : Str) (nss : Namespaces) (deps : List (Name × List Name)),
    Runs x F k path nss deps (parseFileWith x F k path nss deps) := by
  induction k with
  | zero => exact fun _ _ _ => rfl
  | succ k ih =>
    intro path nss deps
    have items : ∀ cs s, RunsItems x F (Runs x F k) (F.parent path) cs s (parseItems x F (parseFileWith x F k) (F.parent path) cs s) := by
      intro cs
      induction cs with
      | nil => exact fun _ => .nil
      | cons c cs ihc =>
        intro s
        unfold parseItems
        cases hc : parseItem x F (parseFileWith x F k) (F.parent path) c s with
        | ok s1 => exact .step (parseFileWith x F k) (fun q n d => ⟨_, ih q n d, .inl rfl⟩) hc (ihc s1)
        | err e => exact .stop (parseFileWith x F k) (fun q n d => ⟨_, ih q n d, .inl rfl⟩) hc nofun
        | panic => exact .stop (parseFileWith x F k) (fun q n d => ⟨_, ih q n d, .inl rfl⟩) hc nofun
        | diverge => exact .stop (parseFileWith x F k) (fun q n d => ⟨_, ih q n d, .inl rfl⟩) hc nofun
    unfold Runs parseFileWith
    cases hf : F.read path with
    | none => rfl
    | some f =>
      cases f with
      | malformed row col => rfl
      | doc d =>
        show if d.root.1.name = ⟨c!"schema", some nsXsd⟩ then _ else _
        unfold parseDoc parseSchemaRoot
        split
        · next hq =>
          refine ⟨_, items _ _, ?_⟩
          dsimp only
          rw [if_neg (by
            show ¬ (d.root.1.name.ns ≠ some nsXsd ∨ d.root.1.name.loc ≠ c!"schema")
            rw [hq]
            simp)]
          show (match (Res.bind (parseItems x F (parseFileWith x F k) (F.parent path) (Nd.of d.root).xsdKids
            (PCtx.new d.root.1 (((Nd.of d.root).attr c!"targetNamespace").map XAttr.value) nss deps)) _ : Res PErr PSchema) with
            | .ok s => Res.ok s
            | .err e => .err (locate path d e)
            | .panic => .panic
            | .diverge => .diverge) = _
          generalize parseItems x F (parseFileWith x F k) (F.parent path) (Nd.of d.root).xsdKids
            (PCtx.new d.root.1 (((Nd.of d.root).attr c!"targetNamespace").map XAttr.value) nss deps) = r0
          cases r0 <;> rfl
        · next hq =>
          dsimp only
          rw [if_pos (by
            show d.root.1.name.ns ≠ some nsXsd ∨ d.root.1.name.loc ≠ c!"schema"
            false_or_by_contra
            next hc =>
              rw [not_or, Decidable.not_not, Decidable.not_not] at hc
              exact hq (by cases hq' : d.root.1.name; rw [hq'] at hc; cases hc.1; cases hc.2; rfl))]

end

end Xsd
