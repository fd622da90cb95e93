import Verif.Lemmas.PrefixesParse
/-!
# C80: prefixes do not matter
-/
namespace Xsd
namespace Pre

/-! ## Files -/

theorem fold_re (E : Setting) (rs : List (Name × Root)) (s : PCtx) :
    rs.foldl (fun s p => s.addRoot p.1 p.2) (reCtx E s) = reCtx E (rs.foldl (fun s p => s.addRoot p.1 p.2) s) := by
  induction rs generalizing s with
  | nil => rfl
  | cons r rs ih => exact ih (s.addRoot r.1 r.2)

theorem attrOf_re (R : Rewriting) (i : ElemInfo) {n : Str} (hn : n ∉ qualified) : attrOf (reInfo R i) n = attrOf i n := by
  unfold attrOf
  show ((i.attrs.map (reAttr R)).find? _).map _ = _
  rw [List.find?_map, Option.map_map]
  have he : (fun a : XAttr => decide (a.ns = none ∧ a.loc = n)) ∘ reAttr R = fun a : XAttr => decide (a.ns = none ∧ a.loc = n) := rfl
  rw [he]
  cases h : i.attrs.find? (fun a => decide (a.ns = none ∧ a.loc = n)) with
  | none => rfl
  | some a =>
    have := List.find?_some h
    simp only [decide_eq_true_eq] at this
    exact congrArg some (value_re R (this.2 ▸ hn))

theorem new_re (E : Setting) (i : ElemInfo) (hd : i.nss = E.decls) (hd' : E.R.decls i = E.decls') (t : Option Str) (nss : Namespaces)
    (deps : List (Name × List Name)) :
    InDoc E (PCtx.new i t nss deps) ∧ PCtx.new (reInfo E.R i) t nss deps = reCtx E (PCtx.new i t nss deps) := by
  refine ⟨⟨?_, ?_⟩, ?_⟩
  · rw [← hd]; rfl
  · rw [← hd]; rfl
  · unfold PCtx.new reCtx
    simp only
    rw [attrOf_re E.R i (by decide), ← hd']
    rfl

theorem liftX_re {α β : Type} {f : α → β} {r : Res XErr α} {r' : Res XErr β} (h : Alike f r r') : Alike f (liftX r) (liftX r') := by
  cases h <;> constructor

theorem liftS_re {α β : Type} {f : α → β} {r : Res SErr α} {r' : Res SErr β} (h : Alike f r r') : Alike f (liftS r) (liftS r') := by
  cases h <;> constructor

theorem fold_docNss (rs : List (Name × Root)) (s : PCtx) :
    ((rs.foldl (fun s p => s.addRoot p.1 p.2) s).docNss, (rs.foldl (fun s p => s.addRoot p.1 p.2) s).defaultNs) = (s.docNss, s.defaultNs) := by
  induction rs generalizing s with
  | nil => rfl
  | cons r rs ih => exact ih (s.addRoot r.1 r.2)

section
variable (x : Ext) (E : Setting) {F F' : Files} (hF : F'.push = F.push)
  {incl incl' : Str → Namespaces → List (Name × List Name) → Res SErr PSchema} (hi : ∀ p t deps, Alike (fun S => S) (incl p t deps) (incl' p t deps))
include hF hi

theorem item_re (base : Str) (c : Nd) (hc : Good E c) (s : PCtx) (hs : InDoc E s) :
    Alike (reCtx E) (parseItem x F incl base c s) (parseItem x F' incl' base (reNd E.R c) (reCtx E s)) ∧
      ∀ s', parseItem x F incl base c s = .ok s' → InDoc E s' := by
  constructor
  · unfold parseItem
    show Alike _ (if c.name = c!"include" ∨ c.name = c!"import" then _ else _) (if c.name = c!"include" ∨ c.name = c!"import" then _ else _)
    have key : ∀ (n : Str), n ∉ qualified → ∀ {h h' : XAttr → Res PErr PCtx}, (∀ a : XAttr, (reAttr E.R a).value = a.value → Alike (reCtx E) (h a) (h' (reAttr E.R a))) →
        Alike (reCtx E) (liftX (c.tryAttr n) >>= h) (liftX ((reNd E.R c).tryAttr n) >>= h') := by
      intro n hn h h' hh
      unfold Nd.tryAttr
      rw [attr_re]
      cases ha : c.attr n with
      | none => exact .err _ _
      | some a => exact hh a (value_re E.R (attr_loc ha ▸ hn))
    refine .ite (fun _ => ?_) fun _ => ?_
    · refine key _ (by decide) fun a ha => ?_
      rw [ha, hF]
      refine .bind (liftS_re (hi _ _ _)) fun S => .ok' ?_
      rw [fold_re]
      rfl
    · refine key _ (by decide) fun a ha => ?_
      simp only
      rw [ha, fuel_re]
      exact .bind (liftX_re ((preOK E x c.fuel).root (c.see c!"name") hc _ s hs).1) fun q => .ok' rfl
  · intro s' h
    unfold parseItem at h
    split at h
    · obtain ⟨loc, _, h⟩ := Res.bind_eq_ok.1 h
      obtain ⟨S, _, h⟩ := Res.bind_eq_ok.1 h
      cases h
      have hf := fold_docNss S.context.elements s
      exact ⟨(congrArg Prod.fst hf).trans hs.1, (congrArg Prod.snd hf).trans hs.2⟩
    · obtain ⟨a, _, h⟩ := Res.bind_eq_ok.1 h
      obtain ⟨⟨root, s1⟩, h1, h⟩ := Res.bind_eq_ok.1 h
      cases h
      have h1 : parseRoot x c.fuel (c.see c!"name") ⟨a.value, s.target⟩ s = .ok (root, s1) := by
        revert h1
        cases parseRoot x c.fuel (c.see c!"name") ⟨a.value, s.target⟩ s with
        | ok q => intro h; cases h; rfl
        | err e => exact fun h => nomatch h
        | panic => exact fun h => nomatch h
        | diverge => exact fun h => nomatch h
      have := ((preOK E x c.fuel).root (c.see c!"name") hc _ s hs).2 _ _ h1
      exact ⟨this.1, this.2⟩

theorem items_re (base : Str) : ∀ (cs : List Nd), (∀ c ∈ cs, Good E c) → ∀ s : PCtx, InDoc E s →
    Alike (reCtx E) (parseItems x F incl base cs s) (parseItems x F' incl' base (cs.map (reNd E.R)) (reCtx E s))
  | [], _, s, _ => .ok s
  | c :: cs, hg, s, hs => by
    rw [List.map_cons, parseItems, parseItems]
    obtain ⟨h1, h2⟩ := item_re x E hF hi base c (hg c List.mem_cons_self) s hs
    revert h1 h2
    generalize parseItem x F incl base c s = r
    generalize parseItem x F' incl' base (reNd E.R c) (reCtx E s) = r'
    intro h1 h2
    cases h1 with
    | ok s1 => exact items_re base cs (fun k hk => hg k (List.mem_cons_of_mem _ hk)) s1 (h2 s1 rfl)
    | err e e' => exact .err e e'
    | panic => exact .panic
    | diverge => exact .diverge

theorem schemaRoot_re (base : Str) (e : Elem) (hd : e.1.nss = E.decls) (hd' : E.R.decls e.1 = E.decls') (hg : Good E (Nd.of e)) (nss : Namespaces)
    (deps : List (Name × List Name)) :
    Alike (fun S => S) (parseSchemaRoot x F incl base (Nd.of e) nss deps)
      (parseSchemaRoot x F' incl' base (Nd.of (reInfo E.R e.1, reKids E.R e.2)) nss deps) := by
  have he : Nd.of (reInfo E.R e.1, reKids E.R e.2) = reNd E.R (Nd.of e) := rfl
  rw [he]
  unfold parseSchemaRoot
  refine .ite (fun _ => .err _ _) fun _ => ?_
  rw [attrVal_re E.R (Nd.of e) (by decide), xsdKids_re]
  simp only
  obtain ⟨h1, h2⟩ := new_re E e.1 hd hd' (((Nd.of e).attr c!"targetNamespace").map XAttr.value) nss deps
  rw [show (reNd E.R (Nd.of e)).info = reInfo E.R e.1 from rfl, h2]
  exact .bind (items_re x E hF hi base _ (good_xsdKids hg) _ h1) fun s => .ok' rfl

end

theorem file_re (x : Ext) {F F' : Files} (h : RenamedFiles F F') (k : Nat) (path : Str) (nss : Namespaces) (deps : List (Name × List Name)) :
    Alike (fun S => S) (parseFileWith x F k path nss deps) (parseFileWith x F' k path nss deps) := by
  induction k generalizing path nss deps with
  | zero => exact .diverge
  | succ k ih =>
    unfold parseFileWith
    have hr := h.read path
    revert hr
    generalize F.read path = a
    generalize F'.read path = b
    intro hr
    cases hr with
    | none => exact .err _ _
    | malformed r c r' c' => exact .err _ _
    | @doc d d' hd =>
      obtain ⟨R, hd, hn, hn', hg⟩ := hd
      simp only
      unfold parseDoc
      have hdecls : d'.root.1.nss = R.decls d.root.1 := by rw [hd]; rfl
      rw [hd, h.parent]
      have := schemaRoot_re x ⟨R, d.root.1.nss, d'.root.1.nss, hn, hn'⟩ h.push ih (F.parent path) d.root rfl hdecls.symm hg nss deps
      revert this
      generalize parseSchemaRoot x F _ _ _ _ _ = r
      generalize parseSchemaRoot x F' _ _ _ _ _ = r'
      intro this
      cases this with
      | ok S => exact .ok' rfl
      | err e e' => exact .err _ _
      | panic => exact .panic
      | diverge => exact .diverge

/-- **C80**: renaming the prefixes in schema files does not change what is read from them. -/
theorem C80 (x : Ext) {F F' : Files} (h : RenamedFiles F F') (k : Nat) (path : Str) (S : PSchema) :
    parseFile x F' k path = .ok S ↔ parseFile x F k path = .ok S := by
  have := file_re x h k path Namespaces.empty []
  unfold parseFile
  revert this
  generalize parseFileWith x F k path _ _ = r
  generalize parseFileWith x F' k path _ _ = r'
  intro this
  cases this <;> simp

/-- **C80**, failures: the renamed files are rejected if and only if the others are, and crash the parser if and only if the
others do. -/
theorem C80_fails (x : Ext) {F F' : Files} (h : RenamedFiles F F') (k : Nat) (path : Str) :
    ((∃ e, parseFile x F' k path = .err e) ↔ ∃ e, parseFile x F k path = .err e) ∧
      (parseFile x F' k path = .panic ↔ parseFile x F k path = .panic) := by
  have := file_re x h k path Namespaces.empty []
  unfold parseFile
  revert this
  generalize parseFileWith x F k path _ _ = r
  generalize parseFileWith x F' k path _ _ = r'
  intro this
  cases this <;> simp

end Pre
end Xsd
