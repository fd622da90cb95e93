import Verif.Props.Dependencies
import Verif.Lemmas.Grammar
import Verif.Props.SchemaNames
/-!
# What the dependency table knows about the definitions
-/
namespace Xsd

/-- The recorded dependencies of a name. -/
def depsOf (deps : List (Name × List Name)) (p : Name) : List Name := (alookup deps p).getD []

/-- The names a content refers to. -/
def LeafContent.refs : LeafContent → List Name
  | .named n => [n]
  | _ => []

/-- The names the content of an element refers to. -/
def ElementContent.refs : ElementContent → List Name
  | .leaf _ d => d.content.refs
  | .leaves ls => ls.flatMap (fun l => l.definition.content.refs)

/-- The names a definition refers to. -/
def Root.refs : Root → List Name
  | .leaf d => d.content.refs
  | .enum _ => []
  | .element d => d.attributes.flatMap (fun a => a.content.refs) ++ (match d.content with | some c => c.refs | none => [])
  | .choice vs _ _ => vs.flatMap (fun l => l.definition.content.refs)

/-- The dependencies only grow. -/
def DepsGrow (d d' : List (Name × List Name)) : Prop := ∀ p n, n ∈ depsOf d p → n ∈ depsOf d' p

theorem depsOf_discover (s : PCtx) (n p q m : Name) :
    m ∈ depsOf (s.discoverType n p).deps q ↔ m ∈ depsOf s.deps q ∨ (q = p ∧ m = n) := by
  unfold depsOf PCtx.discoverType
  simp only [alookup_ainsert]
  by_cases h : p = q
  · subst h
    rw [if_pos rfl, Option.getD_some, mem_sinsert]
    simp
  · rw [if_neg h]
    constructor
    · exact .inl
    · rintro (h' | ⟨rfl, _⟩)
      · exact h'
      · exact absurd rfl h

theorem DepsGrow.discover (s : PCtx) (n p : Name) : DepsGrow s.deps (s.discoverType n p).deps :=
  fun _ _ h => (depsOf_discover s n p _ _).2 (.inl h)

/-- Every definition is stored under its own name or that of an anonymous type; what it refers to was recorded for its name, or
for the name of a definition that depends on it. -/
def RootsOwned (roots : List (Name × Root)) (deps : List (Name × List Name)) : Prop :=
  ∀ q ∈ roots, ∃ p, (p = q.1 ∨ q.1 ∈ depsOf deps p) ∧ ∀ n ∈ q.2.refs, n ∈ depsOf deps p

theorem RootsOwned.mono {roots : List (Name × Root)} {d d' : List (Name × List Name)} (h : RootsOwned roots d) (hg : DepsGrow d d') :
    RootsOwned roots d' := fun q hq => by
  obtain ⟨p, h1, h2⟩ := h q hq
  exact ⟨p, h1.imp id (hg p _), fun n hn => hg p n (h2 n hn)⟩

theorem RootsOwned.insert {roots : List (Name × Root)} {d : List (Name × List Name)} (h : RootsOwned roots d) {n : Name} {r : Root}
    (hr : ∃ p, (p = n ∨ n ∈ depsOf d p) ∧ ∀ m ∈ r.refs, m ∈ depsOf d p) : RootsOwned (ainsert roots n r) d := by
  intro q hq
  rcases mem_ainsert hq with rfl | hq
  · exact hr
  · exact h q hq

/-- The law for dependencies. -/
def depLaw : ParseLaw where
  I s := (s.roots.map Prod.fst).Nodup ∧ RootsOwned s.roots s.deps
  R s s' := s'.env = s.env ∧ DepsGrow s.deps s'.deps ∧ ∀ n, alookup s.roots n ≠ none → alookup s'.roots n ≠ none
  Nm _ _ := True
  Ref s p n := n ∈ depsOf s.deps p
  refl _ := ⟨rfl, fun _ _ h => h, fun _ h => h⟩
  trans h h' := ⟨h'.1.trans h.1, fun p n hn => h'.2.1 p n (h.2.1 p n hn), fun n hn => h'.2.2 n (h.2.2 n hn)⟩
  nm_mono _ _ := trivial
  ref_mono h hn := h.2.1 _ _ hn

theorem depLaw_root {s : PCtx} {owner : Name} {r : Root} (h : depLaw.RootOK s owner r) : ∀ n ∈ r.refs, n ∈ depsOf s.deps owner := by
  have hc : ∀ c : LeafContent, depLaw.Content s owner c → ∀ n ∈ c.refs, n ∈ depsOf s.deps owner := by
    intro c hc
    cases c with
    | named n => simpa [ParseLaw.Content, LeafContent.refs, depLaw] using hc
    | literal _ => simp [LeafContent.refs]
    | fixed _ => simp [LeafContent.refs]
  have hl : ∀ ls : List Leaf, (∀ l ∈ ls, depLaw.LeafOK s owner l) →
      ∀ n ∈ ls.flatMap (fun l => l.definition.content.refs), n ∈ depsOf s.deps owner := by
    intro ls h n hn
    obtain ⟨l, hl, hn⟩ := List.mem_flatMap.1 hn
    exact hc _ (h l hl).2.1 n hn
  cases r with
  | leaf d => exact hc _ h
  | enum ns => intro n hn; cases hn
  | choice vs v d => exact hl vs h
  | element d =>
    replace h : (∀ a ∈ d.attributes, depLaw.AttrOK s owner a) ∧ depLaw.ElemContentOK s owner d.content := h
    unfold Root.refs
    rw [List.forall_mem_append]
    constructor
    · intro n hn
      obtain ⟨l, hl, hn⟩ := List.mem_flatMap.1 hn
      exact hc _ (h.1 l hl).2 n hn
    · replace h := h.2
      cases hd : d.content with
      | none => simp
      | some c =>
        rw [hd] at h
        cases c with
        | leaf n d => exact hc _ h.2
        | leaves ls => exact hl ls h

theorem getTypeName_keep {a : XAttr} {s s' : PCtx} {c : LeafContent} (h : getTypeName a s = .ok (c, s')) :
    s'.env = s.env ∧ s'.deps = s.deps ∧ s'.roots = s.roots := by
  unfold getTypeName at h
  split at h
  · split at h
    · cases h
    · split at h
      · rw [P.lift_ok] at h; rw [h.2]; exact ⟨rfl, rfl, rfl⟩
      · cases h; exact ⟨rfl, rfl, rfl⟩
  · split at h
    · rw [P.lift_ok] at h; rw [h.2]; exact ⟨rfl, rfl, rfl⟩
    · cases h; exact ⟨rfl, rfl, rfl⟩

theorem depLaw_ok : depLaw.Ok where
  typeName := by
    intro a s c s' hI h
    obtain ⟨h1, h2, h3⟩ := getTypeName_keep h
    refine ⟨⟨h3 ▸ hI.1, h3 ▸ h2 ▸ hI.2⟩, h1, fun p n hn => h2 ▸ hn, fun n hn => h3 ▸ hn⟩
  discover := by
    intro a s n s' p hI h
    obtain ⟨h1, h2, h3⟩ := getTypeName_keep h
    have hI' : depLaw.I s' := ⟨h3 ▸ hI.1, h3 ▸ h2 ▸ hI.2⟩
    exact ⟨⟨hI'.1, hI'.2.mono (.discover s' n p)⟩, ⟨rfl, .discover s' n p, fun _ h => h⟩, trivial,
      (depsOf_discover s' n p p n).2 (.inr ⟨rfl, rfl⟩)⟩
  node := fun _ _ => trivial
  plain := fun _ _ => trivial
  add := by
    intro s v p r owner hI hr ho
    have hd : DepsGrow s.deps ((s.addRoot (s.nodeName v false) r).discoverType (s.nodeName v false) p).deps :=
      .discover (s.addRoot (s.nodeName v false) r) _ _
    have hm := (depsOf_discover (s.addRoot (s.nodeName v false) r) (s.nodeName v false) p p (s.nodeName v false)).2 (.inr ⟨rfl, rfl⟩)
    refine ⟨⟨nodup_keys_ainsert hI.1 _ _, ?_⟩, ⟨rfl, hd, ?_⟩, hm⟩
    · refine (hI.2.mono hd).insert ⟨owner, ?_, fun n hn => hd _ _ (depLaw_root hr n hn)⟩
      rcases ho with rfl | rfl
      · exact .inr hm
      · exact .inl rfl
    · intro n hn
      show alookup (ainsert _ _ _) n ≠ none
      rw [alookup_ainsert]
      split
      · nofun
      · exact hn
  nodeName := fun v h => docLaw_ok.nodeName v h.1

/-- What is known about a parsed file that was parsed with the dependencies `deps`. -/
structure DepsOK (deps : List (Name × List Name)) (P : PSchema) : Prop where
  nodup : (P.context.elements.map Prod.fst).Nodup
  grow : DepsGrow deps P.deps
  owned : RootsOwned P.context.elements P.deps

theorem foldl_addRoot_keep (l : List (Name × Root)) (s : PCtx) :
    (l.foldl (fun s p => s.addRoot p.1 p.2) s).env = s.env ∧ (l.foldl (fun s p => s.addRoot p.1 p.2) s).deps = s.deps ∧
    (l.foldl (fun s p => s.addRoot p.1 p.2) s).roots = l.foldl (fun m p => ainsert m p.1 p.2) s.roots := by
  induction l generalizing s with
  | nil => exact ⟨rfl, rfl, rfl⟩
  | cons p l ih => exact ih _

theorem foldl_ainsert_nodup {κ ν : Type} [DecidableEq κ] (l : List (κ × ν)) (m : List (κ × ν)) (h : (m.map Prod.fst).Nodup) :
    ((l.foldl (fun m p => ainsert m p.1 p.2) m).map Prod.fst).Nodup := by
  induction l generalizing m with
  | nil => exact h
  | cons p l ih => exact ih _ (nodup_keys_ainsert h _ _)

theorem foldl_ainsert_mem {κ ν : Type} [DecidableEq κ] (l : List (κ × ν)) (m : List (κ × ν)) {q : κ × ν}
    (h : q ∈ l.foldl (fun m p => ainsert m p.1 p.2) m) : q ∈ l ∨ q ∈ m := by
  induction l generalizing m with
  | nil => exact .inr h
  | cons p l ih =>
    rcases ih _ h with h | h
    · exact .inl (.tail _ h)
    · rcases mem_ainsert h with rfl | h
      · exact .inl (.head _)
      · exact .inr h

theorem foldl_ainsert_keep {κ ν : Type} [DecidableEq κ] (l : List (κ × ν)) (m : List (κ × ν)) {n : κ} (h : alookup m n ≠ none) :
    alookup (l.foldl (fun m p => ainsert m p.1 p.2) m) n ≠ none := by
  induction l generalizing m with
  | nil => exact h
  | cons p l ih =>
    refine ih _ ?_
    rw [alookup_ainsert]
    split
    · nofun
    · exact h

section
variable {x : Ext} {F : Files} {incl : Str → Namespaces → List (Name × List Name) → Res SErr PSchema}
  (hincl : ∀ path t deps P, incl path t deps = .ok P → DepsOK deps P)
include hincl

theorem parseItem_deps {base : Str} {child : Nd} {s s' : PCtx} (hI : depLaw.I s)
    (h : parseItem x F incl base child s = .ok s') : depLaw.I s' ∧ depLaw.R s s' := by
  replace h := parseItem_run h
  cases h with
  | «include» location schema hn hl h =>
    have hok := hincl _ _ _ _ h
    obtain ⟨h1, h2, h3⟩ := foldl_addRoot_keep schema.context.elements s
    refine ⟨⟨?_, ?_⟩, h1, hok.grow, ?_⟩
    · show (List.map _ (List.foldl _ s _).roots).Nodup
      rw [h3]
      exact foldl_ainsert_nodup _ _ hI.1
    · intro q hq
      replace hq : q ∈ (List.foldl _ s _).roots := hq
      rw [h3] at hq
      rcases foldl_ainsert_mem _ _ hq with hq | hq
      · exact hok.owned q hq
      · exact hI.2.mono hok.grow q hq
    · intro n hn
      show alookup (List.foldl _ s _).roots n ≠ none
      rw [h3]
      exact foldl_ainsert_keep _ _ hn
  | definition nameAttr root s1 hn ha h =>
    obtain ⟨h1, h2, h3⟩ := (ParseLaw.all x depLaw_ok _).root hI (show depLaw.Nm s ⟨nameAttr.value, s.target⟩ from trivial) h
    refine ⟨⟨nodup_keys_ainsert h1.1 _ _, h1.2.insert ⟨_, .inl rfl, depLaw_root h3⟩⟩, h2.1, h2.2.1, fun n hn => ?_⟩
    show alookup (ainsert _ _ _) n ≠ none
    rw [alookup_ainsert]
    split
    · nofun
    · exact h2.2.2 n hn

theorem parseItems_deps {base : Str} {cs : List Nd} {s s' : PCtx} (hI : depLaw.I s)
    (h : parseItems x F incl base cs s = .ok s') : depLaw.I s' ∧ depLaw.R s s' := by
  induction cs generalizing s with
  | nil => cases h; exact ⟨hI, depLaw.refl _⟩
  | cons c cs ih =>
    obtain ⟨s1, h1, h2⟩ := Res.bind_eq_ok.1 h
    obtain ⟨h3, h4⟩ := parseItem_deps hincl hI h1
    obtain ⟨h5, h6⟩ := ih h3 h2
    exact ⟨h5, depLaw.trans h4 h6⟩

theorem parseSchemaRoot_deps {base : Str} {root : Nd} {t : Namespaces} {deps : List (Name × List Name)} {P : PSchema}
    (h : parseSchemaRoot x F incl base root t deps = .ok P) : DepsOK deps P := by
  unfold parseSchemaRoot at h
  split at h
  · cases h
  · obtain ⟨s1, h1, h2⟩ := Res.bind_eq_ok.1 h
    cases h2
    have key : depLaw.I (PCtx.new root.info ((root.attr c!"targetNamespace").map XAttr.value) t deps) := ⟨List.nodup_nil, nofun⟩
    obtain ⟨h3, h4⟩ := parseItems_deps hincl key h1
    exact ⟨h3.1, h4.2.1, h3.2⟩

theorem parseDoc_deps {path : Str} {d : XDoc} {t : Namespaces} {deps : List (Name × List Name)} {P : PSchema}
    (h : parseDoc x F incl path d t deps = .ok P) : DepsOK deps P := by
  unfold parseDoc at h
  split at h
  · next hh => cases h; exact parseSchemaRoot_deps hincl hh
  · cases h
  · cases h
  · cases h

end

theorem parseFileWith_deps {x : Ext} {F : Files} (k : Nat) : ∀ path t deps P,
    parseFileWith x F k path t deps = .ok P → DepsOK deps P := by
  induction k with
  | zero => intro path t deps P h; cases h
  | succ k ih =>
    intro path t deps P h
    unfold parseFileWith at h
    split at h
    · cases h
    · cases h
    · exact parseDoc_deps ih h

end Xsd
