import Verif.Model.Writer
/-!
# The tree denoted by a stream of events, piece by piece
-/
namespace Xsd

theorem brun_append (st : BState) (a b : List Ev) :
    brun st (a ++ b) = (brun st a).bind (fun st => brun st b) := by
  induction a generalizing st with
  | nil => rfl
  | cons e a ih =>
    simp only [List.cons_append, brun]
    cases bstep st e with
    | none => rfl
    | some st => exact ih st

/-- The bindings in scope are those of `N`. -/
def ScopeOk (N : List (Str × Str)) (sc : Scope) : Prop := ∀ p, alookup sc p = alookup N p

/-- In an open element with the bindings `N`, the events add the child nodes `ks`. -/
def Builds (N : List (Str × Str)) (evs : List Ev) (ks : List XNode) : Prop :=
  ∀ (t : Frame) (r : List Frame), ScopeOk N t.scope →
    brun (.inside t r) evs = some (.inside { t with kids := t.kids ++ ks } r)

/-- As `Builds`, in an element that has no child nodes yet. -/
def BuildsFresh (N : List (Str × Str)) (evs : List Ev) (ks : List XNode) : Prop :=
  ∀ (t : Frame) (r : List Frame), ScopeOk N t.scope → t.kids = [] →
    brun (.inside t r) evs = some (.inside { t with kids := ks } r)

theorem Builds.fresh {N : List (Str × Str)} {evs : List Ev} {ks : List XNode} (h : Builds N evs ks) :
    BuildsFresh N evs ks := by
  intro t r hs hk
  rw [h t r hs, hk]; rfl

theorem Builds.nil (N : List (Str × Str)) : Builds N [] [] := by
  intro t r _; simp [brun]

theorem Builds.append {N : List (Str × Str)} {a b : List Ev} {ks ls : List XNode} (h1 : Builds N a ks)
    (h2 : Builds N b ls) : Builds N (a ++ b) (ks ++ ls) := by
  intro t r hs
  rw [brun_append, h1 t r hs, Option.bind_some, h2 { t with kids := t.kids ++ ks } r hs]
  simp

/-- The text of an element. -/
def textKids (s : Str) : List XNode := if s = [] then [] else [.text s]

theorem BuildsFresh.chars (N : List (Str × Str)) (s : Str) : BuildsFresh N [.chars s] (textKids s) := by
  intro t r _ hk
  simp only [brun, bstep, addText, textKids, hk]
  by_cases h : s = [] <;> simp [h]

theorem BuildsFresh.chars' (N : List (Str × Str)) (s : Str) :
    BuildsFresh N (if s = [] then [] else [.chars s]) (textKids s) := by
  by_cases h : s = []
  · subst h; exact (Builds.nil N).fresh
  · rw [if_neg h]; exact .chars N s

theorem elemKids_append (a b : List XNode) : elemKids (a ++ b) = elemKids a ++ elemKids b := by
  simp [elemKids]

@[simp] theorem elemKids_nil : elemKids [] = [] := rfl

@[simp] theorem elemKids_elem (i : ElemInfo) (ks : List XNode) : elemKids [.elem i ks] = [(i, ks)] := rfl

@[simp] theorem elemKids_text (s : Str) : elemKids (textKids s) = [] := by
  unfold textKids; split <;> rfl

/-! ## Attributes -/

/-- A name that can be written as an attribute without namespace. -/
def PlainName (n : Str) : Prop := splitColon n = none ∧ n ≠ c!"xmlns"

theorem resolveAttrs_ok {l : List (Str × Str)} (hv : ∀ p ∈ l, PlainName p.1) (hn : (l.map Prod.fst).Nodup) :
    resolveAttrs l = some (l.map (fun p => ⟨p.1, none, p.2, 0⟩)) := by
  induction l with
  | nil => rfl
  | cons p l ih =>
    obtain ⟨n, v⟩ := p
    simp only [List.map_cons, List.nodup_cons] at hn
    have hp := hv (n, v) (by simp)
    have h1 : (l.map Prod.fst).contains n = false := by
      simpa using hn.1
    simp only [resolveAttrs]
    rw [ih (fun p hp => hv p (by simp [hp])) hn.2, h1, hp.1]
    have h2 : (n == c!"xmlns") = false := by
      simpa using hp.2
    rw [h2]; rfl

theorem attrOf_resolve (l : List (Str × Str)) (i : ElemInfo) (h : i.attrs = l.map (fun p => ⟨p.1, none, p.2, 0⟩))
    (n : Str) : attrOf i n = alookup l n := by
  unfold attrOf
  rw [h]
  clear h
  induction l with
  | nil => rfl
  | cons p l ih =>
    simp only [List.map_cons, List.find?_cons, alookup]
    by_cases hp : p.1 = n
    · simp [hp]
    · simpa [hp] using ih

/-! ## Names and namespaces -/

theorem alookup_append {κ ν : Type} [DecidableEq κ] (a b : List (κ × ν)) (q : κ) :
    alookup (a ++ b) q = (alookup a q).or (alookup b q) := by
  induction a with
  | nil => simp [alookup]
  | cons p a ih =>
    obtain ⟨k, v⟩ := p
    simp only [List.cons_append, alookup]
    split <;> simp [ih]

theorem resolveName_scope {N : List (Str × Str)} {sc : Scope} (h : ScopeOk N sc) (n : Str) :
    resolveName sc n = resolveName N n := by
  unfold resolveName
  split <;> simp only [h _]

theorem ScopeOk.append {N : List (Str × Str)} {sc : Scope} (h : ScopeOk N sc ∨ sc = []) : ScopeOk N (N ++ sc) := by
  intro p
  rw [alookup_append]
  rcases h with h | h
  · rw [h p]; cases alookup N p <;> rfl
  · subst h; cases alookup N p <;> simp [alookup]

/-- Declarations that are all written. -/
def NsOk (N : List (Str × Str)) : Prop := (N.map Prod.fst).Nodup ∧ ∀ b ∈ N, b.2 ≠ []

theorem NsOk.declared {N : List (Str × Str)} (h : NsOk N) : declared N = some N := by
  have hb : ∀ b ∈ N, (b.2 == []) = false := by
    intro b hb
    have := h.2 b hb
    cases h2 : b.2 with
    | nil => exact absurd h2 this
    | cons _ _ => rfl
  unfold Xsd.declared
  rw [if_neg, List.filter_eq_self.2]
  · intro b h'; simp [hb b h']
  · simp only [List.any_eq_true, not_exists, not_and]
    intro b h'; simp [hb b h']

theorem declared_nil : declared [] = some [] := rfl

/-- An element in an element. -/
theorem Builds.element {N : List (Str × Str)} (hN : NsOk N) {nm : Str} {q : QName} (hq : resolveName N nm = some q)
    {as : List (Str × Str)} (hv : ∀ p ∈ as, PlainName p.1) (hn : (as.map Prod.fst).Nodup) {ns : List (Str × Str)}
    (hns : ns = [] ∨ ns = N) {mid : List Ev} {ks : List XNode} (hm : BuildsFresh N mid ks) :
    Builds N (.start nm as ns :: (mid ++ [.fin]))
      [.elem ⟨q, as.map (fun p => ⟨p.1, none, p.2, 0⟩), [], 0⟩ ks] := by
  intro t r hs
  have hd : declared ns = some ns := by
    rcases hns with rfl | rfl
    · rfl
    · exact hN.declared
  have hsc : ScopeOk N (ns ++ t.scope) := by
    rcases hns with rfl | rfl
    · exact hs
    · exact .append (.inl hs)
  have ho : openElem t.scope nm as ns =
      some ⟨⟨q, as.map (fun p => ⟨p.1, none, p.2, 0⟩), [], 0⟩, ns ++ t.scope, []⟩ := by
    unfold openElem
    rw [hd]
    simp only [Option.bind_eq_bind, Option.bind_some]
    rw [resolveName_scope hsc, hq, resolveAttrs_ok hv hn]; rfl
  simp only [brun, bstep, ho, Option.map_some]
  rw [brun_append, hm _ _ hsc rfl, Option.bind_some]
  rfl

/-- The root element. -/
theorem buildDoc_element {N : List (Str × Str)} (hN : NsOk N) {nm : Str} {q : QName} (hq : resolveName N nm = some q)
    {as : List (Str × Str)} (hv : ∀ p ∈ as, PlainName p.1) (hn : (as.map Prod.fst).Nodup)
    {mid : List Ev} {ks : List XNode} (hm : BuildsFresh N mid ks) :
    buildDoc (.start nm as N :: (mid ++ [.fin])) = some (⟨q, as.map (fun p => ⟨p.1, none, p.2, 0⟩), [], 0⟩, ks) := by
  have hsc : ScopeOk N (N ++ []) := .append (.inr rfl)
  have ho : openElem [] nm as N =
      some ⟨⟨q, as.map (fun p => ⟨p.1, none, p.2, 0⟩), [], 0⟩, N ++ [], []⟩ := by
    unfold openElem
    rw [hN.declared]
    simp only [Option.bind_eq_bind, Option.bind_some]
    rw [resolveName_scope hsc, hq, resolveAttrs_ok hv hn]; rfl
  simp only [buildDoc, brun, bstep, ho, Option.map_some]
  rw [brun_append, hm _ _ hsc rfl, Option.bind_some]
  rfl

end Xsd
