import Verif.Lemmas.TreeComplete
/-!
# The requirements on schema files can be computed

`treeFilesB` computes `TreeFiles` and `TypeCount` (`Verif/Spec/Tree.lean`) for files whose includes and whose nodes are not nested
deeper than a number.
-/
namespace Xsd.Tree
open Xsd.Flat (RefersTo SimpleType)

/-- What a reference refers to. -/
def refOf (root : ElemInfo) (v : Str) : Option QName :=
  match splitn2 v with
  | (p, some n) => (alookup root.nss (some p)).map (fun u => ⟨n, some u⟩)
  | (_, none) =>
    match alookup root.nss none with
    | some u => some ⟨v, some u⟩
    | none => some ⟨v, none⟩

theorem refOf_of {root : ElemInfo} (hN : (root.nss.map Prod.fst).Nodup) {v : Str} {q : QName} (h : RefersTo root v q) : refOf root v = some q := by
  unfold refOf
  cases h with
  | pfx hv hp =>
    rw [splitn2_prefixed.2 hv]
    dsimp only
    rw [alookup_of_mem hN hp]
    rfl
  | dflt hv hp =>
    rw [splitn2_unprefixed hv]
    dsimp only
    rw [alookup_of_mem hN hp]
  | plain hv hp =>
    rw [splitn2_unprefixed hv]
    dsimp only
    cases hl : alookup root.nss none with
    | none => rfl
    | some u => exact absurd (alookup_mem hl) (hp u)

/-- Where an include or import points to. -/
def locationOf (c : Nd) : Option Str := if c.name = c!"include" ∨ c.name = c!"import" then c.value c!"schemaLocation" else none

theorem locationOf_eq {c : Nd} {l : Str} : locationOf c = some l ↔ (c.name = c!"include" ∨ c.name = c!"import") ∧ c.value c!"schemaLocation" = some l := by
  unfold locationOf
  split
  · next h => exact ⟨fun h' => ⟨h, h'⟩, fun h' => h'.2⟩
  · next h => exact ⟨nofun, fun h' => absurd h'.1 h⟩

/-- All lists, if there are. -/
def concatAll {α : Type} : List (Option (List α)) → Option (List α)
  | [] => some []
  | a :: as =>
    match a, concatAll as with
    | some a, some b => some (a ++ b)
    | _, _ => none

theorem concatAll_some {α : Type} {as : List (Option (List α))} {L : List α} (h : concatAll as = some L) :
    (∀ a ∈ as, ∃ l, a = some l ∧ ∀ y ∈ l, y ∈ L) ∧ ∀ y ∈ L, ∃ l, some l ∈ as ∧ y ∈ l := by
  induction as generalizing L with
  | nil =>
    cases h
    exact ⟨nofun, nofun⟩
  | cons a as ih =>
    unfold concatAll at h
    split at h
    · next a' b h1 =>
      cases h
      obtain ⟨h2, h3⟩ := ih h1
      refine ⟨fun x hx => ?_, fun y hy => ?_⟩
      · rcases List.mem_cons.1 hx with rfl | hx
        · exact ⟨a', rfl, fun y hy => List.mem_append_left _ hy⟩
        · obtain ⟨l, h4, h5⟩ := h2 x hx
          exact ⟨l, h4, fun y hy => List.mem_append_right _ (h5 y hy)⟩
      · rcases List.mem_append.1 hy with hy | hy
        · exact ⟨a', .head _, hy⟩
        · obtain ⟨l, h4, h5⟩ := h3 y hy
          exact ⟨l, .tail _ h4, h5⟩
    · cases h

/-- The files that are read, unless they are nested deeper. -/
def docsOf (F : Files) : Nat → Str → Option (List XDoc)
  | 0, _ => none
  | k + 1, path =>
    match F.read path with
    | some (.doc d) =>
      (concatAll (((Nd.of d.root).xsdKids.filterMap locationOf).map (fun l => docsOf F k (F.push (F.parent path) l)))).map (d :: ·)
    | _ => some []

theorem reads_after {F : Files} {path : Str} {d0 : XDoc} (hd : F.read path = some (.doc d0)) {c : Nd} (hc : c ∈ (Nd.of d0.root).xsdKids)
    (hn : c.name = c!"include" ∨ c.name = c!"import") {l : Str} (hl : c.value c!"schemaLocation" = some l) {q : Str} {d : XDoc}
    (h : Reads F (F.push (F.parent path) l) q d) : Reads F path q d := by
  induction h with
  | here h => exact .there (.here hd) hc hn hl h
  | there _ hc' hn' hl' h' ih => exact .there ih hc' hn' hl' h'

theorem docsOf_spec {F : Files} (k : Nat) : ∀ {path : Str} {L : List XDoc}, docsOf F k path = some L →
    (∀ q d, Reads F path q d → d ∈ L) ∧ ∀ d ∈ L, ∃ q, Reads F path q d := by
  induction k with
  | zero => intro path L h; cases h
  | succ k ih =>
    intro path L h
    unfold docsOf at h
    split at h
    · next d hd =>
      obtain ⟨L', hL, rfl⟩ := Option.map_eq_some_iff.1 h
      obtain ⟨h1, h2⟩ := concatAll_some hL
      refine ⟨fun q d' hr => ?_, fun d' hd' => ?_⟩
      · rcases reads_first hr with ⟨_, h3⟩ | ⟨d0, c, l, h3, h4, h5, h6, h7⟩
        · rw [hd] at h3
          cases h3
          exact .head _
        · rw [hd] at h3
          cases h3
          obtain ⟨M, h8, h9⟩ := h1 _ (List.mem_map.2 ⟨l, List.mem_filterMap.2 ⟨c, h4, locationOf_eq.2 ⟨h5, h6⟩⟩, rfl⟩)
          exact .tail _ (h9 _ ((ih h8).1 q d' h7))
      · rcases List.mem_cons.1 hd' with rfl | hd'
        · exact ⟨path, .here hd⟩
        · obtain ⟨M, h3, h4⟩ := h2 d' hd'
          obtain ⟨l, h5, h6⟩ := List.mem_map.1 h3
          obtain ⟨c, h7, h8⟩ := List.mem_filterMap.1 h5
          obtain ⟨h9, h10⟩ := locationOf_eq.1 h8
          obtain ⟨q, hr⟩ := (ih h6).2 d' h4
          exact ⟨q, reads_after hd h7 h9 h10 hr⟩
    · next hd =>
      cases h
      refine ⟨fun q d hr => ?_, nofun⟩
      rcases reads_first hr with ⟨_, h3⟩ | ⟨d0, c, l, h3, _⟩
      · exact absurd h3 (hd d)
      · exact absurd h3 (hd d0)

/-- The top-level elements and types of files. -/
def topsOf (L : List XDoc) : List (QName × XDoc × Nd) :=
  L.flatMap (fun d => (Nd.of d.root).xsdKids.filterMap (fun c =>
    if (topKind c.name).isSome then (c.value c!"name").map (fun n => (⟨n, targetOf d⟩, d, c)) else none))

theorem topsOf_sound {F : Files} {path : Str} {L : List XDoc} (hL : ∀ d ∈ L, ∃ q, Reads F path q d) {t : QName × XDoc × Nd} (h : t ∈ topsOf L) :
    Top F path t.1 t.2.1 t.2.2 := by
  obtain ⟨d, hd, h⟩ := List.mem_flatMap.1 h
  obtain ⟨c, hc, h⟩ := List.mem_filterMap.1 h
  split at h
  · next hk =>
    obtain ⟨n, hn, rfl⟩ := Option.map_eq_some_iff.1 h
    obtain ⟨q, hr⟩ := hL d hd
    exact .mk hr hc hk hn
  · cases h

/-- The particle is known not to be empty. -/
def solidB : Nat → Nd → Bool
  | 0, _ => false
  | k + 1, p =>
    (match parseMinOccurs (p.attr c!"minOccurs") with | .ok m => decide (m ≠ 0) | _ => false) &&
    (if p.name = c!"element" then true
     else if p.name = c!"sequence" then p.particles.any (solidB k)
     else if p.name = c!"choice" then p.particles.all (solidB k)
     else false)

theorem solidB_sound (k : Nat) : ∀ {p : Nd}, solidB k p = true → Solid p := by
  induction k with
  | zero => intro p h; cases h
  | succ k ih =>
    intro p h
    unfold solidB at h
    obtain ⟨h1, h2⟩ := Bool.and_eq_true_iff.1 h
    split at h1
    · next m hm =>
      have hm := parseMinOccurs_minOf hm
      have h1 := of_decide_eq_true h1
      split at h2
      · next hn => exact .element hn hm h1
      · split at h2
        · next hn =>
          obtain ⟨c, hc, h3⟩ := List.any_eq_true.1 h2
          exact .sequence hn hm h1 hc (ih h3)
        · split at h2
          · next hn => exact .choice hn hm h1 fun c hc => ih (List.all_eq_true.1 h2 c hc)
          · cases h2
    · cases h1

/-- A simple type without enumeration is a string type. -/
def stringB (d : XDoc) (c : Nd) : Bool :=
  c.xsdKids.all (fun r => decide (r.name ≠ c!"restriction") ||
    match r.value c!"base" with
    | none => true
    | some v =>
      match refOf d.root.1 v with
      | some q => decide (q.ns ≠ some nsXsd) || builtin.all (fun b => decide (b.1 = q.loc → b.2.prim = .string))
      | none => true)

theorem stringB_sound {d : XDoc} (hN : (d.root.1.nss.map Prod.fst).Nodup) {c : Nd} (h : stringB d c = true) {t : LiteralType}
    (ht : SimpleType d c (.text t)) : t.prim = .string := by
  cases ht with
  | text hr hn hv hb he =>
    obtain ⟨n, href, hb⟩ := hb
    have h := List.all_eq_true.1 h _ hr
    rw [hv] at h
    simp only [refOf_of hN href, Bool.or_eq_true, decide_eq_true_eq, ne_eq, not_true_eq_false, false_or] at h
    rcases h with h | h
    · exact absurd hn h
    · exact of_decide_eq_true (List.all_eq_true.1 h _ hb) rfl

theorem topsOf_complete {F : Files} {path : Str} {L : List XDoc} (hL : ∀ q d, Reads F path q d → d ∈ L) {q : QName} {d : XDoc} {c : Nd}
    (h : Top F path q d c) : (q, d, c) ∈ topsOf L := by
  cases h with
  | mk hr hc hk hn =>
    refine List.mem_flatMap.2 ⟨d, hL _ _ hr, List.mem_filterMap.2 ⟨c, hc, ?_⟩⟩
    rw [if_pos hk, hn]
    rfl

/-- The particle is not repeated. -/
def singleB (p : Nd) : Bool :=
  match parseMaxOccurs (p.attr c!"maxOccurs") with
  | .ok mx => decide (mx = .number 0 ∨ mx = .number 1)
  | _ => false

theorem singleB_sound {p : Nd} (h : singleB p = true) : Single p := by
  unfold singleB at h
  split at h
  · next mx h2 => exact ⟨mx, parseMaxOccurs_maxOf h2, of_decide_eq_true h⟩
  · cases h

/-- The particle has to occur. -/
def requiredB (p : Nd) : Bool :=
  match parseMinOccurs (p.attr c!"minOccurs") with
  | .ok m => decide (m ≠ 0)
  | _ => false

theorem requiredB_sound {p : Nd} (h : requiredB p = true) : Required p := by
  unfold requiredB at h
  split at h
  · next m h2 => exact ⟨m, parseMinOccurs_minOf h2, of_decide_eq_true h⟩
  · cases h

/-- The particle occurs exactly once. -/
def onceB (p : Nd) : Bool :=
  match parseMinOccurs (p.attr c!"minOccurs"), parseMaxOccurs (p.attr c!"maxOccurs") with
  | .ok 1, .ok mx => decide (mx = .number 0 ∨ mx = .number 1)
  | _, _ => false

theorem onceB_sound {p : Nd} (h : onceB p = true) : Once p := by
  unfold onceB at h
  split at h
  · next mx h1 h2 => exact ⟨parseMinOccurs_minOf h1, mx, parseMaxOccurs_maxOf h2, of_decide_eq_true h⟩
  · cases h

/-- The local name of the elements that an `element` node in a group declares or refers to. -/
def localName (d : XDoc) (p : Nd) : Option Str :=
  match p.value c!"ref" with
  | some v => (refOf d.root.1 v).map (·.loc)
  | none => p.value c!"name"

theorem localName_of {d : XDoc} (hN : (d.root.1.nss.map Prod.fst).Nodup) {p : Nd} {q : QName} (h : ElementName d p q) :
    localName d p = some q.loc := by
  unfold localName
  cases h with
  | ref hr h => rw [hr]; simp only [refOf_of hN h]; rfl
  | name hr hn _ => rw [hr]; exact hn

/-- The type may have an `xs:all`. -/
def anyOrderB (tops : List (QName × XDoc × Nd)) : Nat → XDoc → Nd → Bool
  | 0, _, _ => true
  | k + 1, d, nd => nd.xsdKids.any (fun c => decide (c.name = c!"all") || c.xsdKids.any (fun r =>
      match r.value c!"base" with
      | none => false
      | some v => tops.any (fun t => decide (refOf d.root.1 v = some t.1) && anyOrderB tops k t.2.1 t.2.2)))

theorem anyOrderB_of {F : Files} {path : Str} {tops : List (QName × XDoc × Nd)} (hT : ∀ q d c, Top F path q d c → (q, d, c) ∈ tops)
    (hA : ∀ p d, Reads F path p d → (d.root.1.nss.map Prod.fst).Nodup) {d : XDoc} (hN : (d.root.1.nss.map Prod.fst).Nodup) {nd : Nd}
    (h : AnyOrder F path d nd) (k : Nat) : anyOrderB tops k d nd = true := by
  induction h generalizing k with
  | all hc hn =>
    cases k with
    | zero => rfl
    | succ k => exact List.any_eq_true.2 ⟨_, hc, Bool.or_eq_true_iff.2 (.inl (decide_eq_true hn))⟩
  | base hc hr hv h ht hb ih =>
    cases k with
    | zero => rfl
    | succ k =>
      refine List.any_eq_true.2 ⟨_, hc, Bool.or_eq_true_iff.2 (.inr (List.any_eq_true.2 ⟨_, hr, ?_⟩))⟩
      rw [hv]
      refine List.any_eq_true.2 ⟨_, hT _ _ _ ht, Bool.and_eq_true_iff.2 ⟨decide_eq_true (refOf_of hN h), ih ?_ k⟩⟩
      cases ht with
      | mk hr' _ _ _ => exact hA _ _ hr'

/-- The requirements on a node. -/
def nodeB (tops : List (QName × XDoc × Nd)) (k : Nat) (d : XDoc) (nd : Nd) : Bool :=
  (decide (nd.name ≠ c!"all") || (onceB nd && nd.particles.all (fun p => decide (p.name = c!"element") && singleB p) &&
    decide (nd.particles.Pairwise (fun a b => localName d a ≠ localName d b)))) &&
  (!nd.xsdKids.any (fun g => decide (g.name = c!"sequence")) ||
    (match nd.value c!"base" with
     | none => true
     | some v => tops.all (fun t => decide (refOf d.root.1 v ≠ some t.1) || !anyOrderB tops k t.2.1 t.2.2))) &&
  decide (nd.name = c!"element" → nd.value c!"form" = none) &&
  nd.info.attrs.all (fun a => decide (a.loc = c!"minOccurs" ∨ a.loc = c!"maxOccurs" ∨ a.loc = c!"ref" → a.ns = none)) &&
  refB (nd.value c!"type") (fun d' c => decide (c.name ≠ c!"element") &&
    (decide (nd.name ≠ c!"attribute") || (decide (c.name = c!"simpleType") && stringB d' c))) &&
  refB (nd.value c!"ref") (fun _ c => decide (c.name = c!"element")) &&
  refB (nd.value c!"base") (fun _ c => decide (c.name ≠ c!"element")) &&
  (decide (nd.name ≠ c!"choice") || nd.particles.all (fun c =>
    (decide (c.name = c!"element") || (match parseMaxOccurs (c.attr c!"maxOccurs") with | .ok m => decide (m = .number 0 ∨ m = .number 1) | _ => false))))
where
  /-- A reference to something outside of XML Schema is to one of the components. -/
  refB (v : Option Str) (good : XDoc → Nd → Bool) : Bool :=
    match v with
    | none => true
    | some v =>
      match refOf d.root.1 v with
      | some q => decide (q.ns = some nsXsd) || tops.any (fun t => decide (t.1 = q) && good t.2.1 t.2.2)
      | none => true

theorem nodeB_sound {F : Files} {path : Str} {tops : List (QName × XDoc × Nd)} (hT : ∀ t ∈ tops, Top F path t.1 t.2.1 t.2.2)
    (hT' : ∀ q d c, Top F path q d c → (q, d, c) ∈ tops) (hA : ∀ p d, Reads F path p d → (d.root.1.nss.map Prod.fst).Nodup) {k : Nat} {d : XDoc} (hN : (d.root.1.nss.map Prod.fst).Nodup) {nd : Nd}
    (h : nodeB tops k d nd = true) : NodeOK F path d nd := by
  unfold nodeB at h
  simp only [Bool.and_eq_true] at h
  obtain ⟨⟨⟨⟨⟨⟨⟨h1, h0⟩, h2⟩, h3⟩, h4⟩, h5⟩, h6⟩, h7⟩ := h
  have ref : ∀ {o : Option Str} {good : XDoc → Nd → Bool}, nodeB.refB tops d o good = true → ∀ v q, o = some v → RefersTo d.root.1 v q →
      q.ns ≠ some nsXsd → ∃ d' c, Top F path q d' c ∧ good d' c = true := by
    intro o good h v q hv hr hq
    unfold nodeB.refB at h
    subst hv
    simp only [refOf_of hN hr, Bool.or_eq_true, decide_eq_true_eq] at h
    rcases h with h | h
    · exact absurd h hq
    · obtain ⟨t, ht, h⟩ := List.any_eq_true.1 h
      obtain ⟨h8, h9⟩ := Bool.and_eq_true_iff.1 h
      have := hT t ht
      rw [of_decide_eq_true h8] at this
      exact ⟨_, _, this, h9⟩
  refine ⟨?_, ?_, of_decide_eq_true h2, fun a ha => of_decide_eq_true (List.all_eq_true.1 h3 a ha), ?_, ?_, ?_, ?_⟩
  · intro hn
    simp only [Bool.or_eq_true, Bool.and_eq_true, decide_eq_true_eq, ne_eq, hn, not_true_eq_false, false_or] at h1
    obtain ⟨⟨h8, h9⟩, h10⟩ := h1
    refine ⟨onceB_sound h8, fun p hp => ?_, h10.imp ?_⟩
    · obtain ⟨h11, h12⟩ := Bool.and_eq_true_iff.1 (List.all_eq_true.1 h9 p hp)
      exact ⟨of_decide_eq_true h11, singleB_sound h12⟩
    · intro a b hab q ha hb
      exact hab ((localName_of hN ha).trans (localName_of hN hb).symm)
  · rintro ⟨g, hg, hgn⟩ v q hv hr d' b ht hany
    rw [hv] at h0
    rcases Bool.or_eq_true_iff.1 h0 with h0 | h0
    · rw [List.any_eq_true.2 ⟨g, hg, decide_eq_true hgn⟩] at h0
      cases h0
    · have h0 := List.all_eq_true.1 h0 _ (hT' _ _ _ ht)
      have hN' : (d'.root.1.nss.map Prod.fst).Nodup := by
        cases ht with
        | mk hr' _ _ _ => exact hA _ _ hr'
      rw [anyOrderB_of hT' hA hN' hany k, refOf_of hN hr] at h0
      simp at h0
  · intro v q hv hr hq
    obtain ⟨d', c, h8, h9⟩ := ref h4 v q hv hr hq
    obtain ⟨h9, h10⟩ := Bool.and_eq_true_iff.1 h9
    refine ⟨d', c, h8, of_decide_eq_true h9, fun hn => ?_⟩
    simp only [Bool.or_eq_true, decide_eq_true_eq, Bool.and_eq_true] at h10
    rcases h10 with h10 | ⟨h10, h11⟩
    · exact absurd hn h10
    · refine ⟨h10, fun t ht => stringB_sound ?_ h11 ht⟩
      cases h8 with
      | mk hr' _ _ _ => exact hA _ _ hr'
  · intro v q hv hr hq
    obtain ⟨d', c, h8, h9⟩ := ref h5 v q hv hr hq
    exact ⟨d', c, h8, of_decide_eq_true h9⟩
  · intro v q hv hr hq
    obtain ⟨d', c, h8, h9⟩ := ref h6 v q hv hr hq
    exact ⟨d', c, h8, of_decide_eq_true h9⟩
  · intro hn c hc
    rcases Bool.or_eq_true_iff.1 h7 with h7 | h7
    · exact absurd hn (of_decide_eq_true h7)
    · have h9 := List.all_eq_true.1 h7 c hc
      intro hne
      rcases Bool.or_eq_true_iff.1 h9 with h9 | h9
      · exact absurd (of_decide_eq_true h9) hne
      · split at h9
        · next m hm =>
          have hm := parseMaxOccurs_maxOf hm
          rcases of_decide_eq_true h9 with h9 | h9
          · exact .inl (h9 ▸ hm)
          · exact .inr (h9 ▸ hm)
        · cases h9

/-- The requirements on a node and those below, unless they are nested deeper. -/
def treeB (tops : List (QName × XDoc × Nd)) (d : XDoc) : Nat → Nd → Bool
  | 0, _ => false
  | k + 1, nd => nodeB tops k d nd && nd.xsdKids.all (treeB tops d k)

/-- The nodes that become types are not nested deeper. -/
def shallow : Nat → Nd → Bool
  | 0, _ => false
  | k + 1, nd => !holds nd || nd.xsdKids.all (shallow k)

theorem shallow_count (k : Nat) : ∀ {nd : Nd}, shallow k nd = true → ∀ k', k ≤ k' → typesBelow k' nd = typesBelow k nd := by
  induction k with
  | zero => intro nd h; cases h
  | succ k ih =>
    intro nd h k' hk
    obtain ⟨k'', rfl⟩ : ∃ k'', k' = k'' + 1 := ⟨k' - 1, by omega⟩
    unfold typesBelow
    unfold shallow at h
    cases hh : holds nd with
    | false => rfl
    | true =>
      rw [hh] at h
      simp only [Bool.not_true, Bool.false_or] at h
      simp only [if_true]
      congr 1
      refine List.map_congr_left fun c hc => ?_
      rw [ih (List.all_eq_true.1 h c hc) k'' (by omega)]

/-- Nor are the files. -/
def shallowFile (F : Files) : Nat → Str → Bool
  | 0, _ => false
  | k + 1, path =>
    match F.read path with
    | some (.doc d) => (Nd.of d.root).xsdKids.all (fun c =>
        if c.name = c!"include" ∨ c.name = c!"import" then
          match c.value c!"schemaLocation" with
          | some l => shallowFile F k (F.push (F.parent path) l)
          | none => true
        else shallow k c)
    | _ => true

theorem shallowFile_count {F : Files} (k : Nat) : ∀ {path : Str}, shallowFile F k path = true → ∀ k', k ≤ k' → typesOf F k' path = typesOf F k path := by
  induction k with
  | zero => intro nd h; cases h
  | succ k ih =>
    intro path h k' hk
    obtain ⟨k'', rfl⟩ : ∃ k'', k' = k'' + 1 := ⟨k' - 1, by omega⟩
    unfold typesOf
    unfold shallowFile at h
    split at h
    · next d hd =>
      rw [hd]
      dsimp only
      congr 1
      refine List.map_congr_left fun c hc => ?_
      have h := List.all_eq_true.1 h c hc
      split at h
      · next hn =>
        rw [if_pos hn, if_pos hn]
        split at h
        · next l hl =>
          rw [hl]
          exact ih h k'' (by omega)
        · next hl => rw [hl]
      · next hn =>
        rw [if_neg hn, if_neg hn, shallow_count k h k'' (by omega)]
    · next hno =>
      split
      · next d hd => exact absurd hd (hno d)
      · rfl

/-- The requirements on files, unless something is nested deeper. -/
def treeFilesB (F : Files) (k : Nat) (path : Str) (n : Nat) : Bool :=
  match docsOf F k path with
  | some L =>
    L.all (fun d => decide (d.root.1.nss.map Prod.fst).Nodup && d.root.1.nss.all (fun b => decide (b.1 = none → b.2 = nsXsd)) &&
      (Nd.of d.root).xsdKids.all (treeB (topsOf L) d k)) &&
    shallowFile F k path && decide (typesOf F k path = n)
  | none => false

theorem treeFilesB_sound {F : Files} {k : Nat} {path : Str} {n : Nat} (h : treeFilesB F k path n = true) : TreeFiles F path ∧ TypeCount F path n := by
  unfold treeFilesB at h
  split at h
  · next L hL =>
    obtain ⟨h1, h2⟩ := docsOf_spec k hL
    simp only [Bool.and_eq_true, decide_eq_true_eq] at h
    obtain ⟨⟨h3, h4⟩, h5⟩ := h
    have hd : ∀ p d, Reads F path p d → (d.root.1.nss.map Prod.fst).Nodup ∧ (∀ u, (none, u) ∈ d.root.1.nss → u = nsXsd) ∧
        ∀ c ∈ (Nd.of d.root).xsdKids, treeB (topsOf L) d k c = true := by
      intro p d hr
      have := List.all_eq_true.1 h3 d (h1 p d hr)
      simp only [Bool.and_eq_true, decide_eq_true_eq] at this
      exact ⟨this.1.1, fun u hu => of_decide_eq_true (List.all_eq_true.1 this.1.2 _ hu) rfl, List.all_eq_true.1 this.2⟩
    have hT : ∀ t ∈ topsOf L, Top F path t.1 t.2.1 t.2.2 := fun t ht => topsOf_sound h2 ht
    have tree : ∀ (k : Nat) {d : XDoc} {nd : Nd}, (d.root.1.nss.map Prod.fst).Nodup → treeB (topsOf L) d k nd = true → TreeOK F path d nd := by
      intro k
      induction k with
      | zero => intro d nd _ h; cases h
      | succ k ih =>
        intro d nd hN h
        obtain ⟨h6, h7⟩ := Bool.and_eq_true_iff.1 h
        exact .mk (nodeB_sound hT (fun q d c h => topsOf_complete h1 h) (fun p d hr => (hd p d hr).1) hN h6) fun c hc => ih hN (List.all_eq_true.1 h7 c hc)
    refine ⟨⟨fun p d hr => ⟨(hd p d hr).1, (hd p d hr).2.1⟩, fun p d hr c hc => tree k (hd p d hr).1 ((hd p d hr).2.2 c hc)⟩, k, fun k' hk => ?_⟩
    rw [shallowFile_count k h4 k' hk, h5]
  · cases h

end Xsd.Tree
