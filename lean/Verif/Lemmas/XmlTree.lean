import Verif.Lemmas.XmlText
import Verif.Lemmas.Build
/-!
# The tree read from the text of an event stream
-/
namespace Xsd
namespace XmlText

/-! ## Elements -/

theorem allDiff_iff {α : Type} [DecidableEq α] (l : List α) : allDiff l = true ↔ l.Nodup := by
  induction l with
  | nil => simp [allDiff]
  | cons a l ih => simp [allDiff, ih]

theorem resolveAttrs_inv {l : List (Str × Str)} {xs : List XAttr} (h : resolveAttrs l = some xs) :
    (∀ p ∈ l, PlainName p.1) ∧ (l.map Prod.fst).Nodup ∧ xs = l.map (fun p => ⟨p.1, none, p.2, 0⟩) := by
  induction l generalizing xs with
  | nil => simp [resolveAttrs] at h; simp [h]
  | cons p l ih =>
    obtain ⟨n, v⟩ := p
    simp only [resolveAttrs] at h
    split at h
    · cases h
    · next hc =>
      simp only [Bool.or_eq_true, not_or, Bool.not_eq_true, beq_eq_false_iff_ne] at hc
      rw [Option.map_eq_some_iff] at h
      obtain ⟨ys, h1, rfl⟩ := h
      obtain ⟨i1, i2, i3⟩ := ih h1
      refine ⟨?_, ?_, by simp [i3]⟩
      · intro q hq
        rcases List.mem_cons.1 hq with rfl | hq
        · exact ⟨by simpa using hc.1.1, hc.1.2⟩
        · exact i1 q hq
      · rw [List.map_cons, List.nodup_cons]
        exact ⟨by simpa using hc.2, i2⟩

theorem plain_nsDecl {a : Str} (h : PlainName a) : nsDecl a = none := by
  unfold nsDecl
  rw [if_neg h.2, h.1]

theorem xmlns_colon (p : Str) : splitColon (c!"xmlns:" ++ p) = some (c!"xmlns", p) :=
  splitColon_append (p := c!"xmlns") (by decide)

theorem nsDecl_declAttr (b : Str × Str) : nsDecl (declAttr b).1 = some b.1 := by
  unfold declAttr
  split
  · next h => simp [nsDecl, h]
  · unfold nsDecl
    simp only
    rw [xmlns_colon, if_neg (by simp)]
    simp

theorem declAttr_qName {b : Str × Str} (h : b.1 = [] ∨ isNCName b.1 = true) : isQName (declAttr b).1 = true := by
  unfold declAttr
  split
  · show isQName c!"xmlns" = true
    decide
  · next hb =>
    simp only [isQName, xmlns_colon]
    rcases h with h | h
    · exact absurd h hb
    · rw [h]; decide

theorem filterMap_decls {ds as : List (Str × Str)} (h : ∀ p ∈ as, PlainName p.1) :
    (ds.map declAttr ++ as).filterMap (fun a => (nsDecl a.1).map (fun p => (p, a.2))) = ds := by
  rw [List.filterMap_append]
  have h1 : as.filterMap (fun a => (nsDecl a.1).map (fun p => (p, a.2))) = [] := by
    rw [List.filterMap_eq_nil_iff]
    intro a ha
    rw [plain_nsDecl (h a ha)]; rfl
  rw [h1, List.append_nil]
  induction ds with
  | nil => rfl
  | cons b ds ih =>
    rw [List.map_cons, List.filterMap_cons, nsDecl_declAttr]
    simp only [Option.map_some]
    rw [ih]; rfl

theorem filter_decls {ds as : List (Str × Str)} (h : ∀ p ∈ as, PlainName p.1) :
    (ds.map declAttr ++ as).filter (fun a => (nsDecl a.1).isNone) = as := by
  rw [List.filter_append]
  have h1 : (ds.map declAttr).filter (fun a => (nsDecl a.1).isNone) = [] := by
    rw [List.filter_eq_nil_iff]
    intro a ha
    obtain ⟨b, _, rfl⟩ := List.mem_map.1 ha
    rw [nsDecl_declAttr]; simp
  rw [h1, List.nil_append, List.filter_eq_self]
  intro a ha
  rw [plain_nsDecl (h a ha)]; rfl

theorem readAttrs_plain {sc : Scope} {as : List (Str × Str)} (h : ∀ p ∈ as, PlainName p.1) :
    readAttrs sc as = some (as.map (fun p => ⟨p.1, none, p.2, 0⟩)) := by
  induction as with
  | nil => rfl
  | cons a as ih =>
    rw [readAttrs, ih (fun p hp => h p (by simp [hp]))]
    unfold readAttr
    rw [(h a (by simp)).1]; rfl

theorem nodup_decls {ds as : List (Str × Str)} (hd : (ds.map Prod.fst).Nodup) (h : ∀ p ∈ as, PlainName p.1) (ha : (as.map Prod.fst).Nodup) :
    ((ds.map declAttr ++ as).map Prod.fst).Nodup := by
  rw [List.map_append, List.nodup_append]
  have key : ∀ a b : Str × Str, (declAttr a).1 = (declAttr b).1 → a.1 = b.1 := by
    intro a b e
    have := congrArg nsDecl e
    rw [nsDecl_declAttr, nsDecl_declAttr] at this
    exact Option.some.inj this
  refine ⟨?_, ha, ?_⟩
  · induction ds with
    | nil => simp
    | cons b ds ih =>
      simp only [List.map_cons, List.nodup_cons] at hd ⊢
      refine ⟨fun hm => hd.1 ?_, ih hd.2⟩
      obtain ⟨x, hx, e⟩ := List.mem_map.1 hm
      obtain ⟨y, hy, rfl⟩ := List.mem_map.1 hx
      exact List.mem_map.2 ⟨y, hy, key y b e⟩
  · intro n hn m hm e
    subst e
    obtain ⟨x, hx, rfl⟩ := List.mem_map.1 hn
    obtain ⟨y, hy, rfl⟩ := List.mem_map.1 hx
    obtain ⟨z, hz, e⟩ := List.mem_map.1 hm
    have := plain_nsDecl (h z hz)
    rw [e, nsDecl_declAttr] at this
    cases this

/-- The bindings of the text and those of the events: the former may lack repeated ones. -/
def SameScope (sc scB : Scope) : Prop := ∀ p, alookup sc p = alookup scB p

theorem resolve_same {sc scB : Scope} (h : SameScope sc scB) {n : Str} {q : QName} (hq : resolveName scB n = some q) :
    resolveName (sc ++ xmlScope) n = some q := by
  unfold resolveName at hq ⊢
  split at hq
  · next p l he =>
    rw [Option.map_eq_some_iff] at hq
    obtain ⟨u, h1, h2⟩ := hq
    simp only [alookup_append, h p, h1, Option.some_or, Option.map_some, h2]
  · have : alookup (sc ++ xmlScope) [] = alookup scB [] := by
      rw [alookup_append, h []]
      cases alookup scB [] <;> rfl
    simp only [this]
    exact hq

theorem alookup_filter_none {f : Str × Str → Bool} {nss : List (Str × Str)} {p : Str} (h : alookup nss p = none) : alookup (nss.filter f) p = none := by
  rw [alookup_eq_none_iff] at h ⊢
  intro hm
  obtain ⟨b, hb, rfl⟩ := List.mem_map.1 hm
  exact h (List.mem_map.2 ⟨b, (List.mem_filter.1 hb).1, rfl⟩)

theorem alookup_filter_some {f : Str × Str → Bool} {nss : List (Str × Str)} (hn : (nss.map Prod.fst).Nodup) {p u : Str}
    (h : alookup nss p = some u) : alookup (nss.filter f) p = if f (p, u) then some u else none := by
  have hm := alookup_mem h
  have hn' : ((nss.filter f).map Prod.fst).Nodup := (List.Sublist.map Prod.fst List.filter_sublist).nodup hn
  split
  · next hf => exact alookup_of_mem hn' (List.mem_filter.2 ⟨hm, hf⟩)
  · next hf =>
    rw [alookup_eq_none_iff]
    intro hm'
    obtain ⟨⟨p', u'⟩, hb, e⟩ := List.mem_map.1 hm'
    simp only at e; subst e
    obtain ⟨hb1, hb2⟩ := List.mem_filter.1 hb
    have := alookup_of_mem hn hb1
    rw [h] at this; cases this
    exact hf hb2

theorem sameScope_open {sc scB : Scope} (h : SameScope sc scB) {nss ds dsB : List (Str × Str)} (hn : (nss.map Prod.fst).Nodup)
    (hd : DeclsFor sc nss ds) (hB : declared nss = some dsB) : SameScope (ds ++ sc) (dsB ++ scB) := by
  obtain ⟨f, rfl, hf⟩ := hd
  unfold declared at hB
  split at hB
  · cases hB
  cases hB
  intro p
  rw [alookup_append, alookup_append, h p]
  cases hp : alookup nss p with
  | none => rw [alookup_filter_none hp, alookup_filter_none hp]
  | some u =>
    rw [alookup_filter_some hn hp, alookup_filter_some hn hp]
    obtain ⟨h1, h2⟩ := hf _ (alookup_mem hp)
    by_cases hb : (p, u) = ([], [])
    · cases hb
      rw [if_neg (fun e => h1 e rfl)]; rfl
    · have hb' : (!(p == [] && u == [])) = true := by
        simp only [Bool.not_eq_true', Bool.and_eq_false_iff, beq_eq_false_iff_ne]
        by_cases hp0 : p = []
        · exact .inr (fun hu => hb (by rw [hp0, hu]))
        · exact .inl hp0
      simp only [hb', if_true]
      cases hfb : f (p, u) with
      | true => rfl
      | false =>
        rcases h2 hfb with e | e
        · exact absurd e hb
        · rw [← h p]; simp only at e; rw [e]; rfl

theorem declsFor_ok {sc : Scope} {n : Str} {as nss ds : List (Str × Str)} (hw : WellNamed (.start n as nss)) (hd : DeclsFor sc nss ds) :
    (ds.map Prod.fst).Nodup ∧ ∀ b ∈ ds, (b.1 = [] ∨ isNCName b.1 = true) ∧ bindingOk b = true := by
  obtain ⟨f, rfl, hf⟩ := hd
  obtain ⟨_, _, hn, hb⟩ := hw
  refine ⟨(List.Sublist.map Prod.fst List.filter_sublist).nodup hn, fun b hm => ?_⟩
  obtain ⟨h1, h2⟩ := List.mem_filter.1 hm
  obtain ⟨h3, h4, h5, h6, h7, h8⟩ := hb b h1 ((hf b h1).1 h2)
  refine ⟨h3, ?_⟩
  have e1 : (b.1 == c!"xml") = false := by simpa using h5
  have e2 : (b.2 == xmlNs) = false := by simpa using h7
  simp only [bindingOk, e1, e2]
  simp [h4, h6, h8]

/-- A start tag opens the same element. -/
theorem readElem_open {sc scB : Scope} (h : SameScope sc scB) {n : Str} {as nss ds : List (Str × Str)} (hw : WellNamed (.start n as nss))
    (hd : DeclsFor sc nss ds) {f : Frame} (hf : openElem scB n as nss = some f) :
    readElem (sc ++ xmlScope) n (ds.map declAttr ++ as) = some ⟨f.info, ds ++ sc ++ xmlScope, []⟩ ∧ f.kids = [] ∧
      SameScope (ds ++ sc) f.scope := by
  obtain ⟨d1, d2⟩ := declsFor_ok hw hd
  obtain ⟨w1, w2, w3, w4⟩ := hw
  simp only [openElem, Option.bind_eq_bind, Option.bind_eq_some_iff] at hf
  obtain ⟨dsB, hB, q, hq, xs, hx, hf⟩ := hf
  cases hf
  obtain ⟨a1, a2, a3⟩ := resolveAttrs_inv hx
  have hs := sameScope_open h w3 hd hB
  refine ⟨?_, rfl, hs⟩
  have hres : resolveName (ds ++ (sc ++ xmlScope)) n = some q := by
    rw [← List.append_assoc]; exact resolve_same hs hq
  have hcond : isQName n = true ∧ ((ds.map declAttr ++ as).all (fun a => isQName a.1)) = true ∧
      allDiff ((ds.map declAttr ++ as).map Prod.fst) = true ∧ ds.all bindingOk = true := by
    refine ⟨w1, ?_, ?_, ?_⟩
    · rw [List.all_eq_true]
      intro a ha
      rcases List.mem_append.1 ha with ha | ha
      · obtain ⟨b, hb, rfl⟩ := List.mem_map.1 ha
        exact declAttr_qName (d2 b hb).1
      · exact w2 a ha
    · rw [allDiff_iff]; exact nodup_decls d1 a1 a2
    · rw [List.all_eq_true]; exact fun b hb => (d2 b hb).2
  have hdiff : allDiff ((as.map (fun p => (⟨p.1, none, p.2, 0⟩ : XAttr))).map (fun a => (a.loc, a.ns))) = true := by
    rw [allDiff_iff, List.map_map]
    have : ((fun a : XAttr => (a.loc, a.ns)) ∘ fun p : Str × Str => (⟨p.1, none, p.2, 0⟩ : XAttr)) =
        (fun s : Str => (s, (none : Option Str))) ∘ Prod.fst := rfl
    rw [this, ← List.map_map]
    clear a3 hx hcond hres w2
    revert a2
    generalize as.map Prod.fst = l
    intro hl
    induction l with
    | nil => simp
    | cons a l ih =>
      rw [List.nodup_cons] at hl
      rw [List.map_cons, List.nodup_cons]
      refine ⟨fun hm => hl.1 ?_, ih hl.2⟩
      obtain ⟨b, hb, e⟩ := List.mem_map.1 hm
      cases e; exact hb
  simp only [readElem, filterMap_decls a1, filter_decls a1]
  rw [if_pos hcond, hres, readAttrs_plain a1]
  simp only [hdiff, if_true, a3, List.append_assoc]

/-! ## Child nodes -/

/-- The children read so far, compared with those of the events: white space may have been added before elements as long as there is no
text. -/
inductive Grown : Bool → List XNode → List XNode → Prop where
  | nil : Grown false [] []
  | elem {b : Bool} {ks ks' : List XNode} {i i' : ElemInfo} {cs cs' : List XNode} (h : Grown b ks ks') (hc : Indented (.elem i cs) (.elem i' cs')) :
      Grown b (ks ++ [.elem i cs]) (ks' ++ [.elem i' cs'])
  | spaced {ks ks' : List XNode} {i i' : ElemInfo} {cs cs' : List XNode} {w : Str} (h : Grown false ks ks') (hw : Blank w)
      (hc : Indented (.elem i cs) (.elem i' cs')) : Grown false (ks ++ [.elem i cs]) (ks' ++ [.text w, .elem i' cs'])
  | text {b : Bool} {ks ks' : List XNode} {s : Str} (h : Grown b ks ks') (hl : ∀ t, ks.getLast? ≠ some (.text t)) :
      Grown true (ks ++ [.text s]) (ks' ++ [.text s])

theorem blank_space {w : Str} (h : Blank w) : w.all isXmlSpace = true := by
  rw [List.all_eq_true]
  intro c hc
  rcases h c hc with rfl | rfl | rfl <;> decide

theorem indentedL_true {b : Bool} {ks ks' : List XNode} (h : IndentedL b ks ks') : IndentedL true ks ks' := by
  match b, ks, ks', h with
  | _, _, _, .nil => exact .nil
  | _, _, _, .cons h hs => exact .cons h (indentedL_true hs)
  | _, _, _, .space hw h => exact .space hw h

theorem indentedL_append {b : Bool} {ks ks' ls ls' : List XNode} (h : IndentedL b ks ks') (h' : IndentedL b ls ls') :
    IndentedL b (ks ++ ls) (ks' ++ ls') := by
  match b, ks, ks', h with
  | _, _, _, .nil => exact h'
  | _, _, _, .cons h hs => exact .cons h (indentedL_append hs h')
  | _, _, _, .space hw h => exact .space hw (indentedL_append h h')

theorem Grown.elems {b : Bool} {ks ks' : List XNode} (h : Grown b ks ks') (hb : b = false) :
    ∀ c ∈ ks, ∀ s, c ≠ .text s := by
  induction h with
  | nil => simp
  | elem h hc ih =>
    intro c hm
    rcases List.mem_append.1 hm with hm | hm
    · exact ih hb c hm
    · rw [List.mem_singleton.1 hm]; simp
  | spaced h hw hc ih =>
    intro c hm
    rcases List.mem_append.1 hm with hm | hm
    · exact ih rfl c hm
    · rw [List.mem_singleton.1 hm]; simp
  | text h hl ih => cases hb

/-- White space has only been added if the first child is not text. -/
theorem Grown.indentedL {b : Bool} {ks ks' : List XNode} (h : Grown b ks ks') :
    IndentedL false ks ks' ∨ (IndentedL true ks ks' ∧ ∃ c cs, ks = c :: cs ∧ ∀ s, c ≠ .text s) := by
  have push : ∀ {ks ks' : List XNode} {c c' : XNode}, Indented c c' →
      (IndentedL false ks ks' ∨ (IndentedL true ks ks' ∧ ∃ c cs, ks = c :: cs ∧ ∀ s, c ≠ .text s)) →
      IndentedL false (ks ++ [c]) (ks' ++ [c']) ∨
        (IndentedL true (ks ++ [c]) (ks' ++ [c']) ∧ ∃ d cs, ks ++ [c] = d :: cs ∧ ∀ s, d ≠ .text s) := by
    intro ks ks' c c' hc h
    rcases h with h | ⟨h, d, cs, e, hd⟩
    · exact .inl (indentedL_append h (.cons hc .nil))
    · exact .inr ⟨indentedL_append h (.cons hc .nil), d, cs ++ [c], by rw [e]; rfl, hd⟩
  induction h with
  | nil => exact .inl .nil
  | elem h hc ih => exact push hc ih
  | @spaced ks ks' i i' cs cs' w h hw hc ih =>
    refine .inr ⟨indentedL_append (b := true) ?_ (.space (blank_space hw) (.cons hc .nil)), ?_⟩
    · rcases ih with ih | ih
      · exact indentedL_true ih
      · exact ih.1
    · cases ks with
      | nil => exact ⟨_, [], rfl, by simp⟩
      | cons c ks => exact ⟨c, _, rfl, h.elems rfl c (by simp)⟩
  | text h hl ih => exact push (.text _) ih

theorem Grown.indented {b : Bool} {ks ks' : List XNode} (h : Grown b ks ks') (i : ElemInfo) : Indented (.elem i ks) (.elem i ks') := by
  rcases h.indentedL with h | ⟨h, c, cs, rfl, hc⟩
  · exact .same h
  · exact .sep h hc

theorem Grown.indented_end {ks ks' : List XNode} (h : Grown false ks ks') (hk : ks ≠ []) {w : Str} (hw : Blank w) (i : ElemInfo) :
    Indented (.elem i ks) (.elem i (ks' ++ [.text w])) := by
  have h1 : IndentedL true ks ks' := by
    rcases h.indentedL with h | h
    · exact indentedL_true h
    · exact h.1
  cases ks with
  | nil => exact absurd rfl hk
  | cons c ks =>
    have := indentedL_append h1 (.space (blank_space hw) .nil)
    rw [List.append_nil] at this
    exact .sep this (h.elems rfl c (by simp))

/-- The last children are alike. -/
theorem Grown.last {b : Bool} {ks ks' : List XNode} (h : Grown b ks ks') :
    (b = true ∧ ∃ b1 js js' t, ks = js ++ [.text t] ∧ ks' = js' ++ [.text t] ∧ Grown b1 js js' ∧ ∀ t, js.getLast? ≠ some (.text t)) ∨
    ((∀ t, ks.getLast? ≠ some (.text t)) ∧ ∀ t, ks'.getLast? ≠ some (.text t)) := by
  cases h with
  | nil => exact .inr ⟨by simp, by simp⟩
  | elem h hc => exact .inr ⟨by simp, by simp⟩
  | spaced h hw hc => exact .inr ⟨by simp, by simp⟩
  | text h hl => exact .inl ⟨rfl, _, _, _, _, rfl, rfl, h, hl⟩

theorem addText_last {ks : List XNode} {s : Str} (hs : s ≠ []) (h : ∀ t, ks.getLast? ≠ some (.text t)) : addText ks s = ks ++ [.text s] := by
  unfold addText
  rw [if_neg hs]
  split
  · next t e => exact absurd e (h t)
  · rfl

theorem addText_merge {ks : List XNode} {s t : Str} (hs : s ≠ []) : addText (ks ++ [.text t]) s = ks ++ [.text (t ++ s)] := by
  unfold addText
  rw [if_neg hs, List.getLast?_concat]
  simp

theorem Grown.addText {b : Bool} {ks ks' : List XNode} (h : Grown b ks ks') (s : Str) :
    Grown (b || s != []) (addText ks s) (Xsd.addText ks' s) := by
  by_cases hs : s = []
  · subst hs; simpa [addText_nil] using h
  · have hb : (b || s != []) = true := by simp [hs]
    rw [hb]
    rcases h.last with ⟨rfl, b1, js, js', t, rfl, rfl, h1, h2⟩ | ⟨h1, h2⟩
    · rw [addText_merge hs, addText_merge hs]; exact .text h1 h2
    · rw [addText_last hs h1, addText_last hs h2]; exact .text h h1

/-! ## Elements that are open -/

/-- The innermost element: for the emitter, for the events, and as read. -/
structure Live (o : Open) (f f' : Frame) : Prop where
  name : isQName o.name = true
  info : f'.info = f.info
  scope : f'.scope = o.scope ++ xmlScope
  same : SameScope o.scope f.scope
  grown : Grown o.text f.kids f'.kids
  elems : o.elems = true → f.kids ≠ []

/-- An element in which another one is open: there may be white space before the latter. -/
structure Held (o : Open) (f f' : Frame) : Prop where
  name : isQName o.name = true
  info : f'.info = f.info
  scope : f'.scope = o.scope ++ xmlScope
  same : SameScope o.scope f.scope
  grown : ∃ w ks', Blank w ∧ (w = [] ∨ o.text = false) ∧ f'.kids = ks' ++ (if w = [] then [] else [.text w]) ∧ Grown o.text f.kids ks'

/-- The elements around the innermost one. -/
inductive Stack : List Open → List Frame → List (Str × Frame) → Prop where
  | nil : Stack [] [] []
  | cons {o : Open} {os : List Open} {f f' : Frame} {fs : List Frame} {fs' : List (Str × Frame)} (h : Held o f f') (hs : Stack os fs fs') :
      Stack (o :: os) (f :: fs) ((o.name, f') :: fs')

/-- What has been built from the events and what has been read. -/
inductive Sim : BState → List Open → RState → Prop where
  | before : Sim .before [] .before
  | inside {o : Open} {os : List Open} {f f' : Frame} {fs : List Frame} {fs' : List (Str × Frame)} (h : Live o f f') (hs : Stack os fs fs') :
      Sim (.inside f fs) (o :: os) (.inside o.name f' fs')
  | done {e e' : Elem} (h : Indented (.elem e.1 e.2) (.elem e'.1 e'.2)) : Sim (.done e) [] (.done e')

theorem Sim.start {B B' : BState} {st : List Open} {R : RState} (h : Sim B st R) {n : Str} {as nss ds : List (Str × Str)}
    (hw : WellNamed (.start n as nss)) (hd : DeclsFor (openScope st) nss ds) (hB : bstep B (.start n as nss) = some B') {w : Str} (hb : Blank w)
    (hs : w = [] ∨ spaceBefore st) (k : Nat) : ∃ k1 R1 R2, (∀ t, readFrom (.content k) R (w ++ t) = readFrom (.content k1) R1 t) ∧
      rstep R1 (.start n (ds.map declAttr ++ as)) = some R2 ∧ Sim B' (⟨n, false, false, ds ++ openScope st⟩ :: addElem st) R2 := by
  have live : ∀ {sc : Scope} {f : Frame}, f.kids = [] → SameScope (ds ++ sc) f.scope →
      Live ⟨n, false, false, ds ++ sc⟩ f ⟨f.info, ds ++ sc ++ xmlScope, []⟩ := by
    intro sc f h1 h2
    refine ⟨hw.1, rfl, rfl, h2, ?_, fun e => by cases e⟩
    rw [h1]; exact .nil
  cases h with
  | before =>
    simp only [bstep, Option.map_eq_some_iff] at hB
    obtain ⟨f, hf, rfl⟩ := hB
    obtain ⟨h1, h2, h3⟩ := readElem_open (sc := []) (fun _ => rfl) hw hd hf
    refine ⟨_, .before, _, fun t => readFrom_outer .before hb, ?_, .inside (live h2 h3) .nil⟩
    rw [List.nil_append] at h1
    simp only [rstep, h1, Option.map_some]; rfl
  | @inside o os f0 f0' fs fs' h hst =>
    simp only [bstep, Option.map_eq_some_iff] at hB
    obtain ⟨f, hf, rfl⟩ := hB
    obtain ⟨h1, h2, h3⟩ := readElem_open h.same hw hd hf
    refine ⟨_, RState.put o.name f0' fs' w, _, fun t => readFrom_blank hb, ?_, .inside (live h2 h3) (.cons (o := { o with elems := true }) (f' := { f0' with kids := addText f0'.kids w })
      ⟨h.name, h.info, h.scope, h.same, w, f0'.kids, hb, hs, ?_, h.grown⟩ hst)⟩
    · have h1' : readElem f0'.scope n (ds.map declAttr ++ as) = some ⟨f.info, ds ++ o.scope ++ xmlScope, []⟩ := by
        rw [h.scope]; exact h1
      simp only [RState.put, rstep, h1', Option.map_some]; rfl
    · by_cases hw0 : w = []
      · subst hw0; simp [addText_nil]
      · rw [if_neg hw0]
        have ht : o.text = false := hs.resolve_left hw0
        have hg := h.grown
        rw [ht] at hg
        rcases hg.last with ⟨e, _⟩ | ⟨_, e⟩
        · cases e
        · exact addText_last hw0 e
  | done h => cases hB

theorem Sim.fin {B B' : BState} {o : Open} {st : List Open} {R : RState} (h : Sim B (o :: st) R) (hB : bstep B .fin = some B') {w : Str}
    (hb : Blank w) (hs : w = [] ∨ (o.text = false ∧ o.elems = true)) (k : Nat) : isQName o.name = true ∧
      ∃ k1 R1 R2, (∀ t, readFrom (.content k) R (w ++ t) = readFrom (.content k1) R1 t) ∧
        rstep R1 (.fin o.name) = some R2 ∧ Sim B' st R2 := by
  cases h with
  | @inside _ _ f f' fs fs' h hst =>
    refine ⟨h.name, ?_⟩
    have hind : Indented (.elem f.info f.kids) (.elem f'.info (addText f'.kids w)) := by
      rw [h.info]
      rcases hs with rfl | ⟨h1, h2⟩
      · rw [addText_nil]; exact h.grown.indented _
      · by_cases hw0 : w = []
        · subst hw0; rw [addText_nil]; exact h.grown.indented _
        · have hg := h.grown
          rw [h1] at hg
          rcases hg.last with ⟨e, _⟩ | ⟨_, e⟩
          · cases e
          · rw [addText_last hw0 e]; exact hg.indented_end (h.elems h2) hb _
    cases hst with
    | nil =>
      simp only [bstep, Option.some.injEq] at hB
      subst hB
      exact ⟨_, RState.put o.name f' [] w, .done (f'.info, addText f'.kids w), fun t => readFrom_blank hb, by simp [RState.put, rstep], .done hind⟩
    | @cons p ps g g' gs gs' hh hst =>
      simp only [bstep, Option.some.injEq] at hB
      subst hB
      refine ⟨_, RState.put o.name f' _ w, .inside p.name { g' with kids := g'.kids ++ [.elem f'.info (addText f'.kids w)] } gs', fun t => readFrom_blank hb, by simp [RState.put, rstep],
        .inside ⟨hh.name, hh.info, hh.scope, hh.same, ?_, fun _ => by simp⟩ hst⟩
      obtain ⟨w0, ks', b1, b2, b3, b4⟩ := hh.grown
      simp only [b3]
      by_cases hw0 : w0 = []
      · rw [if_pos hw0, List.append_nil]; exact .elem b4 hind
      · rw [if_neg hw0, List.append_assoc]
        have := b2.resolve_left hw0
        rw [this] at b4 ⊢
        exact .spaced b4 b1 hind

theorem Sim.chars {B B' : BState} {o : Open} {st : List Open} {R : RState} (h : Sim B (o :: st) R) {s : Str} (hB : bstep B (.chars s) = some B')
    {k k' : Nat} {ts : Str} (hs : SpellsText k s ts k') :
    ∃ R2, (∀ t, readFrom (.content k) R (ts ++ t) = readFrom (.content k') R2 t) ∧ Sim B' ({ o with text := o.text || s != [] } :: st) R2 := by
  cases h with
  | @inside _ _ f f' fs fs' h hst =>
    simp only [bstep, Option.some.injEq] at hB
    subst hB
    refine ⟨RState.put o.name f' fs' s, fun t => readFrom_text hs, .inside (o := { o with text := o.text || s != [] }) ⟨h.name, h.info, h.scope, h.same, h.grown.addText s, fun he => ?_⟩ hst⟩
    have := h.elems he
    simp only
    unfold addText
    split
    · exact this
    · split <;> simp

theorem brun_cons {B : BState} {ev : Ev} {evs : List Ev} {B2 : BState} (h : brun B (ev :: evs) = some B2) :
    ∃ B1, bstep B ev = some B1 ∧ brun B1 evs = some B2 := by
  rw [brun] at h
  split at h
  · next B1 he => exact ⟨B1, he, h⟩
  · cases h

/-- Reading what is written gives the tree that the events denote, up to white space. -/
theorem readFrom_written {st : List Open} {k : Nat} {evs : List Ev} {t : Str} (h : Written st k evs t) (hw : ∀ ev ∈ evs, WellNamed ev)
    {B : BState} {R : RState} (hS : Sim B st R) {e : Elem} (hB : brun B evs = some (.done e)) :
    ∃ k' e', readFrom (.content k) R t = some (.content k', .done e') ∧ Indented (.elem e.1 e.2) (.elem e'.1 e'.2) := by
  induction h generalizing B R with
  | @nil k w hb =>
    simp only [brun, Option.some.injEq] at hB
    subst hB
    cases hS with
    | @done _ e' h =>
      have := readFrom_outer (.done e') hb (k := k) (t := [])
      rw [List.append_nil] at this
      exact ⟨_, _, by rw [this]; rfl, h⟩
  | start hb hs ht h ih =>
    obtain ⟨B1, h1, h2⟩ := brun_cons hB
    obtain ⟨hd, ta, w, ha, hw', rfl⟩ := ht
    have hwn := hw _ (List.mem_cons_self ..)
    obtain ⟨k1, R1, R2, r1, r2, r3⟩ := hS.start hwn hd h1 hb hs _
    obtain ⟨k', e', h3, h4⟩ := ih (fun ev he => hw ev (by simp [he])) r3 h2
    refine ⟨k', e', ?_, h4⟩
    rw [r1, List.append_assoc, List.append_assoc, readFrom_start hwn.1 ha ?_ hw' r2, h3]
    intro b hm
    rcases List.mem_append.1 hm with hm | hm
    · obtain ⟨c, hc, rfl⟩ := List.mem_map.1 hm
      exact declAttr_qName ((declsFor_ok hwn hd).2 c hc).1
    · exact hwn.2.1 b hm
  | empty hb hs ht h ih =>
    obtain ⟨B1, h1, h2⟩ := brun_cons hB
    obtain ⟨B2, h2, h2'⟩ := brun_cons h2
    obtain ⟨hd, ta, w, ha, hw', rfl⟩ := ht
    have hwn := hw _ (List.mem_cons_self ..)
    obtain ⟨k1, R1, R2, r1, r2, r3⟩ := hS.start hwn hd h1 hb hs _
    obtain ⟨_, k2, R3, R4, s1, s2, s3⟩ := r3.fin h2 (w := []) (by simp [Blank]) (.inl rfl) 0
    obtain ⟨k', e', h3, h4⟩ := ih (fun ev he => hw ev (by simp [he])) s3 h2'
    refine ⟨k', e', ?_, h4⟩
    have hR : R3 = R2 := by
      have := s1 []
      simp only [List.append_nil, readFrom, Option.some.injEq, Prod.mk.injEq] at this
      exact this.2.symm
    subst hR
    rw [r1, List.append_assoc, List.append_assoc, readFrom_empty hwn.1 ha ?_ hw' r2 s2, h3]
    intro b hm
    rcases List.mem_append.1 hm with hm | hm
    · obtain ⟨c, hc, rfl⟩ := List.mem_map.1 hm
      exact declAttr_qName ((declsFor_ok hwn hd).2 c hc).1
    · exact hwn.2.1 b hm
  | fin hb hb' hs h ih =>
    obtain ⟨B1, h1, h2⟩ := brun_cons hB
    obtain ⟨hn, k1, R1, R2, r1, r2, r3⟩ := hS.fin h1 hb hs _
    obtain ⟨k', e', h3, h4⟩ := ih (fun ev he => hw ev (by simp [he])) r3 h2
    exact ⟨k', e', by rw [r1, readFrom_fin hn hb' r2, h3], h4⟩
  | chars hs h ih =>
    obtain ⟨B1, h1, h2⟩ := brun_cons hB
    obtain ⟨R2, r1, r2⟩ := hS.chars h1 hs
    obtain ⟨k', e', h3, h4⟩ := ih (fun ev he => hw ev (by simp [he])) r2 h2
    exact ⟨k', e', by rw [r1, h3], h4⟩
  | @outer k s t evs hb h ih =>
    obtain ⟨B1, h1, h2⟩ := brun_cons hB
    have hsp := blank_space hb
    cases hS with
    | before =>
      simp only [bstep, hsp, if_true, Option.some.injEq] at h1
      subst h1
      obtain ⟨k', e', h3, h4⟩ := ih (fun ev he => hw ev (by simp [he])) .before h2
      exact ⟨k', e', by rw [readFrom_outer .before hb, h3], h4⟩
    | done hd =>
      simp only [bstep, hsp, if_true, Option.some.injEq] at h1
      subst h1
      obtain ⟨k', e', h3, h4⟩ := ih (fun ev he => hw ev (by simp [he])) (.done hd) h2
      exact ⟨k', e', by rw [readFrom_outer (.done _) hb, h3], h4⟩

/-! ## The whole document -/

/-- Characters that are read as they are. -/
def Plain (t : Str) : Prop := ∀ c ∈ t, isXmlChar c = true ∧ c ≠ '\r'

theorem Plain.nil : Plain [] := by simp [Plain]

theorem Plain.append {s t : Str} (h : Plain s) (h' : Plain t) : Plain (s ++ t) := by
  intro c hc
  rcases List.mem_append.1 hc with hc | hc
  · exact h c hc
  · exact h' c hc

theorem Plain.cons {c : Char} {t : Str} (h : isXmlChar c = true ∧ c ≠ '\r') (h' : Plain t) : Plain (c :: t) := by
  intro d hd
  rcases List.mem_cons.1 hd with rfl | hd
  · exact h
  · exact h' d hd

theorem normEol_plain {t : Str} (h : Plain t) : normEol t = t := by
  induction t with
  | nil => rfl
  | cons c t ih =>
    have hc := (h c (by simp)).2
    rw [normEol]
    · rw [ih (fun d hd => h d (by simp [hd]))]
    · intro _ e; exact absurd e hc
    · exact hc

theorem blank_plain {w : Str} (h : Blank w) : Plain w := by
  intro c hc
  rcases h c hc with rfl | rfl | rfl <;> decide

theorem qName_plain {n : Str} (h : isQName n = true) : Plain n := by
  obtain ⟨c, cs, rfl, h1, h2⟩ := qName_cons h
  have key : ∀ d, QChar d → isXmlChar d = true ∧ d ≠ '\r' := by
    rintro d (hd | rfl)
    · exact ⟨nameChar_xmlChar hd, nameChar_ne hd _ (by decide)⟩
    · decide
  exact .cons (key c (.inl (nameStart_nameChar h1))) (fun d hd => key d (h2 d hd))

theorem refers_plain {r : Str} {c : Char} (h : Refers r c) : Plain r := fun d hd => (refers_semicolon h d hd).2

theorem spellsText_plain {k k' : Nat} {s t : Str} (h : SpellsText k s t k') : Plain t := by
  induction h with
  | nil => exact .nil
  | lit hx h1 h2 h3 h4 h ih => exact .cons ⟨hx, h3⟩ ih
  | ref hx hr h ih => exact .cons (by decide) ((refers_plain hr).append (.cons (by decide) ih))

theorem spellsAttr_plain {q : Char} {s t : Str} (h : SpellsAttr q s t) : Plain t := by
  induction h with
  | nil => exact .nil
  | lit hx h1 h2 h3 h4 h ih => exact .cons ⟨hx, h3.2.2⟩ ih
  | ref hx hr h ih => exact .cons (by decide) ((refers_plain hr).append (.cons (by decide) ih))

theorem attrsText_plain {as : List (Str × Str)} {t : Str} (h : AttrsText as t) (hn : ∀ a ∈ as, isQName a.1 = true) : Plain t := by
  induction h with
  | nil => exact .nil
  | @cons a v t w w1 w2 rest q as hw hn0 hw1 hw2 hq hv h ih =>
    have hq' : isXmlChar q = true ∧ q ≠ '\r' := by
      rcases hq with rfl | rfl
      · exact (by decide : isXmlChar '"' = true ∧ '"' ≠ '\r')
      · exact (by decide : isXmlChar '\'' = true ∧ '\'' ≠ '\r')
    have h1 := qName_plain (hn _ (List.mem_cons_self ..))
    exact (blank_plain hw).append (h1.append ((blank_plain hw1).append (.cons (by decide) ((blank_plain hw2).append (.cons hq'
      ((spellsAttr_plain hv).append (.cons hq' (ih (fun a ha => hn a (by simp [ha]))))))))))

theorem tagText_plain {sc : Scope} {n : Str} {as nss ds : List (Str × Str)} {t : Str} (h : TagText sc n as nss ds t) (hw : WellNamed (.start n as nss)) :
    Plain t := by
  obtain ⟨hd, ta, w, ha, hb, rfl⟩ := h
  refine (qName_plain hw.1).append ((attrsText_plain ha fun b hm => ?_).append (blank_plain hb))
  rcases List.mem_append.1 hm with hm | hm
  · obtain ⟨c, hc, rfl⟩ := List.mem_map.1 hm
    exact declAttr_qName ((declsFor_ok hw hd).2 c hc).1
  · exact hw.2.1 b hm

theorem written_plain {st : List Open} {k : Nat} {evs : List Ev} {t : Str} (h : Written st k evs t) (hw : ∀ ev ∈ evs, WellNamed ev)
    (hn : ∀ o ∈ st, isQName o.name = true) : Plain t := by
  have add : ∀ st : List Open, (∀ o ∈ st, isQName o.name = true) → ∀ o ∈ addElem st, isQName o.name = true := by
    intro st h o ho
    cases st with
    | nil => cases ho
    | cons p st =>
      rcases List.mem_cons.1 ho with rfl | ho
      · exact h p (by simp)
      · exact h o (by simp [ho])
  induction h with
  | nil hb => exact blank_plain hb
  | @start st k w n ta t as nss ds evs hb hs ht h ih =>
    have hwn := hw _ (List.mem_cons_self ..)
    refine (blank_plain hb).append (.cons (by decide) ((tagText_plain ht hwn).append (.cons (by decide) (ih (fun ev he => hw ev (by simp [he])) ?_))))
    intro o ho
    rcases List.mem_cons.1 ho with rfl | ho
    · exact hwn.1
    · exact add st hn o ho
  | @empty st k w n ta t as nss ds evs hb hs ht h ih =>
    have hwn := hw _ (List.mem_cons_self ..)
    exact (blank_plain hb).append (.cons (by decide) ((tagText_plain ht hwn).append (.cons (by decide) (.cons (by decide)
      (ih (fun ev he => hw ev (by simp [he])) (add st hn))))))
  | fin hb hb' hs h ih =>
    exact (blank_plain hb).append (.cons (by decide) (.cons (by decide) ((qName_plain (hn _ (List.mem_cons_self ..))).append ((blank_plain hb').append
      (.cons (by decide) (ih (fun ev he => hw ev (by simp [he])) (fun o ho => hn o (by simp [ho]))))))))
  | @chars o st k k' s ts t evs hs h ih =>
    refine (spellsText_plain hs).append (ih (fun ev he => hw ev (by simp [he])) fun p hp => ?_)
    rcases List.mem_cons.1 hp with rfl | hp
    · exact hn o (by simp)
    · exact hn p (by simp [hp])
  | outer hb h ih => exact (blank_plain hb).append (ih (fun ev he => hw ev (by simp [he])) hn)

theorem afterDecl_append {b t : Str} (h : '?' ∉ b) : afterDecl (b ++ c!"?>" ++ t) = some t := by
  induction b with
  | nil => rfl
  | cons c b ih =>
    have hc : c ≠ '?' := fun e => h (by simp [e])
    have := ih (fun e => h (by simp [e]))
    simp only [List.cons_append] at this ⊢
    rw [afterDecl]
    · exact this
    · intro _ e; exact absurd e hc

/-- Reading a document with a declaration. -/
theorem readXml_written {b : Str} (hb : Plain b) (hq : '?' ∉ b) {evs : List Ev} {t : Str} (h : Written [] 0 evs t) (hw : ∀ ev ∈ evs, WellNamed ev) {e : Elem}
    (he : buildDoc evs = some e) :
    ∃ e', readXml (c!"<?xml " ++ b ++ c!"?>" ++ t) = some e' ∧ Indented (.elem e.1 e.2) (.elem e'.1 e'.2) := by
  have hB : brun .before evs = some (.done e) := by
    unfold buildDoc at he
    split at he
    · next h => cases he; exact h
    · cases he
  obtain ⟨k', e', h1, h2⟩ := readFrom_written h hw .before hB
  refine ⟨e', ?_, h2⟩
  have hp : Plain (c!"<?xml " ++ b ++ c!"?>" ++ t) :=
    ((Plain.append (by unfold Plain; decide) hb).append (by unfold Plain; decide)).append (written_plain h hw (by simp))
  have hall : (c!"<?xml " ++ b ++ c!"?>" ++ t).all isXmlChar = true := by
    rw [List.all_eq_true]; exact fun c hc => (hp c hc).1
  unfold readXml
  rw [if_pos hall, normEol_plain hp]
  have hs : skipDecl (skipBom (c!"<?xml " ++ b ++ c!"?>" ++ t)) = some t := afterDecl_append hq
  rw [hs]
  simp only [h1]

end XmlText
end Xsd
