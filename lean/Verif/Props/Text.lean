import Verif.Model.VirtualName
import Verif.Model.Codegen
import Verif.Props.Literals
/-!
# Documentation text, names of groups, identifiers (C42, C43, C44, C49, C56)
-/
namespace Xsd

variable {x : Ext}

/-! ## Documentation (C42) -/

/-- Specification of the words of a text: the maximal non-empty pieces without white space. -/
inductive Words (x : Ext) : Str → List Str → Prop where
  | none {s : Str} (h : ∀ c ∈ s, x.isWhitespace c = true) : Words x s []
  | word {sp w rest : Str} {ws : List Str} (hsp : ∀ c ∈ sp, x.isWhitespace c = true) (hw : w ≠ [])
      (hww : ∀ c ∈ w, x.isWhitespace c = false) (hend : rest = [] ∨ ∃ c r, rest = c :: r ∧ x.isWhitespace c = true)
      (h : Words x rest ws) : Words x (sp ++ (w ++ rest)) (w :: ws)

theorem Words.space {c : Char} (hc : x.isWhitespace c = true) {s : Str} {ws : List Str} (h : Words x s ws) :
    Words x (c :: s) ws := by
  cases h with
  | none h => exact .none (by simpa [hc] using h)
  | @word sp w rest ws hsp hw hww hend h =>
    have := Words.word (x := x) (sp := c :: sp) (w := w) (rest := rest) (by simpa [hc] using hsp) hw hww hend h
    simpa using this

theorem splitWs_words (s : Str) : (Words x s (splitWs x [] s)) ∧ ∀ cur, cur ≠ [] → (∀ c ∈ cur, x.isWhitespace c = false) →
    Words x (cur ++ s) (splitWs x cur s) := by
  induction s with
  | nil =>
    refine ⟨.none (by simp), fun cur hne hc => ?_⟩
    simp only [splitWs, if_neg hne]
    have := Words.word (x := x) (sp := []) (w := cur) (rest := []) (ws := []) (by simp) hne hc (.inl rfl) (.none (by simp))
    simpa using this
  | cons c s ih =>
    by_cases hc : x.isWhitespace c = true
    · refine ⟨?_, fun cur hne hcur => ?_⟩
      · simp only [splitWs, hc, if_true]
        exact ih.1.space hc
      · simp only [splitWs, hc, if_true, if_neg hne]
        have := Words.word (x := x) (sp := []) (w := cur) (rest := c :: s) (by simp) hne hcur
          (.inr ⟨c, s, rfl, hc⟩) (ih.1.space hc)
        simpa using this
    · have hc : x.isWhitespace c = false := by simpa using hc
      refine ⟨?_, fun cur hne hcur => ?_⟩
      · have := ih.2 [c] (by simp) (by simpa using hc)
        simpa [splitWs, hc] using this
      · have := ih.2 (cur ++ [c]) (by simp) (by
          intro d hd
          rcases List.mem_append.1 hd with hd | hd
          · exact hcur d hd
          · simp at hd; rw [hd]; exact hc)
        simpa [splitWs, hc, List.append_assoc] using this

/-- A word is determined by the text. -/
theorem word_unique {w w' r r' : Str} (h : w ++ r = w' ++ r') (hw : ∀ c ∈ w, x.isWhitespace c = false)
    (hw' : ∀ c ∈ w', x.isWhitespace c = false) (hr : r = [] ∨ ∃ c t, r = c :: t ∧ x.isWhitespace c = true)
    (hr' : r' = [] ∨ ∃ c t, r' = c :: t ∧ x.isWhitespace c = true) : w = w' ∧ r = r' := by
  rcases List.append_eq_append_iff.1 h with ⟨a, rfl, rfl⟩ | ⟨a, rfl, rfl⟩
  · cases a with
    | nil => simp
    | cons c a =>
      rcases hr with hr | ⟨d, t, hr, hd⟩
      · simp at hr
      · simp only [List.cons_append, List.cons.injEq] at hr
        have := hw' c (by simp)
        rw [hr.1, hd] at this; cases this
  · cases a with
    | nil => simp
    | cons c a =>
      rcases hr' with hr | ⟨d, t, hr, hd⟩
      · simp at hr
      · simp only [List.cons_append, List.cons.injEq] at hr
        have := hw c (by simp)
        rw [hr.1, hd] at this; cases this

theorem spaces_unique {sp sp' t t' : Str} (h : sp ++ t = sp' ++ t') (hs : ∀ c ∈ sp, x.isWhitespace c = true)
    (hs' : ∀ c ∈ sp', x.isWhitespace c = true) (ht : ∃ c r, t = c :: r ∧ x.isWhitespace c = false)
    (ht' : ∃ c r, t' = c :: r ∧ x.isWhitespace c = false) : sp = sp' ∧ t = t' := by
  obtain ⟨c, r, rfl, hc⟩ := ht
  obtain ⟨c', r', rfl, hc'⟩ := ht'
  rcases List.append_eq_append_iff.1 h with ⟨a, rfl, ha⟩ | ⟨a, rfl, ha⟩
  · cases a with
    | nil => simpa using ha
    | cons d a =>
      simp only [List.cons_append, List.cons.injEq] at ha
      have := hs' d (by simp)
      rw [← ha.1, hc] at this; cases this
  · cases a with
    | nil => simpa using ha.symm
    | cons d a =>
      simp only [List.cons_append, List.cons.injEq] at ha
      have := hs d (by simp)
      rw [← ha.1, hc'] at this; cases this

/-- A text has one list of words. -/
theorem Words.unique {s : Str} {ws ws' : List Str} (h : Words x s ws) (h' : Words x s ws') : ws = ws' := by
  induction h generalizing ws' with
  | @none s hs =>
    generalize hq : s = q at h'
    cases h' with
    | none => rfl
    | @word sp w rest ws hsp hw hww hend h =>
      cases w with
      | nil => exact absurd rfl hw
      | cons c w =>
        have h1 := hs c (by rw [hq]; simp)
        have h2 := hww c (by simp)
        rw [h1] at h2; cases h2
  | @word sp w rest ws hsp hw hww hend _ ih =>
    generalize hq : sp ++ (w ++ rest) = q at h'
    cases h' with
    | none hs =>
      cases w with
      | nil => exact absurd rfl hw
      | cons c w =>
        have h1 := hs c (by rw [← hq]; simp)
        have h2 := hww c (by simp)
        rw [h1] at h2; cases h2
    | @word sp' w' rest' ws' hsp' hw' hww' hend' h' =>
      have first : ∀ {w : Str} (r : Str), w ≠ [] → (∀ c ∈ w, x.isWhitespace c = false) →
          ∃ c t, w ++ r = c :: t ∧ x.isWhitespace c = false := by
        intro w r hne hh
        cases w with
        | nil => exact absurd rfl hne
        | cons c w => exact ⟨c, w ++ r, rfl, hh c (by simp)⟩
      obtain ⟨rfl, hq2⟩ := spaces_unique hq hsp hsp' (first rest hw hww) (first rest' hw' hww')
      obtain ⟨rfl, rfl⟩ := word_unique hq2 hww hww' hend hend'
      rw [ih h']

theorem splitWs_spec (s : Str) : ∀ w ∈ splitWs x [] s, w ≠ [] ∧ ∀ c ∈ w, x.isWhitespace c = false := by
  have := (splitWs_words (x := x) s).1
  generalize splitWs x [] s = ws at this
  induction this with
  | none => simp
  | word _ hw hww _ _ ih =>
    intro w hm
    rcases List.mem_cons.1 hm with rfl | hm
    · exact ⟨hw, hww⟩
    · exact ih w hm

theorem joinSpace_words (hsp : x.isWhitespace ' ' = true) (ws : List Str)
    (h : ∀ w ∈ ws, w ≠ [] ∧ ∀ c ∈ w, x.isWhitespace c = false) : Words x (joinSpace ws) ws := by
  induction ws with
  | nil => exact .none (by simp [joinSpace])
  | cons w ws ih =>
    have hw := h w (by simp)
    have ih := ih (fun v hv => h v (by simp [hv]))
    cases ws with
    | nil =>
      have := Words.word (x := x) (sp := []) (w := w) (rest := []) (ws := []) (by simp) hw.1 hw.2 (.inl rfl) (.none (by simp))
      simpa [joinSpace] using this
    | cons v ws =>
      have := Words.word (x := x) (sp := []) (w := w) (rest := ' ' :: joinSpace (v :: ws)) (by simp) hw.1 hw.2
        (.inr ⟨' ', _, rfl, hsp⟩) (ih.space hsp)
      simpa [joinSpace] using this

/-- **C42.** The normalised text has the same words as the original, it consists of these words with one space between
them (so no other white space, none at the ends, no two in a row), and normalising it again changes nothing. -/
theorem C42_docs (hsp : x.isWhitespace ' ' = true) (s : Str) {ws : List Str} (h : Words x s ws) :
    Words x (cleanupDocs x s) ws ∧ cleanupDocs x s = joinSpace ws ∧ cleanupDocs x (cleanupDocs x s) = cleanupDocs x s := by
  have h1 : splitWs x [] s = ws := (splitWs_words s).1.unique h
  have h2 : Words x (cleanupDocs x s) ws := by
    unfold cleanupDocs
    rw [h1]
    exact joinSpace_words hsp ws (h1 ▸ splitWs_spec s)
  refine ⟨h2, by rw [cleanupDocs, h1], ?_⟩
  have h3 := (splitWs_words (cleanupDocs x s)).1.unique h2
  show joinSpace (splitWs x [] (cleanupDocs x s)) = _
  rw [h3, cleanupDocs, h1]

/-- Every text has words, so the hypothesis can always be met. -/
theorem C42_words_exist (s : Str) : ∃ ws, Words x s ws := ⟨_, (splitWs_words s).1⟩

example : cleanupDocs sampleExt c!"Something\n\t\t\tthat  continues \n" = c!"Something that continues" := by decide +kernel

/-! ## Names of groups (C43, C44) -/

theorem commonStart_prefix (a b : Str) : commonStart a b <+: a ∧ commonStart a b <+: b ∧ '_' ∉ commonStart a b := by
  induction a generalizing b with
  | nil => simp [commonStart]
  | cons c a ih =>
    cases b with
    | nil => simp [commonStart]
    | cons d b =>
      simp only [commonStart]
      split
      · next h =>
        obtain ⟨rfl, h1, _⟩ := h
        obtain ⟨i1, i2, i3⟩ := ih b
        refine ⟨List.prefix_cons_inj c |>.2 i1, List.prefix_cons_inj c |>.2 i2, ?_⟩
        simp only [List.mem_cons, not_or]
        exact ⟨fun h => h1 h.symm, i3⟩
      · simp

/-- A common start that stops before `_` is a start of what precedes the first `_`. -/
theorem commonStart_takeWhile (a b : Str) : commonStart a b <+: a.takeWhile (fun c => c != '_') := by
  induction a generalizing b with
  | nil => simp [commonStart]
  | cons c a ih =>
    cases b with
    | nil => simp [commonStart]
    | cons d b =>
      simp only [commonStart]
      split
      · next h =>
        obtain ⟨rfl, h1, _⟩ := h
        rw [List.takeWhile_cons, if_pos (by simpa using h1)]
        exact List.prefix_cons_inj c |>.2 (ih b)
      · simp

/-- What is needed of Inflector's snake case: taking the snake case of a piece without `_` of a snake-case name changes
nothing before the first (after the last) `_`, and keeps a first (last) character other than `_`. -/
structure Ext.SnakeLaws (x : Ext) : Prop where
  pre : ∀ s p, p <+: x.snake s → '_' ∉ p → (x.snake p).takeWhile (fun c => c != '_') <+: p
  suf : ∀ s p, p <:+ x.snake s → '_' ∉ p → (x.snake p).reverse.takeWhile (fun c => c != '_') <+: p.reverse
  first : ∀ s c r, c :: r <+: x.snake s → c ≠ '_' → ∃ r', x.snake (c :: r) = c :: r'
  last : ∀ s c r, r ++ [c] <:+ x.snake s → c ≠ '_' → ∃ r', x.snake (r ++ [c]) = r' ++ [c]

theorem mutalPrefix_fold (hx : x.SnakeLaws) (s p : Str) (hp : p <+: x.snake s) (hu : '_' ∉ p) (ns : List Str) :
    ns.foldl (mutalPrefix x) p <+: p ∧ ∀ n ∈ ns, ns.foldl (mutalPrefix x) p <+: x.snake n := by
  induction ns generalizing s p with
  | nil => simp
  | cons n ns ih =>
    have hq := commonStart_prefix (x.snake p) (x.snake n)
    have hpp : mutalPrefix x p n <+: p := (commonStart_takeWhile _ _).trans (hx.pre s p hp hu)
    obtain ⟨h1, h2⟩ := ih n (mutalPrefix x p n) hq.2.1 hq.2.2
    refine ⟨h1.trans hpp, ?_⟩
    intro m hm
    rcases List.mem_cons.1 hm with rfl | hm
    · exact h1.trans hq.2.1
    · exact h2 m hm

theorem mutalSuffix_fold (hx : x.SnakeLaws) (s p : Str) (hp : p <:+ x.snake s) (hu : '_' ∉ p) (ns : List Str) :
    ns.foldl (mutalSuffix x) p <:+ p ∧ ∀ n ∈ ns, ns.foldl (mutalSuffix x) p <:+ x.snake n := by
  induction ns generalizing s p with
  | nil => simp
  | cons n ns ih =>
    have hq := commonStart_prefix (x.snake p).reverse (x.snake n).reverse
    have hpp : mutalSuffix x p n <:+ p := by
      have := (commonStart_takeWhile (x.snake p).reverse (x.snake n).reverse).trans (hx.suf s p hp hu)
      simpa [mutalSuffix] using List.reverse_suffix.2 this
    have hsn : mutalSuffix x p n <:+ x.snake n := by
      have := List.reverse_suffix.2 hq.2.1
      simpa [mutalSuffix] using this
    obtain ⟨h1, h2⟩ := ih n (mutalSuffix x p n) hsn (by simpa [mutalSuffix] using hq.2.2)
    refine ⟨h1.trans hpp, ?_⟩
    intro m hm
    rcases List.mem_cons.1 hm with rfl | hm
    · exact h1.trans hsn
    · exact h2 m hm

/-- The first letter of each name in upper case, the names put together. -/
inductive Capitalised : List Str → Str → Prop where
  | nil : Capitalised [] []
  | skip {ns : List Str} {t : Str} (h : Capitalised ns t) : Capitalised ([] :: ns) t
  | cons {c : Char} {cs : Str} {ns : List Str} {t : Str} (h : Capitalised ns t) :
      Capitalised ((c :: cs) :: ns) (c.toUpper :: (cs ++ t))

theorem concatNames_ok {ns : List Str} {t : Str} (h : concatNames ns = .ok t) : Capitalised ns t := by
  induction ns generalizing t with
  | nil => cases h; exact .nil
  | cons n ns ih =>
    simp only [concatNames, Res.bind_eq_ok] at h
    obtain ⟨a, ha, b, hb, h⟩ := h
    cases h
    cases n with
    | nil => cases ha; exact .skip (ih hb)
    | cons c cs =>
      simp only [capitalise] at ha
      split at ha
      · cases ha; exact .cons (ih hb)
      · cases ha

theorem deriveMutal_some {step : Str → Str → Str} {ns : List Str} {r : Str} (h : deriveMutal step ns = some r) :
    ∃ n ms, ns = n :: ms ∧ r = ms.foldl step n ∧ r ≠ [] := by
  cases ns with
  | nil => cases h
  | cons n ms =>
    simp only [deriveMutal] at h
    split at h
    · cases h
    · next hne => cases h; exact ⟨n, ms, rfl, rfl, hne⟩

theorem deriveMutal_none {step : Str → Str → Str} {ns : List Str} (h : deriveMutal step ns = none) :
    ns = [] ∨ ∃ n ms, ns = n :: ms ∧ ms.foldl step n = [] := by
  cases ns with
  | nil => exact .inl rfl
  | cons n ms =>
    simp only [deriveMutal] at h
    split at h
    · next he => exact .inr ⟨n, ms, rfl, he⟩
    · cases h

/-- All names start, or all names end, with the same character other than `_`, in snake case. -/
def SharesLetter (x : Ext) (ns : List Str) : Prop :=
  ∃ c : Char, c ≠ '_' ∧ ((∀ n ∈ ns, ∃ r, x.snake n = c :: r) ∨ (∀ n ∈ ns, ∃ r, x.snake n = r ++ [c]))

theorem commonStart_cons {c : Char} (hc : c ≠ '_') (a b : Str) : ∃ r, commonStart (c :: a) (c :: b) = c :: r :=
  ⟨_, by simp only [commonStart]; rw [if_pos ⟨trivial, hc, hc⟩]⟩

theorem mutalPrefix_start (hx : x.SnakeLaws) {c : Char} (hc : c ≠ '_') {s p : Str} (hp : p <+: x.snake s)
    (h : ∃ r, p = c :: r) {ns : List Str} (hns : ∀ n ∈ ns, ∃ r, x.snake n = c :: r) :
    ∃ r, ns.foldl (mutalPrefix x) p = c :: r := by
  induction ns generalizing s p with
  | nil => exact h
  | cons n ns ih =>
    obtain ⟨r, rfl⟩ := h
    obtain ⟨r1, h1⟩ := hx.first s c r hp hc
    obtain ⟨r2, h2⟩ := hns n (by simp)
    refine ih (s := n) ((commonStart_prefix (x.snake (c :: r)) (x.snake n)).2.1) ?_ (fun m hm => hns m (by simp [hm]))
    unfold mutalPrefix
    rw [h1, h2]
    exact commonStart_cons hc _ _

theorem mutalSuffix_end (hx : x.SnakeLaws) {c : Char} (hc : c ≠ '_') {s p : Str} (hp : p <:+ x.snake s)
    (h : ∃ r, p = r ++ [c]) {ns : List Str} (hns : ∀ n ∈ ns, ∃ r, x.snake n = r ++ [c]) :
    ∃ r, ns.foldl (mutalSuffix x) p = r ++ [c] := by
  induction ns generalizing s p with
  | nil => exact h
  | cons n ns ih =>
    obtain ⟨r, rfl⟩ := h
    obtain ⟨r1, h1⟩ := hx.last s c r hp hc
    obtain ⟨r2, h2⟩ := hns n (by simp)
    refine ih (s := n) ?_ ?_ (fun m hm => hns m (by simp [hm]))
    · have := List.reverse_suffix.2 (commonStart_prefix (x.snake (r ++ [c])).reverse (x.snake n).reverse).2.1
      simpa [mutalSuffix] using this
    · unfold mutalSuffix
      rw [h1, h2]
      simp only [List.reverse_append, List.reverse_cons, List.reverse_nil, List.nil_append, List.singleton_append]
      obtain ⟨q, hq⟩ := commonStart_cons hc r1.reverse r2.reverse
      exact ⟨q.reverse, by rw [hq]; simp⟩

theorem derivePrefix_spec (hx : x.SnakeLaws) (a b : Str) (ns : List Str) :
    (∀ p, deriveMutal (mutalPrefix x) (a :: b :: ns) = some p → p ≠ [] ∧ '_' ∉ p ∧ ∀ n ∈ a :: b :: ns, p <+: x.snake n) ∧
    ∀ c, c ≠ '_' → (∀ n ∈ a :: b :: ns, ∃ r, x.snake n = c :: r) → deriveMutal (mutalPrefix x) (a :: b :: ns) ≠ none := by
  have hq := commonStart_prefix (x.snake a) (x.snake b)
  obtain ⟨h1, h2⟩ := mutalPrefix_fold hx a (mutalPrefix x a b) hq.1 hq.2.2 ns
  constructor
  · intro p hp
    obtain ⟨n, ms, he, rfl, hne⟩ := deriveMutal_some hp
    cases he
    refine ⟨hne, fun hm => hq.2.2 (h1.subset hm), ?_⟩
    intro n hn
    rcases List.mem_cons.1 hn with rfl | hn
    · exact h1.trans hq.1
    · rcases List.mem_cons.1 hn with rfl | hn
      · exact h1.trans hq.2.1
      · exact h2 n hn
  · intro c hc hall hnone
    rcases deriveMutal_none hnone with h | ⟨n, ms, he, h⟩
    · cases h
    · cases he
      obtain ⟨r1, e1⟩ := hall a (by simp)
      obtain ⟨r2, e2⟩ := hall b (by simp)
      obtain ⟨r, hr⟩ := mutalPrefix_start hx hc (s := a) (p := mutalPrefix x a b) hq.1
        (by unfold mutalPrefix; rw [e1, e2]; exact commonStart_cons hc _ _) (ns := ns) (fun m hm => hall m (by simp [hm]))
      rw [List.foldl_cons, hr] at h
      cases h

theorem deriveSuffix_spec (hx : x.SnakeLaws) (a b : Str) (ns : List Str) :
    (∀ p, deriveMutal (mutalSuffix x) (a :: b :: ns) = some p → p ≠ [] ∧ '_' ∉ p ∧ ∀ n ∈ a :: b :: ns, p <:+ x.snake n) ∧
    ∀ c, c ≠ '_' → (∀ n ∈ a :: b :: ns, ∃ r, x.snake n = r ++ [c]) → deriveMutal (mutalSuffix x) (a :: b :: ns) ≠ none := by
  have hq := commonStart_prefix (x.snake a).reverse (x.snake b).reverse
  have h3 : mutalSuffix x a b <:+ x.snake a := by simpa [mutalSuffix] using List.reverse_suffix.2 hq.1
  have h4 : mutalSuffix x a b <:+ x.snake b := by simpa [mutalSuffix] using List.reverse_suffix.2 hq.2.1
  have h5 : '_' ∉ mutalSuffix x a b := by simpa [mutalSuffix] using hq.2.2
  obtain ⟨h1, h2⟩ := mutalSuffix_fold hx a (mutalSuffix x a b) h3 h5 ns
  constructor
  · intro p hp
    obtain ⟨n, ms, he, rfl, hne⟩ := deriveMutal_some hp
    cases he
    refine ⟨hne, fun hm => h5 (h1.subset hm), ?_⟩
    intro n hn
    rcases List.mem_cons.1 hn with rfl | hn
    · exact h1.trans h3
    · rcases List.mem_cons.1 hn with rfl | hn
      · exact h1.trans h4
      · exact h2 n hn
  · intro c hc hall hnone
    rcases deriveMutal_none hnone with h | ⟨n, ms, he, h⟩
    · cases h
    · cases he
      obtain ⟨r1, e1⟩ := hall a (by simp)
      obtain ⟨r2, e2⟩ := hall b (by simp)
      obtain ⟨r, hr⟩ := mutalSuffix_end hx hc (s := a) (p := mutalSuffix x a b) h3
        (by
          unfold mutalSuffix; rw [e1, e2]
          simp only [List.reverse_append, List.reverse_cons, List.reverse_nil, List.nil_append, List.singleton_append]
          obtain ⟨q, hq⟩ := commonStart_cons hc r1.reverse r2.reverse
          exact ⟨q.reverse, by rw [hq]; simp⟩) (ns := ns) (fun m hm => hall m (by simp [hm]))
      rw [List.foldl_cons, hr] at h
      simp at h

/-- **C43**, groups of two or more members: if the snake-case names of the members share their first or their last
letter, the shortened name is a non-empty common prefix, or a non-empty common suffix, of the snake-case names of all
members; otherwise it is the concatenation of the capitalised names of the members. Names that are not to be shortened
are always that concatenation.

Missing: a group of one member, for which the shortened name is the name of the member itself, not its snake
case (`C43_single`). -/
theorem C43_virtual_name_partial (hx : x.SnakeLaws) {a b : Str} {ns : List Str} {t : Str} :
    (virtualName x (a :: b :: ns) true = .ok t →
      (SharesLetter x (a :: b :: ns) →
        t ≠ [] ∧ ((∀ n ∈ a :: b :: ns, t <+: x.snake n) ∨ (∀ n ∈ a :: b :: ns, t <:+ x.snake n))) ∧
      (¬ SharesLetter x (a :: b :: ns) → Capitalised (a :: b :: ns) t)) ∧
    (virtualName x (a :: b :: ns) false = .ok t → Capitalised (a :: b :: ns) t) := by
  refine ⟨fun h => ?_, fun h => concatNames_ok h⟩
  obtain ⟨hp1, hp2⟩ := derivePrefix_spec hx a b ns
  obtain ⟨hs1, hs2⟩ := deriveSuffix_spec hx a b ns
  have sharesP : ∀ p, deriveMutal (mutalPrefix x) (a :: b :: ns) = some p → SharesLetter x (a :: b :: ns) := by
    intro p hp
    obtain ⟨hne, hu, hall⟩ := hp1 p hp
    cases p with
    | nil => exact absurd rfl hne
    | cons c p =>
      refine ⟨c, fun hc => hu (by simp [hc]), .inl fun n hn => ?_⟩
      obtain ⟨r, hr⟩ := hall n hn
      exact ⟨p ++ r, by rw [← hr]; rfl⟩
  have sharesS : ∀ p, deriveMutal (mutalSuffix x) (a :: b :: ns) = some p → SharesLetter x (a :: b :: ns) := by
    intro p hp
    obtain ⟨hne, hu, hall⟩ := hs1 p hp
    rcases List.eq_nil_or_concat p with rfl | ⟨q, c, rfl⟩
    · exact absurd rfl hne
    · refine ⟨c, fun hc => hu (by simp [hc]), .inr fun n hn => ?_⟩
      obtain ⟨r, hr⟩ := hall n hn
      exact ⟨r ++ q, by rw [← hr]; simp⟩
  unfold virtualName at h
  simp only [if_true] at h
  split at h
  · next p s hp hs =>
    refine ⟨fun _ => ?_, fun hn => absurd (sharesP p hp) hn⟩
    have := Res.ok.inj h
    split at this
    · subst this; exact ⟨(hp1 _ hp).1, .inl (hp1 _ hp).2.2⟩
    · subst this; exact ⟨(hs1 _ hs).1, .inr (hs1 _ hs).2.2⟩
  · next p hp hs =>
    cases h
    exact ⟨fun _ => ⟨(hp1 _ hp).1, .inl (hp1 _ hp).2.2⟩, fun hn => absurd (sharesP _ hp) hn⟩
  · next s hp hs =>
    cases h
    exact ⟨fun _ => ⟨(hs1 _ hs).1, .inr (hs1 _ hs).2.2⟩, fun hn => absurd (sharesS _ hs) hn⟩
  · next hp hs =>
    refine ⟨fun hsh => ?_, fun _ => concatNames_ok h⟩
    obtain ⟨c, hc, hh | hh⟩ := hsh
    · exact absurd hp (hp2 c hc hh)
    · exact absurd hs (hs2 c hc hh)

/-- **C43**, the longer one wins: with both a common prefix and a common suffix, the one with more bytes is taken. -/
theorem C43_longer {ns : List Str} {p s t : Str} (hp : deriveMutal (mutalPrefix x) ns = some p)
    (hs : deriveMutal (mutalSuffix x) ns = some s) (h : virtualName x ns true = .ok t) :
    (t = p ∨ t = s) ∧ utf8Len p ≤ utf8Len t ∧ utf8Len s ≤ utf8Len t := by
  unfold virtualName at h
  rw [hp, hs] at h
  simp only [if_true] at h
  have := Res.ok.inj h
  split at this
  · subst this; exact ⟨.inl rfl, Nat.le_refl _, by omega⟩
  · subst this; exact ⟨.inr rfl, by omega, Nat.le_refl _⟩

/-- The group of a single member is called like the member: it does not get a name of its own. -/
theorem C43_single (n : Str) (hn : n ≠ []) : virtualName x [n] true = .ok n := by
  simp [virtualName, deriveMutal, hn]

theorem toLower_idem (c : Char) : c.toLower.toLower = c.toLower := by
  unfold Char.toLower
  split
  · next h =>
    rw [dif_neg]
    intro h2
    simp only [UInt32.le_iff_toNat_le] at h h2
    have : (c.val + ('a'.val - 'A'.val)).toNat = c.val.toNat + 32 := by
      rw [UInt32.toNat_add]
      have : ('a'.val - 'A'.val : UInt32).toNat = 32 := by decide
      rw [this]
      have h3 : 'Z'.val.toNat = 90 := by decide
      omega
    rw [this] at h2
    have h3 : 'Z'.val.toNat = 90 := by decide
    have h4 : 'A'.val.toNat = 65 := by decide
    omega
  · next h => first | rfl | rw [dif_neg h]

theorem sampleExt_snakeLaws : sampleExt.SnakeLaws := by
  have key : ∀ s p, (∀ c ∈ p, c ∈ sampleExt.snake s) → sampleExt.snake p = p := by
    intro s p h
    show p.map Char.toLower = p
    induction p with
    | nil => rfl
    | cons c p ih =>
      rw [List.map_cons, ih (fun d hd => h d (by simp [hd]))]
      obtain ⟨d, _, hd⟩ := List.mem_map.1 (h c (by simp))
      rw [← hd, toLower_idem]
  constructor
  · intro s p hp _
    rw [key s p (fun c hc => hp.subset hc)]
    exact List.takeWhile_prefix _
  · intro s p hp _
    rw [key s p (fun c hc => hp.subset hc)]
    exact List.takeWhile_prefix _
  · intro s c r hp _
    exact ⟨r, key s _ (fun c hc => hp.subset hc)⟩
  · intro s c r hp _
    exact ⟨r, key s _ (fun c hc => hp.subset hc)⟩

/-- **C43** is false for groups of one member: the name is neither a prefix nor a suffix of the snake-case name, although
the member shares its first letter with itself. -/
theorem C43_false : ∃ (x : Ext) (n t : Str), x.SnakeLaws ∧ SharesLetter x [n] ∧ virtualName x [n] true = .ok t ∧
    ¬ t <+: x.snake n ∧ ¬ t <:+ x.snake n :=
  ⟨sampleExt, c!"Foo", c!"Foo", sampleExt_snakeLaws, ⟨'f', by decide, .inl fun n hn => by
    cases List.mem_singleton.1 hn; exact ⟨c!"oo", by decide +kernel⟩⟩, by decide +kernel, by decide +kernel, by decide +kernel⟩

example : virtualName sampleExt [c!"AngleDeg", c!"AngleRad", c!"AngleSec"] true = .ok c!"angle" ∧
    virtualName sampleExt [c!"First_Name", c!"Last_Name"] true = .ok c!"name" ∧
    virtualName sampleExt [c!"user", c!"bot"] true = .ok c!"UserBot" := by decide +kernel

/-- **C44**, names that start with an ASCII character: no panic.

Missing: other names, for which it is false (`C44_false`). -/
theorem C44_no_panic_partial (ns : List Str) (shorten : Bool) (h : ∀ n ∈ ns, ∀ c cs, n = c :: cs → c.toNat < 128) :
    ∃ t, virtualName x ns shorten = .ok t := by
  have hc : ∃ t, concatNames ns = .ok t := by
    clear shorten
    induction ns with
    | nil => exact ⟨[], rfl⟩
    | cons n ns ih =>
      obtain ⟨t, ht⟩ := ih (fun m hm => h m (by simp [hm]))
      cases n with
      | nil => exact ⟨t, by simp [concatNames, capitalise, ht]⟩
      | cons c cs =>
        have hlt := h (c :: cs) (by simp) c cs rfl
        have h1 : c.utf8Size = 1 := by
          unfold Char.utf8Size
          rw [if_pos]
          simp only [UInt32.le_iff_toNat_le]
          have : c.val.toNat = c.toNat := rfl
          rw [this]
          exact Nat.le_of_lt_succ hlt
        exact ⟨c.toUpper :: cs ++ t, by simp [concatNames, capitalise, h1, ht]⟩
  unfold virtualName
  cases shorten
  · exact hc
  · simp only [if_true]
    split
    · exact ⟨_, rfl⟩
    · exact ⟨_, rfl⟩
    · exact ⟨_, rfl⟩
    · exact hc

/-- **C44** is false in general: a name that starts with a character outside ASCII. -/
theorem C44_false : virtualName sampleExt [c!"état", c!"pays"] true = .panic := by decide +kernel

theorem utf8Size_one (c : Char) : c.utf8Size = 1 ↔ c.toNat < 128 := by
  have h0 : c.val.toNat = c.toNat := rfl
  unfold Char.utf8Size
  simp only [UInt32.le_iff_toNat_le, UInt32.toNat_ofNatLT]
  rw [h0]
  constructor
  · intro h
    split at h
    · omega
    · split at h
      · omega
      · split at h <;> omega
  · intro h
    rw [if_pos (by omega)]

theorem concatNames_panic (ns : List Str) :
    concatNames ns = .panic ↔ ∃ n ∈ ns, ∃ c cs, n = c :: cs ∧ 128 ≤ c.toNat := by
  induction ns with
  | nil => simp [concatNames]
  | cons n ns ih =>
    cases n with
    | nil =>
      have : concatNames ([] :: ns) = .panic ↔ concatNames ns = .panic := by
        simp only [concatNames, capitalise]
        cases concatNames ns <;> simp
      rw [this, ih]
      simp
    | cons c cs =>
      by_cases h : c.utf8Size = 1
      · have : concatNames ((c :: cs) :: ns) = .panic ↔ concatNames ns = .panic := by
          simp only [concatNames, capitalise, h, if_true]
          cases concatNames ns <;> simp
        rw [this, ih]
        have := (utf8Size_one c).1 h
        constructor
        · rintro ⟨n, hn, r⟩; exact ⟨n, by simp [hn], r⟩
        · rintro ⟨n, hn, d, ds, rfl, hd⟩
          rcases List.mem_cons.1 hn with e | hn
          · cases e; omega
          · exact ⟨_, hn, d, ds, rfl, hd⟩
      · refine ⟨fun _ => ⟨c :: cs, by simp, c, cs, rfl, ?_⟩, fun _ => ?_⟩
        · have := mt (utf8Size_one c).2 h; omega
        · simp only [concatNames, capitalise, h, if_false]; rfl

/-- **C44**, exactly when the naming of a group of two or more members panics: a name starts with a character outside ASCII and
the names are concatenated, because they are not to be shortened or share neither their first nor their last letter. -/
theorem C44_panics_iff (hx : x.SnakeLaws) (a b : Str) (ns : List Str) (shorten : Bool) :
    virtualName x (a :: b :: ns) shorten = .panic ↔
      (shorten = false ∨ ¬ SharesLetter x (a :: b :: ns)) ∧ ∃ n ∈ a :: b :: ns, ∃ c cs, n = c :: cs ∧ 128 ≤ c.toNat := by
  rw [← concatNames_panic]
  cases shorten with
  | false => simp [virtualName]
  | true =>
    obtain ⟨hp1, hp2⟩ := derivePrefix_spec hx a b ns
    obtain ⟨hs1, hs2⟩ := deriveSuffix_spec hx a b ns
    simp only [Bool.true_eq_false, false_or]
    constructor
    · intro h
      unfold virtualName at h
      simp only [if_true] at h
      split at h <;> try cases h
      next hp hs =>
      refine ⟨?_, h⟩
      rintro ⟨c, hc, hh | hh⟩
      · exact absurd hp (hp2 c hc hh)
      · exact absurd hs (hs2 c hc hh)
    · rintro ⟨hn, h⟩
      have h1 : deriveMutal (mutalPrefix x) (a :: b :: ns) = none := by
        cases hp : deriveMutal (mutalPrefix x) (a :: b :: ns) with
        | none => rfl
        | some p =>
          obtain ⟨hne, hu, hall⟩ := hp1 p hp
          cases p with
          | nil => exact absurd rfl hne
          | cons c p =>
            refine absurd ⟨c, fun hc => hu (by simp [hc]), .inl fun n hm => ?_⟩ hn
            obtain ⟨r, hr⟩ := hall n hm
            exact ⟨p ++ r, by rw [← hr]; rfl⟩
      have h2 : deriveMutal (mutalSuffix x) (a :: b :: ns) = none := by
        cases hp : deriveMutal (mutalSuffix x) (a :: b :: ns) with
        | none => rfl
        | some p =>
          obtain ⟨hne, hu, hall⟩ := hs1 p hp
          rcases List.eq_nil_or_concat p with rfl | ⟨q, c, rfl⟩
          · exact absurd rfl hne
          · refine absurd ⟨c, fun hc => hu (by simp [hc]), .inr fun n hm => ?_⟩ hn
            obtain ⟨r, hr⟩ := hall n hm
            exact ⟨r ++ q, by rw [← hr]; simp⟩
      unfold virtualName
      rw [h1, h2]
      exact h

example := (C44_panics_iff sampleExt_snakeLaws c!"état" c!"pays" [] true).1 C44_false
example : virtualName sampleExt [c!"état", c!"étage"] true = .ok c!"éta" := by decide +kernel

/-! ## Identifiers (C49, C56) -/

/-- The keywords of Rust 2021 (the edition of the crate): strict and reserved (the Rust reference, "Keywords"). -/
def rustKeywords : List Str :=
  [c!"as", c!"break", c!"const", c!"continue", c!"crate", c!"else", c!"enum", c!"extern", c!"false", c!"fn", c!"for", c!"if",
   c!"impl", c!"in", c!"let", c!"loop", c!"match", c!"mod", c!"move", c!"mut", c!"pub", c!"ref", c!"return", c!"self", c!"Self",
   c!"static", c!"struct", c!"super", c!"trait", c!"true", c!"type", c!"unsafe", c!"use", c!"where", c!"while", c!"async",
   c!"await", c!"dyn", c!"abstract", c!"become", c!"box", c!"do", c!"final", c!"macro", c!"override", c!"priv", c!"typeof",
   c!"unsized", c!"virtual", c!"yield", c!"try"]

/-- An identifier that Rust accepts: lexically an identifier and not a keyword, or `r#` and a word that may be raw. -/
def LegalIdent (x : Ext) (i : Str) : Prop :=
  (x.identOk i = true ∧ i ∉ rustKeywords) ∨
  ∃ w, i = c!"r#" ++ w ∧ x.identOk w = true ∧ w ∉ [c!"crate", c!"self", c!"Self", c!"super"]

/-- The keywords that `escape_ident` does not know. -/
def missedKeywords : List Str :=
  [c!"as", c!"break", c!"abstract", c!"become", c!"box", c!"do", c!"final", c!"macro", c!"override", c!"priv", c!"typeof",
   c!"unsized", c!"virtual", c!"yield", c!"try"]

theorem keywords_split : ∀ k ∈ rustKeywords, k ∈ missedKeywords ∨ k ∈ escapedWords := by decide +kernel

/-- **C49**, except for some keywords: every other lexically valid name becomes a legal identifier.

Missing: the names in `missedKeywords`, which stay bare keywords, and `crate`, `self`, `Self`, `super`, on which the
generator panics (`C49_false`). -/
theorem C49_legal_partial {s : Str} (hs : x.identOk s = true) (h1 : s ∉ missedKeywords)
    (h2 : s ∉ [c!"crate", c!"self", c!"Self", c!"super"]) : ∃ i, escapeIdent x s = .ok i ∧ LegalIdent x i := by
  unfold escapeIdent
  by_cases he : s ∈ escapedWords
  · rw [if_pos (by simpa using he)]
    rw [if_neg]
    · exact ⟨_, rfl, .inr ⟨s, rfl, hs, h2⟩⟩
    · rw [hs]
      simpa [noRawWords] using h2
  · rw [if_neg (by simpa using he)]
    refine ⟨s, by simp [formatIdent, hs], .inl ⟨hs, fun hk => ?_⟩⟩
    rcases keywords_split s hk with h | h
    · exact h1 h
    · exact he h

/-- **C49** is false in general: a name can stay a bare keyword, and the generator can panic. -/
theorem C49_false : (∀ s ∈ missedKeywords, escapeIdent sampleExt s = .ok s ∧ s ∈ rustKeywords) ∧
    (∀ s ∈ [c!"crate", c!"self", c!"Self", c!"super"], escapeIdent sampleExt s = .panic) := by decide +kernel

/-- Identifiers never contain `#`. -/
def Ext.IdentLaws (x : Ext) : Prop := ∀ s, x.identOk s = true → '#' ∉ s

theorem escapeIdent_ok {s i : Str} (h : escapeIdent x s = .ok i) :
    x.identOk s = true ∧ ((s ∈ escapedWords ∧ i = c!"r#" ++ s) ∨ (s ∉ escapedWords ∧ i = s)) := by
  unfold escapeIdent at h
  split at h
  · next he =>
    split at h
    · cases h
    · next hh =>
      cases h
      simp only [Bool.or_eq_true, not_or, Bool.not_eq_true, Bool.not_eq_false'] at hh
      exact ⟨hh.2, .inl ⟨by simpa using he, rfl⟩⟩
  · next he =>
    unfold formatIdent at h
    split at h
    · next hi => cases h; exact ⟨hi, .inr ⟨by simpa using he, rfl⟩⟩
    · cases h

/-- Escaping keeps different words different. -/
theorem escapeIdent_inj (hx : x.IdentLaws) {s t i : Str} (hs : escapeIdent x s = .ok i) (ht : escapeIdent x t = .ok i) :
    s = t := by
  obtain ⟨is, hs⟩ := escapeIdent_ok hs
  obtain ⟨it, ht⟩ := escapeIdent_ok ht
  rcases hs with ⟨_, rfl⟩ | ⟨_, rfl⟩ <;> rcases ht with ⟨_, ht⟩ | ⟨_, ht⟩
  · exact List.append_cancel_left ht
  · exact absurd (show '#' ∈ t by rw [← ht]; simp) (hx t it)
  · exact absurd (show '#' ∈ i by rw [ht]; simp) (hx i is)
  · exact ht

/-- **C56**, up to the case conversion: two schema names with the same type identifier have the same Pascal case.

Missing: names that differ in the namespace, or in their spelling but not in Pascal case; they get the same identifier
(`C56_false`). -/
theorem C56_unique_partial (hx : x.IdentLaws) {n m : Name} {i : Str} (hn : typeIdent x n = .ok i) (hm : typeIdent x m = .ok i) :
    x.pascal n.name = x.pascal m.name := escapeIdent_inj hx hn hm

/-- **C56** is false in general. -/
theorem C56_false : ∃ n m : Name, n.name ≠ m.name ∧ typeIdent sampleExt n = .ok c!"Item" ∧ typeIdent sampleExt m = .ok c!"Item" ∧
    ∃ n' m' : Name, n'.ns ≠ m'.ns ∧ typeIdent sampleExt n' = .ok c!"Item" ∧ typeIdent sampleExt m' = .ok c!"Item" :=
  ⟨⟨c!"item", .id 1⟩, ⟨c!"Item", .id 1⟩, by decide, by decide +kernel, by decide +kernel,
    ⟨c!"Item", .id 1⟩, ⟨c!"Item", .id 2⟩, by decide, by decide +kernel, by decide +kernel⟩

/-- The law on identifiers can be met. -/
example : { sampleExt with identOk := fun s => s.all Char.isAlphanum && s != [] }.IdentLaws := by
  intro s h hm
  simp only [Bool.and_eq_true, List.all_eq_true] at h
  have := h.1 _ hm
  revert this; decide

end Xsd
