import Verif.Spec.XmlText
/-!
# Reading the text of an event stream
-/
namespace Xsd
namespace XmlText

/-! ## Characters -/

theorem blank_cons {c : Char} {w : Str} (h : Blank (c :: w)) : (c = ' ' ∨ c = '\t' ∨ c = '\n') ∧ Blank w :=
  ⟨h c (by simp), fun d hd => h d (by simp [hd])⟩

theorem nameStart_nameChar {c : Char} (h : isNameStart c = true) : isNameChar c = true := by
  simp [isNameChar, h]

theorem nameChar_xmlChar {c : Char} (h : isNameChar c = true) : isXmlChar c = true := by
  simp only [isNameChar, isNameStart, isXmlChar, Bool.or_eq_true, Bool.and_eq_true, beq_iff_eq, decide_eq_true_eq] at h ⊢
  omega

theorem nameChar_ne {c : Char} (h : isNameChar c = true) (d : Char) (hd : isNameChar d = false) : c ≠ d := by
  rintro rfl; rw [hd] at h; cases h

/-- Characters of qualified names. -/
abbrev QChar (c : Char) : Prop := isNameChar c = true ∨ c = ':'

theorem splitColon_some {s p l : Str} (h : splitColon s = some (p, l)) : s = p ++ ':' :: l := by
  induction s generalizing p with
  | nil => cases h
  | cons c s ih =>
    by_cases hc : c = ':'
    · subst hc; simp only [splitColon, Option.some.injEq, Prod.mk.injEq] at h
      obtain ⟨rfl, rfl⟩ := h; rfl
    · rw [splitColon] at h
      · split at h
        · next p' l' he =>
          simp only [Option.some.injEq, Prod.mk.injEq] at h
          obtain ⟨rfl, rfl⟩ := h
          rw [ih he]; rfl
        · cases h
      · exact hc

theorem splitColon_append {p l : Str} (h : ':' ∉ p) : splitColon (p ++ ':' :: l) = some (p, l) := by
  induction p with
  | nil => rfl
  | cons c p ih =>
    have hc : c ≠ ':' := fun e => h (by simp [e])
    rw [List.cons_append, splitColon]
    · rw [ih (fun e => h (by simp [e]))]
    · exact hc

theorem splitColon_none {s : Str} (h : ':' ∉ s) : splitColon s = none := by
  induction s with
  | nil => rfl
  | cons c s ih =>
    have hc : c ≠ ':' := fun e => h (by simp [e])
    rw [splitColon]
    · rw [ih (fun e => h (by simp [e]))]
    · exact hc

theorem ncName_cons {s : Str} (h : isNCName s = true) : ∃ c cs, s = c :: cs ∧ isNameStart c = true ∧ ∀ d ∈ cs, isNameChar d = true := by
  cases s with
  | nil => cases h
  | cons c cs =>
    simp only [isNCName, Bool.and_eq_true, List.all_eq_true] at h
    exact ⟨c, cs, rfl, h⟩

theorem ncName_colon {s : Str} (h : isNCName s = true) : ':' ∉ s := by
  obtain ⟨c, cs, rfl, h1, h2⟩ := ncName_cons h
  intro hm
  rcases List.mem_cons.1 hm with rfl | hm
  · exact absurd h1 (by decide)
  · exact absurd (h2 _ hm) (by decide)

theorem qName_cons {s : Str} (h : isQName s = true) : ∃ c cs, s = c :: cs ∧ isNameStart c = true ∧ ∀ d ∈ cs, QChar d := by
  unfold isQName at h
  split at h
  · next p l he =>
    rw [Bool.and_eq_true] at h
    obtain ⟨c, cs, rfl, h1, h2⟩ := ncName_cons h.1
    obtain ⟨c', cs', rfl, h1', h2'⟩ := ncName_cons h.2
    refine ⟨c, cs ++ ':' :: c' :: cs', by rw [splitColon_some he]; rfl, h1, fun d hd => ?_⟩
    simp only [List.mem_append, List.mem_cons] at hd
    rcases hd with hd | rfl | rfl | hd
    · exact .inl (h2 d hd)
    · exact .inr rfl
    · exact .inl (nameStart_nameChar h1')
    · exact .inl (h2' d hd)
  · obtain ⟨c, cs, rfl, h1, h2⟩ := ncName_cons h
    exact ⟨c, cs, rfl, h1, fun d hd => .inl (h2 d hd)⟩

theorem hexDigit_of {c : Char} {d : Nat} (h : Digit c d) : hexDigit c = some d := by
  have hl : d < 16 := by
    rcases h with h | h <;> exact (List.getElem?_eq_some_iff.1 h).1
  have key : ∀ d : Fin 16, ∀ s ∈ [c!"0123456789abcdef", c!"0123456789ABCDEF"], ∀ c, s[d.val]? = some c → hexDigit c = some d.val := by
    intro d s hs c hc
    have h2 : (s[d.val]?).bind hexDigit = some d.val := by
      clear hc
      revert d s
      decide
    rw [hc] at h2
    exact h2
  rcases h with h | h
  · exact key ⟨d, hl⟩ _ (.head _) c h
  · exact key ⟨d, hl⟩ _ (.tail _ (.head _)) c h

theorem numValue_snoc {b acc n d : Nat} {ds : Str} {c : Char} (h : numValue b acc ds = some n) (hd : hexDigit c = some d) (hb : d < b) :
    numValue b acc (ds ++ [c]) = some (n * b + d) := by
  induction ds generalizing acc with
  | nil =>
    rw [numValue, Option.some.injEq] at h
    subst h
    simp only [List.nil_append, numValue, hd, if_pos hb]
  | cons e ds ih =>
    rw [numValue] at h
    rw [List.cons_append, numValue]
    split at h
    · split at h
      · rename_i h1 h2
        simp only [if_pos h2]
        exact ih h
      · cases h
    · cases h

theorem numValue_of {b n : Nat} {ds : Str} (h : Numeral b ds n) : ds ≠ [] ∧ numValue b 0 ds = some n := by
  induction h with
  | one hd hb =>
    refine ⟨nofun, ?_⟩
    have := numValue_snoc (b := b) (acc := 0) (ds := []) rfl (hexDigit_of hd) hb
    simpa using this
  | more h hd hb ih =>
    refine ⟨by simp, ?_⟩
    rw [numValue_snoc ih.2 (hexDigit_of hd) hb, Nat.mul_comm]

theorem refers_decode {r : Str} {c : Char} (h : Refers r c) (hx : isXmlChar c = true) : decodeRef r = some c := by
  have hc : ∀ c : Char, isXmlChar c = true → xmlChar c.toNat = some c := fun c hx => by
    have : Char.ofNat c.toNat = c := Char.ofNat_toNat c
    unfold xmlChar
    rw [if_pos ⟨c.valid, by rw [this]; exact hx⟩, this]
  cases h with
  | lt => rfl
  | gt => rfl
  | amp => rfl
  | quot => rfl
  | apos => rfl
  | @dec ds _ h =>
    obtain ⟨h, hv⟩ := numValue_of h
    cases ds with
    | nil => exact absurd rfl h
    | cons d ds =>
      have hd : d ≠ 'x' := by rintro rfl; simp [numValue, hexDigit] at hv
      simp only [decodeRef]
      simp [hd, hv, hc c hx]
  | hex h =>
    obtain ⟨h, hv⟩ := numValue_of h
    simp only [decodeRef]
    simp [h, hv, hc c hx]

theorem numValue_digit {base acc n : Nat} {ds : Str} (h : numValue base acc ds = some n) : ∀ d ∈ ds, (hexDigit d).isSome = true := by
  induction ds generalizing acc with
  | nil => simp
  | cons c cs ih =>
    rw [numValue] at h
    split at h
    · next d he =>
      split at h
      · intro e hm
        rcases List.mem_cons.1 hm with rfl | hm
        · rw [he]; rfl
        · exact ih h e hm
      · cases h
    · cases h

theorem refers_semicolon {r : Str} {c : Char} (h : Refers r c) : ∀ d ∈ r, d ≠ ';' ∧ isXmlChar d = true ∧ d ≠ '\r' := by
  have hx : ∀ d : Char, (hexDigit d).isSome = true → d ≠ ';' ∧ isXmlChar d = true ∧ d ≠ '\r' := by
    intro d hd
    refine ⟨?_, ?_, ?_⟩
    · rintro rfl; exact absurd hd (by decide)
    · simp only [hexDigit] at hd
      simp only [isXmlChar, Bool.or_eq_true, Bool.and_eq_true, beq_iff_eq, decide_eq_true_eq]
      split at hd
      · omega
      · split at hd
        · omega
        · split at hd
          · omega
          · cases hd
    · rintro rfl; exact absurd hd (by decide)
  cases h with
  | lt => decide
  | gt => decide
  | amp => decide
  | quot => decide
  | apos => decide
  | dec h =>
    have hv := (numValue_of h).2
    intro d hd
    rcases List.mem_cons.1 hd with rfl | hd
    · decide
    · exact hx d (numValue_digit hv d hd)
  | hex h =>
    have hv := (numValue_of h).2
    intro d hd
    rcases List.mem_cons.1 hd with rfl | hd
    · decide
    · rcases List.mem_cons.1 hd with rfl | hd
      · decide
      · exact hx d (numValue_digit hv d hd)

/-! ## Going through the text -/

theorem readFrom_append {l : LState} {st : RState} {s t : Str} :
    readFrom l st (s ++ t) = (readFrom l st s).bind (fun p => readFrom p.1 p.2 t) := by
  induction s generalizing l st with
  | nil => rfl
  | cons c s ih =>
    rw [List.cons_append, readFrom, readFrom]
    split
    · split
      · exact ih
      · rfl
    · rfl

/-- One character without a tag or text that ends there. -/
theorem readFrom_quiet {l l' : LState} {st : RState} {c : Char} {t : Str} (h : lexStep l c = some (l', [])) :
    readFrom l st (c :: t) = readFrom l' st t := by
  rw [readFrom, h]; rfl

theorem readFrom_tok {l l' : LState} {st st' : RState} {c : Char} {t : Str} {ts : List Tok} (h : lexStep l c = some (l', ts))
    (hs : rsteps st ts = some st') : readFrom l st (c :: t) = readFrom l' st' t := by
  rw [readFrom, h]; simp only [hs]

theorem addText_nil (ks : List XNode) : addText ks [] = ks := by simp [addText]

theorem addText_cons {ks : List XNode} {s t : Str} (hs : s ≠ []) : addText (addText ks s) t = addText ks (s ++ t) := by
  by_cases ht : t = []
  · subst ht; rw [addText_nil, List.append_nil]
  · have hst : s ++ t ≠ [] := by simp [hs]
    have key : ∀ (js : List XNode) (u : Str), addText (js ++ [.text u]) t = js ++ [.text (u ++ t)] := by
      intro js u
      unfold addText
      rw [if_neg ht, List.getLast?_concat]
      simp
    have e : ∀ u : Str, u ≠ [] → addText ks u = match ks.getLast? with
        | some (.text t) => ks.dropLast ++ [.text (t ++ u)]
        | _ => ks ++ [.text u] := fun u hu => by unfold addText; rw [if_neg hu]; rfl
    rw [e s hs, e _ hst]
    split
    · rw [key, List.append_assoc]
    · rw [key]

/-- Characters in an element. -/
def RState.put (m : Str) (t : Frame) (r : List (Str × Frame)) (s : Str) : RState :=
  .inside m { t with kids := addText t.kids s } r

theorem put_nil (m : Str) (t : Frame) (r : List (Str × Frame)) : RState.put m t r [] = .inside m t r := by
  unfold RState.put; rw [addText_nil]

theorem readFrom_ref {st : RState} {r r' t : Str} {c : Char} (hd : decodeRef (r' ++ r) = some c) (hr : ∀ d ∈ r, d ≠ ';') :
    readFrom (.ref r') st (r ++ ';' :: t) =
      match rstep st (.chars false [c]) with
      | some st => readFrom (.content 0) st t
      | none => none := by
  induction r generalizing r' with
  | nil =>
    rw [List.append_nil] at hd
    rw [List.nil_append, readFrom]
    simp only [lexStep, if_true, hd, Option.map_some, rsteps]
    cases rstep st (.chars false [c]) <;> rfl
  | cons d r ih =>
    have h1 : lexStep (.ref r') d = some (.ref (r' ++ [d]), []) := by
      rw [lexStep, if_neg (hr d (by simp))]
    rw [List.cons_append, readFrom_quiet h1]
    exact ih (by simpa using hd) (fun e he => hr e (by simp [he]))

/-- Spelled characters in an element. -/
theorem readFrom_text {k k' : Nat} {s ts : Str} (h : SpellsText k s ts k') {m : Str} {f : Frame} {r : List (Str × Frame)} {t : Str} :
    readFrom (.content k) (.inside m f r) (ts ++ t) = readFrom (.content k') (RState.put m f r s) t := by
  induction h generalizing f with
  | nil => rw [put_nil]; rfl
  | @lit k k' c s ts hx h1 h2 h3 h4 h ih =>
    have hl : lexStep (.content k) c = some (.content (brackets k c), [.chars true [c]]) := by
      rw [lexStep, if_neg h1, if_neg h2, if_neg]
      rintro ⟨e, e'⟩; have := h4 e; omega
    rw [List.cons_append, readFrom_tok hl (st' := RState.put m f r [c]) rfl]
    have := ih (f := { f with kids := addText f.kids [c] })
    unfold RState.put at this ⊢
    simp only [addText_cons (List.cons_ne_nil c [])] at this
    exact this
  | @ref k k' c r' s ts hx hr h ih =>
    have hl : lexStep (.content k) '&' = some (.ref [], []) := rfl
    rw [List.cons_append, readFrom_quiet hl, List.append_assoc, List.cons_append,
      readFrom_ref (r' := []) (refers_decode hr hx) (fun d hd => (refers_semicolon hr d hd).1)]
    have := ih (f := { f with kids := addText f.kids [c] })
    unfold RState.put at this ⊢
    simp only [addText_cons (List.cons_ne_nil c [])] at this
    exact this

theorem blank_spells {w : Str} (h : Blank w) (k : Nat) : SpellsText k w w (if w = [] then k else 0) := by
  induction w generalizing k with
  | nil => exact .nil
  | cons c w ih =>
    obtain ⟨h1, h2⟩ := blank_cons h
    rw [if_neg (by simp)]
    have hi := ih h2 0
    simp only [ite_self] at hi
    rcases h1 with rfl | rfl | rfl <;>
      exact .lit (by decide) (by decide) (by decide) (by decide) (by intro e; cases e) hi

/-- White space in an element. -/
theorem readFrom_blank {w : Str} (hw : Blank w) {k : Nat} {m : Str} {f : Frame} {r : List (Str × Frame)} {t : Str} :
    readFrom (.content k) (.inside m f r) (w ++ t) = readFrom (.content (if w = [] then k else 0)) (RState.put m f r w) t :=
  readFrom_text (blank_spells hw k)

/-- Outside of the root element. -/
inductive Outer : RState → Prop where
  | before : Outer .before
  | done (e : Elem) : Outer (.done e)

theorem readFrom_outer {st : RState} (ho : Outer st) {w : Str} (hw : Blank w) {k : Nat} {t : Str} :
    readFrom (.content k) st (w ++ t) = readFrom (.content (if w = [] then k else 0)) st t := by
  induction w generalizing k with
  | nil => rfl
  | cons c w ih =>
    obtain ⟨h1, h2⟩ := blank_cons hw
    rw [if_neg (by simp), List.cons_append]
    have hl : lexStep (.content k) c = some (.content 0, [.chars true [c]]) := by
      rcases h1 with rfl | rfl | rfl <;> simp [lexStep, brackets]
    have hs : rsteps st [.chars true [c]] = some st := by
      rcases h1 with rfl | rfl | rfl <;> cases ho <;> rfl
    rw [readFrom_tok hl hs, ih h2]
    congr 2
    split <;> rfl

/-! ## Tags -/

/-- In a start tag after the name or an attribute. -/
inductive AtTag (n : Str) (as : List (Str × Str)) : LState → Prop where
  | name (h : as = []) : AtTag n as (.openName n)
  | tag (sp : Bool) : AtTag n as (.inTag n as sp)

theorem atTag_step {n : Str} {as : List (Str × Str)} {l : LState} (h : AtTag n as l) {c : Char} (hc : isNameChar c = false) (h2 : c ≠ ':') :
    ∃ sp, lexStep l c = tagStep n as sp c := by
  cases h with
  | name h => subst h; exact ⟨false, by rw [lexStep, if_neg (by simp [hc, h2])]⟩
  | tag sp => exact ⟨sp, rfl⟩

theorem readFrom_inTag {n : Str} {as : List (Str × Str)} {w : Str} (hw : Blank w) {st : RState} {t : Str} :
    readFrom (.inTag n as true) st (w ++ t) = readFrom (.inTag n as true) st t := by
  induction w with
  | nil => rfl
  | cons c w ih =>
    obtain ⟨h1, h2⟩ := blank_cons hw
    have hl : lexStep (.inTag n as true) c = some (.inTag n as true, []) := by rcases h1 with rfl | rfl | rfl <;> rfl
    rw [List.cons_append, readFrom_quiet hl, ih h2]

theorem readFrom_tagBlank {n : Str} {as : List (Str × Str)} {w : Str} (hw : Blank w) (hn : w ≠ []) {st : RState} {t : Str} {l : LState}
    (h : AtTag n as l) : readFrom l st (w ++ t) = readFrom (.inTag n as true) st t := by
  cases w with
  | nil => exact absurd rfl hn
  | cons c w =>
    obtain ⟨h1, h2⟩ := blank_cons hw
    obtain ⟨sp, hsp⟩ := atTag_step h (c := c) (by rcases h1 with rfl | rfl | rfl <;> decide)
      (by rcases h1 with rfl | rfl | rfl <;> decide)
    have hl : lexStep l c = some (.inTag n as true, []) := by
      rw [hsp]; rcases h1 with rfl | rfl | rfl <;> rfl
    rw [List.cons_append, readFrom_quiet hl, readFrom_inTag h2]

theorem readFrom_tagBlank' {n : Str} {as : List (Str × Str)} {w : Str} (hw : Blank w) {st : RState} {t : Str} {l : LState}
    (h : AtTag n as l) : ∃ l', AtTag n as l' ∧ readFrom l st (w ++ t) = readFrom l' st t := by
  by_cases hn : w = []
  · subst hn; exact ⟨l, h, rfl⟩
  · exact ⟨_, .tag true, readFrom_tagBlank hw hn h⟩

theorem readFrom_openName {m n t : Str} (h : ∀ c ∈ m, QChar c) {st : RState} :
    readFrom (.openName n) st (m ++ t) = readFrom (.openName (n ++ m)) st t := by
  induction m generalizing n with
  | nil => simp
  | cons c m ih =>
    have hl : lexStep (.openName n) c = some (.openName (n ++ [c]), []) := by
      rw [lexStep, if_pos (h c (by simp))]
    rw [List.cons_append, readFrom_quiet hl, ih (fun d hd => h d (by simp [hd]))]
    simp

theorem readFrom_attrName {n : Str} {as : List (Str × Str)} {m a t : Str} (h : ∀ c ∈ m, QChar c) {st : RState} :
    readFrom (.attrName n as a) st (m ++ t) = readFrom (.attrName n as (a ++ m)) st t := by
  induction m generalizing a with
  | nil => simp
  | cons c m ih =>
    have hl : lexStep (.attrName n as a) c = some (.attrName n as (a ++ [c]), []) := by
      rw [lexStep, if_pos (h c (by simp))]
    rw [List.cons_append, readFrom_quiet hl, ih (fun d hd => h d (by simp [hd]))]
    simp

theorem readFrom_closeName {m n t : Str} (h : ∀ c ∈ m, QChar c) {st : RState} :
    readFrom (.closeName n) st (m ++ t) = readFrom (.closeName (n ++ m)) st t := by
  induction m generalizing n with
  | nil => simp
  | cons c m ih =>
    have hl : lexStep (.closeName n) c = some (.closeName (n ++ [c]), []) := by
      rw [lexStep, if_pos (h c (by simp))]
    rw [List.cons_append, readFrom_quiet hl, ih (fun d hd => h d (by simp [hd]))]
    simp

theorem readFrom_attrEnd {n : Str} {as : List (Str × Str)} {a w t : Str} (hw : Blank w) {st : RState} :
    readFrom (.attrEnd n as a) st (w ++ '=' :: t) = readFrom (.attrEq n as a) st t := by
  induction w with
  | nil => exact readFrom_quiet rfl
  | cons c w ih =>
    obtain ⟨h1, h2⟩ := blank_cons hw
    have hl : lexStep (.attrEnd n as a) c = some (.attrEnd n as a, []) := by rcases h1 with rfl | rfl | rfl <;> rfl
    rw [List.cons_append, readFrom_quiet hl, ih h2]

theorem readFrom_attrEq' {n : Str} {as : List (Str × Str)} {a w t : Str} (hw : Blank w) {st : RState} :
    readFrom (.attrName n as a) st (w ++ '=' :: t) = readFrom (.attrEq n as a) st t := by
  cases w with
  | nil => exact readFrom_quiet rfl
  | cons c w =>
    obtain ⟨h1, h2⟩ := blank_cons hw
    have hl : lexStep (.attrName n as a) c = some (.attrEnd n as a, []) := by rcases h1 with rfl | rfl | rfl <;> rfl
    rw [List.cons_append, readFrom_quiet hl, readFrom_attrEnd h2]

theorem readFrom_attrQuote {n : Str} {as : List (Str × Str)} {a w t : Str} {q : Char} (hq : q = '"' ∨ q = '\'') (hw : Blank w) {st : RState} :
    readFrom (.attrEq n as a) st (w ++ q :: t) = readFrom (.attrVal n as a q []) st t := by
  induction w with
  | nil => rcases hq with rfl | rfl <;> exact readFrom_quiet rfl
  | cons c w ih =>
    obtain ⟨h1, h2⟩ := blank_cons hw
    have hl : lexStep (.attrEq n as a) c = some (.attrEq n as a, []) := by rcases h1 with rfl | rfl | rfl <;> rfl
    rw [List.cons_append, readFrom_quiet hl, ih h2]

theorem readFrom_attrRef {st : RState} {n : Str} {as : List (Str × Str)} {a v r r' t : Str} {q c : Char} (hd : decodeRef (r' ++ r) = some c)
    (hr : ∀ d ∈ r, d ≠ ';') :
    readFrom (.attrRef n as a q v r') st (r ++ ';' :: t) = readFrom (.attrVal n as a q (v ++ [c])) st t := by
  induction r generalizing r' with
  | nil =>
    rw [List.append_nil] at hd
    exact readFrom_quiet (by simp only [lexStep, if_true, hd, Option.map_some])
  | cons d r ih =>
    have h1 : lexStep (.attrRef n as a q v r') d = some (.attrRef n as a q v (r' ++ [d]), []) := by
      rw [lexStep, if_neg (hr d (by simp))]
    rw [List.cons_append, readFrom_quiet h1]
    exact ih (by simpa using hd) (fun e he => hr e (by simp [he]))

theorem readFrom_attrVal {st : RState} {n : Str} {as : List (Str × Str)} {a v s ts t : Str} {q : Char} (hq : q = '"' ∨ q = '\'')
    (h : SpellsAttr q s ts) :
    readFrom (.attrVal n as a q v) st (ts ++ q :: t) = readFrom (.inTag n (as ++ [(a, v ++ s)]) false) st t := by
  induction h generalizing v with
  | nil => rw [List.append_nil]; exact readFrom_quiet (by simp only [lexStep, if_true])
  | @lit c s ts hx h1 h2 h3 h4 h ih =>
    have hl : lexStep (.attrVal n as a q v) c = some (.attrVal n as a q (v ++ [c]), []) := by
      rw [lexStep, if_neg h4, if_neg h1, if_neg h2]
      split
      · next hs =>
        simp only [isXmlSpace, Bool.or_eq_true, beq_iff_eq] at hs
        rcases hs with ((rfl | rfl) | rfl) | rfl
        · rfl
        · exact absurd rfl h3.1
        · exact absurd rfl h3.2.1
        · exact absurd rfl h3.2.2
      · rfl
    rw [List.cons_append, readFrom_quiet hl, ih, List.append_assoc]; rfl
  | @ref c r s ts hx hr h ih =>
    have hl : lexStep (.attrVal n as a q v) '&' = some (.attrRef n as a q v [], []) := by
      rcases hq with rfl | rfl <;> rfl
    rw [List.cons_append, readFrom_quiet hl, List.append_assoc, List.cons_append,
      readFrom_attrRef (r' := []) (refers_decode hr hx) (fun d hd => (refers_semicolon hr d hd).1), ih, List.append_assoc]; rfl

/-- The attributes of a start tag. -/
theorem readFrom_attrs {st : RState} {n : Str} {bs : List (Str × Str)} {ta : Str} (h : AttrsText bs ta) (hb : ∀ b ∈ bs, isQName b.1 = true)
    {as : List (Str × Str)} {t : Str} {l : LState} (hl : AtTag n as l) :
    ∃ l', AtTag n (as ++ bs) l' ∧ readFrom l st (ta ++ t) = readFrom l' st t := by
  induction h generalizing as l with
  | nil => exact ⟨l, by rw [List.append_nil]; exact hl, rfl⟩
  | @cons a v tv w w1 w2 rest q bs hw hn hw1 hw2 hq hv h ih =>
    obtain ⟨c, cs, rfl, hc, hcs⟩ := qName_cons (hb _ (by simp) : isQName (a, v).1 = true)
    obtain ⟨l', h1, h2⟩ := ih (fun b hm => hb b (by simp [hm])) (as := as ++ [(c :: cs, v)]) (l := .inTag n (as ++ [(c :: cs, v)]) false) (.tag _)
    refine ⟨l', by simpa using h1, ?_⟩
    have h3 : lexStep (.inTag n as true) c = some (.attrName n as [c], []) := by
      have hne : ∀ d, isNameChar d = false → c ≠ d := nameChar_ne (nameStart_nameChar hc)
      have hs : isXmlSpace c = false := by
        simp only [isXmlSpace, Bool.or_eq_false_iff, beq_eq_false_iff_ne]
        exact ⟨⟨⟨hne _ (by decide), hne _ (by decide)⟩, hne _ (by decide)⟩, hne _ (by decide)⟩
      rw [lexStep, tagStep, if_neg (by simp [hs]), if_neg (hne _ (by decide)), if_neg (hne _ (by decide)), if_pos (by simp [hc])]
    simp only [List.append_assoc, List.cons_append]
    rw [readFrom_tagBlank hw hn hl, readFrom_quiet h3, readFrom_attrName hcs, readFrom_attrEq' hw1, readFrom_attrQuote hq hw2,
      readFrom_attrVal hq hv]
    simpa using h2

/-- A start tag up to its end. -/
theorem readFrom_tag {k : Nat} {st : RState} {n : Str} {bs : List (Str × Str)} {ta w : Str} (hn : isQName n = true) (h : AttrsText bs ta)
    (hb : ∀ b ∈ bs, isQName b.1 = true) (hw : Blank w) {t : Str} :
    ∃ l, AtTag n bs l ∧ readFrom (.content k) st ('<' :: (n ++ (ta ++ (w ++ t)))) = readFrom l st t := by
  obtain ⟨c, cs, rfl, hc, hcs⟩ := qName_cons hn
  have hne : ∀ d, isNameStart d = false → c ≠ d := fun d hd e => by subst e; rw [hd] at hc; cases hc
  have h1 : lexStep .lt c = some (.openName [c], []) := by
    rw [lexStep, if_neg (hne _ (by decide)), if_neg (hne _ (by decide)), if_neg (hne _ (by decide)), if_pos hc]
  obtain ⟨l, h2, h3⟩ := readFrom_attrs (st := st) h hb (as := []) (t := w ++ t) (l := .openName (c :: cs)) (.name rfl)
  rw [List.nil_append] at h2
  obtain ⟨l', h4, h5⟩ := readFrom_tagBlank' hw (st := st) (t := t) h2
  refine ⟨l', h4, ?_⟩
  rw [readFrom_quiet (l' := .lt) rfl, List.cons_append, readFrom_quiet h1, readFrom_openName hcs, ← h5, ← h3]; rfl

theorem readFrom_start {k : Nat} {st st' : RState} {n : Str} {bs : List (Str × Str)} {ta w : Str} (hn : isQName n = true) (h : AttrsText bs ta)
    (hb : ∀ b ∈ bs, isQName b.1 = true) (hw : Blank w) {t : Str} (hs : rstep st (.start n bs) = some st') :
    readFrom (.content k) st ('<' :: (n ++ (ta ++ (w ++ '>' :: t)))) = readFrom (.content 0) st' t := by
  obtain ⟨l, h1, h2⟩ := readFrom_tag (k := k) (st := st) hn h hb hw (t := '>' :: t)
  rw [h2]
  obtain ⟨sp, h3⟩ := atTag_step h1 (c := '>') (by decide) (by decide)
  exact readFrom_tok h3 (by simp [rsteps, hs])

theorem readFrom_empty {k : Nat} {st st' st2 : RState} {n : Str} {bs : List (Str × Str)} {ta w : Str} (hn : isQName n = true) (h : AttrsText bs ta)
    (hb : ∀ b ∈ bs, isQName b.1 = true) (hw : Blank w) {t : Str} (hs : rstep st (.start n bs) = some st') (hs2 : rstep st' (.fin n) = some st2) :
    readFrom (.content k) st ('<' :: (n ++ (ta ++ (w ++ '/' :: '>' :: t)))) = readFrom (.content 0) st2 t := by
  obtain ⟨l, h1, h2⟩ := readFrom_tag (k := k) (st := st) hn h hb hw (t := '/' :: '>' :: t)
  rw [h2]
  obtain ⟨sp, h3⟩ := atTag_step h1 (c := '/') (by decide) (by decide)
  rw [readFrom_quiet (l' := .slash n bs) h3]
  exact readFrom_tok rfl (by simp [rsteps, hs, hs2])

theorem readFrom_closeEnd {st st' : RState} {n w t : Str} (hw : Blank w) (hs : rstep st (.fin n) = some st') :
    readFrom (.closeEnd n) st (w ++ '>' :: t) = readFrom (.content 0) st' t := by
  induction w with
  | nil => exact readFrom_tok rfl (by simp [rsteps, hs])
  | cons c w ih =>
    obtain ⟨h1, h2⟩ := blank_cons hw
    have hl : lexStep (.closeEnd n) c = some (.closeEnd n, []) := by rcases h1 with rfl | rfl | rfl <;> rfl
    rw [List.cons_append, readFrom_quiet hl, ih h2]

theorem readFrom_fin {k : Nat} {st st' : RState} {n w t : Str} (hn : isQName n = true) (hw : Blank w) (hs : rstep st (.fin n) = some st') :
    readFrom (.content k) st ('<' :: '/' :: (n ++ (w ++ '>' :: t))) = readFrom (.content 0) st' t := by
  obtain ⟨c, cs, rfl, hc, hcs⟩ := qName_cons hn
  rw [readFrom_quiet (l' := .lt) rfl, readFrom_quiet (l' := .closeName []) rfl,
    readFrom_closeName (m := c :: cs) (fun d hd => by
      rcases List.mem_cons.1 hd with rfl | hd
      · exact .inl (nameStart_nameChar hc)
      · exact hcs d hd), List.nil_append]
  cases w with
  | nil => exact readFrom_tok rfl (by simp [rsteps, hs])
  | cons d w =>
    obtain ⟨h1, h2⟩ := blank_cons hw
    have hl : lexStep (.closeName (c :: cs)) d = some (.closeEnd (c :: cs), []) := by rcases h1 with rfl | rfl | rfl <;> rfl
    rw [List.cons_append, readFrom_quiet hl, readFrom_closeEnd h2 hs]

end XmlText
end Xsd
