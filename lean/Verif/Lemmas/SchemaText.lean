import Verif.Spec.SchemaText
import Verif.Lemmas.XmlText
import Verif.Lemmas.XmlTree
import Verif.Lemmas.Build
/-!
# Positions in the text of schema files
-/
namespace Xsd
namespace XmlText

/-! ## The same tree as without positions -/

theorem bareNodes_append (a b : List XNode) : bareNodes (a ++ b) = bareNodes a ++ bareNodes b := by
  induction a with
  | nil => simp [bareNodes]
  | cons c a ih => simp [bareNodes, ih]

theorem bareNodes_getLast (a : List XNode) : (bareNodes a).getLast? = a.getLast?.map bareNode := by
  rcases List.eq_nil_or_concat a with rfl | ⟨l, c, rfl⟩
  · simp [bareNodes]
  · simp [List.concat_eq_append, bareNodes_append, bareNodes]

theorem bareNodes_addText (k : List XNode) (s : Str) : bareNodes (addText k s) = addText (bareNodes k) s := by
  unfold addText
  split
  · rfl
  · rw [bareNodes_getLast]
    rcases List.eq_nil_or_concat k with rfl | ⟨l, c, rfl⟩
    · simp [bareNodes, bareNode]
    · rw [List.concat_eq_append]
      cases c <;> simp [bareNodes_append, bareNodes, bareNode]

/-- A frame without positions. -/
def bareFrame (f : Frame) : Frame := ⟨⟨f.info.name, f.info.attrs.map (fun a => { a with start := 0 }), [], 0⟩, f.scope, bareNodes f.kids⟩

/-- A state without positions. -/
def bareState : RState → RState
  | .before => .before
  | .inside n t r => .inside n (bareFrame t) (r.map (fun p => (p.1, bareFrame p.2)))
  | .done e => .done (bareElem e)

theorem readAttrs_bare {sc : Scope} {as : List (Str × Str)} {xs : List XAttr} (h : readAttrs sc as = some xs) :
    xs.map (fun a => { a with start := 0 }) = xs := by
  induction as generalizing xs with
  | nil => simp [readAttrs] at h; simp [h]
  | cons a as ih =>
    simp only [readAttrs] at h
    split at h
    · next y ys h1 h2 =>
      cases h
      rw [List.map_cons, ih h2]
      congr 1
      unfold readAttr at h1
      split at h1
      · rw [Option.map_eq_some_iff] at h1
        obtain ⟨u, _, rfl⟩ := h1
        rfl
      · cases h1; rfl
    · cases h

theorem readElem_bare {sc : Scope} {n : Str} {as : List (Str × Str)} {f : Frame} (h : readElem sc n as = some f) : bareFrame f = f := by
  unfold readElem at h
  simp only at h
  split at h
  · split at h
    · next q xs h1 h2 =>
      split at h
      · cases h
        simp only [bareFrame, bareNodes]
        rw [readAttrs_bare h2]
      · cases h
    · cases h
  · cases h

theorem placeAttrs_bare (as : List XAttr) (ps : List Nat) :
    (placeAttrs as ps).map (fun a => { a with start := 0 }) = as.map (fun a => { a with start := 0 }) := by
  induction as generalizing ps with
  | nil => cases ps <;> rfl
  | cons a as ih =>
    cases ps with
    | nil => rfl
    | cons p ps => simp [placeAttrs, ih]

theorem placeFrame_bare (m : Marks) (raw : List (Str × Str)) (f : Frame) : bareFrame (placeFrame m raw f) = bareFrame f := by
  simp only [bareFrame, placeFrame, placeAttrs_bare]

theorem rstep_bare (st : RState) (t : Tok) : rstep (bareState st) t = (rstep st t).map bareState := by
  cases st with
  | before =>
    cases t with
    | start n as =>
      simp only [bareState, rstep]
      cases h : readElem xmlScope n as with
      | none => rfl
      | some f => simp [bareState, readElem_bare h]
    | fin n => rfl
    | chars lit s => simp only [bareState, rstep]; split <;> rfl
    | other => rfl
  | inside m t' r =>
    cases t with
    | start n as =>
      simp only [bareState, rstep]
      show Option.map _ (readElem t'.scope n as) = _
      cases h : readElem t'.scope n as with
      | none => rfl
      | some f => simp [bareState, readElem_bare h]
    | fin n =>
      simp only [bareState, rstep]
      split
      · cases r with
        | nil => simp [bareState, bareElem, bareFrame]
        | cons q r => simp [bareState, bareFrame, bareNodes_append, bareNodes, bareNode]
      · rfl
    | chars lit s => simp [bareState, rstep, bareFrame, bareNodes_addText]
    | other => simp [bareState, rstep, bareFrame, bareNodes_append, bareNodes, bareNode]
  | done e =>
    cases t with
    | start n as => rfl
    | fin n => rfl
    | chars lit s => simp only [bareState, rstep]; split <;> rfl
    | other => rfl

theorem placeTop_bare (m : Marks) (raw : List (Str × Str)) (st : RState) : bareState (placeTop m raw st) = bareState st := by
  cases st <;> simp [placeTop, bareState, placeFrame_bare]

theorem rstepAt_bare (m : Marks) (st : RState) (t : Tok) : (rstepAt m st t).map bareState = rstep (bareState st) t := by
  rw [rstep_bare]
  cases t with
  | start n as =>
    simp only [rstepAt, Option.map_map]
    congr 1
    funext st
    exact placeTop_bare _ _ _
  | fin n => rfl
  | chars lit s => rfl
  | other => rfl

theorem rstepsAt_bare (m : Marks) (st : RState) (ts : List Tok) : (rstepsAt m st ts).map bareState = rsteps (bareState st) ts := by
  induction ts generalizing st with
  | nil => rfl
  | cons t ts ih =>
    simp only [rstepsAt, rsteps]
    rw [← rstepAt_bare m]
    cases rstepAt m st t with
    | none => rfl
    | some st => exact ih st

theorem readFromAt_bare (l : LState) (m : Marks) (st : RState) (cs : List (Char × Nat)) :
    (readFromAt l m st cs).map (fun r => (r.1, bareState r.2)) = readFrom l (bareState st) (cs.map Prod.fst) := by
  induction cs generalizing l m st with
  | nil => rfl
  | cons c cs ih =>
    obtain ⟨c, p⟩ := c
    simp only [readFromAt, List.map_cons, readFrom]
    cases lexStep l c with
    | none => rfl
    | some r =>
      obtain ⟨l', ts⟩ := r
      simp only
      rw [← rstepsAt_bare (mark m l c p)]
      cases rstepsAt (mark m l c p) st ts with
      | none => rfl
      | some st => exact ih _ _ _

theorem offsets_fst (p : Nat) (s : Str) : (offsets p s).map Prod.fst = s := by
  induction s generalizing p with
  | nil => rfl
  | cons c s ih => simp [offsets, ih]

theorem normEolAt_fst (cs : List (Char × Nat)) : (normEolAt cs).map Prod.fst = normEol (cs.map Prod.fst) := by
  fun_induction normEolAt cs with
  | case1 => rfl
  | case2 p q cs ih => simp [normEol, ih]
  | case3 p cs hne ih =>
    cases cs with
    | nil => simp [normEol, normEolAt]
    | cons d cs =>
      obtain ⟨d, q⟩ := d
      have hd : d ≠ '\n' := fun h => hne q cs (by rw [h])
      simp only [List.map_cons, ih]
      rw [normEol]
      simpa using hd
  | case4 c cs h1 h2 ih =>
    obtain ⟨c, p⟩ := c
    have hc : c ≠ '\r' := fun h => h2 p (by rw [h])
    simp only [List.map_cons, ih]
    rw [normEol]
    · intro _ e; exact absurd e hc
    · exact hc

theorem afterDecl_suffix {s t : Str} (h : afterDecl s = some t) : ∃ u, s = u ++ t := by
  induction s using afterDecl.induct with
  | case1 => exact absurd h nofun
  | case2 cs => injection h with h; subst h; exact ⟨c!"?>", rfl⟩
  | case3 c cs hne ih =>
    unfold afterDecl at h
    split at h
    · exact absurd h nofun
    · next h' => injection h' with h1 h2; exact (hne _ h1 h2).elim
    · next h' =>
      injection h' with h1 h2; subst h2
      obtain ⟨u, rfl⟩ := ih h
      exact ⟨c :: u, rfl⟩

theorem skipDecl_suffix {s t : Str} (h : skipDecl (skipBom s) = some t) : ∃ u, s = u ++ t := by
  have h1 : ∃ u, skipBom s = u ++ t := by
    generalize skipBom s = s at h
    unfold skipDecl at h
    split at h
    · next c cs =>
      split at h
      · obtain ⟨u, rfl⟩ := afterDecl_suffix h
        exact ⟨c!"<?xml" ++ c :: u, rfl⟩
      · injection h with h; exact ⟨[], h⟩
    · injection h with h; exact ⟨[], h⟩
  obtain ⟨u, hu⟩ := h1
  unfold skipBom at hu
  split at hu
  · exact ⟨'\uFEFF' :: u, by rw [hu]; rfl⟩
  · exact ⟨u, hu⟩

theorem readXmlAt_bare (s : Str) : (readXmlAt s).map bareElem = readXml s := by
  unfold readXmlAt readXml
  split
  · simp only [normEolAt_fst, offsets_fst]
    cases h : skipDecl (skipBom (normEol s)) with
    | none => rfl
    | some t =>
      simp only
      obtain ⟨u, hu⟩ := skipDecl_suffix h
      have hlen : (normEolAt (offsets 0 s)).length = (u ++ t).length := by
        rw [← hu, ← List.length_map (f := Prod.fst), normEolAt_fst, offsets_fst]
      have hm : ((normEolAt (offsets 0 s)).drop ((normEolAt (offsets 0 s)).length - t.length)).map Prod.fst = t := by
        rw [List.map_drop, normEolAt_fst, offsets_fst, hlen, hu]
        simp
      have hb := readFromAt_bare (.content 0) ⟨0, []⟩ .before ((normEolAt (offsets 0 s)).drop ((normEolAt (offsets 0 s)).length - t.length))
      rw [hm] at hb
      simp only [bareState] at hb
      rw [← hb]
      rcases readFromAt (.content 0) ⟨0, []⟩ .before _ with _ | ⟨l, st⟩
      · rfl
      · cases l <;> cases st <;> rfl
  · rfl

/-! ## Positions -/

theorem utf8Len_append (a b : Str) : utf8Len (a ++ b) = utf8Len a + utf8Len b := by
  simp [utf8Len]

theorem AtByte.step {s : Str} {p : Nat} {c : Char} {t : Str} (h : AtByte s p (c :: t)) : AtByte s (p + c.utf8Size) t := by
  obtain ⟨u, rfl, rfl⟩ := h
  exact ⟨u ++ [c], by simp, by simp⟩

/-- One character of the normalised text is one character of the text, or a line end. -/
theorem normEolAt_step {s : Str} {p : Nat} {rem : Str} (h : AtByte s p rem) {c : Char} {q : Nat} {L : List (Char × Nat)}
    (hL : normEolAt (offsets p rem) = (c, q) :: L) :
    q = p ∧ ∃ raw rem' p', rem = raw ++ rem' ∧ (raw = [c] ∨ c = '\n' ∧ raw ≠ [] ∧ ∀ d ∈ raw, isXmlSpace d = true) ∧ AtByte s p' rem' ∧
      L = normEolAt (offsets p' rem') := by
  cases rem with
  | nil => cases hL
  | cons d rem =>
    simp only [offsets] at hL
    have h1 := h.step
    by_cases hd : d = '\r'
    · subst hd
      cases rem with
      | nil =>
        simp only [offsets, normEolAt] at hL
        cases hL
        exact ⟨rfl, ['\r'], [], _, rfl, .inr ⟨rfl, by simp, by decide⟩, h1, rfl⟩
      | cons e rem =>
        by_cases he : e = '\n'
        · subst he
          simp only [offsets, normEolAt] at hL
          cases hL
          exact ⟨rfl, ['\r', '\n'], rem, _, rfl, .inr ⟨rfl, by simp, by decide⟩, h1.step, rfl⟩
        · rw [normEolAt] at hL
          · cases hL
            exact ⟨rfl, ['\r'], e :: rem, _, rfl, .inr ⟨rfl, by simp, by decide⟩, h1, rfl⟩
          · intro q cs h
            simp only [offsets] at h
            cases h
            exact he rfl
    · rw [normEolAt] at hL
      · cases hL
        exact ⟨rfl, [_], rem, _, rfl, .inl rfl, h1, rfl⟩
      · intro _ _ _ e _; cases e; exact hd rfl
      · intro _ e; cases e; exact hd rfl

theorem AttrsPos.snoc {s : Str} {ns : List Str} {ps : List Nat} {n : Str} {p : Nat} (h : AttrsPos s ns ps) (hp : AttrPos s p n) :
    AttrsPos s (ns ++ [n]) (ps ++ [p]) := by
  induction h with
  | nil => exact .cons hp .nil
  | cons h _ ih => exact .cons h ih

/-- What is known of the offsets in a state of the lexer; `rem` is the text that remains. -/
def Marked (s rem : Str) (m : Marks) : LState → Prop
  | .lt => AtByte s m.lt ('<' :: rem) ∧ m.attrs = []
  | .openName n => AtByte s m.lt ('<' :: n ++ rem) ∧ m.attrs = []
  | .inTag n as _ => TagPos s m.lt n ∧ AttrsPos s (as.map Prod.fst) m.attrs
  | .attrName n as a => TagPos s m.lt n ∧ ∃ ps p, m.attrs = ps ++ [p] ∧ AttrsPos s (as.map Prod.fst) ps ∧ AtByte s p (a ++ rem)
  | .attrEnd n as a => TagPos s m.lt n ∧ ∃ ps p sp, m.attrs = ps ++ [p] ∧ AttrsPos s (as.map Prod.fst) ps ∧ AtByte s p (a ++ sp ++ rem) ∧
      ∀ c ∈ sp, isXmlSpace c = true
  | .attrEq n as a => TagPos s m.lt n ∧ AttrsPos s (as.map Prod.fst ++ [a]) m.attrs
  | .attrVal n as a _ _ => TagPos s m.lt n ∧ AttrsPos s (as.map Prod.fst ++ [a]) m.attrs
  | .attrRef n as a _ _ _ => TagPos s m.lt n ∧ AttrsPos s (as.map Prod.fst ++ [a]) m.attrs
  | .slash n as => TagPos s m.lt n ∧ AttrsPos s (as.map Prod.fst) m.attrs
  | _ => True

/-- The start tag is where the marks are. -/
def TokPos (s : Str) (m : Marks) : Tok → Prop
  | .start n as => TagPos s m.lt n ∧ AttrsPos s (as.map Prod.fst) m.attrs
  | _ => True

/-- One character of the text is read as `c`. -/
def Reads (raw : Str) (c : Char) : Prop := raw = [c] ∨ c = '\n' ∧ raw ≠ [] ∧ ∀ d ∈ raw, isXmlSpace d = true

theorem Reads.eq {raw : Str} {c : Char} (h : Reads raw c) (hc : c ≠ '\n') : raw = [c] := h.resolve_right (fun h => hc h.1)

theorem Reads.spaces {raw : Str} {c : Char} (h : Reads raw c) (hc : isXmlSpace c = true) : ∀ d ∈ raw, isXmlSpace d = true := by
  rcases h with rfl | h
  · simpa using hc
  · exact h.2.2

theorem nameChar_newline : ¬ (isNameChar '\n' = true ∨ '\n' = ':') := by decide

theorem space_notName {c : Char} (h : isXmlSpace c = true) : isNameChar c = false ∧ c ≠ ':' := by
  unfold isXmlSpace at h
  simp only [Bool.or_eq_true, beq_iff_eq] at h
  rcases h with ((rfl | rfl) | rfl) | rfl <;> decide

/-- After the name in a start tag. -/
theorem tagPos_end {s : Str} {p : Nat} {n raw rem : Str} {c : Char} (h : AtByte s p ('<' :: n ++ (raw ++ rem))) (hr : Reads raw c)
    (hc : isNameChar c = false ∧ c ≠ ':') : TagPos s p n := by
  refine ⟨raw ++ rem, h, ?_⟩
  intro d r hd
  rcases hr with rfl | ⟨rfl, hne, hr⟩
  · cases hd; exact hc
  · cases raw with
    | nil => exact absurd rfl hne
    | cons e raw => cases hd; exact space_notName (hr _ (by simp))

theorem tagStep_marked {s rem rem' raw : Str} {m : Marks} {n : Str} {as : List (Str × Str)} {sp : Bool} {c : Char} {p : Nat}
    (h : TagPos s m.lt n ∧ AttrsPos s (as.map Prod.fst) m.attrs) (hp : AtByte s p rem) (hrem : rem = raw ++ rem') (hr : Reads raw c)
    {l' : LState} {ts : List Tok} (hs : tagStep n as sp c = some (l', ts)) :
    Marked s rem' (if sp && isNameStart c then ⟨m.lt, m.attrs ++ [p]⟩ else m) l' ∧
      ∀ t ∈ ts, TokPos s (if sp && isNameStart c then ⟨m.lt, m.attrs ++ [p]⟩ else m) t := by
  unfold tagStep at hs
  split at hs
  · next hc =>
    have : isNameStart c = false := by
      unfold isXmlSpace at hc
      simp only [Bool.or_eq_true, beq_iff_eq] at hc
      rcases hc with ((rfl | rfl) | rfl) | rfl <;> decide
    simp only [this, Bool.and_false]
    cases hs
    exact ⟨h, by simp⟩
  · split at hs
    · next hc =>
      subst hc
      have : isNameStart '>' = false := by decide
      simp only [this, Bool.and_false]
      cases hs
      exact ⟨trivial, by intro t ht; simp at ht; subst ht; exact h⟩
    · split at hs
      · next hc =>
        subst hc
        have : isNameStart '/' = false := by decide
        simp only [this, Bool.and_false]
        cases hs
        exact ⟨h, by simp⟩
      · split at hs
        · next hc =>
          rw [if_pos hc]
          cases hs
          refine ⟨⟨h.1, m.attrs, p, rfl, h.2, ?_⟩, by simp⟩
          have : raw = [c] := hr.eq (by rintro rfl; revert hc; cases sp <;> decide)
          rw [this] at hrem
          rw [← hrem]
          exact hp
        · cases hs

theorem lexStep_marked {s rem rem' raw : Str} {m : Marks} {l : LState} {c : Char} {p : Nat} (h : Marked s rem m l)
    (hp : AtByte s p rem) (hrem : rem = raw ++ rem') (hr : Reads raw c) {l' : LState} {ts : List Tok} (hs : lexStep l c = some (l', ts)) :
    Marked s rem' (mark m l c p) l' ∧ ∀ t ∈ ts, TokPos s (mark m l c p) t := by
  have one : ∀ {d : Char}, c = d → d ≠ '\n' → rem = d :: rem' := by
    intro d hd hne
    subst hd
    rw [hrem, hr.eq hne]; rfl
  have name : (isNameChar c = true ∨ c = ':') → rem = c :: rem' := fun hc => one rfl (by rintro rfl; exact nameChar_newline hc)
  have nstart : isNameStart c = true → rem = c :: rem' := fun hc => one rfl (by rintro rfl; revert hc; decide)
  cases l with
  | content k =>
    simp only [lexStep] at hs
    simp only [mark]
    split at hs
    · next hc =>
      rw [if_pos hc]
      cases hs
      refine ⟨⟨?_, rfl⟩, by simp⟩
      rw [← one hc (by decide)]; exact hp
    · next hc =>
      rw [if_neg hc]
      split at hs
      · cases hs; exact ⟨trivial, by simp⟩
      · split at hs
        · cases hs
        · cases hs; exact ⟨trivial, by intro t ht; simp at ht; subst ht; trivial⟩
  | ref r =>
    simp only [lexStep] at hs
    split at hs
    · rw [Option.map_eq_some_iff] at hs
      obtain ⟨d, _, hs⟩ := hs
      cases hs
      exact ⟨trivial, by intro t ht; simp at ht; subst ht; trivial⟩
    · cases hs; exact ⟨trivial, by simp⟩
  | lt =>
    simp only [lexStep] at hs
    simp only [mark]
    split at hs
    · cases hs; exact ⟨trivial, by simp⟩
    · split at hs
      · cases hs; exact ⟨trivial, by simp⟩
      · split at hs
        · cases hs; exact ⟨trivial, by simp⟩
        · split at hs
          · next hc =>
            cases hs
            refine ⟨⟨?_, h.2⟩, by simp⟩
            have := h.1
            rw [nstart hc] at this
            exact this
          · cases hs
  | openName n =>
    simp only [lexStep] at hs
    split at hs
    · next hc =>
      cases hs
      refine ⟨⟨?_, h.2⟩, by simp⟩
      have := h.1
      rw [name hc] at this
      simpa [mark] using this
    · next hc =>
      have h1 := h.1
      rw [hrem] at h1
      have ht : TagPos s m.lt n := tagPos_end h1 hr (by simpa using hc)
      have := tagStep_marked (as := []) ⟨ht, by rw [h.2]; exact .nil⟩ hp hrem hr hs
      simpa [mark] using this
  | inTag n as sp => exact tagStep_marked h hp hrem hr hs
  | attrName n as a =>
    simp only [lexStep] at hs
    simp only [mark]
    obtain ⟨h1, ps, q, h2, h3, h4⟩ := h
    split at hs
    · next hc =>
      cases hs
      rw [name hc] at h4
      exact ⟨⟨h1, ps, q, h2, h3, by simpa using h4⟩, by simp⟩
    · split at hs
      · next hc =>
        cases hs
        rw [one hc (by decide)] at h4
        exact ⟨⟨h1, by rw [h2]; exact h3.snoc ⟨[], rem', by simpa using h4, by simp⟩⟩, by simp⟩
      · split at hs
        · next hc =>
          cases hs
          rw [hrem] at h4
          exact ⟨⟨h1, ps, q, raw, h2, h3, by simpa using h4, hr.spaces hc⟩, by simp⟩
        · cases hs
  | attrEnd n as a =>
    simp only [lexStep] at hs
    simp only [mark]
    obtain ⟨h1, ps, q, sp, h2, h3, h4, h5⟩ := h
    split at hs
    · next hc =>
      cases hs
      rw [one hc (by decide)] at h4
      exact ⟨⟨h1, by rw [h2]; exact h3.snoc ⟨sp, rem', by simpa using h4, h5⟩⟩, by simp⟩
    · split at hs
      · next hc =>
        cases hs
        rw [hrem] at h4
        refine ⟨⟨h1, ps, q, sp ++ raw, h2, h3, by simpa using h4, ?_⟩, by simp⟩
        intro d hd
        rcases List.mem_append.1 hd with hd | hd
        · exact h5 d hd
        · exact hr.spaces hc d hd
      · cases hs
  | attrEq n as a =>
    simp only [lexStep] at hs
    simp only [mark]
    split at hs
    · cases hs; exact ⟨h, by simp⟩
    · split at hs
      · cases hs; exact ⟨h, by simp⟩
      · cases hs
  | attrVal n as a q v =>
    simp only [lexStep] at hs
    simp only [mark]
    split at hs
    · cases hs; exact ⟨⟨h.1, by simpa using h.2⟩, by simp⟩
    · split at hs
      · cases hs
      · split at hs
        · cases hs; exact ⟨h, by simp⟩
        · split at hs
          · cases hs; exact ⟨h, by simp⟩
          · cases hs; exact ⟨h, by simp⟩
  | attrRef n as a q v r =>
    simp only [lexStep] at hs
    simp only [mark]
    split at hs
    · rw [Option.map_eq_some_iff] at hs
      obtain ⟨d, _, hs⟩ := hs
      cases hs
      exact ⟨h, by simp⟩
    · cases hs; exact ⟨h, by simp⟩
  | slash n as =>
    simp only [lexStep] at hs
    simp only [mark]
    split at hs
    · cases hs
      refine ⟨trivial, ?_⟩
      intro t ht
      simp at ht
      rcases ht with rfl | rfl
      · exact h
      · trivial
    · cases hs
  | closeName n =>
    simp only [lexStep] at hs
    split at hs
    · cases hs; exact ⟨trivial, by simp⟩
    · split at hs
      · cases hs; exact ⟨trivial, by intro t ht; simp at ht; subst ht; trivial⟩
      · split at hs
        · cases hs; exact ⟨trivial, by simp⟩
        · cases hs
  | closeEnd n =>
    simp only [lexStep] at hs
    split at hs
    · cases hs; exact ⟨trivial, by intro t ht; simp at ht; subst ht; trivial⟩
    · split at hs
      · cases hs; exact ⟨trivial, by simp⟩
      · cases hs
  | bang b =>
    simp only [lexStep] at hs
    split at hs
    · cases hs; exact ⟨trivial, by simp⟩
    · split at hs
      · cases hs; exact ⟨trivial, by simp⟩
      · split at hs
        · cases hs; exact ⟨trivial, by simp⟩
        · cases hs
  | comment k =>
    simp only [lexStep] at hs
    split at hs
    · split at hs
      · cases hs; exact ⟨trivial, by intro t ht; simp at ht; subst ht; trivial⟩
      · cases hs
    · split at hs
      · cases hs; exact ⟨trivial, by simp⟩
      · cases hs; exact ⟨trivial, by simp⟩
  | cdata k =>
    simp only [lexStep] at hs
    split at hs
    · split at hs
      · cases hs; exact ⟨trivial, by intro t ht; simp at ht; subst ht; trivial⟩
      · cases hs; exact ⟨trivial, by simp⟩
    · split at hs
      · cases hs; exact ⟨trivial, by simp⟩
      · cases hs; exact ⟨trivial, by intro t ht; simp at ht; subst ht; trivial⟩
  | piName n =>
    simp only [lexStep] at hs
    split at hs
    · cases hs; exact ⟨trivial, by simp⟩
    · split at hs
      · cases hs
      · split at hs
        · cases hs; exact ⟨trivial, by simp⟩
        · split at hs
          · cases hs; exact ⟨trivial, by simp⟩
          · cases hs
  | pi q =>
    simp only [lexStep] at hs
    split at hs
    · cases hs; exact ⟨trivial, by intro t ht; simp at ht; subst ht; trivial⟩
    · cases hs; exact ⟨trivial, by simp⟩

/-! ## Positions in the tree -/

/-- All that is known of an open element is in the text. -/
def FramePos (s : Str) (outer : Scope) (f : Frame) : Prop :=
  InfoPos s (nsList outer) f.info ∧ f.info.nss = nsList f.scope ∧ ∀ c ∈ f.kids, NodePos s f.info.nss c

/-- All that is known of open elements is in the text. -/
def FramesPos (s : Str) (t : Frame) : List (Str × Frame) → Prop
  | [] => FramePos s xmlScope t
  | (_, u) :: r => FramePos s u.scope t ∧ FramesPos s u r

/-- All that is known so far is in the text. -/
def StatePos (s : Str) : RState → Prop
  | .before => True
  | .inside _ t r => FramesPos s t r
  | .done e => NodePos s [] (.elem e.1 e.2)

theorem FramesPos.top {s : Str} {t : Frame} {r : List (Str × Frame)} (h : FramesPos s t r) : ∃ outer, FramePos s outer t := by
  cases r with
  | nil => exact ⟨_, h⟩
  | cons p r => exact ⟨_, h.1⟩

theorem FramesPos.map {s : Str} {t t' : Frame} {r : List (Str × Frame)} (h : FramesPos s t r) (hk : ∀ outer, FramePos s outer t → FramePos s outer t') :
    FramesPos s t' r := by
  cases r with
  | nil => exact hk _ h
  | cons p r => exact ⟨hk _ h.1, h.2⟩

theorem splitColon_parts {q p l : Str} (h : splitColon q = some (p, l)) : q = p ++ ':' :: l ∧ ':' ∉ p := by
  induction q generalizing p with
  | nil => cases h
  | cons c q ih =>
    by_cases hc : c = ':'
    · subst hc
      simp only [splitColon] at h
      cases h
      exact ⟨rfl, by simp⟩
    · rw [splitColon] at h
      · split at h
        · next p' l' h' =>
          cases h
          obtain ⟨rfl, h2⟩ := ih h'
          exact ⟨rfl, by simp [h2, Ne.symm hc]⟩
        · cases h
      · exact hc

theorem noColon {q : Str} (h : splitColon q = none) : ':' ∉ q := by
  induction q with
  | nil => simp
  | cons c q ih =>
    by_cases hc : c = ':'
    · subst hc
      simp only [splitColon] at h
      cases h
    · rw [splitColon] at h
      · split at h
        · cases h
        · next h' =>
          simp only [List.mem_cons, not_or]
          exact ⟨Ne.symm hc, ih h'⟩
      · exact hc

/-! ### Namespaces in scope -/

theorem alookup_filter_ne {sc : Scope} {p q : Str} (h : q ≠ p) : alookup (sc.filter (fun d => d.1 != p)) q = alookup sc q := by
  induction sc with
  | nil => rfl
  | cons b sc ih =>
    by_cases hb : b.1 = p
    · rw [List.filter_cons_of_neg (by simp [hb]), ih]
      simp only [alookup]
      rw [if_neg (by rw [hb]; exact Ne.symm h)]
    · rw [List.filter_cons_of_pos (by simpa using hb)]
      simp only [alookup]
      rw [ih]

theorem mem_firstBindings {sc : Scope} {p u : Str} : (p, u) ∈ firstBindings sc ↔ alookup sc p = some u := by
  induction sc generalizing p u with
  | nil => simp [firstBindings, alookup]
  | cons b sc ih =>
    obtain ⟨q, v⟩ := b
    simp only [firstBindings, alookup, List.mem_cons, Prod.mk.injEq, List.mem_filter, bne_iff_ne, ne_eq]
    rw [ih]
    by_cases hq : q = p
    · subst hq
      simp only [if_true, Option.some.injEq, true_and, not_true_eq_false, and_false, or_false]
      exact eq_comm
    · rw [if_neg hq]
      simp [Ne.symm hq]

theorem mem_nsList {sc : Scope} {p : Option Str} {u : Str} :
    (p, u) ∈ nsList sc ↔ p ≠ some c!"xml" ∧ p ≠ some [] ∧ alookup sc (p.getD []) = some u := by
  unfold nsList
  simp only [List.mem_map, List.mem_filter, bne_iff_ne, ne_eq, Prod.mk.injEq, Prod.exists]
  constructor
  · rintro ⟨q, v, ⟨h1, h2⟩, h3, rfl⟩
    rw [mem_firstBindings] at h1
    split at h3
    · next hq => subst hq; subst h3; exact ⟨by simp, by simp, h1⟩
    · next hq => subst h3; exact ⟨by simpa using h2, by simpa using hq, h1⟩
  · rintro ⟨h1, h2, h3⟩
    cases p with
    | none => exact ⟨[], u, ⟨mem_firstBindings.2 h3, by decide⟩, by simp, rfl⟩
    | some p =>
      exact ⟨p, u, ⟨mem_firstBindings.2 h3, fun e => h1 (by rw [e])⟩, by rw [if_neg (fun e => h2 (by rw [e]))], rfl⟩

theorem nsDecl_none {n : Str} (h : nsDecl n = none) : ¬IsDecl n := by
  rintro (rfl | ⟨p, rfl⟩)
  · cases h
  · revert h
    unfold nsDecl
    rw [if_neg (by simp)]
    have : splitColon (c!"xmlns:" ++ p) = some (c!"xmlns", p) := splitColon_append (p := c!"xmlns") (by decide)
    rw [this]
    simp

theorem nsDecl_some {n p : Str} : nsDecl n = some p ↔ (n = c!"xmlns" ∧ p = []) ∨ n = c!"xmlns:" ++ p := by
  unfold nsDecl
  split
  · next h =>
    subst h
    simp [eq_comm]
  · next h =>
    simp only [h, false_and, false_or]
    split
    · next q l hs =>
      split
      · next hq =>
        subst hq
        have := (splitColon_parts hs).1
        simp only [Option.some.injEq]
        constructor
        · rintro rfl; exact this
        · intro e; rw [this] at e; simpa using e
      · next hq =>
        refine ⟨by simp, ?_⟩
        rintro rfl
        have : splitColon (c!"xmlns:" ++ p) = some (c!"xmlns", p) := splitColon_append (p := c!"xmlns") (by decide)
        rw [this] at hs
        cases hs
        exact (hq rfl).elim
    · next hs =>
      refine ⟨by simp, ?_⟩
      rintro rfl
      have : splitColon (c!"xmlns:" ++ p) = some (c!"xmlns", p) := splitColon_append (p := c!"xmlns") (by decide)
      rw [this] at hs
      cases hs

theorem isDecl_iff {n : Str} : (nsDecl n).isNone = true ↔ ¬IsDecl n := by
  constructor
  · intro h; exact nsDecl_none (Option.isNone_iff_eq_none.1 h)
  · intro h
    cases hn : nsDecl n with
    | none => rfl
    | some p =>
      exfalso
      rcases nsDecl_some.1 hn with h' | h'
      · exact h (.inl h'.1)
      · exact h (.inr ⟨p, h'⟩)

/-- The declarations of a start tag. -/
def declsOf (raw : List (Str × Str)) : Scope := raw.filterMap (fun a => (nsDecl a.1).map (fun p => (p, a.2)))

theorem mem_declsOf {raw : List (Str × Str)} {p u : Str} :
    (p, u) ∈ declsOf raw ↔ (p = [] ∧ (c!"xmlns", u) ∈ raw) ∨ (c!"xmlns:" ++ p, u) ∈ raw := by
  unfold declsOf
  simp only [List.mem_filterMap, Option.map_eq_some_iff, Prod.mk.injEq, Prod.exists]
  constructor
  · rintro ⟨n, v, hm, q, hq, rfl, rfl⟩
    rcases nsDecl_some.1 hq with ⟨rfl, rfl⟩ | rfl
    · exact .inl ⟨rfl, hm⟩
    · exact .inr hm
  · rintro (⟨rfl, hm⟩ | hm)
    · exact ⟨_, _, hm, [], nsDecl_some.2 (.inl ⟨rfl, rfl⟩), rfl, rfl⟩
    · exact ⟨_, _, hm, p, nsDecl_some.2 (.inr rfl), rfl, rfl⟩

theorem nodup_fst_eq {raw : List (Str × Str)} (h : (raw.map Prod.fst).Nodup) {n u v : Str} (h1 : (n, u) ∈ raw) (h2 : (n, v) ∈ raw) : u = v := by
  have e1 := alookup_of_mem h h1
  have e2 := alookup_of_mem h h2
  rw [e1] at e2
  exact Option.some.inj e2

theorem inScope_nsList {raw : List (Str × Str)} {sc : Scope} (hn : (raw.map Prod.fst).Nodup) (hq : ∀ a ∈ raw, isQName a.1 = true) :
    InScope raw (nsList sc) (nsList (declsOf raw ++ sc)) := by
  have hempty : ∀ u, (c!"xmlns:", u) ∉ raw := fun u hm => by
    have h := hq _ hm
    have : isQName c!"xmlns:" = false := by decide
    rw [this] at h
    cases h
  have key : ∀ p u, p ≠ some [] → ((p.getD [], u) ∈ declsOf raw ↔ Declares raw p u) := by
    intro p u hp
    rw [mem_declsOf]
    cases p with
    | none =>
      simp only [Option.getD_none, true_and, Declares, List.append_nil]
      exact ⟨fun h => h.elim id (fun h => (hempty _ h).elim), .inl⟩
    | some p =>
      simp only [Option.getD_some, Declares]
      exact ⟨fun h => h.elim (fun h => (hp (by rw [h.1])).elim) id, .inr⟩
  intro p u
  rw [mem_nsList, mem_nsList]
  refine and_congr_right fun hp => ?_
  by_cases he : p = some []
  · subst he
    simp only [ne_eq, not_true_eq_false, false_and, and_false, or_false, false_iff]
    intro h
    exact hempty u h
  · simp only [ne_eq, he, not_false_eq_true, true_and, hp]
    rw [alookup_append]
    have hd : ∀ v, alookup (declsOf raw) (p.getD []) = some v ↔ Declares raw p v := by
      intro v
      constructor
      · intro h; exact (key p v he).1 (alookup_mem h)
      · intro h
        have hm := (key p v he).2 h
        cases hl : alookup (declsOf raw) (p.getD []) with
        | none => exact ((alookup_eq_none_iff _ _).1 hl (List.mem_map_of_mem (f := Prod.fst) hm)).elim
        | some w =>
          have hw := (key p w he).1 (alookup_mem hl)
          have : w = v := by
            cases p with
            | none => exact nodup_fst_eq hn hw h
            | some p => exact nodup_fst_eq hn hw h
          rw [this]
    cases hl : alookup (declsOf raw) (p.getD []) with
    | some v =>
      have hv := (hd v).1 hl
      simp only [Option.some_or, Option.some.injEq]
      constructor
      · rintro rfl; exact .inl hv
      · rintro (h | h)
        · have := (hd u).2 h; rw [hl] at this; exact Option.some.inj this
        · exact (h.1 v hv).elim
    | none =>
      simp only [Option.none_or]
      have hno : ∀ v, ¬Declares raw p v := fun v hv => by have := (hd v).2 hv; rw [hl] at this; cases this
      exact ⟨fun h => .inr ⟨hno, h⟩, fun h => h.elim (fun h => (hno _ h).elim) (·.2)⟩

theorem isNCName_ne {p : Str} (h : isNCName p = true) : p ≠ [] := by
  rintro rfl
  cases h

theorem prefixed_of {sc : Scope} {q p l u : Str} (hq : isQName q = true) (hs : splitColon q = some (p, l)) (hu : alookup sc p = some u) :
    Prefixed (nsList sc) q ⟨l, some u⟩ := by
  obtain ⟨h1, h2⟩ := splitColon_parts hs
  refine ⟨p, u, h1, h2, rfl, fun hx => mem_nsList.2 ⟨by simpa using hx, ?_, hu⟩⟩
  unfold isQName at hq
  rw [hs] at hq
  simp only [Bool.and_eq_true] at hq
  simpa using isNCName_ne hq.1

theorem resolveName_stands {sc : Scope} {n : Str} {q : QName} (hq : isQName n = true) (h : resolveName sc n = some q) : StandsFor (nsList sc) n q := by
  unfold resolveName at h
  split at h
  · next p l hs =>
    rw [Option.map_eq_some_iff] at h
    obtain ⟨u, hu, rfl⟩ := h
    exact .inl (prefixed_of hq hs hu)
  · next hs =>
    refine .inr ?_
    have hn := noColon hs
    split at h
    · next h' =>
      cases h
      refine ⟨rfl, hn, .inl ⟨rfl, fun u hu => ?_⟩⟩
      have := (mem_nsList.1 hu).2.2
      simp only [Option.getD_none] at this
      rw [h'] at this; cases this
    · next h' =>
      cases h
      refine ⟨rfl, hn, .inl ⟨rfl, fun u hu => ?_⟩⟩
      have := (mem_nsList.1 hu).2.2
      simp only [Option.getD_none] at this
      rw [h'] at this; cases this; rfl
    · next u hne h' =>
      cases h
      exact ⟨rfl, hn, .inr ⟨u, fun e => hne e, rfl, mem_nsList.2 ⟨by simp, by simp, h'⟩⟩⟩

theorem readAttr_stands {sc : Scope} {a : Str × Str} {y : XAttr} (hq : isQName a.1 = true) (h : readAttr sc a = some y) :
    AttrStandsFor (nsList sc) a.1 ⟨y.loc, y.ns⟩ ∧ y.value = a.2 := by
  unfold readAttr at h
  split at h
  · next p l hs =>
    rw [Option.map_eq_some_iff] at h
    obtain ⟨u, hu, rfl⟩ := h
    exact ⟨.inl (prefixed_of hq hs hu), rfl⟩
  · next hs =>
    cases h
    exact ⟨.inr ⟨rfl, noColon hs, rfl⟩, rfl⟩

theorem readAttrs_place {s : Str} {sc : Scope} {raw : List (Str × Str)} {ps : List Nat} (h : AttrsPos s (raw.map Prod.fst) ps) {xs : List XAttr}
    (hq : ∀ a ∈ raw, isQName a.1 = true) (hx : readAttrs sc (raw.filter (fun a => (nsDecl a.1).isNone)) = some xs) :
    (∀ a ∈ placeAttrs xs (((raw.zip ps).filter (fun a => (nsDecl a.1.1).isNone)).map Prod.snd),
      ∃ n, ((n, a.value), a.start) ∈ raw.zip ps ∧ ¬IsDecl n ∧ AttrStandsFor (nsList sc) n ⟨a.loc, a.ns⟩) ∧
    (∀ n v p, ((n, v), p) ∈ raw.zip ps → ¬IsDecl n →
      ∃ a ∈ placeAttrs xs (((raw.zip ps).filter (fun a => (nsDecl a.1.1).isNone)).map Prod.snd),
        a.start = p ∧ a.value = v ∧ AttrStandsFor (nsList sc) n ⟨a.loc, a.ns⟩) := by
  induction raw generalizing ps xs with
  | nil => simp [readAttrs] at hx; subst hx; refine ⟨fun a ha => ?_, by simp⟩; cases ps <;> simp [placeAttrs] at ha
  | cons r raw ih =>
    cases h with
    | cons hp hs =>
      next p ps =>
      have hq' : ∀ a ∈ raw, isQName a.1 = true := fun a ha => hq a (.tail _ ha)
      by_cases hr : (nsDecl r.1).isNone = true
      · rw [List.filter_cons_of_pos (by simpa using hr)] at hx
        rw [List.zip_cons_cons, List.filter_cons_of_pos (by simpa using hr), List.map_cons]
        simp only [readAttrs] at hx
        split at hx
        · next y ys h1 h2 =>
          cases hx
          obtain ⟨g1, g2⟩ := readAttr_stands (hq r (.head _)) h1
          obtain ⟨i1, i2⟩ := ih hs hq' h2
          simp only [placeAttrs]
          constructor
          · intro a ha
            rcases List.mem_cons.1 ha with rfl | ha
            · exact ⟨r.1, by rw [g2]; exact .head _, isDecl_iff.1 hr, g1⟩
            · obtain ⟨n, j1, j2⟩ := i1 a ha
              exact ⟨n, .tail _ j1, j2⟩
          · intro n v p' hm hd
            rcases List.mem_cons.1 hm with hm | hm
            · cases hm
              exact ⟨_, .head _, rfl, g2, g1⟩
            · obtain ⟨a, ha, j⟩ := i2 n v p' hm hd
              exact ⟨a, .tail _ ha, j⟩
        · cases hx
      · rw [List.filter_cons_of_neg (by simpa using hr)] at hx
        rw [List.zip_cons_cons, List.filter_cons_of_neg (by simpa using hr)]
        obtain ⟨i1, i2⟩ := ih hs hq' hx
        constructor
        · intro a ha
          obtain ⟨n, j1, j2⟩ := i1 a ha
          exact ⟨n, .tail _ j1, j2⟩
        · intro n v p' hm hd
          rcases List.mem_cons.1 hm with hm | hm
          · cases hm
            exact (hr (isDecl_iff.2 hd)).elim
          · exact i2 n v p' hm hd

theorem readElem_pos {s : Str} {m : Marks} {sc : Scope} {n : Str} {raw : List (Str × Str)} {f : Frame}
    (h : TagPos s m.lt n ∧ AttrsPos s (raw.map Prod.fst) m.attrs) (hf : readElem sc n raw = some f) : FramePos s sc (placeFrame m raw f) := by
  unfold readElem at hf
  simp only at hf
  split at hf
  · next hc =>
    obtain ⟨c1, c2, c3, c4⟩ := hc
    rw [allDiff_iff] at c3
    have c2 : ∀ a ∈ raw, isQName a.1 = true := by simpa [List.all_eq_true] using c2
    split at hf
    · next q xs h1 h2 =>
      split at hf
      · cases hf
        obtain ⟨g1, g2⟩ := readAttrs_place h.2 c2 h2
        exact ⟨⟨n, raw, m.attrs, h.1, h.2, c3, inScope_nsList c3 c2, resolveName_stands c1 h1, g1, g2⟩, rfl, by intro c hc; simp [placeFrame] at hc⟩
      · cases hf
    · cases hf
  · cases hf

theorem addText_pos {s : Str} {o : List (Option Str × Str)} {k : List XNode} {t : Str} (h : ∀ c ∈ k, NodePos s o c) :
    ∀ c ∈ addText k t, NodePos s o c := by
  unfold addText
  split
  · exact h
  · split
    · intro c hc
      rcases List.mem_append.1 hc with hc | hc
      · exact h c (List.dropLast_subset _ hc)
      · simp at hc; subst hc; exact .text _ _
    · intro c hc
      rcases List.mem_append.1 hc with hc | hc
      · exact h c hc
      · simp at hc; subst hc; exact .text _ _

theorem placeFrame_scope (m : Marks) (raw : List (Str × Str)) (f : Frame) : (placeFrame m raw f).scope = f.scope := rfl

theorem rstepAt_pos {s : Str} {m : Marks} {st st' : RState} {t : Tok} (h : StatePos s st) (ht : TokPos s m t) (hs : rstepAt m st t = some st') :
    StatePos s st' := by
  cases st with
  | before =>
    cases t with
    | start n as =>
      simp only [rstepAt, rstep, Option.map_map, Option.map_eq_some_iff] at hs
      obtain ⟨f, h1, rfl⟩ := hs
      exact readElem_pos ht h1
    | fin n => cases hs
    | chars lit c => simp only [rstepAt, rstep] at hs; split at hs <;> cases hs; trivial
    | other => cases hs; trivial
  | inside n f r =>
    cases t with
    | start n as =>
      simp only [rstepAt, rstep, Option.map_map, Option.map_eq_some_iff] at hs
      obtain ⟨f', h1, rfl⟩ := hs
      exact ⟨readElem_pos ht h1, h⟩
    | fin n =>
      simp only [rstepAt, rstep] at hs
      split at hs
      · split at hs
        · cases hs
          have h : FramePos s xmlScope f := h
          have := NodePos.elem h.1 h.2.2
          exact this
        · next m' u r' =>
          cases hs
          obtain ⟨hf, hu⟩ := h
          refine FramesPos.map hu fun outer g => ⟨g.1, g.2.1, ?_⟩
          intro c hc
          rcases List.mem_append.1 hc with hc | hc
          · exact g.2.2 c hc
          · simp at hc; subst hc
            have := NodePos.elem hf.1 hf.2.2
            rw [← g.2.1] at this
            exact this
      · cases hs
    | chars lit c => cases hs; exact FramesPos.map h fun _ g => ⟨g.1, g.2.1, addText_pos g.2.2⟩
    | other =>
      cases hs
      refine FramesPos.map h fun _ g => ⟨g.1, g.2.1, ?_⟩
      intro c hc
      rcases List.mem_append.1 hc with hc | hc
      · exact g.2.2 c hc
      · simp at hc; subst hc; exact .other _
  | done e =>
    cases t with
    | start n as => cases hs
    | fin n => cases hs
    | chars lit c => simp only [rstepAt, rstep] at hs; split at hs <;> cases hs; exact h
    | other => cases hs; exact h

theorem rstepsAt_pos {s : Str} {m : Marks} {st st' : RState} {ts : List Tok} (h : StatePos s st) (ht : ∀ t ∈ ts, TokPos s m t)
    (hs : rstepsAt m st ts = some st') : StatePos s st' := by
  induction ts generalizing st with
  | nil => cases hs; exact h
  | cons t ts ih =>
    simp only [rstepsAt, Option.bind_eq_some_iff] at hs
    obtain ⟨st1, h1, h2⟩ := hs
    exact ih (rstepAt_pos h (ht t (by simp)) h1) (fun t h => ht t (by simp [h])) h2

theorem readFromAt_pos {s : Str} {L : List (Char × Nat)} {l : LState} {m : Marks} {st : RState} {rem : Str} {p : Nat}
    (hL : L = normEolAt (offsets p rem)) (hp : AtByte s p rem) (h : Marked s rem m l) (hst : StatePos s st) {r : LState × RState}
    (hr : readFromAt l m st L = some r) : StatePos s r.2 := by
  induction L generalizing l m st rem p with
  | nil => cases hr; exact hst
  | cons c L ih =>
    obtain ⟨c, q⟩ := c
    obtain ⟨rfl, raw, rem', p', h1, h2, h3, h4⟩ := normEolAt_step hp hL.symm
    simp only [readFromAt] at hr
    split at hr
    · next l' ts h5 =>
      obtain ⟨h6, h7⟩ := lexStep_marked h hp h1 h2 h5
      split at hr
      · next st' h8 => exact ih h4 h3 h6 (rstepsAt_pos hst h7 h8) hr
      · cases hr
    · cases hr

theorem normEolAt_drop {s : Str} {p : Nat} {rem : Str} (h : AtByte s p rem) (k : Nat) :
    ∃ p' rem', AtByte s p' rem' ∧ (normEolAt (offsets p rem)).drop k = normEolAt (offsets p' rem') := by
  induction k generalizing p rem with
  | zero => exact ⟨p, rem, h, rfl⟩
  | succ k ih =>
    cases hL : normEolAt (offsets p rem) with
    | nil => exact ⟨utf8Len s, [], ⟨s, by simp, rfl⟩, rfl⟩
    | cons c L =>
      obtain ⟨c, q⟩ := c
      obtain ⟨_, raw, rem', p', _, _, h3, h4⟩ := normEolAt_step h hL
      rw [List.drop_succ_cons, h4]
      exact ih h3

theorem readXmlAt_pos {s : Str} {e : Elem} (h : readXmlAt s = some e) : NodePos s [] (.elem e.1 e.2) := by
  unfold readXmlAt at h
  split at h
  · simp only at h
    split at h
    · next t ht =>
      obtain ⟨p', rem', h1, h2⟩ := normEolAt_drop (s := s) (p := 0) (rem := s) ⟨[], rfl, rfl⟩ ((normEolAt (offsets 0 s)).length - t.length)
      split at h
      · next k e' hr =>
        cases h
        exact readFromAt_pos h2 h1 (l := .content 0) trivial (st := .before) trivial hr
      · cases h
    · cases h
  · cases h

/-! ## Rows and columns -/

theorem takeBytes_append (u t : Str) : takeBytes (utf8Len u) (u ++ t) = u := by
  induction u with
  | nil => cases t <;> simp [takeBytes, utf8Len]
  | cons c u ih =>
    have hc : 0 < c.utf8Size := Char.utf8Size_pos c
    have hl : utf8Len (c :: u) = c.utf8Size + utf8Len u := by simp [utf8Len]
    rw [List.cons_append, takeBytes, if_neg (by omega), hl, Nat.add_sub_cancel_left, ih]

theorem takeWhile_line {u : Str} : '\n' ∉ u.takeWhile (fun c => c != '\n') := by
  induction u with
  | nil => simp
  | cons c u ih =>
    rw [List.takeWhile_cons]
    split
    · next h =>
      intro hm
      rcases List.mem_cons.1 hm with rfl | hm
      · simp at h
      · exact ih hm
    · simp

theorem textPos_at {s : Str} {p : Nat} {t : Str} (h : AtByte s p t) {row col : Nat} (hp : textPos s p = (row, col)) : AtRowCol s row col t := by
  obtain ⟨u, rfl, rfl⟩ := h
  unfold textPos at hp
  have e : takeBytes (u.map Char.utf8Size).sum (u ++ t) = u := takeBytes_append u t
  rw [e] at hp
  cases hp
  refine ⟨(u.reverse.dropWhile (fun c => c != '\n')).reverse, (u.reverse.takeWhile (fun c => c != '\n')).reverse, ?_, ?_, ?_, ?_, by simp⟩
  · rw [← List.reverse_append, List.takeWhile_append_dropWhile, List.reverse_reverse]
  · rw [List.mem_reverse]; exact takeWhile_line
  · cases hd : u.reverse.dropWhile (fun c => c != '\n') with
    | nil => left; rfl
    | cons d ds =>
      right
      have hne : u.reverse.dropWhile (fun c => c != '\n') ≠ [] := by rw [hd]; simp
      have := List.head_dropWhile_not (fun c => c != '\n') hne
      simp only [hd, List.head_cons] at this
      have hdn : d = '\n' := by simpa using this
      exact ⟨ds.reverse, by rw [List.reverse_cons, hdn]⟩
  · have h0 : ((u.reverse.takeWhile (fun c => c != '\n')).reverse).count '\n' = 0 := by
      rw [List.count_eq_zero, List.mem_reverse]
      exact takeWhile_line
    have : u.count '\n' = ((u.reverse.dropWhile (fun c => c != '\n')).reverse).count '\n' + ((u.reverse.takeWhile (fun c => c != '\n')).reverse).count '\n' := by
      rw [← List.count_append, ← List.reverse_append, List.takeWhile_append_dropWhile, List.reverse_reverse]
    omega

end XmlText
end Xsd
