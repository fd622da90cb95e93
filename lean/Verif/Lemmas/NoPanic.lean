import Verif.Lemmas.Terminates
import Verif.Spec.Ascii
/-!
# The parser does not panic on names in ASCII
-/
namespace Xsd

/-- The result is not a panic, and satisfies `Q`. -/
def Res.Calm {ε α : Type} (Q : α → Prop) (r : Res ε α) : Prop := r ≠ .panic ∧ ∀ a, r = .ok a → Q a

/-- The computation never panics, and its results satisfy `Q`. -/
def P.Calm {α : Type} (Q : α → Prop) (m : P α) : Prop := ∀ s, m s ≠ .panic ∧ ∀ a s', m s = .ok (a, s') → Q a

/-- No condition on the result. -/
def Any {α : Type} (_ : α) : Prop := True

namespace P.Calm
variable {α β : Type} {Q : α → Prop} {R : β → Prop}

theorem bind {m : P α} {f : α → P β} (hm : m.Calm Q) (hf : ∀ a, Q a → (f a).Calm R) : (m >>= f).Calm R := by
  intro s
  have h := hm s
  show P.bnd m f s ≠ _ ∧ ∀ a s', P.bnd m f s = _ → _
  unfold P.bnd
  cases hr : m s with
  | ok p =>
    obtain ⟨a, s'⟩ := p
    exact hf a (h.2 a s' hr) s'
  | err e => exact ⟨nofun, nofun⟩
  | panic => exact absurd hr h.1
  | diverge => exact ⟨nofun, nofun⟩

theorem pure {a : α} (h : Q a) : (Pure.pure a : P α).Calm Q := by
  intro s
  refine ⟨nofun, ?_⟩
  intro b s' hb
  cases hb
  exact h

theorem fail (e : XErr) : (P.fail e : P α).Calm Q := fun _ => ⟨nofun, nofun⟩

theorem diverge : (P.diverge : P α).Calm Q := fun _ => ⟨nofun, nofun⟩

theorem lift {r : Res XErr α} (h : r.Calm Q) : (P.lift r).Calm Q := by
  intro s
  unfold P.lift
  cases r with
  | ok a =>
    refine ⟨nofun, ?_⟩
    intro b s' hb
    cases hb
    exact h.2 _ rfl
  | err e => exact ⟨nofun, nofun⟩
  | panic => exact absurd rfl h.1
  | diverge => exact ⟨nofun, nofun⟩

theorem modify (f : PCtx → PCtx) : (P.modify f).Calm Any := fun _ => ⟨nofun, fun _ _ _ => trivial⟩

theorem weaken {m : P α} {Q' : α → Prop} (h : m.Calm Q) (hq : ∀ a, Q a → Q' a) : m.Calm Q' :=
  fun s => ⟨(h s).1, fun a s' ha => hq a ((h s).2 a s' ha)⟩

theorem any {m : P α} (h : m.Calm Q) : m.Calm Any := h.weaken fun _ _ => trivial

end P.Calm

namespace Res.Calm
variable {ε α β : Type} {Q : α → Prop} {R : β → Prop}

theorem bind {m : Res ε α} {f : α → Res ε β} (hm : m.Calm Q) (hf : ∀ a, Q a → (f a).Calm R) : (m >>= f).Calm R := by
  cases m with
  | ok a => exact hf a (hm.2 a rfl)
  | err e => exact ⟨nofun, nofun⟩
  | panic => exact absurd rfl hm.1
  | diverge => exact ⟨nofun, nofun⟩

theorem pure {a : α} (h : Q a) : (Pure.pure a : Res ε α).Calm Q := ⟨nofun, fun b hb => by cases hb; exact h⟩

theorem err (e : ε) : (Res.err e : Res ε α).Calm Q := ⟨nofun, nofun⟩

theorem any {m : Res ε α} (h : m ≠ .panic) : m.Calm Any := ⟨h, fun _ _ => trivial⟩

end Res.Calm

/-! ## Steps without names -/

theorem preventUnvisitedAttributes_safe (nd : Nd) : nd.preventUnvisitedAttributes.Calm Any := by
  refine .any ?_
  intro h; unfold Nd.preventUnvisitedAttributes at h; split at h <;> cases h

theorem preventUnvisitedChildren_safe (nd : Nd) (ks : List Nd) : (preventUnvisitedChildren nd ks).Calm Any := by
  refine .any ?_
  intro h; unfold preventUnvisitedChildren at h; split at h <;> cases h

theorem tryAttr_safe (nd : Nd) (n : Str) : (nd.tryAttr n).Calm (fun a => nd.attr n = some a) := by
  unfold Nd.tryAttr
  split
  · next h => exact .pure h
  · exact .err _

theorem tryRemoveKid_safe (nd : Nd) (n : Str) (ks : List Nd) : (tryRemoveKid nd n ks).Calm (fun p => p.1 ∈ ks) := by
  unfold tryRemoveKid
  split
  · next h => exact .pure (removeKid_mem h)
  · exact .err _

theorem tryText_safe (nd : Nd) : nd.tryText.Calm Any := by
  refine .any ?_
  intro h; unfold Nd.tryText at h; split at h <;> cases h

theorem parseAnnotation_safe (x : Ext) (o : Option Nd) : (parseAnnotation x o).Calm Any := by
  cases o with
  | none => exact .pure trivial
  | some nd =>
    show (parseAnnotation1 x nd).Calm Any
    unfold parseAnnotation1
    refine Res.Calm.bind (Q := Any) ?_ fun _ _ => .bind (preventUnvisitedChildren_safe _ _) fun _ _ =>
      .bind (preventUnvisitedAttributes_safe _) fun _ _ => .pure trivial
    split
    · exact .bind (tryText_safe _) fun _ _ => .pure trivial
    · exact .pure trivial

theorem literalOr_safe (n : Str) (a : XAttr) : (literalOr n a).Calm (fun c => ∃ t, c = .literal t) := by
  unfold literalOr
  split
  · exact .pure ⟨_, rfl⟩
  · exact .err _

theorem parseU32_safe (a : XAttr) : (parseU32 a).Calm Any := by
  refine .any ?_
  intro h; unfold parseU32 at h; split at h <;> cases h

theorem parseUsize_safe (a : XAttr) : (parseUsize a).Calm Any := by
  refine .any ?_
  intro h; unfold parseUsize at h; split at h <;> cases h

theorem parseDec_safe (x : Ext) (a : XAttr) : (parseDec x a).Calm Any := by
  refine .any ?_
  intro h; unfold parseDec at h; split at h <;> cases h

theorem parseMinOccurs_safe (o : Option XAttr) : (parseMinOccurs o).Calm Any := by
  cases o with
  | none => exact .pure trivial
  | some a => exact parseU32_safe a

theorem parseMaxOccurs_safe (o : Option XAttr) : (parseMaxOccurs o).Calm Any := by
  cases o with
  | none => exact .pure trivial
  | some a =>
    show (if _ then _ else _ : Res XErr MaxOccurs).Calm Any
    split
    · exact .pure trivial
    · exact .bind (parseU32_safe a) fun _ _ => .pure trivial

theorem parseFacet_safe (x : Ext) (c : Nd) : (parseFacet x c).Calm Any := by
  unfold parseFacet
  repeat' split
  all_goals first
    | (refine .bind (tryAttr_safe _ _) fun _ _ => ?_
       first
         | exact .pure trivial
         | exact .bind (parseUsize_safe _) fun _ _ => .pure trivial
         | exact .bind (parseDec_safe _ _) fun _ _ => .pure trivial)
    | exact .err _

theorem parseFacets_safe (x : Ext) : ∀ cs : List Nd, (parseFacets x cs).Calm Any
  | [] => .pure trivial
  | c :: cs => .bind (parseFacet_safe x c) fun _ _ => .bind (parseFacets_safe x cs) fun _ _ => .pure trivial

/-! ## Names -/

theorem Ascii.toUpper {c : Char} (h : c.toNat < 128) : c.toUpper.toNat < 128 := by
  unfold Char.toUpper
  split
  · next hc =>
    have h1 := hc.1
    have h2 := hc.2
    simp only [Char.toNat, UInt32.toNat_add, UInt32.le_iff_toNat_le, ge_iff_le] at *
    simp at *
    omega
  · exact h

theorem Ascii.utf8Size {c : Char} (h : c.toNat < 128) : c.utf8Size = 1 := by
  unfold Char.utf8Size
  rw [if_pos]
  simp only [UInt32.le_iff_toNat_le]
  exact Nat.le_of_lt_succ h

theorem Ascii.cons {c : Char} {s : Str} : Ascii (c :: s) ↔ c.toNat < 128 ∧ Ascii s := by simp [Ascii]

theorem Ascii.append {s t : Str} (hs : Ascii s) (ht : Ascii t) : Ascii (s ++ t) := by
  intro c hc
  rcases List.mem_append.1 hc with h | h
  · exact hs c h
  · exact ht c h

theorem Ascii.sub {s t : Str} (ht : Ascii t) (h : ∀ c ∈ s, c ∈ t) : Ascii s := fun c hc => ht c (h c hc)

theorem commonStart_sub (a b : Str) : ∀ c ∈ commonStart a b, c ∈ a := by
  induction a generalizing b with
  | nil => simp [commonStart]
  | cons d a ih =>
    cases b with
    | nil => simp [commonStart]
    | cons e b =>
      simp only [commonStart]
      split
      · intro c hc
        rcases List.mem_cons.1 hc with rfl | hc
        · exact .head _
        · exact .tail _ (ih b c hc)
      · simp

theorem capitalise_safe {n : Str} (h : Ascii n) : (capitalise n).Calm Ascii := by
  cases n with
  | nil => exact .pure h
  | cons c cs =>
    rw [Ascii.cons] at h
    show (if _ then _ else _ : Res Str Str).Calm Ascii
    rw [if_pos (Ascii.utf8Size h.1)]
    exact .pure (Ascii.cons.2 ⟨Ascii.toUpper h.1, h.2⟩)

theorem concatNames_safe : ∀ {ns : List Str}, (∀ n ∈ ns, Ascii n) → (concatNames ns).Calm Ascii
  | [], _ => .pure (by simp [Ascii])
  | _ :: _, h => .bind (capitalise_safe (h _ (.head _))) fun _ h1 =>
      .bind (concatNames_safe fun m hm => h m (.tail _ hm)) fun _ h2 => .pure (h1.append h2)

/-- The case conversion keeps names in ASCII. -/
def Ext.SnakeAscii (x : Ext) : Prop := ∀ s, Ascii s → Ascii (x.snake s)

section
variable {x : Ext}

theorem foldl_ascii {step : Str → Str → Str} (hs : ∀ a b, Ascii a → Ascii (step a b)) :
    ∀ {ns : List Str} {n : Str}, Ascii n → Ascii (ns.foldl step n)
  | [], _, h => h
  | m :: ns, n, h => foldl_ascii (ns := ns) (n := step n m) hs (hs n m h)

theorem deriveMutal_ascii {step : Str → Str → Str} (hs : ∀ a b, Ascii a → Ascii (step a b)) {ns : List Str} (h : ∀ n ∈ ns, Ascii n)
    {r : Str} (hr : deriveMutal step ns = some r) : Ascii r := by
  cases ns with
  | nil => cases hr
  | cons n ns =>
    simp only [deriveMutal] at hr
    split at hr
    · cases hr
    · cases hr
      exact foldl_ascii hs (h n (.head _))

theorem virtualName_safe (hx : x.SnakeAscii) {ns : List Str} (b : Bool) (h : ∀ n ∈ ns, Ascii n) : (virtualName x ns b).Calm Ascii := by
  have hp : ∀ a b, Ascii a → Ascii (mutalPrefix x a b) := fun a b ha => (hx a ha).sub (commonStart_sub _ _)
  have hq : ∀ a b, Ascii a → Ascii (mutalSuffix x a b) := fun a b ha => (hx a ha).sub fun c hc =>
    List.mem_reverse.1 (commonStart_sub _ _ c (List.mem_reverse.1 hc))
  unfold virtualName
  split
  · split
    · next h1 h2 =>
      refine .pure ?_
      split
      · exact deriveMutal_ascii hp h h1
      · exact deriveMutal_ascii hq h h2
    · next h1 h2 => exact .pure (deriveMutal_ascii hp h h1)
    · next h1 h2 => exact .pure (deriveMutal_ascii hq h h2)
    · exact concatNames_safe h
  · exact concatNames_safe h

/-- A name in ASCII. -/
def Name.Ascii (n : Name) : Prop := Xsd.Ascii n.name

/-- A leaf with a name in ASCII. -/
def Leaf.Ascii (l : Leaf) : Prop := l.name.Ascii

theorem deriveVirtualName_safe (hx : x.SnakeAscii) {ns : List Name} (b : Bool) (h : ∀ n ∈ ns, n.Ascii) :
    (deriveVirtualName x ns b).Calm Name.Ascii := by
  have hv := virtualName_safe hx (ns := ns.map Name.name) b (by
    intro n hn
    obtain ⟨m, hm, rfl⟩ := List.mem_map.1 hn
    exact h m hm)
  intro s
  unfold deriveVirtualName
  cases hr : virtualName x (ns.map Name.name) b with
  | ok v =>
    refine ⟨nofun, ?_⟩
    intro a s' ha
    cases ha
    exact hv.2 v hr
  | err e =>
    exfalso
    clear hv
    have hc : ∀ ns e, concatNames ns ≠ .err e := by
      intro ns
      induction ns with
      | nil => intro e h; cases h
      | cons n ns ih =>
        intro e h
        unfold concatNames at h
        cases hn : capitalise n with
        | ok a =>
          rw [hn] at h
          cases hm : concatNames ns with
          | ok b => rw [hm] at h; cases h
          | err e' => exact ih _ hm
          | panic => rw [hm] at h; cases h
          | diverge => rw [hm] at h; cases h
        | err e' =>
          unfold capitalise at hn
          split at hn
          · cases hn
          · split at hn <;> cases hn
        | panic => rw [hn] at h; cases h
        | diverge => rw [hn] at h; cases h
    unfold virtualName at hr
    split at hr
    · split at hr
      · cases hr
      · cases hr
      · cases hr
      · exact hc _ _ hr
    · exact hc _ _ hr
  | panic => exact absurd hr hv.1
  | diverge => exact ⟨nofun, nofun⟩

theorem nodeName_safe {n : Str} (h : Ascii n) : (nodeName n).Calm Name.Ascii := by
  intro s
  refine ⟨nofun, ?_⟩
  intro a s' ha
  cases ha
  exact h

theorem addRoot_safe (n : Name) (r : Root) : (addRoot n r).Calm Any := .modify _

theorem discoverType_safe (n p : Name) : (discoverType n p).Calm Any := .modify _

theorem splitn2_sub : ∀ (s : Str), (∀ c ∈ (splitn2 s).1, c ∈ s) ∧ ∀ t, (splitn2 s).2 = some t → ∀ c ∈ t, c ∈ s
  | [] => ⟨by simp [splitn2], by simp [splitn2]⟩
  | d :: s => by
    have ih := splitn2_sub s
    unfold splitn2
    split
    · refine ⟨by simp, ?_⟩
      intro t ht c hc
      cases ht
      exact .tail _ hc
    · refine ⟨?_, ?_⟩
      · intro c hc
        rcases List.mem_cons.1 hc with rfl | hc
        · exact .head _
        · exact .tail _ (ih.1 c hc)
      · intro t ht c hc
        exact .tail _ (ih.2 t ht c hc)

theorem getTypeName_safe (a : XAttr) : (getTypeName a).Calm (fun c => ∀ n, c = .named n → Ascii a.value → n.Ascii) := by
  intro s
  have hs := splitn2_sub a.value
  have hl : ∀ n, (P.lift (literalOr n a)).Calm (fun c => ∀ n, c = .named n → Ascii a.value → n.Ascii) := fun n =>
    (P.Calm.lift (literalOr_safe n a)).weaken fun c hc m hm => by obtain ⟨t, rfl⟩ := hc; cases hm
  unfold getTypeName
  split
  · next pfx n hp =>
    split
    · exact ⟨nofun, nofun⟩
    · split
      · exact hl _ s
      · refine ⟨nofun, ?_⟩
        intro b s' hb m hm ha
        cases hb
        cases hm
        exact ha.sub (hs.2 n (by rw [hp]))
  · next n hp =>
    split
    · exact hl _ s
    · refine ⟨nofun, ?_⟩
      intro b s' hb m hm ha
      cases hb
      cases hm
      refine ha.sub ?_
      have := hs.1
      rwa [hp] at this

theorem getTypeName_any (a : XAttr) : (getTypeName a).Calm Any := (getTypeName_safe a).any

end

/-! ## Nodes -/

/-- A node with names in ASCII. -/
def Nd.Good (nd : Nd) : Prop := AsciiNames (nd.info, nd.kids)

theorem Nd.Good.see {nd : Nd} (h : nd.Good) (n : Str) : (nd.see n).Good := h

theorem Nd.Good.attr {nd : Nd} (h : nd.Good) {n : Str} {a : XAttr} (ha : nd.attr n = some a) (hn : n ∈ nameAttrs) : Ascii a.value := by
  unfold Nd.attr at ha
  have h1 := List.find?_some ha
  have h2 := List.mem_of_find?_eq_some ha
  simp only [decide_eq_true_eq] at h1
  exact h _ (.refl _) a (List.mem_reverse.1 h2) (h1 ▸ hn)

theorem AsciiNames.kid {e : Elem} (h : AsciiNames e) {i : ElemInfo} {cs : List XNode} (hc : XNode.elem i cs ∈ e.2) :
    AsciiNames (i, cs) := fun f hf => h f (.kid hc hf)

theorem Nd.Good.kid {nd c : Nd} (h : nd.Good) (hc : c ∈ nd.xsdKids) : c.Good := by
  obtain ⟨e, he, rfl, _⟩ := mem_xsdKids hc
  exact AsciiNames.kid h he

section
variable {x : Ext} (hx : x.SnakeAscii)

theorem parseSimpleType_safe (nd : Nd) : (parseSimpleType x nd).Calm Any := by
  unfold parseSimpleType
  refine .bind (.lift (preventUnvisitedAttributes_safe _)) fun _ _ => .bind (.lift (parseAnnotation_safe _ _)) fun _ _ =>
    .bind (.lift (tryRemoveKid_safe _ _ _)) fun a _ => ?_
  obtain ⟨r, rest⟩ := a
  refine .bind (.lift (tryAttr_safe _ _)) fun _ _ => .bind (getTypeName_any _) fun c _ => ?_
  cases c with
  | literal t =>
    refine .bind (.lift (preventUnvisitedChildren_safe _ _)) fun _ _ => .bind (.lift (parseFacets_safe _ _)) fun a _ => ?_
    exact .pure trivial
  | named n => exact .fail _
  | fixed n => exact .fail _

theorem parseTypeAttr_safe (nd : Nd) (a : XAttr) (p : Name) : (parseTypeAttr nd a p).Calm Any := by
  unfold parseTypeAttr
  refine .bind (getTypeName_any _) fun c _ => ?_
  cases c with
  | literal t =>
    dsimp only
    split <;> exact .pure trivial
  | named n => exact .bind (discoverType_safe _ _) fun _ _ => .pure trivial
  | fixed n => exact .pure trivial

include hx

theorem parseAttrContent_safe (nd : Nd) {n p : Name} (hn : n.Ascii) (hp : p.Ascii) (c : Option Nd) : (parseAttrContent x nd n p c).Calm Any := by
  cases c with
  | none => exact .bind (.lift (tryAttr_safe _ _)) fun _ _ => parseTypeAttr_safe _ _ _
  | some c =>
    refine .bind (parseSimpleType_safe c) fun r _ => ?_
    split
    · exact .pure trivial
    · refine .bind (nodeName_safe (by unfold Ascii; decide)) fun d hd => .bind (deriveVirtualName_safe hx _ ?_) fun _ _ =>
        .bind (addRoot_safe _ _) fun _ _ => .bind (discoverType_safe _ _) fun _ _ => .pure trivial
      simp [hn, hp, hd]

theorem parseAttribute_safe {nd : Nd} (hg : nd.Good) {p : Name} (hp : p.Ascii) : (parseAttribute x nd p).Calm Any := by
  unfold parseAttribute
  refine .bind (.lift (tryAttr_safe _ _)) fun na hna => .bind (.lift (parseAnnotation_safe _ _)) fun _ _ =>
    .bind (parseAttrContent_safe hx _ (n := ⟨na.value, .none⟩) (hg.attr hna (by decide)) hp _) fun a _ => ?_
  obtain ⟨c, nd'⟩ := a
  refine .bind (.lift (preventUnvisitedChildren_safe _ _)) fun _ _ => ?_
  dsimp only
  split
  · exact .pure trivial
  · split
    · split
      · exact .fail _
      · exact .bind (.lift (preventUnvisitedAttributes_safe _)) fun _ _ => .pure trivial
    · exact .fail _

theorem parseAttributes_safe {p : Name} (hp : p.Ascii) : ∀ {cs : List Nd}, (∀ c ∈ cs, c.Good) → (parseAttributes x p cs).Calm Any
  | [], _ => .pure trivial
  | _ :: _, h => .bind (parseAttribute_safe hx (h _ (.head _)) hp) fun _ _ =>
      .bind (parseAttributes_safe hp fun d hd => h d (.tail _ hd)) fun _ _ => .pure trivial

omit hx in
theorem removeKids_good {n : Str} {ks : List Nd} (h : ∀ c ∈ ks, c.Good) : ∀ c ∈ (removeKids n ks).1, c.Good := by
  intro c hc
  exact h c (List.mem_filter.1 hc).1

theorem parseSimpleContent_safe {nd : Nd} (hg : nd.Good) {p : Name} (hp : p.Ascii) : (parseSimpleContent x nd p).Calm Any := by
  unfold parseSimpleContent
  refine .bind (.lift (preventUnvisitedAttributes_safe _)) fun _ _ => .bind (.lift (tryRemoveKid_safe _ _ _)) fun a ha => ?_
  obtain ⟨e, rest⟩ := a
  have he : e.Good := hg.kid ha
  refine .bind (.lift (preventUnvisitedChildren_safe _ _)) fun _ _ => .bind (.lift (tryAttr_safe _ _)) fun _ _ =>
    .bind (getTypeName_any _) fun c _ => P.Calm.bind (Q := Any) ?_ fun _ _ =>
    .bind (parseAttributes_safe hx hp (removeKids_good fun c hc => he.kid hc)) fun _ _ =>
    .bind (.lift (preventUnvisitedChildren_safe _ _)) fun _ _ => .pure trivial
  split
  · exact .bind (discoverType_safe _ _) fun _ _ => .pure trivial
  · exact .pure trivial

omit hx in
theorem parseLeaves_safe {f : Nd → P (Option Leaf)} {Q : Leaf → Prop} : ∀ {cs : List Nd},
    (∀ c ∈ cs, (f c).Calm (fun o => ∀ l, o = some l → Q l)) → (parseLeaves f cs).Calm (fun ls => ∀ l ∈ ls, Q l)
  | [], _ => .pure (by simp)
  | c :: _, h => .bind (h c (.head _)) fun o ho => .bind (parseLeaves_safe fun d hd => h d (.tail _ hd)) fun ls hls => .pure (by
      cases o with
      | none => exact hls
      | some l =>
        intro m hm
        rcases List.mem_cons.1 hm with rfl | hm
        · exact ho _ rfl
        · exact hls m hm)

theorem addGroup_safe {p : Name} (hp : p.Ascii) {ms : List Leaf} (hm : ∀ l ∈ ms, l.Ascii) {sf : List Name} (hs : ∀ n ∈ sf, n.Ascii)
    (r : Root) (docs : Option Str) (mn : Nat) (mx : MaxOccurs) : (addGroup x p ms sf r docs mn mx).Calm Leaf.Ascii := by
  refine .bind (deriveVirtualName_safe hx _ ?_) fun ln hln => .bind (deriveVirtualName_safe hx _ ?_) fun _ _ => .bind (addRoot_safe _ _) fun _ _ =>
    .bind (discoverType_safe _ _) fun _ _ => .pure hln
  · intro n hn
    obtain ⟨l, hl, rfl⟩ := List.mem_map.1 hn
    exact hm l hl
  · intro n hn
    rcases List.mem_cons.1 hn with rfl | hn
    · exact hp
    · rcases List.mem_cons.1 hn with rfl | hn
      · exact hln
      · exact hs n hn

omit hx in
/-- The functions of the parser do not panic on names in ASCII. -/
structure AllSafe (x : Ext) (k : Nat) : Prop where
  root : ∀ {nd : Nd} {p : Name}, nd.Good → p.Ascii → (parseRoot x k nd p).Calm Any
  elementRoot : ∀ {nd : Nd} {p : Name}, nd.Good → p.Ascii → (parseElementRoot x k nd p).Calm Any
  complexType : ∀ {nd : Nd} {p : Name}, nd.Good → p.Ascii → (parseComplexType x k nd p).Calm Any
  particle : ∀ {kids : List Nd} {p : Name}, (∀ c ∈ kids, c.Good) → p.Ascii →
    (parseParticle x k kids p).Calm (fun r => ∀ c ∈ r.2, c.Good)
  complexContent : ∀ {nd : Nd} {p : Name}, nd.Good → p.Ascii → (parseComplexContent x k nd p).Calm Any
  extension : ∀ {o : Option Nd} {b p : Name}, (∀ nd, o = some nd → nd.Good) → b.Ascii → p.Ascii → (parseExtension x k o b p).Calm Any
  sequence : ∀ {nd : Nd} {p : Name}, nd.Good → p.Ascii → (parseSequence x k nd p).Calm (fun ls => ∀ l ∈ ls, l.Ascii)
  choice : ∀ {nd : Nd} {p : Name}, nd.Good → p.Ascii → (parseChoice x k nd p).Calm (fun ls => ∀ l ∈ ls, l.Ascii)
  elementChild : ∀ {nd : Nd} {p : Name}, nd.Good → p.Ascii → (parseElementChild x k nd p).Calm Leaf.Ascii

theorem allSafe (k : Nat) : AllSafe x k := by
  induction k with
  | zero =>
    constructor
    case extension => intros; unfold parseExtension; exact .diverge
    all_goals (intros; exact .diverge)
  | succ k ih =>
    constructor
    case root =>
      intro nd p h hp
      unfold parseRoot
      split
      · exact ih.elementRoot h hp
      · split
        · exact ih.complexType h hp
        · split
          · exact parseSimpleType_safe _
          · exact .fail _
    case elementRoot =>
      intro nd p h hp
      unfold parseElementRoot
      refine .bind (.lift (parseAnnotation_safe _ _)) fun docs _ => ?_
      split
      · refine .bind (parseTypeAttr_safe _ _ _) fun a _ => ?_
        exact .bind (.lift (preventUnvisitedAttributes_safe _)) fun _ _ => .bind (.lift (preventUnvisitedChildren_safe _ _)) fun _ _ => .pure trivial
      · refine .bind (.lift (preventUnvisitedAttributes_safe _)) fun _ _ => ?_
        split
        · next hr =>
          have := h.kid (removeKid_rest_mem (removeKid_mem hr))
          exact .bind (ih.complexType this hp) fun _ _ => .bind (.lift (preventUnvisitedChildren_safe _ _)) fun _ _ => .pure trivial
        · split
          · exact .bind (parseSimpleType_safe _) fun _ _ => .bind (.lift (preventUnvisitedChildren_safe _ _)) fun _ _ => .pure trivial
          · exact .fail _
    case complexType =>
      intro nd p h hp
      unfold parseComplexType
      split
      · exact .fail _
      · refine .bind (.lift (preventUnvisitedAttributes_safe _)) fun _ _ => .bind (.lift (parseAnnotation_safe _ _)) fun docs _ => ?_
        split
        · next hr =>
          have := h.kid (removeKid_rest_mem (removeKid_mem hr))
          exact .bind (.lift (preventUnvisitedChildren_safe _ _)) fun _ _ => .bind (parseSimpleContent_safe hx this hp) fun _ _ => .pure trivial
        · split
          · next hr =>
            have := h.kid (removeKid_rest_mem (removeKid_mem hr))
            exact .bind (.lift (preventUnvisitedChildren_safe _ _)) fun _ _ => .bind (ih.complexContent this hp) fun _ _ => .pure trivial
          · refine .bind (ih.particle (fun c hc => h.kid (removeKid_rest_mem hc)) hp) fun a ha => ?_
            obtain ⟨c, rest⟩ := a
            exact .bind (parseAttributes_safe hx hp (removeKids_good ha)) fun _ _ => .bind (.lift (preventUnvisitedChildren_safe _ _)) fun _ _ => .pure trivial
    case particle =>
      intro kids p hk hp
      unfold parseParticle
      have hmem : ∀ {c rest}, (match removeKid c!"sequence" kids with
          | (some c, rest) => (some c, rest)
          | (none, _) => removeKid c!"all" kids) = (some c, rest) → c ∈ kids ∧ ∀ d ∈ rest, d ∈ kids := by
        intro c rest hc
        split at hc
        · next hr =>
          cases hc
          exact ⟨removeKid_mem hr, fun d hd => removeKid_rest_mem (n := c!"sequence") (by rw [hr]; exact hd)⟩
        · exact ⟨removeKid_mem hc, fun d hd => removeKid_rest_mem (n := c!"all") (by rw [hc]; exact hd)⟩
      split
      · next child rest hr =>
        obtain ⟨h1, h2⟩ := hmem hr
        refine .bind (.lift (parseMinOccurs_safe _)) fun mn _ => .bind (.lift (parseMaxOccurs_safe _)) fun mx _ =>
          .bind (ih.sequence (((hk _ h1).see _).see _) hp) fun ls hls => ?_
        dsimp only
        have hls' : ∀ l ∈ (if decide (child.name = c!"all") = true then ls.map (fun l => { l with isUnordered := true }) else ls), Leaf.Ascii l := by
          intro l hl
          split at hl
          · obtain ⟨m, hm, rfl⟩ := List.mem_map.1 hl
            exact hls m hm
          · exact hls l hl
        split
        · exact .bind (addGroup_safe hx hp hls' (by simp) _ _ _ _) fun _ _ => .pure fun d hd => hk d (h2 d hd)
        · exact .pure fun d hd => hk d (h2 d hd)
      · split
        · next hr =>
          refine .bind (ih.choice (hk _ (removeKid_mem hr)) hp) fun _ _ => .bind (nodeName_safe (by unfold Ascii; decide)) fun d hd =>
            .bind (deriveVirtualName_safe hx _ ?_) fun _ _ =>
            .bind (addRoot_safe _ _) fun _ _ => .bind (discoverType_safe _ _) fun _ _ => .pure ?_
          · simp [hp, hd]
          · intro e he
            exact hk e (removeKid_rest_mem (n := c!"choice") (by rw [hr]; exact he))
        · exact .pure hk
    case complexContent =>
      intro nd p h hp
      unfold parseComplexContent
      refine .bind (.lift (preventUnvisitedAttributes_safe _)) fun _ _ => .bind (.lift (tryRemoveKid_safe _ _ _)) fun a ha => ?_
      obtain ⟨e, rest⟩ := a
      have he : e.Good := h.kid ha
      refine .bind (.lift (preventUnvisitedChildren_safe _ _)) fun _ _ => .bind (.lift (tryAttr_safe _ _)) fun b hb =>
        .bind (getTypeName_safe _) fun c hc => ?_
      cases c with
      | literal t => exact .fail _
      | fixed t => exact .fail _
      | named n =>
        have hn : n.Ascii := hc n rfl (he.attr hb (by decide))
        refine .bind (discoverType_safe _ _) fun _ _ => .bind (ih.extension ?_ hn hp) fun vl _ =>
          .bind (parseAttributes_safe hx hp (removeKids_good ?_)) fun _ _ => .bind (.lift (preventUnvisitedChildren_safe _ _)) fun _ _ => ?_
        · intro nd' hn'
          exact he.kid (removeKid_mem (Prod.ext hn' rfl))
        · intro c hc
          split at hc
          · exact he.kid (removeKid_rest_mem hc)
          · exact he.kid hc
        · split
          · exact .pure trivial
          · exact .bind (nodeName_safe (by unfold Ascii; decide)) fun _ _ => .pure trivial
    case extension =>
      intro o b p h hb hp
      cases o with
      | none => exact .pure trivial
      | some c =>
        unfold parseExtension
        refine .bind (.lift (parseMinOccurs_safe _)) fun mn _ => .bind (ih.sequence ((h c rfl).see _) hp) fun ls _ => .bind (nodeName_safe hb) fun d hd =>
          .bind (deriveVirtualName_safe hx _ ?_) fun _ _ => .bind (addRoot_safe _ _) fun _ _ => .bind (discoverType_safe _ _) fun _ _ => .pure trivial
        simp [hp, hd]
    case sequence =>
      intro nd p h hp
      unfold parseSequence
      refine .bind (.lift (preventUnvisitedAttributes_safe _)) fun _ _ => parseLeaves_safe fun c hc => ?_
      have hd := h.kid hc
      split
      · exact .bind (ih.elementChild hd hp) fun l hl => .pure fun m hm => by cases hm; exact hl
      · split
        · exact .bind (.lift (parseMinOccurs_safe _)) fun mn _ => .bind (.lift (parseMaxOccurs_safe _)) fun mx _ =>
            .bind (ih.choice ((hd.see _).see _) hp) fun _ hls => .bind (addGroup_safe hx hp hls (by simp) _ _ _ _) fun l hl =>
            .pure fun m hm => by cases hm; exact hl
        · split
          · exact .bind (.lift (parseAnnotation_safe _ _)) fun _ _ => .bind (.lift (parseMinOccurs_safe _)) fun mn _ =>
              .bind (ih.sequence (hd.see _) hp) fun _ hls => .bind (addGroup_safe hx hp hls (by simp) _ _ _ _) fun l hl =>
              .pure fun m hm => by cases hm; exact hl
          · split
            · exact .pure nofun
            · exact .fail _
    case choice =>
      intro nd p h hp
      unfold parseChoice
      refine .bind (.lift (preventUnvisitedAttributes_safe _)) fun _ _ => parseLeaves_safe fun c hc => ?_
      have hd := h.kid hc
      split
      · exact .bind (ih.elementChild hd hp) fun l hl => .pure fun m hm => by cases hm; exact hl
      · split
        · exact .bind (.lift (parseAnnotation_safe _ _)) fun _ _ => .bind (.lift (parseMinOccurs_safe _)) fun mn _ =>
            .bind (.lift (parseMaxOccurs_safe _)) fun mx _ => .bind (ih.sequence ((hd.see _).see _) hp) fun _ hls =>
            .bind (nodeName_safe (by unfold Ascii; decide)) fun v hv =>
            .bind (addGroup_safe hx hp hls (by simpa using hv) _ _ _ _) fun l hl => .pure fun m hm => by cases hm; exact hl
        · split
          · exact .pure nofun
          · exact .fail _
    case elementChild =>
      intro nd p h hp
      unfold parseElementChild
      refine .bind (.lift (parseMinOccurs_safe _)) fun mn _ => .bind (.lift (parseMaxOccurs_safe _)) fun mx _ => ?_
      dsimp only
      split
      · next hr =>
        refine .bind (.lift (preventUnvisitedAttributes_safe _)) fun _ _ => .bind (getTypeName_safe _) fun c hc => ?_
        cases c with
        | named n => exact .bind (discoverType_safe _ _) fun _ _ => .pure (hc n rfl (h.attr hr (by decide)))
        | literal t => exact .fail _
        | fixed t => exact .fail _
      · refine .bind (.lift (tryAttr_safe _ _)) fun na hna => .bind (nodeName_safe (h.attr hna (by decide))) fun n hn =>
          .bind (.lift (parseAnnotation_safe _ _)) fun docs _ => ?_
        split
        · refine .bind (parseTypeAttr_safe _ _ _) fun a _ => ?_
          exact .bind (.lift (preventUnvisitedAttributes_safe _)) fun _ _ => .pure hn
        · split
          · exact .bind (.lift (preventUnvisitedAttributes_safe _)) fun _ _ => .pure hn
          · refine .bind (.lift (preventUnvisitedAttributes_safe _)) fun _ _ => .bind (nodeName_safe (by unfold Ascii; decide)) fun d hd =>
              .bind (deriveVirtualName_safe hx _ ?_) fun v hv => .bind (ih.root ?_ hv) fun _ _ => .bind (addRoot_safe _ _) fun _ _ =>
              .bind (discoverType_safe _ _) fun _ _ => .pure hn
            · simp [hp, hn, hd]
            · exact h

end

end Xsd
