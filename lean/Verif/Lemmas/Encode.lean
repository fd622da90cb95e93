import Verif.Lemmas.Build
import Verif.Lemmas.Gen
import Verif.Lemmas.Sound
import Verif.Spec.Values
import Verif.Spec.Write
/-!
# What the generated writer writes

For a schema that satisfies `writeOK`: every value of a type is written as a document (or, for a group, as a segment
of child elements) that represents it.
-/
namespace Xsd

variable {x : Ext} {S : SchemaContext} {P : List TypeDef} {W : WCert} {N : List (Str × Str)}

/-! ## Namespace declarations of a context -/

/-- The declarations pending in a context are none or all. -/
def NssIn (N : List (Str × Str)) (c : Ctx) : Prop := c.inner.nss = [] ∨ c.inner.nss = N

/-- `c'` is `c` up to pending declarations. -/
def Kept (N : List (Str × Str)) (c c' : Ctx) : Prop :=
  c'.virt = c.virt ∧ c'.inner.name = c.inner.name ∧ c'.inner.attrs = c.inner.attrs ∧ NssIn N c'

theorem Kept.refl {c : Ctx} (h : NssIn N c) : Kept N c c := ⟨rfl, rfl, rfl, h⟩

theorem Kept.trans {a b c : Ctx} (h1 : Kept N a b) (h2 : Kept N b c) : Kept N a c :=
  ⟨h2.1.trans h1.1, h2.2.1.trans h1.2.1, h2.2.2.1.trans h1.2.2.1, h2.2.2.2⟩

theorem setNss_eq (l : List (Str × Str)) (c : Ctx) :
    setNss l c = ⟨c.virt, { c.inner with nss := l.foldl (fun m b => nsPut m b.1 b.2) c.inner.nss }⟩ := by
  unfold setNss
  induction l generalizing c with
  | nil => rfl
  | cons b l ih =>
    obtain ⟨p, u⟩ := b
    simp only [List.foldl_cons]
    rw [ih]
    obtain ⟨v, nm, as, ns⟩ := c
    by_cases h : p = []
    · subst h; cases v <;> rfl
    · simp only [if_neg h]; cases v <;> rfl

theorem nsPut_new (l m : List (Str × Str)) (hn : (l.map Prod.fst).Nodup)
    (hd : ∀ p ∈ l.map Prod.fst, p ∉ m.map Prod.fst) : l.foldl (fun m b => nsPut m b.1 b.2) m = m ++ l := by
  induction l generalizing m with
  | nil => simp
  | cons b l ih =>
    simp only [List.map_cons, List.nodup_cons] at hn
    simp only [List.foldl_cons]
    have h1 : nsPut m b.1 b.2 = m ++ [b] := by
      unfold nsPut
      rw [(alookup_eq_none_iff m b.1).2 (hd b.1 (by simp))]; rfl
    rw [h1, ih _ hn.2]
    · simp
    · intro p hp hm
      simp only [List.map_append, List.mem_append, List.map_cons, List.map_nil, List.mem_singleton] at hm
      rcases hm with hm | hm
      · exact hd p (by simp [hp]) hm
      · exact hn.1 (hm ▸ hp)

theorem nsPut_old (l m : List (Str × Str)) (hd : ∀ p ∈ l.map Prod.fst, p ∈ m.map Prod.fst) :
    l.foldl (fun m b => nsPut m b.1 b.2) m = m := by
  induction l with
  | nil => rfl
  | cons b l ih =>
    simp only [List.foldl_cons]
    have h1 : nsPut m b.1 b.2 = m := by
      unfold nsPut
      rw [if_pos ((alookup_isSome_iff m b.1).2 (hd b.1 (by simp)))]
    rw [h1, ih (fun p hp => hd p (by simp [hp]))]

theorem setNss_in (hN : NsOk N) {c : Ctx} (h : NssIn N c) : setNss N c = ⟨c.virt, { c.inner with nss := N }⟩ := by
  rw [setNss_eq]
  rcases h with h | h <;> rw [h]
  · rw [nsPut_new N [] hN.1 (by simp)]; simp
  · rw [nsPut_old N N (fun _ h => h)]

/-! ## Calls between generated writers -/

section
variable (x S W N)

/-- Types that write their own element do so. -/
def Writes1 (V : Name → Val → Prop) (T : Name → Val → Elem → List Elem → Prop) (cW : Str → Val → Ctx → WRes) : Prop :=
  ∀ n i v (c : Ctx), (S.get n).isSome = true → typeIdent x n = .ok i → V n v → tagged S n = true → c.virt = false →
    (∀ a ∈ c.inner.attrs.map Prod.fst, a ∉ W.attrs n) → NssIn N c →
    ∃ B mid ks c', cW i v c = .ok (.start c.inner.name (c.inner.attrs ++ B) N :: (mid ++ [.fin]), c') ∧
      (B.map Prod.fst).Sublist (W.attrs n) ∧ (∀ p ∈ B, PlainName p.1) ∧ BuildsFresh N mid ks ∧
      ∀ info : ElemInfo, info.attrs = (c.inner.attrs ++ B).map (fun p => ⟨p.1, none, p.2, 0⟩) →
        T n v (info, ks) (elemKids ks)

/-- Types written inside the element of another one are a segment of child elements. -/
def Writes2 (V : Name → Val → Prop) (T : Name → Val → Elem → List Elem → Prop) (cW : Str → Val → Ctx → WRes) : Prop :=
  ∀ n i v (c : Ctx), (S.get n).isSome = true → typeIdent x n = .ok i → V n v → W.seg n = true →
    (c.virt = true ∨ tagged S n = false) → NssIn N c →
    ∃ evs ks c', cW i v c = .ok (evs, c') ∧ Kept N c c' ∧ Builds N evs ks ∧ ∀ e, T n v e (elemKids ks)

end

section
variable {V : Name → Val → Prop} {T : Name → Val → Elem → List Elem → Prop} {cW : Str → Val → Ctx → WRes}

theorem textIs_kids (i : ElemInfo) (s : Str) : TextIs .written (i, textKids s) s := by
  unfold textKids
  by_cases h : s = []
  · subst h; exact .inl ⟨rfl, rfl⟩
  · rw [if_neg h]; exact .inr rfl

/-- Text content. -/
theorem writeVal_text (hx : x.NumLaws) {c : LeafContent} {vw : ValWrite} (hw : contentWrite x S c = .ok vw)
    (hc : ∀ n, ¬ Means S c (.named n)) {v : Val} (hv : VVal S V c v) (ctx : Ctx) :
    ∃ evs s, writeVal x cW vw v ctx = .ok (evs, ctx) ∧ BuildsFresh N evs (textKids s) ∧
      ∀ i, RVal x .written S T c v (i, textKids s) [] := by
  obtain ⟨c', hm, hv⟩ := hv
  rcases contentWrite_ok hw with ⟨t, hm', rfl⟩ | ⟨s, hm', rfl⟩ | ⟨n, i, hm', _, _⟩
  · cases hm.functional hm'
    obtain ⟨s, h1, h2⟩ := C26_literal_roundtrip x hx _ _ hv
    refine ⟨_, s, by simp only [writeVal, h1], .chars' N s, fun i => ⟨_, hm, s, textIs_kids i s, h2, rfl⟩⟩
  · cases hm.functional hm'
    exact ⟨_, s, rfl, .chars N s, fun i => ⟨_, hm, textIs_kids i s, hv, rfl⟩⟩
  · exact absurd hm' (hc n)

theorem target_means' {l : Leaf} {m : Name} (h : l.target = some m) (hg : isGroup S m = true) :
    l.definition.content = .named m ∧ Means S (.named m) (.named m) := by
  unfold Leaf.target at h
  split at h
  · next n hn =>
    cases h
    refine ⟨hn, .name ?_⟩
    intro d hd
    simp [isGroup, hd] at hg
  · cases h

theorem isGroup_isSome {m : Name} (hg : isGroup S m = true) : (S.get m).isSome = true := by
  unfold isGroup at hg; split at hg <;> simp_all

theorem tagged_isSome {m : Name} (hg : tagged S m = true) : (S.get m).isSome = true := by
  unfold tagged at hg; split at hg <;> simp_all

/-- How a leaf is written. -/
theorem leafWrite_ok {l : Leaf} {w : LeafWrite} (h : leafWrite x S l = .ok w) :
    ∃ f nm vw tags, fieldIdent x l.name = .ok f ∧ S.xmlName l.name = .ok nm ∧
      contentWrite x S l.definition.content = .ok vw ∧
      w = ⟨f, if l.isVirtual then none else some nm, tags, vw, l.repeats, l.mayMiss⟩ ∧
      (l.isVirtual = true → tags = false) ∧
      (l.isVirtual = false → (∀ n, l.definition.content ≠ .named n) → tags = true) ∧
      (l.isVirtual = false → ∀ n, l.definition.content = .named n → ∃ r, S.resolve n = .ok r ∧
        ((∃ d t, r = some (.leaf d) ∧ d.content = .literal t) ∧ tags = true ∨
          (¬ ∃ d t, r = some (.leaf d) ∧ d.content = .literal t) ∧ tags = false)) := by
  unfold leafWrite at h
  simp only [Leaf.isOptional_eq, Leaf.isVec_eq] at h
  rw [Res.bind_eq_ok] at h
  obtain ⟨f, hf, h⟩ := h
  rw [Res.bind_eq_ok] at h
  obtain ⟨nm, hnm, h⟩ := h
  rw [Res.bind_eq_ok] at h
  obtain ⟨vw, hvw, h⟩ := h
  cases hv : l.isVirtual with
  | true =>
    simp only [hv, if_true, Res.pure_eq, Res.bind_ok] at h
    exact ⟨f, nm, vw, false, hf, hnm, hvw, (Res.ok.inj h).symm, fun _ => rfl, (by intro h; cases h), (by intro h; cases h)⟩
  | false =>
    simp only [hv, if_false, Res.pure_eq, Res.bind_ok, Bool.false_eq_true] at h
    refine ⟨f, nm, vw, w.tags, hf, hnm, hvw, ?_, (by intro h; cases h), ?_, ?_⟩
    · cases hc : l.definition.content with
      | literal t => rw [hc] at h; rw [← Res.ok.inj h]; rfl
      | fixed t => rw [hc] at h; rw [← Res.ok.inj h]; rfl
      | named n =>
        rw [hc] at h
        simp only [Res.bind_eq_ok] at h
        obtain ⟨r, hr, h⟩ := h
        split at h
        · split at h <;> (rw [← Res.ok.inj h]; rfl)
        · rw [← Res.ok.inj h]; rfl
    · intro _ hno
      cases hc : l.definition.content with
      | literal t => rw [hc] at h; rw [← Res.ok.inj h]
      | fixed t => rw [hc] at h; rw [← Res.ok.inj h]
      | named n => exact absurd hc (hno n)
    · intro _ n hc
      rw [hc] at h
      simp only [Res.bind_eq_ok] at h
      obtain ⟨r, hr, h⟩ := h
      refine ⟨r, hr, ?_⟩
      split at h
      · next d =>
        split at h
        · next t ht => exact .inl ⟨⟨d, t, rfl, ht⟩, by rw [← Res.ok.inj h]⟩
        · next hno =>
          refine .inr ⟨?_, by rw [← Res.ok.inj h]⟩
          rintro ⟨d', t, hd', ht⟩
          cases hd'
          exact hno t ht
      · next hno =>
        refine .inr ⟨?_, by rw [← Res.ok.inj h]⟩
        rintro ⟨d', t, hd', ht⟩
        exact hno d' hd'

/-- `resolve` ends where `Means` does. -/
theorem resolve_means {k : Nat} {n : Name} {c : LeafContent} (hm : Means S (.named n) c) {r : Option Root}
    (hr : S.resolveFrom k (S.get n) = .ok r) :
    (∀ m, c = .named m → r = S.get m) ∧ ((∀ m, c ≠ .named m) → ∃ d, r = some (.leaf d) ∧ d.content = c) := by
  induction k generalizing n with
  | zero => cases hr
  | succ k ih =>
    cases hm with
    | alias h hc =>
      rename_i d
      simp only [SchemaContext.resolveFrom, h] at hr
      cases hd : d.content with
      | named m => rw [hd] at hr hc; exact ih hc hr
      | literal t => rw [hd] at hr hc; cases hr; cases hc; exact ⟨by simp, fun _ => ⟨d, rfl, hd⟩⟩
      | fixed s => rw [hd] at hr hc; cases hr; cases hc; exact ⟨by simp, fun _ => ⟨d, rfl, hd⟩⟩
    | name h =>
      have : r = S.get n := by
        unfold SchemaContext.resolveFrom at hr
        split at hr
        · next d hd => exact absurd hd (h d)
        · exact (Res.ok.inj hr).symm
      exact ⟨fun m hm => by cases hm; exact this, fun hno => absurd rfl (hno n)⟩

theorem withTags_new (nm : Str) (body : Ctx → WRes) (evs : List Ev) (h : ∀ c, body c = .ok (evs, c)) :
    withTags true body (Ctx.new nm) = .ok (.start nm [] [] :: (evs ++ [.fin]), Ctx.new nm) := by
  simp [withTags, Ctx.new, Ctx.writeStart, h, Ctx.writeEnd]

theorem nameOK_ok {w : Str} {q : QName} (h : nameOK N (.ok w) (.ok q) = true) : resolveName N w = some q := by
  simpa [nameOK] using h

/-- An element with text. -/
theorem text_item (hN : NsOk N) (hx : x.NumLaws) {l : Leaf} (hv : l.isVirtual = false) {nm : Str} {q : QName}
    (hq : S.expanded l.name = .ok q) (hnm : resolveName N nm = some q) {vw : ValWrite}
    (hw : contentWrite x S l.definition.content = .ok vw) (hc : ∀ n, ¬ Means S l.definition.content (.named n)) {v : Val}
    (hval : VVal S V l.definition.content v) :
    ∃ evs c' ks, withTags true (writeVal x cW vw v) (Ctx.new nm) = .ok (evs, c') ∧ Builds N evs ks ∧
      ∀ e, RItem x .written S T l v e (elemKids ks) := by
  obtain ⟨_, s, _, _, _⟩ := writeVal_text (T := T) (cW := cW) (N := N) hx hw hc hval (Ctx.new nm)
  have hall : ∃ evs, (∀ c, writeVal x cW vw v c = .ok (evs, c)) ∧ ∃ s, BuildsFresh N evs (textKids s) ∧
      ∀ i, RVal x .written S T l.definition.content v (i, textKids s) [] := by
    rcases contentWrite_ok hw with ⟨t, hm', rfl⟩ | ⟨s, hm', rfl⟩ | ⟨n, i, hm', _, _⟩
    · obtain ⟨evs, s, h1, h2, h3⟩ := writeVal_text (T := T) (cW := cW) (N := N) hx hw hc hval (Ctx.new nm)
      refine ⟨evs, ?_, s, h2, h3⟩
      intro c
      simp only [writeVal] at h1 ⊢
      split at h1
      · cases h1; rfl
      · cases h1
    · obtain ⟨evs, s, h1, h2, h3⟩ := writeVal_text (T := T) (cW := cW) (N := N) hx hw hc hval (Ctx.new nm)
      refine ⟨evs, ?_, s, h2, h3⟩
      intro c
      simp only [writeVal] at h1 ⊢
      cases h1; rfl
    · exact absurd hm' (hc n)
  obtain ⟨evs, hev, s, hb, hr⟩ := hall
  refine ⟨_, _, _, withTags_new nm _ evs hev, .element hN hnm (by simp) (by simp) (.inl rfl) hb, ?_⟩
  intro e
  unfold RItem
  rw [if_neg (by simp [hv])]
  exact ⟨_, rfl, hq, [], [], (by simp [Cat]), fun _ => rfl, hr _⟩

/-- An element written by the type of its content. -/
theorem named_item (hN : NsOk N) (hW : ∀ n, (S.get n).isSome = true → (W.attrs n).Nodup) (h1 : Writes1 x S W N V T cW) {l : Leaf}
    (hv : l.isVirtual = false) {nm : Str} {q : QName}
    (hq : S.expanded l.name = .ok q) (hnm : resolveName N nm = some q) {m : Name} {i : Str}
    (hm : Means S l.definition.content (.named m)) (hi : typeIdent x m = .ok i) (ht : tagged S m = true) {v : Val}
    (hval : VVal S V l.definition.content v) :
    ∃ evs c' ks, cW i v (Ctx.new nm) = .ok (evs, c') ∧ Builds N evs ks ∧
      ∀ e, RItem x .written S T l v e (elemKids ks) := by
  obtain ⟨c', hm', hval⟩ := hval
  cases hm.functional hm'
  obtain ⟨B, mid, ks, c', hc, hs, hp, hb, hT⟩ := h1 m i v (Ctx.new nm) (tagged_isSome ht) hi hval ht rfl
    (by simp [Ctx.new]) (.inl rfl)
  refine ⟨_, _, _, hc, .element hN hnm ?_ ?_ (.inr rfl) hb, ?_⟩
  · simpa [Ctx.new] using fun a b h => hp (a, b) h
  · simpa [Ctx.new] using hs.nodup (hW m (tagged_isSome ht))
  · intro e
    unfold RItem
    rw [if_neg (by simp [hv])]
    exact ⟨_, rfl, hq, elemKids ks, [], (by simp [Cat]), fun _ => rfl, _, hm, hT _ rfl⟩

/-- One occurrence of a leaf. -/
theorem writeItem_ok (hN : NsOk N) (hx : x.NumLaws) (hW : ∀ n, (S.get n).isSome = true → (W.attrs n).Nodup) (h1 : Writes1 x S W N V T cW)
    (h2 : Writes2 x S W N V T cW) {l : Leaf} {w : LeafWrite} (hw : leafWrite x S l = .ok w)
    (hl : leafOK S W N l = true) {v : Val} (hval : VVal S V l.definition.content v) {c : Ctx} (hc : NssIn N c) :
    ∃ evs ks c', writeItem x cW w v c = .ok (evs, c') ∧ Kept N c c' ∧ Builds N evs ks ∧
      ∀ e, RItem x .written S T l v e (elemKids ks) := by
  obtain ⟨f, nm, vw, tags, hf, hnm, hvw, rfl, ht1, ht2, ht3⟩ := leafWrite_ok hw
  unfold leafOK at hl
  cases hv : l.isVirtual with
  | true =>
    rw [if_pos hv] at hl
    split at hl
    · next m hm =>
      simp only [Bool.and_eq_true] at hl
      obtain ⟨hct, hmm⟩ := target_means' hm hl.1
      have ht := ht1 hv
      subst ht
      obtain ⟨c', hm', hval⟩ := hval
      rw [hct] at hm' hvw
      cases hm'.functional hmm
      rcases contentWrite_ok hvw with ⟨t, h', _⟩ | ⟨s, h', _⟩ | ⟨n, i, h', hi, rfl⟩
      · cases h'.functional hmm
      · cases h'.functional hmm
      cases h'.functional hmm
      obtain ⟨evs, ks, c', hcw, hk, hb, hT⟩ := h2 m i v c.wrap (isGroup_isSome hl.1) hi hval hl.2 (.inl rfl) hc
      refine ⟨evs, ks, c.endBorrow c', ?_, ⟨rfl, hk.2.1, hk.2.2.1, hk.2.2.2⟩, hb, ?_⟩
      · simp only [writeItem, if_true, withTags, writeVal, Bool.false_eq_true, if_false, hcw]; rfl
      · intro e
        unfold RItem
        rw [if_pos hv, hct]
        exact ⟨_, hmm, hT e⟩
    · cases hl
  | false =>
    rw [if_neg (by simp [hv])] at hl
    rw [hnm] at hl
    simp only [Bool.and_eq_true] at hl
    obtain ⟨hn, hl⟩ := hl
    have hq : ∃ q, S.expanded l.name = .ok q ∧ resolveName N nm = some q := by
      cases hq : S.expanded l.name with
      | ok q => rw [hq] at hn; exact ⟨q, rfl, nameOK_ok hn⟩
      | err _ => rw [hq] at hn; cases hn
      | panic => rw [hq] at hn; cases hn
      | diverge => rw [hq] at hn; cases hn
    obtain ⟨q, hq, hnq⟩ := hq
    have ht2 := ht2 hv
    have ht3 := ht3 hv
    have key : ∃ evs c' ks, withTags tags (writeVal x cW vw v) (Ctx.new nm) = .ok (evs, c') ∧ Builds N evs ks ∧
        ∀ e, RItem x .written S T l v e (elemKids ks) := by
      split at hl
      · next t hil =>
        have hm := inlined_means hil
        have htt : tags = true := by
          cases hct : l.definition.content with
          | literal t => exact ht2 (by simp [hct])
          | fixed t => exact ht2 (by simp [hct])
          | named n =>
            rw [hct] at hm
            obtain ⟨r, hr, ht⟩ := ht3 n hct
            obtain ⟨d, rfl, hd⟩ := (resolve_means hm hr).2 (by simp)
            rcases ht with ht | ht
            · exact ht.2
            · exact absurd ⟨d, t, rfl, hd⟩ ht.1
        subst htt
        refine text_item hN hx hv hq hnq hvw ?_ hval
        intro n hn; cases hm.functional hn
      · next t hil =>
        have hm := inlined_means hil
        split at hl
        · next f hct =>
          have htt : tags = true := ht2 (by simp [hct])
          subst htt
          refine text_item hN hx hv hq hnq hvw ?_ hval
          intro n hn; cases hm.functional hn
        · cases hl
      · next m hil =>
        have hm := inlined_means hil
        have htt : tags = false := by
          cases hct : l.definition.content with
          | literal t => rw [hct] at hm; cases hm
          | fixed t => rw [hct] at hm; cases hm
          | named n =>
            rw [hct] at hm
            obtain ⟨r, hr, ht⟩ := ht3 n hct
            have := (resolve_means hm hr).1 m rfl
            subst this
            rcases ht with ⟨⟨d, t, hd, _⟩, _⟩ | ht
            · exact absurd hd (hm.fst_named d)
            · exact ht.2
        subst htt
        rcases contentWrite_ok hvw with ⟨t, h', _⟩ | ⟨s, h', _⟩ | ⟨n, i, h', hi, rfl⟩
        · cases h'.functional hm
        · cases h'.functional hm
        cases h'.functional hm
        exact named_item hN hW h1 hv hq hnq hm hi hl hval
      · cases hl
    obtain ⟨evs, c', ks, hev, hb, hr⟩ := key
    refine ⟨evs, ks, c, ?_, .refl hc, hb, hr⟩
    simp only [writeItem, Bool.false_eq_true, if_false, hev]; rfl

theorem forEach_ok {l : Leaf} {body : Val → Ctx → WRes} (vs : List Val)
    (hbody : ∀ v ∈ vs, ∀ c, NssIn N c → ∃ evs ks c', body v c = .ok (evs, c') ∧ Kept N c c' ∧ Builds N evs ks ∧
      ∀ e, RItem x .written S T l v e (elemKids ks)) {c : Ctx} (hc : NssIn N c) :
    ∃ evs ks c', forEach body vs c = .ok (evs, c') ∧ Kept N c c' ∧ Builds N evs ks ∧
      ∀ e, RMany x .written S T l vs e (elemKids ks) := by
  induction vs generalizing c with
  | nil => exact ⟨[], [], c, rfl, .refl hc, .nil N, fun _ => rfl⟩
  | cons v vs ih =>
    obtain ⟨evs, ks, c', h1, hk, hb, hr⟩ := hbody v (by simp) c hc
    obtain ⟨evs2, ks2, c2, h2, hk2, hb2, hr2⟩ := ih (fun w hw => hbody w (by simp [hw])) hk.2.2.2
    refine ⟨evs ++ evs2, ks ++ ks2, c2, ?_, hk.trans hk2, hb.append hb2, ?_⟩
    · simp only [forEach, h1, Res.bind_ok, h2]
    · intro e
      exact ⟨elemKids ks, elemKids ks2, hr e, (by intro h; cases h), hr2 e, elemKids_append _ _⟩

/-- All occurrences of a leaf. -/
theorem writeLeaf_ok (hN : NsOk N) (hx : x.NumLaws) (hW : ∀ n, (S.get n).isSome = true → (W.attrs n).Nodup) (h1 : Writes1 x S W N V T cW)
    (h2 : Writes2 x S W N V T cW) {l : Leaf} {w : LeafWrite} (hw : leafWrite x S l = .ok w)
    (hl : leafOK S W N l = true) {fs : List (Str × Val)} {v : Val} (hfs : alookup fs w.field = some v)
    (hval : VOcc S V l v) {c : Ctx} (hc : NssIn N c) :
    ∃ evs ks c', writeLeaf x cW w fs c = .ok (evs, c') ∧ Kept N c c' ∧ Builds N evs ks ∧
      ∀ e, ROcc x .written S T l v e (elemKids ks) := by
  have hopt : w.opt = l.mayMiss ∧ w.vec = l.repeats := by
    obtain ⟨f, nm, vw, tags, hf, hnm, hvw, hw', _, _⟩ := leafWrite_ok hw
    rw [hw']; exact ⟨rfl, rfl⟩
  have hitem := fun v hval c hc => writeItem_ok hN hx hW h1 h2 hw hl (v := v) hval (c := c) hc
  have hmany : ∀ w', VMany S V l w' → ∃ evs ks c', writeMany x cW w w' c = .ok (evs, c') ∧ Kept N c c' ∧
      Builds N evs ks ∧ ∀ e, if l.repeats then ∃ vs, w' = .vec vs ∧ RMany x .written S T l vs e (elemKids ks)
        else RItem x .written S T l w' e (elemKids ks) := by
    intro w' hw'
    unfold VMany at hw'
    unfold writeMany
    rw [hopt.2]
    cases hvec : l.repeats with
    | true =>
      rw [if_pos hvec] at hw'
      obtain ⟨vs, rfl, hvs⟩ := hw'
      obtain ⟨evs, ks, c', h, hk, hb, hr⟩ := forEach_ok (T := T) (x := x) (S := S) (l := l) vs
        (fun v hv c hc => hitem v (hvs v hv) c hc) hc
      exact ⟨evs, ks, c', h, hk, hb, fun e => ⟨vs, rfl, hr e⟩⟩
    | false =>
      rw [if_neg (by simp [hvec])] at hw'
      exact hitem w' hw' c hc
  unfold writeLeaf
  rw [hfs]
  simp only
  rw [hopt.1]
  unfold VOcc at hval
  cases ho : l.mayMiss with
  | true =>
    rw [if_pos ho] at hval
    rcases hval with rfl | ⟨w', rfl, hw'⟩
    · refine ⟨[], [], c, rfl, .refl hc, .nil N, fun e => ?_⟩
      unfold ROcc
      cases hvec : l.repeats with
      | true => rw [if_pos rfl]; exact ⟨[], rfl, by simp [ho]⟩
      | false => rw [if_neg (by simp), if_pos ho]; exact .inl ⟨rfl, rfl⟩
    · obtain ⟨evs, ks, c', h, hk, hb, hr⟩ := hmany w' hw'
      refine ⟨evs, ks, c', h, hk, hb, fun e => ?_⟩
      have := hr e
      unfold ROcc
      cases hvec : l.repeats with
      | true =>
        rw [if_pos hvec] at this
        obtain ⟨vs, rfl, hvs⟩ := this
        rw [if_pos rfl]
        refine ⟨vs, hvs, ?_⟩
        rw [if_pos ho]
        exact .inr ⟨fun h => absurd rfl h, rfl⟩
      | false =>
        rw [if_neg (by simp [hvec])] at this
        rw [if_neg (by simp), if_pos ho]
        exact .inr ⟨w', rfl, this, by intro h; cases h⟩
  | false =>
    rw [if_neg (by simp [ho])] at hval
    obtain ⟨evs, ks, c', h, hk, hb, hr⟩ := hmany v hval
    refine ⟨evs, ks, c', h, hk, hb, fun e => ?_⟩
    have := hr e
    unfold ROcc
    cases hvec : l.repeats with
    | true =>
      rw [if_pos hvec] at this
      obtain ⟨vs, rfl, hvs⟩ := this
      rw [if_pos rfl]
      exact ⟨vs, hvs, by simp [ho]⟩
    | false =>
      rw [if_neg (by simp [hvec])] at this
      rw [if_neg (by simp), if_neg (by simp [ho])]
      exact this

/-- The fields of a sequence. -/
theorem writeLeaves_ok (hN : NsOk N) (hx : x.NumLaws) (hW : ∀ n, (S.get n).isSome = true → (W.attrs n).Nodup) (h1 : Writes1 x S W N V T cW)
    (h2 : Writes2 x S W N V T cW) (ls : List Leaf) {ws : List LeafWrite} (hw : mapRes (leafWrite x S) ls = .ok ws)
    (hl : ls.all (leafOK S W N) = true) {fs gs : List (Str × Val)} (hfs : ∀ p ∈ gs, alookup fs p.1 = some p.2)
    (hval : VLeaves x S V ls gs) {c : Ctx} (hc : NssIn N c) :
    ∃ evs ks c', writeLeaves x cW fs ws c = .ok (evs, c') ∧ Kept N c c' ∧ Builds N evs ks ∧
      ∀ e, RLeaves x .written S T ls gs e (elemKids ks) := by
  induction ls generalizing ws gs c with
  | nil =>
    cases hw
    exact ⟨[], [], c, rfl, .refl hc, .nil N, fun e => ⟨hval, rfl⟩⟩
  | cons l ls ih =>
    obtain ⟨w, ws', hw1, hw2, rfl⟩ := mapRes_cons_ok.1 hw
    obtain ⟨f, v, gs', rfl, hf, hv, hvs⟩ := hval
    simp only [List.all_cons, Bool.and_eq_true] at hl
    have hf' : w.field = f := by
      obtain ⟨_, _, _, _, hf', _, _, hw', _⟩ := leafWrite_ok hw1
      rw [hf] at hf'
      cases hf'
      rw [hw']
    subst hf'
    obtain ⟨evs, ks, c', e1, hk, hb, hr⟩ := writeLeaf_ok hN hx hW h1 h2 hw1 hl.1 (hfs (w.field, v) (by simp)) hv hc
    obtain ⟨evs2, ks2, c2, e2, hk2, hb2, hr2⟩ := ih hw2 hl.2 (fun p hp => hfs p (by simp [hp])) hvs hk.2.2.2
    refine ⟨evs ++ evs2, ks ++ ks2, c2, ?_, hk.trans hk2, hb.append hb2, ?_⟩
    · simp only [writeLeaves, e1, Res.bind_ok, e2]
    · intro e
      exact ⟨_, v, gs', elemKids ks, elemKids ks2, rfl, hf, hr e, hr2 e, elemKids_append _ _⟩

/-! ## Choices -/

theorem variantWrite_ok {l : Leaf} {w : VarWrite} (h : variantWrite x S l = .ok w) :
    ∃ i vw, pascalIdent x l.name = .ok i ∧ contentWrite x S l.definition.content = .ok vw ∧
      w = ⟨i, l.name.name, (match l.definition.content with | .literal _ => true | _ => false), vw, l.repeats⟩ := by
  unfold variantWrite at h
  simp only [Leaf.isVec_eq] at h
  simp only [Res.bind_eq_ok] at h
  obtain ⟨i, hi, vw, hvw, h⟩ := h
  exact ⟨i, vw, hi, hvw, (Res.ok.inj h).symm⟩

theorem contentOK_named {c : LeafContent} {m : Name} (hm : Means S c (.named m)) (hc : contentOK S c = true) :
    tagged S m = true := by
  unfold contentOK at hc
  split at hc
  · split at hc
    · next n hn => cases (inlined_means hn).functional hm; exact hc
    · cases hc
  · next hno =>
    cases c with
    | named n => exact absurd rfl (hno n)
    | literal t => cases hm
    | fixed s => cases hm

theorem contentOK_means {n : Name} (hc : contentOK S (.named n) = true) : ∃ m, Means S (.named n) (.named m) := by
  unfold contentOK at hc
  simp only at hc
  split at hc
  · next m hm => exact ⟨m, inlined_means hm⟩
  · cases hc

/-- One occurrence of a variant's payload. -/
theorem writeVarItem_ok (hN : NsOk N) (hx : x.NumLaws) (hW : ∀ n, (S.get n).isSome = true → (W.attrs n).Nodup)
    (h1 : Writes1 x S W N V T cW) (h2 : Writes2 x S W N V T cW) {l : Leaf} {w : VarWrite}
    (hw : variantWrite x S l = .ok w) (hl : variantOK S W N l = true) {v : Val}
    (hval : VVal S V l.definition.content v) {c : Ctx} (hc : NssIn N c) :
    ∃ evs ks c', writeVarItem x cW w v c = .ok (evs, c') ∧ Kept N c c' ∧ Builds N evs ks ∧
      ∀ e, RItem x .written S T l v e (elemKids ks) := by
  obtain ⟨i, vw, hi, hvw, rfl⟩ := variantWrite_ok hw
  unfold variantOK at hl
  have key : ∃ evs c' ks, withTags (match l.definition.content with | .literal _ => true | _ => false)
      (writeVal x cW vw v) (Ctx.new l.name.name) = .ok (evs, c') ∧ Builds N evs ks ∧
        ∀ e, RItem x .written S T l v e (elemKids ks) := by
    cases hv : l.isVirtual with
    | true =>
      rw [if_pos hv] at hl
      simp only [Bool.and_eq_true] at hl
      obtain ⟨_, hl⟩ := hl
      split at hl
      · next m hm =>
        simp only [Bool.and_eq_true] at hl
        obtain ⟨hct, hmm⟩ := target_means' hm hl.1.1
        obtain ⟨c', hm', hval⟩ := hval
        rw [hct] at hm' hvw
        cases hm'.functional hmm
        rcases contentWrite_ok hvw with ⟨t, h', _⟩ | ⟨s, h', _⟩ | ⟨n, i, h', hi, rfl⟩
        · cases h'.functional hmm
        · cases h'.functional hmm
        cases h'.functional hmm
        obtain ⟨evs, ks, c', hcw, hk, hb, hT⟩ := h2 m i v (Ctx.new l.name.name) (isGroup_isSome hl.1.1) hi hval hl.2
          (.inr (by simpa using hl.1.2)) (.inl rfl)
        refine ⟨evs, c', ks, ?_, hb, ?_⟩
        · rw [hct]; exact hcw
        · intro e
          unfold RItem
          rw [if_pos hv, hct]
          exact ⟨_, hmm, hT e⟩
      · cases hl
    | false =>
      rw [if_neg (by simp [hv])] at hl
      simp only [Bool.and_eq_true] at hl
      obtain ⟨hn, hl⟩ := hl
      have hq : ∃ q, S.expanded l.name = .ok q ∧ resolveName N l.name.name = some q := by
        cases hq : S.expanded l.name with
        | ok q => rw [hq] at hn; exact ⟨q, rfl, nameOK_ok hn⟩
        | err _ => rw [hq] at hn; cases hn
        | panic => rw [hq] at hn; cases hn
        | diverge => rw [hq] at hn; cases hn
      obtain ⟨q, hq, hnq⟩ := hq
      cases hct : l.definition.content with
      | literal t =>
        refine text_item hN hx hv hq hnq hvw ?_ hval
        intro n hn; rw [hct] at hn; cases hn
      | fixed s => rw [hct] at hl; cases hl
      | named n =>
        rw [hct] at hl
        obtain ⟨m, hm⟩ := contentOK_means hl
        have ht := contentOK_named hm hl
        rw [← hct] at hm
        rcases contentWrite_ok hvw with ⟨t, h', _⟩ | ⟨s, h', _⟩ | ⟨n, i, h', hi, rfl⟩
        · cases h'.functional hm
        · cases h'.functional hm
        cases h'.functional hm
        exact named_item hN hW h1 hv hq hnq hm hi ht hval
  obtain ⟨evs, c', ks, hev, hb, hr⟩ := key
  refine ⟨evs, ks, c, ?_, .refl hc, hb, hr⟩
  simp only [writeVarItem, hev]; rfl

theorem mapRes_find {α β : Type} {f : α → Res Str β} {key : α → Res Str Str} {key' : β → Str}
    (hk : ∀ a b, f a = .ok b → key a = .ok (key' b)) {as : List α} {bs : List β} (h : mapRes f as = .ok bs)
    (hn : (as.map key).Nodup) {a : α} (ha : a ∈ as) {i : Str} (hi : key a = .ok i) :
    ∃ b, f a = .ok b ∧ bs.find? (fun b => decide (key' b = i)) = some b := by
  induction as generalizing bs with
  | nil => simp at ha
  | cons a' as ih =>
    obtain ⟨b, bs', hb, hbs, rfl⟩ := mapRes_cons_ok.1 h
    simp only [List.map_cons, List.nodup_cons] at hn
    rw [List.find?_cons]
    rcases List.mem_cons.1 ha with rfl | ha
    · have := hk _ _ hb
      rw [hi] at this
      cases this
      exact ⟨b, hb, by simp⟩
    · have hne : key' b ≠ i := by
        intro he
        have := hk _ _ hb
        rw [he, ← hi] at this
        exact hn.1 (this ▸ List.mem_map.2 ⟨a, ha, rfl⟩)
      simp only [hne, decide_false]
      exact ih hbs hn.2 ha

/-- The writer of a choice. -/
theorem writeChoice_ok (hN : NsOk N) (hx : x.NumLaws) (hW : ∀ n, (S.get n).isSome = true → (W.attrs n).Nodup)
    (h1 : Writes1 x S W N V T cW) (h2 : Writes2 x S W N V T cW) {vs : List Leaf} {ws : List VarWrite}
    (hw : mapRes (variantWrite x S) vs = .ok ws) (hok : vs.all (variantOK S W N) = true)
    (hnd : (vs.map (fun l => pascalIdent x l.name)).Nodup) {l : Leaf} (hl : l ∈ vs) {i : Str} {v : Val}
    (hi : pascalIdent x l.name = .ok i) (hval : VMany S V l v) {c : Ctx} (hc : NssIn N c) :
    ∃ evs ks c', writeChoice x cW ws (.variant i v) c = .ok (evs, c') ∧ Kept N c c' ∧ Builds N evs ks ∧
      ∀ e, RVariant x .written S T l v e (elemKids ks) := by
  obtain ⟨w, hwl, hfind⟩ := mapRes_find (key := fun l => pascalIdent x l.name) (key' := VarWrite.variant)
    (fun a b h => by obtain ⟨i, vw, hi, _, rfl⟩ := variantWrite_ok h; exact hi) hw hnd hl hi
  have hlok := List.all_eq_true.1 hok l hl
  have hvec : w.vec = l.repeats := by obtain ⟨i, vw, hi, _, rfl⟩ := variantWrite_ok hwl; rfl
  simp only [writeChoice, hfind, hvec]
  unfold VMany at hval
  have hitem := fun v hval c hc => writeVarItem_ok hN hx hW h1 h2 hwl hlok (v := v) hval (c := c) hc
  cases hv : l.repeats with
  | true =>
    rw [if_pos hv] at hval
    obtain ⟨us, rfl, hus⟩ := hval
    obtain ⟨evs, ks, c', h, hk, hb, hr⟩ := forEach_ok (T := T) (x := x) (S := S) (l := l) us
      (fun v hv c hc => hitem v (hus v hv) c hc) hc
    refine ⟨evs, ks, c', h, hk, hb, fun e => ?_⟩
    unfold RVariant
    have hvirt : l.isVirtual = false := by
      cases hvi : l.isVirtual with
      | false => rfl
      | true => unfold variantOK at hlok; simp [hvi, hv] at hlok
    rw [if_neg (by simp [hvirt]), if_pos hv]
    exact ⟨us, rfl, fun h => absurd rfl h, hr e⟩
  | false =>
    rw [if_neg (by simp [hv])] at hval
    obtain ⟨evs, ks, c', h, hk, hb, hr⟩ := hitem v hval c hc
    refine ⟨evs, ks, c', h, hk, hb, fun e => ?_⟩
    unfold RVariant
    split
    · exact ⟨hr e, by intro h; cases h⟩
    · rw [if_neg (by simp [hv])]; exact hr e

/-! ## Attributes -/

theorem attrWrite_ok {a : Attribute} {w : AttrWrite} (h : attrWrite x S a = .ok w) :
    fieldIdent x a.name = .ok w.field ∧ S.xmlName a.name = .ok w.name ∧ w.optional = a.isOptional ∧
    ((∃ t, a.content = .literal t ∧ w.inner = .lit t) ∨ (∃ s, a.content = .fixed s ∧ w.inner = .fixed s) ∨
     (∃ n ty, a.content = .named n ∧ contentTy x S a.content = .ok ty ∧ w.inner = .display ty)) := by
  unfold attrWrite at h
  rw [Res.bind_eq_ok] at h
  obtain ⟨f, hf, h⟩ := h
  rw [Res.bind_eq_ok] at h
  obtain ⟨nm, hnm, h⟩ := h
  cases hc : a.content with
  | literal t => rw [hc] at h; cases h; exact ⟨hf, hnm, rfl, .inl ⟨t, rfl, rfl⟩⟩
  | fixed t => rw [hc] at h; cases h; exact ⟨hf, hnm, rfl, .inr (.inl ⟨t, rfl, rfl⟩)⟩
  | named n =>
    rw [hc] at h
    simp only [Res.bind_eq_ok] at h
    obtain ⟨ty, hty, h⟩ := h
    obtain ⟨_, hh, h⟩ := h
    cases hh; cases h
    exact ⟨hf, hnm, rfl, .inr (.inr ⟨n, ty, rfl, hty, rfl⟩)⟩

theorem attrOK_ok {a : Attribute} (h : attrOK S a = true) :
    S.xmlName a.name = .ok a.name.name ∧ PlainName a.name.name ∧
    (∀ n, a.content = .named n → (∃ t, Means S a.content (.literal t) ∧ t.prim = .string) ∨
      ∃ m, Means S a.content (.named m) ∧ isEnum S m = true) := by
  unfold attrOK at h
  simp only [Bool.and_eq_true, decide_eq_true_eq] at h
  obtain ⟨⟨⟨h1, h2⟩, h3⟩, h4⟩ := h
  refine ⟨h1, ⟨by simpa using h2, by simpa using h3⟩, ?_⟩
  intro n hn
  rw [hn] at h4
  simp only at h4
  split at h4
  · next t ht => exact .inl ⟨t, hn ▸ inlined_means ht, by simpa using h4⟩
  · next m hm => exact .inr ⟨m, hn ▸ inlined_means hm, h4⟩
  · cases h4

theorem showAttr_ok (G : Generated x S P) (hx : x.NumLaws) {a : Attribute} {w : AttrWrite}
    (hw : attrWrite x S a = .ok w) (ha : attrOK S a = true) {v : Val} (hv : VStr x S a.content v) :
    ∃ s, showAttr x P w.inner v = some s ∧ RStr x .written S a.content s v := by
  obtain ⟨_, _, _, hin⟩ := attrWrite_ok hw
  obtain ⟨_, _, hnamed⟩ := attrOK_ok ha
  obtain ⟨c', hm, hv⟩ := hv
  rcases hin with ⟨t, hc, hin⟩ | ⟨s, hc, hin⟩ | ⟨n, ty, hc, hty, hin⟩
  · rw [hin]
    rw [hc] at hm ⊢
    cases hm
    obtain ⟨s, h1, h2⟩ := C26_literal_roundtrip x hx _ _ hv
    exact ⟨s, h1, h2⟩
  · rw [hin]
    rw [hc] at hm ⊢
    cases hm
    exact ⟨s, rfl, hv, fun _ => rfl⟩
  · rw [hin]
    rcases hnamed n hc with ⟨t, hmt, htp⟩ | ⟨m, hmm, hen⟩
    · cases hm.functional hmt
      simp only [htp] at hv
      obtain ⟨s, rfl⟩ := hv
      refine ⟨s, ?_, ?_⟩
      · rcases contentTy_ok hty with ⟨t', h', rfl⟩ | ⟨f, h', rfl⟩ | ⟨m, i, h', _, rfl⟩
        · cases h'.functional hmt
          simp only [showAttr, displayAt, htp, showPrim]
        · cases h'.functional hmt
        · cases h'.functional hmt
      · rw [hc]
        exact ⟨.literal t, hc ▸ hmt, htp, rfl⟩
    · cases hm.functional hmm
      obtain ⟨names, tab, vn, hg, htab, hvn, rfl⟩ := hv
      obtain ⟨s, hs⟩ := Option.isSome_iff_exists.1 ((alookup_isSome_iff tab vn).2 hvn)
      refine ⟨s, ?_, ?_⟩
      · rcases contentTy_ok hty with ⟨t', h', rfl⟩ | ⟨f, h', rfl⟩ | ⟨m', i, h', hi, rfl⟩
        · cases h'.functional hmm
        · cases h'.functional hmm
        · cases h'.functional hmm
          obtain ⟨r, t, hr, hf, _, hgen⟩ := G.find' hi (by rw [hg]; rfl)
          rw [hg] at hr
          cases hr
          obtain ⟨tab', htab', hd, _⟩ := rootDecl_enum hgen.decl
          rw [htab] at htab'
          cases htab'
          simp only [showAttr, displayAt, hf, hd, hs]
      · rw [hc]
        exact ⟨.named m, hc ▸ hmm, names, tab, vn, hg, htab, alookup_mem hs, rfl⟩

theorem setAttr_eq (c : Ctx) (n v : Str) :
    c.setAttr n v = ⟨c.virt, { c.inner with attrs := c.inner.attrs ++ [(n, v)] }⟩ := by
  obtain ⟨b, i⟩ := c
  cases b <;> rfl

/-- The attributes of an element. -/
theorem writeAttrs_ok (G : Generated x S P) (hx : x.NumLaws) (as : List Attribute) {ws : List AttrWrite}
    (hw : mapRes (attrWrite x S) as = .ok ws) (ha : as.all (attrOK S) = true)
    (hnd : (as.map (fun a => a.name.name)).Nodup) {fs gs : List (Str × Val)}
    (hfs : ∀ p ∈ gs, alookup fs p.1 = some p.2) (hval : VAttrs x S as gs) (c : Ctx) :
    ∃ B, writeAttrs x P fs ws c = .ok ⟨c.virt, { c.inner with attrs := c.inner.attrs ++ B }⟩ ∧
      (B.map Prod.fst).Sublist (as.map (fun a => a.name.name)) ∧ (∀ p ∈ B, PlainName p.1) ∧
      ∀ e : Elem, (∀ a ∈ as, attrOf e.1 a.name.name = alookup B a.name.name) → RAttrs x .written S as gs e := by
  induction as generalizing ws gs c with
  | nil =>
    cases hw
    exact ⟨[], by simp [writeAttrs], by simp, by simp, fun e _ => hval⟩
  | cons a as ih =>
    obtain ⟨w, ws', hw1, hw2, rfl⟩ := mapRes_cons_ok.1 hw
    obtain ⟨f, v, gs', rfl, hf, hvs, hv⟩ := hval
    simp only [List.all_cons, Bool.and_eq_true] at ha
    simp only [List.map_cons, List.nodup_cons] at hnd
    obtain ⟨hf', hnm, hopt, _⟩ := attrWrite_ok hw1
    obtain ⟨hxn, hplain, _⟩ := attrOK_ok ha.1
    rw [hf] at hf'
    have hf' := Res.ok.inj hf'
    subst hf'
    rw [hxn] at hnm
    have hnm := Res.ok.inj hnm
    have hlook := hfs (w.field, v) (by simp)
    have ih := fun c => ih hw2 ha.2 hnd.2 (fun p hp => hfs p (by simp [hp])) hvs c
    -- no attribute written
    have hnone : v = .none → a.isOptional = true → ∃ B,
        writeAttrs x P fs (w :: ws') c = .ok ⟨c.virt, { c.inner with attrs := c.inner.attrs ++ B }⟩ ∧
        (B.map Prod.fst).Sublist ((a :: as).map (fun a => a.name.name)) ∧ (∀ p ∈ B, PlainName p.1) ∧
        ∀ e : Elem, (∀ b ∈ a :: as, attrOf e.1 b.name.name = alookup B b.name.name) →
          RAttrs x .written S (a :: as) ((w.field, v) :: gs') e := by
      rintro rfl ho
      obtain ⟨B, h1, h2, h3, h4⟩ := ih c
      refine ⟨B, ?_, h2.trans (List.sublist_cons_self _ _), h3, ?_⟩
      · simp only [writeAttrs, writeAttr, hlook, hopt, ho, if_true, Res.bind_ok, h1]
      · intro e he
        refine ⟨w.field, _, gs', rfl, hf, h4 e (fun b hb => he b (by simp [hb])), ?_⟩
        rw [if_pos ho]
        refine .inl ⟨rfl, ?_⟩
        rw [he a (by simp), alookup_eq_none_iff]
        exact fun h => hnd.1 (h2.subset h)
    have hsome : ∀ u s, showAttr x P w.inner u = some s →
        writeAttr x P w fs c = .ok (c.setAttr w.name s) →
        ((∀ e : Elem, attrOf e.1 a.name.name = some s → if a.isOptional = true then
          (v = .none ∧ attrOf e.1 a.name.name = none) ∨
          (∃ s w, attrOf e.1 a.name.name = some s ∧ v = .some w ∧ RStr x .written S a.content s w)
          else ∃ s, attrOf e.1 a.name.name = some s ∧ RStr x .written S a.content s v)) → ∃ B,
        writeAttrs x P fs (w :: ws') c = .ok ⟨c.virt, { c.inner with attrs := c.inner.attrs ++ B }⟩ ∧
        (B.map Prod.fst).Sublist ((a :: as).map (fun a => a.name.name)) ∧ (∀ p ∈ B, PlainName p.1) ∧
        ∀ e : Elem, (∀ b ∈ a :: as, attrOf e.1 b.name.name = alookup B b.name.name) →
          RAttrs x .written S (a :: as) ((w.field, v) :: gs') e := by
      intro u s hs hwr hr
      rw [setAttr_eq] at hwr
      obtain ⟨B, h1, h2, h3, h4⟩ := ih ⟨c.virt, { c.inner with attrs := c.inner.attrs ++ [(w.name, s)] }⟩
      refine ⟨(w.name, s) :: B, ?_, ?_, ?_, ?_⟩
      · simp only [writeAttrs, hwr, Res.bind_ok, h1, List.append_assoc, List.singleton_append]
      · simp only [List.map_cons, ← hnm]
        exact h2.cons_cons _
      · intro p hp
        rcases List.mem_cons.1 hp with rfl | hp
        · rw [← hnm]; exact hplain
        · exact h3 p hp
      · intro e he
        refine ⟨w.field, _, gs', rfl, hf, h4 e (fun b hb => ?_), hr e ?_⟩
        · rw [he b (by simp [hb])]
          simp only [alookup]
          rw [if_neg]
          rw [← hnm]
          intro heq
          exact hnd.1 (heq ▸ List.mem_map.2 ⟨b, hb, rfl⟩)
        · rw [he a (by simp), ← hnm]; simp [alookup]
    cases ho : a.isOptional with
    | true =>
      rw [if_pos ho] at hv
      rcases hv with rfl | ⟨u, rfl, hu⟩
      · exact hnone rfl ho
      · obtain ⟨s, hs, hr⟩ := showAttr_ok G hx hw1 ha.1 hu
        refine hsome u s hs ?_ ?_
        · simp only [writeAttr, hlook, hopt, ho, if_true, hs]
        · intro e he
          rw [if_pos ho]
          exact .inr ⟨s, u, he, rfl, hr⟩
    | false =>
      rw [if_neg (by simp [ho])] at hv
      obtain ⟨s, hs, hr⟩ := showAttr_ok G hx hw1 ha.1 hv
      refine hsome v s hs ?_ ?_
      · simp only [writeAttr, hlook, hopt, ho, Bool.false_eq_true, if_false, hs]
      · intro e he
        rw [if_neg (by simp [ho])]
        exact ⟨s, he, hr⟩

end

/-! ## Definitions -/

theorem vleaves_fields {V : Name → Val → Prop} (ls : List Leaf) {gs : List (Str × Val)} (h : VLeaves x S V ls gs) :
    gs.map (fun p => (.ok p.1 : Res Str Str)) = ls.map (fun l => fieldIdent x l.name) := by
  induction ls generalizing gs with
  | nil => have h : gs = [] := h; subst h; rfl
  | cons l ls ih =>
    obtain ⟨f, v, gs', rfl, hf, _, hs⟩ := h
    simp [hf, ih hs]

theorem vattrs_fields (as : List Attribute) {gs : List (Str × Val)} (h : VAttrs x S as gs) :
    gs.map (fun p => (.ok p.1 : Res Str Str)) = as.map (fun a => fieldIdent x a.name) := by
  induction as generalizing gs with
  | nil => have h : gs = [] := h; subst h; rfl
  | cons l ls ih =>
    obtain ⟨f, v, gs', rfl, hf, hs, _⟩ := h
    simp [hf, ih hs]

/-- The fields of a value are found by their identifiers. -/
theorem fields_lookup {V : Name → Val → Prop} {d : ElementDef} {fc fa : List (Str × Val)}
    (hc : VContent x S V d.content fc) (ha : VAttrs x S d.attributes fa) (hn : (fieldIdents x d).Nodup) :
    ∀ p ∈ fc ++ fa, alookup (fc ++ fa) p.1 = some p.2 := by
  have h1 : (fc ++ fa).map (fun p => (.ok p.1 : Res Str Str)) = fieldIdents x d := by
    rw [List.map_append, vattrs_fields _ ha]
    unfold fieldIdents
    congr 1
    cases hd : d.content with
    | none => rw [hd] at hc; have hc : fc = [] := hc; subst hc; rfl
    | some ct =>
      rw [hd] at hc
      cases ct with
      | leaf n d => obtain ⟨f, v, rfl, hf, _⟩ := hc; simp [hf]
      | leaves ls => exact vleaves_fields _ hc
  have h2 : ((fc ++ fa).map Prod.fst).Nodup := by
    have : (fc ++ fa).map (fun p => (.ok p.1 : Res Str Str)) = ((fc ++ fa).map Prod.fst).map Res.ok := by
      rw [List.map_map]; rfl
    rw [← h1, this] at hn
    exact List.Pairwise.of_map _ (fun a b h e => h (by rw [e])) hn
  intro p hp
  exact alookup_of_mem h2 hp

theorem enum_shown {tab : List (Str × Str)} {vn : Str} (h : vn ∈ tab.map Prod.fst) :
    ∃ s, alookup tab vn = some s ∧ (vn, s) ∈ tab := by
  obtain ⟨s, hs⟩ := Option.isSome_iff_exists.1 ((alookup_isSome_iff tab vn).2 h)
  exact ⟨s, hs, alookup_mem hs⟩

theorem writeVal_named {cW : Str → Val → Ctx → WRes} {c : LeafContent} {vw : ValWrite}
    (hw : contentWrite x S c = .ok vw) {m : Name} (hm : Means S c (.named m)) :
    ∃ i, typeIdent x m = .ok i ∧ writeVal x cW vw = cW i := by
  rcases contentWrite_ok hw with ⟨t, h', _⟩ | ⟨s, h', _⟩ | ⟨n, i, h', hi, rfl⟩
  · cases h'.functional hm
  · cases h'.functional hm
  · cases h'.functional hm
    exact ⟨i, hi, rfl⟩

/-- Text between tags. -/
theorem withTags_text {c : Ctx} (hc : c.virt = false) {body : Ctx → WRes} {evs : List Ev}
    (h : body ⟨false, ⟨c.inner.name, [], []⟩⟩ = .ok (evs, ⟨false, ⟨c.inner.name, [], []⟩⟩)) :
    withTags true body c =
      .ok (.start c.inner.name c.inner.attrs c.inner.nss :: (evs ++ [.fin]), ⟨false, ⟨c.inner.name, [], []⟩⟩) := by
  obtain ⟨b, i⟩ := c
  subst hc
  simp only [withTags, if_true, Ctx.writeStart]
  rw [h]
  simp [Ctx.writeEnd]

/-- Content between tags. -/
theorem withTags_kept {c : Ctx} (hc : c.virt = false) {body : Ctx → WRes} {evs : List Ev} {c' : Ctx}
    (h : body ⟨false, ⟨c.inner.name, [], []⟩⟩ = .ok (evs, c')) (hk : c'.virt = false) :
    withTags true body c = .ok (.start c.inner.name c.inner.attrs c.inner.nss :: (evs ++ [.fin]), c') := by
  obtain ⟨b, i⟩ := c
  subst hc
  simp only [withTags, if_true, Ctx.writeStart]
  rw [h]
  simp [Ctx.writeEnd, hk]

/-- No tags in a virtual context. -/
theorem withTags_virt {c : Ctx} {tags : Bool} (hc : c.virt = true ∨ tags = false) {body : Ctx → WRes} {evs : List Ev}
    {c' : Ctx} (h : body c = .ok (evs, c')) (hk : c'.virt = c.virt) : withTags tags body c = .ok (evs, c') := by
  unfold withTags
  split
  · next ht =>
    obtain ⟨b, i⟩ := c
    rcases hc with rfl | rfl
    · simp only [Ctx.writeStart]
      rw [h]
      have hk : c'.virt = true := hk
      simp [Ctx.writeEnd, hk]
    · cases ht
  · exact h

section
variable {V : Name → Val → Prop} {T : Name → Val → Elem → List Elem → Prop} {cW : Str → Val → Ctx → WRes}

theorem rval_named {c : LeafContent} {m : Name} (hm : Means S c (.named m)) {v : Val} {e : Elem} {es : List Elem}
    (h : T m v e es) : RVal x .written S T c v e es := ⟨_, hm, h⟩

theorem vval_named {c : LeafContent} {m : Name} (hm : Means S c (.named m)) {v : Val} (h : VVal S V c v) : V m v := by
  obtain ⟨c', hm', h⟩ := h
  cases hm.functional hm'
  exact h

/-- Does the content name a type that is not a plain simple type? -/
theorem content_cases (c : LeafContent) (hc : contentOK S c = true) :
    (∃ n m, c = .named n ∧ Means S c (.named m) ∧ tagged S m = true ∧
      chainAttrs S W c = W.attrs m) ∨ ((∀ n, c ≠ .named n) ∧ (∀ n, ¬ Means S c (.named n)) ∧ chainAttrs S W c = []) := by
  cases c with
  | literal t => exact .inr ⟨by simp, fun n h => (by cases h), rfl⟩
  | fixed t => exact .inr ⟨by simp, fun n h => (by cases h), rfl⟩
  | named n =>
    left
    obtain ⟨m, hm⟩ := contentOK_means hc
    refine ⟨n, m, rfl, hm, contentOK_named hm hc, ?_⟩
    unfold contentOK at hc
    simp only at hc
    unfold chainAttrs
    simp only
    split at hc
    · next m' hm' => cases (inlined_means hm').functional hm; rfl
    · cases hc

theorem root_leaf_1 (hN : NsOk N) (hx : x.NumLaws) (h1 : Writes1 x S W N V T cW) {n : Name} {d : LeafDef} {t : TypeDef}
    (g : GenOf x S n (.leaf d) t) (hn : t.nss = N)
    (hok : rootOK x S W N n (.leaf d) = true) {v : Val} (hv : VRoot x S V (.leaf d) v) {c : Ctx} (hc : c.virt = false)
    (hd : ∀ a ∈ c.inner.attrs.map Prod.fst, a ∉ W.attrs n) (hcn : NssIn N c) :
    ∃ B mid ks c', runTo x P cW t v c = .ok (.start c.inner.name (c.inner.attrs ++ B) N :: (mid ++ [.fin]), c') ∧
      (B.map Prod.fst).Sublist (W.attrs n) ∧ (∀ p ∈ B, PlainName p.1) ∧ BuildsFresh N mid ks ∧
      ∀ info : ElemInfo, info.attrs = (c.inner.attrs ++ B).map (fun p => ⟨p.1, none, p.2, 0⟩) →
        RRoot x .written S T (.leaf d) v (info, ks) (elemKids ks) := by
  obtain ⟨w, rfl, hv⟩ := hv
  simp only [rootOK, Bool.and_eq_true, decide_eq_true_eq] at hok
  obtain ⟨_, ⟨hco, hat⟩, _⟩ := hok
  have hwr := g.write
  simp only [rootWrite, Res.bind_eq_ok] at hwr
  obtain ⟨vw, hvw, hwr⟩ := hwr
  obtain ⟨tags, ht1, ht2, hwr⟩ : ∃ tags, ((∃ n, d.content = .named n) → tags = false) ∧
      ((∀ n, d.content ≠ .named n) → tags = true) ∧ t.toXml = .leaf vw tags := by
    refine ⟨_, ?_, ?_, (Res.ok.inj hwr).symm⟩
    · rintro ⟨n, hn⟩; rw [hn]
    · intro hno
      split
      · next n' hn' => exact absurd hn' (hno n')
      · rfl
  unfold runTo
  rw [hn, setNss_in hN hcn, hwr]
  simp only
  rcases content_cases (W := W) d.content hco with ⟨n', m, hct, hm, ht, hch⟩ | ⟨hno, hnm, hch⟩
  · obtain ⟨i, hi, hwv⟩ := writeVal_named (cW := cW) hvw hm
    rw [ht1 ⟨n', hct⟩]
    simp only [withTags, Bool.false_eq_true, if_false, hwv]
    obtain ⟨B, mid, ks, c', e, hs, hp, hb, hT⟩ := h1 m i w ⟨c.virt, { c.inner with nss := N }⟩ (tagged_isSome ht) hi
      (vval_named hm hv) ht hc (by rw [hat, hch] at hd; exact hd) (.inr rfl)
    refine ⟨B, mid, ks, c', e, ?_, hp, hb, fun info hinfo => ⟨w, rfl, rval_named hm (hT info hinfo)⟩⟩
    rw [hat, hch]; exact hs
  · rw [ht2 hno]
    obtain ⟨evs, s, e, hb, hR⟩ := writeVal_text (T := T) (cW := cW) (N := N) hx hvw hnm hv
      ⟨false, ⟨c.inner.name, [], []⟩⟩
    refine ⟨[], evs, textKids s, ⟨false, ⟨c.inner.name, [], []⟩⟩, ?_, by simp, by simp, hb, fun info _ => ⟨w, rfl, ?_⟩⟩
    · rw [withTags_text (c := ⟨c.virt, { c.inner with nss := N }⟩) hc e]
      simp
    · rw [elemKids_text]; exact hR info

theorem root_enum_1 (hN : NsOk N) {n : Name} {names : List Name} {t : TypeDef}
    (g : GenOf x S n (.enum names) t) (hn : t.nss = N) {v : Val} (hv : VRoot x S V (.enum names) v) {c : Ctx}
    (hc : c.virt = false) (hcn : NssIn N c) :
    ∃ B mid ks c', runTo x P cW t v c = .ok (.start c.inner.name (c.inner.attrs ++ B) N :: (mid ++ [.fin]), c') ∧
      (B.map Prod.fst).Sublist (W.attrs n) ∧ (∀ p ∈ B, PlainName p.1) ∧ BuildsFresh N mid ks ∧
      ∀ info : ElemInfo, info.attrs = (c.inner.attrs ++ B).map (fun p => ⟨p.1, none, p.2, 0⟩) →
        RRoot x .written S T (.enum names) v (info, ks) (elemKids ks) := by
  obtain ⟨tab, vn, htab, hvn, rfl⟩ := hv
  have hwr : t.toXml = .enumText := (Res.ok.inj g.write).symm
  obtain ⟨tab', htab', hdecl, _⟩ := rootDecl_enum g.decl
  rw [htab] at htab'
  cases htab'
  obtain ⟨s, hs, hmem⟩ := enum_shown hvn
  unfold runTo
  rw [hn, setNss_in hN hcn, hwr, hdecl]
  simp only [hs]
  refine ⟨[], if s = [] then [] else [.chars s], textKids s, ⟨false, ⟨c.inner.name, [], []⟩⟩, ?_, by simp, by simp,
    .chars' N s, fun info _ => ?_⟩
  · rw [withTags_text (c := ⟨c.virt, { c.inner with nss := N }⟩) hc (evs := if s = [] then [] else [.chars s]) rfl]
    simp
  · exact ⟨tab, vn, s, htab, hmem, textIs_kids info s, rfl, by simp⟩

/-- The writer of an element definition up to its content. -/
theorem element_start (G : Generated x S P) (hx : x.NumLaws) {n : Name} {d : ElementDef}
    (hok : rootOK x S W N n (.element d) = true) {as : List AttrWrite}
    (hwa : mapRes (attrWrite x S) d.attributes = .ok as) {v : Val} (hv : VRoot x S V (.element d) v) (c : Ctx) :
    ∃ fc fa B, v = .struct (fc ++ fa) ∧ VContent x S V d.content fc ∧
      (∀ p ∈ fc, alookup (fc ++ fa) p.1 = some p.2) ∧
      writeAttrs x P (fc ++ fa) as c = .ok ⟨c.virt, { c.inner with attrs := c.inner.attrs ++ B }⟩ ∧
      (B.map Prod.fst).Sublist (d.attributes.map (fun a => a.name.name)) ∧ (∀ p ∈ B, PlainName p.1) ∧
      ∀ e : Elem, (∀ a ∈ d.attributes, attrOf e.1 a.name.name = alookup B a.name.name) →
        RAttrs x .written S d.attributes fa e := by
  obtain ⟨fc, fa, rfl, hvc, hva⟩ := hv
  simp only [rootOK, Bool.and_eq_true, decide_eq_true_eq] at hok
  obtain ⟨hnd, ⟨⟨hao, hfi⟩, hcont⟩, _⟩ := hok
  have hl := fields_lookup hvc hva hfi
  have hnames : (d.attributes.map (fun a => a.name.name)).Nodup := by
    split at hcont
    · rw [decide_eq_true_eq] at hcont; rw [hcont] at hnd; exact hnd
    · simp only [Bool.and_eq_true, decide_eq_true_eq] at hcont
      rw [hcont.2] at hnd; exact hnd.sublist (List.sublist_append_left _ _)
    · simp only [Bool.and_eq_true, decide_eq_true_eq] at hcont
      rw [hcont.2] at hnd; exact hnd
  obtain ⟨B, h1, h2, h3, h4⟩ := writeAttrs_ok G hx d.attributes hwa hao hnames (fs := fc ++ fa)
    (fun p hp => hl p (by simp [hp])) hva c
  exact ⟨fc, fa, B, rfl, hvc, fun p hp => hl p (by simp [hp]), h1, h2, h3, h4⟩

theorem own_attrs {A B C : List (Str × Str)} {i : ElemInfo}
    (hi : i.attrs = (A ++ (B ++ C)).map (fun p => ⟨p.1, none, p.2, 0⟩)) {names chain : List Str}
    (hA : ∀ a ∈ A.map Prod.fst, a ∉ names ++ chain) (hn : (names ++ chain).Nodup)
    (hC : (C.map Prod.fst).Sublist chain) {a : Str} (ha : a ∈ names) : attrOf i a = alookup B a := by
  rw [attrOf_resolve _ i hi, alookup_append, alookup_append]
  have h1 : alookup A a = none := (alookup_eq_none_iff _ _).2 (fun h => hA a h (by simp [ha]))
  have h2 : alookup C a = none := by
    rw [alookup_eq_none_iff]
    intro h
    exact (List.nodup_append.1 hn).2.2 a ha a (hC.subset h) rfl
  rw [h1, h2]; simp

/-- Content written between the tags of the element itself. -/
theorem content_own (hN : NsOk N) (hx : x.NumLaws) (hW : ∀ n, (S.get n).isSome = true → (W.attrs n).Nodup)
    (h1 : Writes1 x S W N V T cW) (h2 : Writes2 x S W N V T cW) {ct : Option ElementContent} {cw : ContentWrite}
    (hcw : elementContentWrite x S ct = .ok cw) (hnl : isNamedLeaf ct = false)
    (hls : ∀ ls, ct = some (.leaves ls) → ls.all (leafOK S W N) = true) {fs fc : List (Str × Val)}
    (hvc : VContent x S V ct fc) (hlk : ∀ p ∈ fc, alookup fs p.1 = some p.2) {c : Ctx} (hc : NssIn N c) :
    ∃ mid ks c', writeContent x cW fs cw c = .ok (mid, c') ∧ Kept N c c' ∧ BuildsFresh N mid ks ∧
      (∀ i : ElemInfo, RContent x .written S T ct fc (i, ks) (elemKids ks)) ∧
      ((∀ n d, ct ≠ some (.leaf n d)) → Builds N mid ks ∧ ∀ e, RContent x .written S T ct fc e (elemKids ks)) := by
  cases ct with
  | none =>
    cases hcw
    have hvc : fc = [] := hvc
    subst hvc
    exact ⟨[], [], c, rfl, .refl hc, (Builds.nil N).fresh, fun i => ⟨rfl, rfl⟩, fun _ => ⟨.nil N, fun e => ⟨rfl, rfl⟩⟩⟩
  | some ct =>
    cases ct with
    | leaf n d =>
      obtain ⟨f, v, rfl, hf, hv⟩ := hvc
      simp only [elementContentWrite, Res.bind_eq_ok] at hcw
      obtain ⟨f', hf', vw, hvw, hcw⟩ := hcw
      rw [hf] at hf'
      cases hf'
      have hcw := Res.ok.inj hcw
      subst hcw
      have hnm : ∀ m, ¬ Means S d.content (.named m) := by
        intro m hm
        cases hd : d.content with
        | named n => simp [isNamedLeaf, hd] at hnl
        | literal t => rw [hd] at hm; cases hm
        | fixed t => rw [hd] at hm; cases hm
      obtain ⟨evs, s, e, hb, hR⟩ := writeVal_text (T := T) (cW := cW) (N := N) hx hvw hnm hv c
      refine ⟨evs, textKids s, c, ?_, .refl hc, hb, fun i => ⟨f, v, rfl, hf, by rw [elemKids_text]; exact hR i⟩,
        fun h => absurd rfl (h n d)⟩
      simp only [writeContent, hlk (f, v) (by simp), e]
    | leaves ls =>
      simp only [elementContentWrite, Res.bind_eq_ok] at hcw
      obtain ⟨ws, hws, hcw⟩ := hcw
      have hcw := Res.ok.inj hcw
      subst hcw
      obtain ⟨evs, ks, c', e, hk, hb, hR⟩ := writeLeaves_ok hN hx hW h1 h2 ls hws (hls ls rfl) hlk hvc hc
      exact ⟨evs, ks, c', e, hk, hb.fresh, fun i => ⟨_, hR _, .inl rfl⟩, fun _ => ⟨hb, fun e => ⟨_, hR e, .inl rfl⟩⟩⟩

theorem root_element_1 (G : Generated x S P) (hN : NsOk N) (hx : x.NumLaws)
    (hW : ∀ n, (S.get n).isSome = true → (W.attrs n).Nodup) (h1 : Writes1 x S W N V T cW)
    (h2 : Writes2 x S W N V T cW) {n : Name} {d : ElementDef} {t : TypeDef}
    (g : GenOf x S n (.element d) t) (hn : t.nss = N)
    (hok : rootOK x S W N n (.element d) = true) (htag : d.isVirtual = false) {v : Val}
    (hv : VRoot x S V (.element d) v) {c : Ctx} (hc : c.virt = false)
    (hd : ∀ a ∈ c.inner.attrs.map Prod.fst, a ∉ W.attrs n) (hcn : NssIn N c) :
    ∃ B mid ks c', runTo x P cW t v c = .ok (.start c.inner.name (c.inner.attrs ++ B) N :: (mid ++ [.fin]), c') ∧
      (B.map Prod.fst).Sublist (W.attrs n) ∧ (∀ p ∈ B, PlainName p.1) ∧ BuildsFresh N mid ks ∧
      ∀ info : ElemInfo, info.attrs = (c.inner.attrs ++ B).map (fun p => ⟨p.1, none, p.2, 0⟩) →
        RRoot x .written S T (.element d) v (info, ks) (elemKids ks) := by
  have hwr := g.write
  simp only [rootWrite, Res.bind_eq_ok] at hwr
  obtain ⟨as, hwa, cw, hcw, hwr⟩ := hwr
  have hwr := Res.ok.inj hwr
  obtain ⟨fc, fa, B, rfl, hvc, hlk, hwB, hBs, hBp, hBr⟩ := element_start G hx hok hwa hv
    ⟨c.virt, { c.inner with nss := N }⟩
  simp only [rootOK, Bool.and_eq_true, decide_eq_true_eq] at hok
  obtain ⟨hnd, ⟨⟨hao, hfi⟩, hcont⟩, _⟩ := hok
  unfold runTo
  rw [hn, setNss_in hN hcn, ← hwr]
  simp only [hwB, Res.bind_ok, htag, Bool.not_false, Bool.true_and]
  have hchain : ∃ chain, W.attrs n = d.attributes.map (fun a => a.name.name) ++ chain ∧
      (∀ ls, d.content = some (.leaves ls) → ls.all (leafOK S W N) = true) ∧
      (∀ ln ld, d.content = some (.leaf ln ld) → contentOK S ld.content = true ∧ chain = chainAttrs S W ld.content) := by
    cases hct : d.content with
    | none => rw [hct] at hcont; exact ⟨[], by simpa using hcont, by simp, by simp⟩
    | some ct =>
      rw [hct] at hcont
      cases ct with
      | leaf ln ld =>
        simp only [Bool.and_eq_true, decide_eq_true_eq] at hcont
        exact ⟨_, hcont.2, by simp, by rintro _ _ h; cases h; exact ⟨hcont.1, rfl⟩⟩
      | leaves ls =>
        simp only [Bool.and_eq_true, decide_eq_true_eq] at hcont
        exact ⟨[], by simpa using hcont.2, by rintro _ h; cases h; exact hcont.1, by simp⟩
  obtain ⟨chain, hat, hls, hle⟩ := hchain
  cases hnl : isNamedLeaf d.content with
  | false =>
    obtain ⟨mid, ks, c', e, hk, hb, hR, _⟩ := content_own (c := ⟨false, ⟨c.inner.name, [], []⟩⟩) hN hx hW h1 h2 hcw hnl
      hls hvc hlk (.inl rfl)
    refine ⟨B, mid, ks, c', ?_, ?_, hBp, hb, ?_⟩
    · rw [Bool.not_false]
      rw [withTags_kept (c := ⟨c.virt, { c.inner with nss := N, attrs := c.inner.attrs ++ B }⟩) hc e hk.1]
    · rw [hat]; exact hBs.trans (List.sublist_append_left _ _)
    · intro info hi
      refine ⟨fc, fa, rfl, hR info, hBr _ ?_⟩
      intro a ha
      exact own_attrs (A := c.inner.attrs) (B := B) (C := []) (by simpa using hi)
        (names := d.attributes.map (fun a => a.name.name)) (chain := chain) (by rw [hat] at hd; exact hd)
        (by rw [hat] at hnd; exact hnd) (by simp) (List.mem_map.2 ⟨a, ha, rfl⟩)
  | true =>
    cases hct : d.content with
    | none => rw [hct] at hnl; cases hnl
    | some ct =>
      rw [hct] at hnl hvc hcw
      cases ct with
      | leaves ls => cases hnl
      | leaf ln ld =>
        obtain ⟨hco, rfl⟩ := hle ln ld hct
        rcases content_cases (W := W) ld.content hco with ⟨n', m, hct', hm, ht, hch⟩ | ⟨hno, _, _⟩
        · obtain ⟨f, v, rfl, hf, hv⟩ := hvc
          simp only [elementContentWrite, Res.bind_eq_ok] at hcw
          obtain ⟨f', hf', vw, hvw, hcw⟩ := hcw
          rw [hf] at hf'
          cases hf'
          have hcw := Res.ok.inj hcw
          subst hcw
          obtain ⟨i, hi, hwv⟩ := writeVal_named (cW := cW) hvw hm
          rw [hch] at hat
          obtain ⟨B2, mid, ks, c', e, hs, hp, hb, hT⟩ := h1 m i v
            ⟨c.virt, { c.inner with nss := N, attrs := c.inner.attrs ++ B }⟩ (tagged_isSome ht) hi (vval_named hm hv) ht hc
            (by
              intro a ha hma
              simp only [List.map_append, List.mem_append] at ha
              rcases ha with ha | ha
              · exact hd a ha (by rw [hat]; simp [hma])
              · rw [hat] at hnd
                exact (List.nodup_append.1 hnd).2.2 a (hBs.subset ha) a hma rfl)
            (.inr rfl)
          refine ⟨B ++ B2, mid, ks, c', ?_, ?_, ?_, hb, ?_⟩
          · simp only [Bool.not_true, withTags, Bool.false_eq_true, if_false, writeContent, hlk (f, v) (by simp), hwv, e]
            simp
          · rw [hat, List.map_append]; exact hBs.append hs
          · intro p hp'
            rcases List.mem_append.1 hp' with h | h
            · exact hBp p h
            · exact hp p h
          · intro info hi
            refine ⟨_, fa, rfl, ?_, hBr _ ?_⟩
            · rw [hct]
              exact ⟨f, v, rfl, hf, rval_named hm (hT info (by simpa using hi))⟩
            · intro a ha
              exact own_attrs (A := c.inner.attrs) (B := B) (C := B2) (by simpa using hi)
                (names := d.attributes.map (fun a => a.name.name)) (chain := W.attrs m) (by rw [hat] at hd; exact hd)
                (by rw [hat] at hnd; exact hnd) hs (List.mem_map.2 ⟨a, ha, rfl⟩)
        · cases hd' : ld.content with
          | named n => exact absurd hd' (hno n)
          | literal _ => simp [isNamedLeaf, hd'] at hnl
          | fixed _ => simp [isNamedLeaf, hd'] at hnl

theorem root_choice_1 (hN : NsOk N) (hx : x.NumLaws)
    (hW : ∀ n, (S.get n).isSome = true → (W.attrs n).Nodup) (h1 : Writes1 x S W N V T cW)
    (h2 : Writes2 x S W N V T cW) {n : Name} {vs : List Leaf} {dd : Option Str} {t : TypeDef}
    (g : GenOf x S n (.choice vs false dd) t) (hn : t.nss = N)
    (hok : rootOK x S W N n (.choice vs false dd) = true) {v : Val}
    (hv : VRoot x S V (.choice vs false dd) v) {c : Ctx} (hc : c.virt = false) (hcn : NssIn N c) :
    ∃ B mid ks c', runTo x P cW t v c = .ok (.start c.inner.name (c.inner.attrs ++ B) N :: (mid ++ [.fin]), c') ∧
      (B.map Prod.fst).Sublist (W.attrs n) ∧ (∀ p ∈ B, PlainName p.1) ∧ BuildsFresh N mid ks ∧
      ∀ info : ElemInfo, info.attrs = (c.inner.attrs ++ B).map (fun p => ⟨p.1, none, p.2, 0⟩) →
        RRoot x .written S T (.choice vs false dd) v (info, ks) (elemKids ks) := by
  obtain ⟨l, hl, i, w, hi, rfl, hw⟩ := hv
  have hwr := g.write
  simp only [rootWrite, Res.bind_eq_ok] at hwr
  obtain ⟨ws, hws, hwr⟩ := hwr
  have hwr := Res.ok.inj hwr
  simp only [rootOK, Bool.and_eq_true, decide_eq_true_eq] at hok
  obtain ⟨_, ⟨hall, hnd⟩, _⟩ := hok
  unfold runTo
  rw [hn, setNss_in hN hcn, ← hwr]
  simp only [Bool.not_false]
  obtain ⟨evs, ks, c', e, hk, hb, hR⟩ := writeChoice_ok (c := ⟨false, ⟨c.inner.name, [], []⟩⟩) hN hx hW h1 h2 hws hall
    hnd hl hi hw (.inl rfl)
  refine ⟨[], evs, ks, c', ?_, by simp, by simp, hb.fresh, fun info _ => ⟨l, hl, i, w, hi, rfl, hR _⟩⟩
  rw [withTags_kept (c := ⟨c.virt, { c.inner with nss := N }⟩) hc e hk.1]
  simp

theorem root_choice_2 (hN : NsOk N) (hx : x.NumLaws)
    (hW : ∀ n, (S.get n).isSome = true → (W.attrs n).Nodup) (h1 : Writes1 x S W N V T cW)
    (h2 : Writes2 x S W N V T cW) {n : Name} {vs : List Leaf} {b : Bool} {dd : Option Str} {t : TypeDef}
    (g : GenOf x S n (.choice vs b dd) t) (hn : t.nss = N)
    (hok : rootOK x S W N n (.choice vs b dd) = true) {v : Val}
    (hv : VRoot x S V (.choice vs b dd) v) {c : Ctx} (hc : c.virt = true ∨ b = true) (hcn : NssIn N c) :
    ∃ evs ks c', runTo x P cW t v c = .ok (evs, c') ∧ Kept N c c' ∧ Builds N evs ks ∧
      ∀ e, RRoot x .written S T (.choice vs b dd) v e (elemKids ks) := by
  obtain ⟨l, hl, i, w, hi, rfl, hw⟩ := hv
  have hwr := g.write
  simp only [rootWrite, Res.bind_eq_ok] at hwr
  obtain ⟨ws, hws, hwr⟩ := hwr
  have hwr := Res.ok.inj hwr
  simp only [rootOK, Bool.and_eq_true, decide_eq_true_eq] at hok
  obtain ⟨_, ⟨hall, hnd⟩, _⟩ := hok
  unfold runTo
  rw [hn, setNss_in hN hcn, ← hwr]
  simp only
  obtain ⟨evs, ks, c', e, hk, hb, hR⟩ := writeChoice_ok (c := ⟨c.virt, { c.inner with nss := N }⟩) hN hx hW h1 h2 hws hall
    hnd hl hi hw (.inr rfl)
  refine ⟨evs, ks, c', ?_, ⟨hk.1, hk.2.1, hk.2.2.1, hk.2.2.2⟩, hb, fun e => ⟨l, hl, i, w, hi, rfl, hR e⟩⟩
  exact withTags_virt (by rcases hc with h | h; exact .inl h; exact .inr (by simp [h])) e hk.1

theorem root_element_2 (G : Generated x S P) (hN : NsOk N) (hx : x.NumLaws)
    (hW : ∀ n, (S.get n).isSome = true → (W.attrs n).Nodup) (h1 : Writes1 x S W N V T cW)
    (h2 : Writes2 x S W N V T cW) {n : Name} {d : ElementDef} {t : TypeDef}
    (g : GenOf x S n (.element d) t) (hn : t.nss = N) (hseg : W.seg n = true)
    (hok : rootOK x S W N n (.element d) = true) {v : Val}
    (hv : VRoot x S V (.element d) v) {c : Ctx} (hc : c.virt = true ∨ d.isVirtual = true) (hcn : NssIn N c) :
    ∃ evs ks c', runTo x P cW t v c = .ok (evs, c') ∧ Kept N c c' ∧ Builds N evs ks ∧
      ∀ e, RRoot x .written S T (.element d) v e (elemKids ks) := by
  have hwr := g.write
  simp only [rootWrite, Res.bind_eq_ok] at hwr
  obtain ⟨as, hwa, cw, hcw, hwr⟩ := hwr
  have hwr := Res.ok.inj hwr
  obtain ⟨fc, fa, B, rfl, hvc, hlk, hwB, hBs, hBp, hBr⟩ := element_start G hx hok hwa hv
    ⟨c.virt, { c.inner with nss := N }⟩
  simp only [rootOK, Bool.and_eq_true, decide_eq_true_eq, hseg, Bool.not_true, Bool.false_or] at hok
  obtain ⟨hnd, ⟨⟨hao, hfi⟩, hcont⟩, hempty, hsc⟩ := hok
  have hno : d.attributes = [] := List.isEmpty_iff.1 hempty
  have hB : B = [] := by
    rw [hno] at hBs
    simpa using hBs
  subst hB
  simp only [List.append_nil] at hwB
  have hra : ∀ e, RAttrs x .written S d.attributes fa e := fun e => hBr e (by rw [hno]; simp)
  unfold runTo
  rw [hn, setNss_in hN hcn, ← hwr]
  simp only [hwB, Res.bind_ok]
  have key : ∃ evs ks c', writeContent x cW (fc ++ fa) cw ⟨c.virt, { c.inner with nss := N }⟩ = .ok (evs, c') ∧
      Kept N ⟨c.virt, { c.inner with nss := N }⟩ c' ∧ Builds N evs ks ∧
      ∀ e, RContent x .written S T d.content fc e (elemKids ks) := by
    cases hct : d.content with
    | none =>
      rw [hct] at hcw hvc
      obtain ⟨mid, ks, c', e, hk, _, _, hb⟩ := content_own (c := ⟨c.virt, { c.inner with nss := N }⟩) hN hx hW h1 h2 hcw rfl
        (by simp) hvc hlk (.inr rfl)
      exact ⟨mid, ks, c', e, hk, (hb (by simp)).1, (hb (by simp)).2⟩
    | some ct =>
      rw [hct] at hcw hvc hcont
      cases ct with
      | leaves ls =>
        simp only [Bool.and_eq_true, decide_eq_true_eq] at hcont
        obtain ⟨mid, ks, c', e, hk, _, _, hb⟩ := content_own (c := ⟨c.virt, { c.inner with nss := N }⟩) hN hx hW h1 h2 hcw rfl
          (by intro ls h; cases h; exact hcont.1) hvc hlk (.inr rfl)
        exact ⟨mid, ks, c', e, hk, (hb (by simp)).1, (hb (by simp)).2⟩
      | leaf ln ld =>
        unfold segContentOK at hsc
        rw [hct] at hsc
        simp only [Bool.and_eq_true, Bool.not_eq_true'] at hsc
        obtain ⟨hvirt, hsc⟩ := hsc
        have hcv : c.virt = true := by
          rcases hc with h | h
          · exact h
          · rw [hvirt] at h; cases h
        split at hsc
        · next n' hn' =>
          split at hsc
          · next m hm =>
            have hm := inlined_means hm
            simp only [Bool.and_eq_true] at hsc
            obtain ⟨f, v, rfl, hf, hv⟩ := hvc
            simp only [elementContentWrite, Res.bind_eq_ok] at hcw
            obtain ⟨f', hf', vw, hvw, hcw⟩ := hcw
            rw [hf] at hf'
            cases hf'
            have hcw := Res.ok.inj hcw
            subst hcw
            obtain ⟨i, hi, hwv⟩ := writeVal_named (cW := cW) hvw hm
            obtain ⟨evs, ks, c', e, hk, hb, hT⟩ := h2 m i v ⟨c.virt, { c.inner with nss := N }⟩ (isGroup_isSome hsc.1) hi
              (vval_named hm hv) hsc.2 (.inl hcv) (.inr rfl)
            refine ⟨evs, ks, c', ?_, hk, hb, fun e => ⟨f, v, rfl, hf, rval_named hm (hT e)⟩⟩
            simp only [writeContent, hlk (f, v) (by simp), hwv, e]
          · cases hsc
        · cases hsc
  obtain ⟨evs, ks, c', e, hk, hb, hR⟩ := key
  refine ⟨evs, ks, c', ?_, ⟨hk.1, hk.2.1, hk.2.2.1, hk.2.2.2⟩, hb, fun e => ⟨fc, fa, rfl, hR e, hra e⟩⟩
  exact withTags_virt (by rcases hc with h | h; exact .inl h; exact .inr (by simp [h])) e hk.1

end

/-- The conditions on the schema, unfolded. -/
theorem writeOK_ok (h : writeOK x S W = true) : ∃ N, schemaNss S = .ok N ∧ NsOk N ∧
    ∀ n r, S.get n = some r → rootOK x S W N n r = true := by
  unfold writeOK at h
  split at h
  · next N hN =>
    simp only [Bool.and_eq_true, nssOK, decide_eq_true_eq] at h
    refine ⟨N, hN, ⟨h.1.1, ?_⟩, fun n r hr => List.all_eq_true.1 h.2 (n, r) (alookup_mem hr)⟩
    intro b hb
    simpa using List.all_eq_true.1 h.1.2 b hb
  · cases h

theorem rootOK_nodup {n : Name} {r : Root} (h : rootOK x S W N n r = true) : (W.attrs n).Nodup := by
  unfold rootOK at h
  rw [Bool.and_eq_true] at h
  simpa using h.1

/-- Generated writers write values as documents that represent them. -/
theorem toXmlWriter_ok (G : Generated x S P) (hx : x.NumLaws) (hN : schemaNss S = .ok N) (hNs : NsOk N)
    (hroot : ∀ n r, S.get n = some r → rootOK x S W N n r = true) (k : Nat) :
    Writes1 x S W N (TV x S k) (TRepr x .written S k) (toXmlWriter x P k) ∧
    Writes2 x S W N (TV x S k) (TRepr x .written S k) (toXmlWriter x P k) := by
  have hW : ∀ n, (S.get n).isSome = true → (W.attrs n).Nodup := by
    intro n hn
    obtain ⟨r, hr⟩ := Option.isSome_iff_exists.1 hn
    exact rootOK_nodup (hroot n r hr)
  induction k with
  | zero => exact ⟨fun n i v c _ _ h => absurd h (by simp [TV]), fun n i v c _ _ h => absurd h (by simp [TV])⟩
  | succ k ih =>
    obtain ⟨ih1, ih2⟩ := ih
    constructor
    · intro n i v c hn hi hv ht hc hd hcn
      obtain ⟨r, t, hr, hf, rfl, g⟩ := G.find' hi hn
      obtain ⟨r', hr', hv⟩ := hv
      rw [hr] at hr'
      cases hr'
      have hns : t.nss = N := by
        have := g.nss
        rw [hN] at this
        exact (Res.ok.inj this).symm
      have hok := hroot n r hr
      have hvirt : r.isVirtual = false := by
        unfold tagged at ht
        rw [hr] at ht
        simpa using ht
      simp only [toXmlWriter, hf]
      have : ∃ B mid ks c', runTo x P (toXmlWriter x P k) t v c =
            .ok (.start c.inner.name (c.inner.attrs ++ B) N :: (mid ++ [.fin]), c') ∧
          (B.map Prod.fst).Sublist (W.attrs n) ∧ (∀ p ∈ B, PlainName p.1) ∧ BuildsFresh N mid ks ∧
          ∀ info : ElemInfo, info.attrs = (c.inner.attrs ++ B).map (fun p => ⟨p.1, none, p.2, 0⟩) →
            RRoot x .written S (TRepr x .written S k) r v (info, ks) (elemKids ks) := by
        cases r with
        | leaf d => exact root_leaf_1 hNs hx ih1 g hns hok hv hc hd hcn
        | enum names => exact root_enum_1 hNs g hns hv hc hcn
        | element d => exact root_element_1 G hNs hx hW ih1 ih2 g hns hok hvirt hv hc hd hcn
        | choice vs b dd =>
          have hb : b = false := hvirt
          subst hb
          exact root_choice_1 hNs hx hW ih1 ih2 g hns hok hv hc hcn
      obtain ⟨B, mid, ks, c', h1, h2, h3, h4, h5⟩ := this
      exact ⟨B, mid, ks, c', h1, h2, h3, h4, fun info hinfo => ⟨r, hr, h5 info hinfo⟩⟩
    · intro n i v c hn hi hv hseg hc hcn
      obtain ⟨r, t, hr, hf, rfl, g⟩ := G.find' hi hn
      obtain ⟨r', hr', hv⟩ := hv
      rw [hr] at hr'
      cases hr'
      have hns : t.nss = N := by
        have := g.nss
        rw [hN] at this
        exact (Res.ok.inj this).symm
      have hok := hroot n r hr
      have hc' : c.virt = true ∨ r.isVirtual = true := by
        rcases hc with h | h
        · exact .inl h
        · right
          unfold tagged at h
          rw [hr] at h
          simpa using h
      simp only [toXmlWriter, hf]
      have : ∃ evs ks c', runTo x P (toXmlWriter x P k) t v c = .ok (evs, c') ∧ Kept N c c' ∧ Builds N evs ks ∧
          ∀ e, RRoot x .written S (TRepr x .written S k) r v e (elemKids ks) := by
        cases r with
        | leaf d => simp [rootOK, hseg] at hok
        | enum names => simp [rootOK, hseg] at hok
        | element d => exact root_element_2 G hNs hx hW ih1 ih2 g hns hseg hok hv hc' hcn
        | choice vs b dd => exact root_choice_2 hNs hx hW ih1 ih2 g hns hok hv hc' hcn
      obtain ⟨evs, ks, c', h1, h2, h3, h4⟩ := this
      exact ⟨evs, ks, c', h1, h2, h3, fun e => ⟨r, hr, h4 e⟩⟩

/-- `to_xml` on a type that writes an element. -/
theorem toXml_ok (G : Generated x S P) (hx : x.NumLaws) (hok : writeOK x S W = true) {n : Name} {i : Str} {q : QName}
    (hi : typeIdent x n = .ok i) (hn : tagged S n = true)
    (hname : ∀ N nm, schemaNss S = .ok N → S.xmlName n = .ok nm → resolveName N nm = some q) {k : Nat} {v : Val}
    (hv : TV x S k n v) :
    ∃ evs e, toXml x P k i v = .ok evs ∧ (∃ nm as ns mid, evs = .start nm as ns :: (mid ++ [.fin])) ∧
      buildDoc evs = some e ∧ e.1.name = q ∧ TRepr x .written S k n v e (elemKids e.2) := by
  obtain ⟨N, hN, hNs, hroot⟩ := writeOK_ok hok
  obtain ⟨h1, _⟩ := toXmlWriter_ok G hx hN hNs hroot k
  obtain ⟨r, t, hr, hf, rfl, g⟩ := G.find' hi (tagged_isSome hn)
  obtain ⟨B, mid, ks, c', e, hs, hp, hb, hT⟩ := h1 n _ v (Ctx.new t.xmlName) (tagged_isSome hn) hi hv hn rfl
    (by simp [Ctx.new]) (.inl rfl)
  have hr' := hname N t.xmlName hN g.xmlName
  refine ⟨.start t.xmlName B N :: (mid ++ [.fin]), (⟨q, B.map (fun p => ⟨p.1, none, p.2, 0⟩), [], 0⟩, ks), ?_, ?_⟩
  · simp only [toXml, hf, e]; rfl
  · refine ⟨⟨_, _, _, _, rfl⟩, buildDoc_element hNs hr' hp (hs.nodup (rootOK_nodup (hroot n r hr))) hb, rfl, ?_⟩
    exact hT _ rfl

end Xsd
