import Verif.Spec.CleanText
import Verif.Lemmas.XmlEmit
/-!
# Clean values are written as expressible events
-/
namespace Xsd
namespace XmlText

variable {x : Ext} {P : List TypeDef} {p : Char → Prop} (hp : ∀ c, CleanChar c → p c)

/-- All characters of a string satisfy `p`. -/
def StrAll (p : Char → Prop) (s : Str) : Prop := ∀ c ∈ s, p c

/-- All characters that come from a value satisfy `p`; what comes from the code is clean. -/
def EvAll (p : Char → Prop) : Ev → Prop
  | .start _ as nss => (∀ a ∈ as, StrAll p a.2) ∧ ∀ b ∈ nss, CleanStr b.2
  | .fin => True
  | .chars s => StrAll p s

/-- An event with names of XML. -/
def Good (p : Char → Prop) (ev : Ev) : Prop := WellNamed ev ∧ EvAll p ev

include hp in
theorem cleanStr_all {s : Str} (h : CleanStr s) : StrAll p s := fun c hc => hp c (h c hc)

/-- What a context has in store for its start tag. -/
structure CtxOK (p : Char → Prop) (c : Ctx) : Prop where
  name : isQName c.inner.name = true
  attrs : ∀ a ∈ c.inner.attrs, isQName a.1 = true ∧ StrAll p a.2
  nodup : (c.inner.nss.map Prod.fst).Nodup
  nss : ∀ b ∈ c.inner.nss, CleanBinding b ∧ CleanStr b.2

/-- A writer's result. -/
def WOK (p : Char → Prop) (r : WRes) : Prop := ∀ evs c, r = .ok (evs, c) → (∀ ev ∈ evs, Good p ev) ∧ CtxOK p c

theorem CtxOK.good {c : Ctx} (h : CtxOK p c) : Good p (.start c.inner.name c.inner.attrs c.inner.nss) :=
  ⟨⟨h.name, fun a ha => (h.attrs a ha).1, h.nodup, fun b hb => (h.nss b hb).1⟩,
    fun a ha => (h.attrs a ha).2, fun b hb => (h.nss b hb).2⟩

theorem CtxOK.new {n : Str} (h : isQName n = true) : CtxOK p (Ctx.new n) :=
  ⟨h, by simp [Ctx.new], by simp [Ctx.new], by simp [Ctx.new]⟩

theorem CtxOK.wrap {c : Ctx} (h : CtxOK p c) : CtxOK p c.wrap := ⟨h.name, h.attrs, h.nodup, h.nss⟩

theorem CtxOK.endBorrow {c d : Ctx} (h : CtxOK p d) : CtxOK p (c.endBorrow d) := ⟨h.name, h.attrs, h.nodup, h.nss⟩

theorem CtxOK.writeStart {c : Ctx} (h : CtxOK p c) : (∀ ev ∈ c.writeStart.1, Good p ev) ∧ CtxOK p c.writeStart.2 := by
  unfold Ctx.writeStart
  split
  · exact ⟨by simp, h⟩
  · refine ⟨?_, ⟨h.name, by simp, by simp, by simp⟩⟩
    intro ev he
    rw [List.mem_singleton.1 he]; exact h.good

theorem writeEnd_good {c : Ctx} : ∀ ev ∈ c.writeEnd, Good p ev := by
  unfold Ctx.writeEnd
  split
  · simp
  · intro ev he
    rw [List.mem_singleton.1 he]; exact ⟨trivial, trivial⟩

theorem CtxOK.setAttr {c : Ctx} (h : CtxOK p c) {n s : Str} (hn : isQName n = true) (hs : StrAll p s) : CtxOK p (c.setAttr n s) := by
  have : ∀ a ∈ c.inner.attrs ++ [(n, s)], isQName a.1 = true ∧ StrAll p a.2 := by
    intro a ha
    rcases List.mem_append.1 ha with ha | ha
    · exact h.attrs a ha
    · rw [List.mem_singleton.1 ha]; exact ⟨hn, hs⟩
  unfold Ctx.setAttr
  split <;> exact ⟨h.name, this, h.nodup, h.nss⟩

theorem nsPut_ok {m : List (Str × Str)} (hn : (m.map Prod.fst).Nodup) (hm : ∀ b ∈ m, CleanBinding b ∧ CleanStr b.2) {p u : Str}
    (hb : CleanBinding (p, u) ∧ CleanStr u) : ((nsPut m p u).map Prod.fst).Nodup ∧ ∀ b ∈ nsPut m p u, CleanBinding b ∧ CleanStr b.2 := by
  unfold nsPut
  split
  · exact ⟨hn, hm⟩
  · next hs =>
    have hs : p ∉ m.map Prod.fst := fun e => hs ((alookup_isSome_iff m p).2 e)
    refine ⟨?_, fun b hb' => ?_⟩
    · rw [List.map_append, List.nodup_append]
      refine ⟨hn, by simp, fun a ha b hb e => ?_⟩
      simp only [List.map_cons, List.map_nil, List.mem_singleton] at hb
      subst e; subst hb; exact hs ha
    · rcases List.mem_append.1 hb' with hb' | hb'
      · exact hm b hb'
      · rw [List.mem_singleton.1 hb']; exact hb

theorem CtxOK.setNs {c : Ctx} (h : CtxOK p c) {n u : Str} (hb : CleanBinding (n, u) ∧ CleanStr u) : CtxOK p (c.setNs n u) := by
  obtain ⟨h1, h2⟩ := nsPut_ok h.nodup h.nss hb
  unfold Ctx.setNs
  split <;> exact ⟨h.name, h.attrs, h1, h2⟩

theorem CtxOK.setDefaultNs {c : Ctx} (h : CtxOK p c) {u : Str} (hb : CleanBinding ([], u) ∧ CleanStr u) : CtxOK p (c.setDefaultNs u) := by
  obtain ⟨h1, h2⟩ := nsPut_ok h.nodup h.nss hb
  unfold Ctx.setDefaultNs
  split <;> exact ⟨h.name, h.attrs, h1, h2⟩

theorem CtxOK.setNss {nss : List (Str × Str)} (hb : ∀ b ∈ nss, CleanBinding b ∧ CleanStr b.2) {c : Ctx} (h : CtxOK p c) : CtxOK p (setNss nss c) := by
  unfold Xsd.setNss
  induction nss generalizing c with
  | nil => exact h
  | cons b nss ih =>
    rw [List.foldl_cons]
    refine ih (fun b hm => hb b (by simp [hm])) ?_
    obtain ⟨h1, h2⟩ := hb b (by simp)
    obtain ⟨n, u⟩ := b
    split
    · next e => simp only at e; subst e; exact h.setDefaultNs ⟨h1, h2⟩
    · exact h.setNs ⟨h1, h2⟩

/-! ## Printed literals -/

theorem digit_clean {n : Nat} (h : n < 10) : isXmlChar (Char.ofNat (48 + n)) = true ∧ Char.ofNat (48 + n) ≠ '\t' ∧ Char.ofNat (48 + n) ≠ '\r' := by
  have : ∀ m : Fin 10, isXmlChar (Char.ofNat (48 + m.1)) = true ∧ Char.ofNat (48 + m.1) ≠ '\t' ∧ Char.ofNat (48 + m.1) ≠ '\r' := by decide
  exact this ⟨n, h⟩

theorem chars_good {s : Str} (h : StrAll p s) : ∀ ev ∈ (if s = [] then ([] : List Ev) else [.chars s]), Good p ev := by
  split
  · simp
  · intro ev he
    rw [List.mem_singleton.1 he]
    exact ⟨trivial, h⟩

theorem showDigits_clean (f n : Nat) : CleanStr (showDigits f n) := by
  induction f generalizing n with
  | zero => intro c hc; simp [showDigits] at hc
  | succ f ih =>
    intro c hc
    unfold showDigits at hc
    split at hc
    · next h => rw [List.mem_singleton.1 hc]; exact digit_clean h
    · rcases List.mem_append.1 hc with hc | hc
      · exact ih _ c hc
      · rw [List.mem_singleton.1 hc]; exact digit_clean (Nat.mod_lt _ (by decide))

theorem showInt_clean (i : Int) : CleanStr (showInt i) := by
  unfold showInt
  split
  · intro c hc
    rcases List.mem_cons.1 hc with hc | hc
    · subst hc; unfold CleanChar; decide
    · exact showDigits_clean _ _ c hc
  · exact showDigits_clean _ _

include hp in
theorem showPrim_clean (hx : CleanNumbers x) {t : Prim} {v : Val} (hv : ValAll p v) {s : Str} (h : showPrim x t v = some s) : StrAll p s := by
  unfold showPrim at h
  split at h <;> first | (injection h with h; subst h) | exact absurd h nofun
  · cases hv with | str h => exact h
  · exact cleanStr_all hp (by unfold CleanStr CleanChar; decide)
  · exact cleanStr_all hp (by unfold CleanStr CleanChar; decide)
  · exact cleanStr_all hp (showInt_clean _)
  · exact cleanStr_all hp (showInt_clean _)
  · exact cleanStr_all hp (showInt_clean _)
  · exact cleanStr_all hp (hx.1 _)
  · exact cleanStr_all hp (hx.2 _)

/-! ## The generated code -/

theorem wok_bind {r : WRes} {f : List Ev × Ctx → WRes} (hr : WOK p r)
    (hf : ∀ q, (∀ ev ∈ q.1, Good p ev) → CtxOK p q.2 → WOK p (f q)) : WOK p (r >>= f) := by
  intro evs c h
  cases hr' : r with
  | ok q =>
    obtain ⟨h1, h2⟩ := hr q.1 q.2 hr'
    rw [hr'] at h
    exact hf q h1 h2 evs c h
  | err e => rw [hr'] at h; exact absurd h nofun
  | panic => rw [hr'] at h; exact absurd h nofun
  | diverge => rw [hr'] at h; exact absurd h nofun

theorem wok_ok {evs : List Ev} {c : Ctx} (h : ∀ ev ∈ evs, Good p ev) (hc : CtxOK p c) : WOK p (.ok (evs, c)) := by
  intro evs' c' e
  injection e with e; injection e with e1 e2
  subst e1; subst e2; exact ⟨h, hc⟩

theorem wok_panic : WOK p .panic := fun _ _ h => absurd h nofun

theorem good_append {a b : List Ev} (ha : ∀ ev ∈ a, Good p ev) (hb : ∀ ev ∈ b, Good p ev) : ∀ ev ∈ a ++ b, Good p ev := by
  intro ev h
  rcases List.mem_append.1 h with h | h
  · exact ha ev h
  · exact hb ev h

section
variable (hx : CleanNumbers x) (hP : CleanCode P)
variable {callW : Str → Val → Ctx → WRes} (hcall : ∀ i v c, ValAll p v → CtxOK p c → WOK p (callW i v c))

include hp hx hcall

theorem writeVal_ok {w : ValWrite} (hw : CleanValWrite w) {v : Val} (hv : ValAll p v) {c : Ctx} (hc : CtxOK p c) : WOK p (writeVal x callW w v c) := by
  unfold writeVal
  split
  · split
    · next h => exact wok_ok (chars_good (showPrim_clean hp hx hv h)) hc
    · exact wok_panic
  · refine wok_ok (fun ev he => ?_) hc
    rw [List.mem_singleton.1 he]
    exact ⟨trivial, cleanStr_all hp hw⟩
  · exact hcall _ _ _ hv hc

omit hp hx hcall in
theorem withTags_ok {tags : Bool} {body : Ctx → WRes} (hb : ∀ c, CtxOK p c → WOK p (body c)) {c : Ctx} (hc : CtxOK p c) : WOK p (withTags tags body c) := by
  unfold withTags
  split
  · obtain ⟨h1, h2⟩ := hc.writeStart
    exact wok_bind (hb _ h2) fun r hr hrc => wok_ok (good_append (good_append h1 hr) writeEnd_good) hrc
  · exact hb c hc

omit hp hx hcall in
theorem forEach_ok {body : Val → Ctx → WRes} (hb : ∀ v c, ValAll p v → CtxOK p c → WOK p (body v c)) {vs : List Val} (hv : ∀ v ∈ vs, ValAll p v)
    {c : Ctx} (hc : CtxOK p c) : WOK p (forEach body vs c) := by
  induction vs generalizing c with
  | nil => exact wok_ok (by simp) hc
  | cons v vs ih =>
    unfold forEach
    refine wok_bind (hb _ _ (hv v (by simp)) hc) fun r hr hrc => ?_
    exact wok_bind (ih (fun w hw => hv w (by simp [hw])) hrc) fun q hq hqc => wok_ok (good_append hr hq) hqc

theorem writeItem_ok {l : LeafWrite} (hl : CleanLeaf l) (v : Val) (c : Ctx) (hv : ValAll p v) (hc : CtxOK p c) : WOK p (writeItem x callW l v c) := by
  unfold writeItem
  split
  · refine wok_bind (withTags_ok (fun c hc => writeVal_ok hp hx hcall hl.2 hv hc) hc.wrap) fun r hr hrc => ?_
    exact wok_ok hr hrc.endBorrow
  · next n h =>
    refine wok_bind (withTags_ok (fun c hc => writeVal_ok hp hx hcall hl.2 hv hc) (CtxOK.new (hl.1 n h))) fun r hr hrc => ?_
    exact wok_ok hr hc

theorem writeMany_ok {l : LeafWrite} (hl : CleanLeaf l) {v : Val} {c : Ctx} (hv : ValAll p v) (hc : CtxOK p c) : WOK p (writeMany x callW l v c) := by
  unfold writeMany
  split
  · split
    · cases hv with | vec hv => exact forEach_ok (writeItem_ok hp hx hcall hl) hv hc
    · exact wok_panic
  · exact writeItem_ok hp hx hcall hl v c hv hc

omit hp hx hcall in
theorem lookup_clean {fields : List (Str × Val)} (hf : ∀ f ∈ fields, ValAll p f.2) {n : Str} {v : Val} (h : alookup fields n = some v) : ValAll p v :=
  hf _ (alookup_mem h)

theorem writeLeaf_ok {l : LeafWrite} (hl : CleanLeaf l) {fields : List (Str × Val)} (hf : ∀ f ∈ fields, ValAll p f.2) {c : Ctx} (hc : CtxOK p c) :
    WOK p (writeLeaf x callW l fields c) := by
  unfold writeLeaf
  split
  · exact wok_panic
  · next v h =>
    have hv := lookup_clean hf h
    split
    · split
      · exact wok_ok (by simp) hc
      · cases hv with | some hv => exact writeMany_ok hp hx hcall hl hv hc
      · exact wok_panic
    · exact writeMany_ok hp hx hcall hl hv hc

theorem writeLeaves_ok {ls : List LeafWrite} (hl : ∀ l ∈ ls, CleanLeaf l) {fields : List (Str × Val)} (hf : ∀ f ∈ fields, ValAll p f.2) {c : Ctx}
    (hc : CtxOK p c) : WOK p (writeLeaves x callW fields ls c) := by
  induction ls generalizing c with
  | nil => exact wok_ok (by simp) hc
  | cons l ls ih =>
    unfold writeLeaves
    refine wok_bind (writeLeaf_ok hp hx hcall (hl l (by simp)) hf hc) fun r hr hrc => ?_
    exact wok_bind (ih (fun w hw => hl w (by simp [hw])) hrc) fun q hq hqc => wok_ok (good_append hr hq) hqc

theorem writeContent_ok {w : ContentWrite} (hw : CleanContent w) {fields : List (Str × Val)} (hf : ∀ f ∈ fields, ValAll p f.2) {c : Ctx}
    (hc : CtxOK p c) : WOK p (writeContent x callW fields w c) := by
  unfold writeContent
  split
  · exact wok_ok (by simp) hc
  · split
    · next h => exact writeVal_ok hp hx hcall hw (lookup_clean hf h) hc
    · exact wok_panic
  · exact writeLeaves_ok hp hx hcall hw hf hc

theorem writeVarItem_ok {w : VarWrite} (hw : isQName w.name = true ∧ CleanValWrite w.inner) (v : Val) (c : Ctx) (hv : ValAll p v) (hc : CtxOK p c) :
    WOK p (writeVarItem x callW w v c) := by
  unfold writeVarItem
  exact wok_bind (withTags_ok (fun c hc => writeVal_ok hp hx hcall hw.2 hv hc) (CtxOK.new hw.1)) fun r hr _ => wok_ok hr hc

theorem writeChoice_ok {vs : List VarWrite} (hw : ∀ w ∈ vs, isQName w.name = true ∧ CleanValWrite w.inner) {v : Val} {c : Ctx} (hv : ValAll p v)
    (hc : CtxOK p c) : WOK p (writeChoice x callW vs v c) := by
  unfold writeChoice
  split
  · split
    · exact wok_panic
    · next h =>
      have hw := hw _ (List.mem_of_find?_eq_some h)
      cases hv with
      | variant hv =>
        split
        · split
          · cases hv with | vec hv => exact forEach_ok (writeVarItem_ok hp hx hcall hw) hv hc
          · exact wok_panic
        · exact writeVarItem_ok hp hx hcall hw _ _ hv hc
  · exact wok_panic

include hP

omit hcall in
theorem showAttr_clean {a : AttrShow} (ha : CleanShow a) {v : Val} (hv : ValAll p v) {s : Str} (h : showAttr x P a v = some s) : StrAll p s := by
  unfold showAttr at h
  split at h
  · exact showPrim_clean hp hx hv h
  · unfold displayAt at h
    split at h
    · exact showPrim_clean hp hx hv h
    · split at h
      · next t ht =>
        split at h
        · cases hv with | newtype hv => exact showPrim_clean hp hx hv h
        · next hd =>
          have := (hP t (List.mem_of_find?_eq_some ht)).2.2.2
          rw [hd] at this
          exact cleanStr_all hp (this _ (alookup_mem h))
        · exact absurd h nofun
      · exact absurd h nofun
    · exact absurd h nofun
  · injection h with h; subst h; exact cleanStr_all hp ha

omit hcall in
theorem writeAttr_ok {a : AttrWrite} (ha : isQName a.name = true ∧ CleanShow a.inner) {fields : List (Str × Val)} (hf : ∀ f ∈ fields, ValAll p f.2)
    {c d : Ctx} (hc : CtxOK p c) (h : writeAttr x P a fields c = .ok d) : CtxOK p d := by
  unfold writeAttr at h
  split at h
  · exact absurd h nofun
  · next v hv =>
    have hv := lookup_clean hf hv
    split at h
    · split at h
      · injection h with h; subst h; exact hc
      · cases hv with
        | some hv =>
          split at h
          · next hs => injection h with h; subst h; exact hc.setAttr ha.1 (showAttr_clean hp hx hP ha.2 hv hs)
          · exact absurd h nofun
      · exact absurd h nofun
    · split at h
      · next hs => injection h with h; subst h; exact hc.setAttr ha.1 (showAttr_clean hp hx hP ha.2 hv hs)
      · exact absurd h nofun

omit hcall in
theorem writeAttrs_ok {as : List AttrWrite} (ha : ∀ a ∈ as, isQName a.name = true ∧ CleanShow a.inner) {fields : List (Str × Val)}
    (hf : ∀ f ∈ fields, ValAll p f.2) {c d : Ctx} (hc : CtxOK p c) (h : writeAttrs x P fields as c = .ok d) : CtxOK p d := by
  induction as generalizing c with
  | nil => injection h with h; subst h; exact hc
  | cons a as ih =>
    unfold writeAttrs at h
    cases h1 : writeAttr x P a fields c with
    | ok c1 =>
      rw [h1] at h
      exact ih (fun b hb => ha b (by simp [hb])) (writeAttr_ok hp hx hP (ha a (by simp)) hf hc h1) h
    | err e => rw [h1] at h; exact absurd h nofun
    | panic => rw [h1] at h; exact absurd h nofun
    | diverge => rw [h1] at h; exact absurd h nofun

theorem runTo_ok {t : TypeDef} (ht : CleanType t) {v : Val} {c : Ctx} (hv : ValAll p v) (hc : CtxOK p c) : WOK p (runTo x P callW t v c) := by
  obtain ⟨_, hn, hto, hd⟩ := ht
  have hc := hc.setNss hn
  unfold runTo
  revert hto
  generalize t.toXml = b
  intro hto
  cases b with
  | leaf w tags =>
    simp only
    split
    · cases hv with | newtype hv => exact withTags_ok (fun c hc => writeVal_ok hp hx hcall hto hv hc) hc
    · exact wok_panic
  | enumText =>
    simp only
    split
    · next hd' =>
      split
      · next hs =>
        rw [hd'] at hd
        exact withTags_ok (fun c hc => wok_ok (chars_good (cleanStr_all hp (hd _ (alookup_mem hs)))) hc) hc
      · exact wok_panic
    · exact wok_panic
  | element as tags w =>
    simp only
    split
    · next fields =>
      cases hv with
      | struct hf =>
        cases h1 : writeAttrs x P fields as (setNss t.nss c) with
        | ok d =>
          exact withTags_ok (fun c hc => writeContent_ok hp hx hcall hto.2 hf hc) (writeAttrs_ok hp hx hP hto.1 hf hc h1)
        | err e => exact fun _ _ h => absurd h nofun
        | panic => exact wok_panic
        | diverge => exact fun _ _ h => absurd h nofun
    · exact wok_panic
  | choice vs tags => exact withTags_ok (fun c hc => writeChoice_ok hp hx hcall hto hv hc) hc

end

include hp in
theorem toXmlWriter_ok (hx : CleanNumbers x) (hP : CleanCode P) (k : Nat) (i : Str) (v : Val) (c : Ctx) (hv : ValAll p v) (hc : CtxOK p c) :
    WOK p (toXmlWriter x P k i v c) := by
  induction k generalizing i v c with
  | zero => exact fun _ _ h => absurd h nofun
  | succ k ih =>
    unfold toXmlWriter
    split
    · exact wok_panic
    · next t ht => exact runTo_ok hp hx hP ih (hP t (List.mem_of_find?_eq_some ht)) hv hc

include hp in
/-- What a value is written as. -/
theorem toXml_good (hx : CleanNumbers x) (hP : CleanCode P) {k : Nat} {i : Str} {v : Val} (hv : ValAll p v) {evs : List Ev}
    (h : toXml x P k i v = .ok evs) : ∀ ev ∈ evs, Good p ev := by
  unfold toXml at h
  split at h
  · exact absurd h nofun
  · next t ht =>
    have hw := toXmlWriter_ok hp hx hP k i v (Ctx.new t.xmlName) hv (CtxOK.new (hP t (List.mem_of_find?_eq_some ht)).1)
    cases hr : toXmlWriter x P k i v (Ctx.new t.xmlName) with
    | ok p =>
      rw [hr] at h
      injection h with h; subst h
      exact (hw _ _ hr).1
    | err e => rw [hr] at h; exact absurd h nofun
    | panic => rw [hr] at h; exact absurd h nofun
    | diverge => rw [hr] at h; exact absurd h nofun

mutual
theorem ValAll.any : (v : Val) → ValAll (fun _ => True) v
  | .str _ => .str fun _ _ => trivial
  | .bool b => .bool b
  | .int i => .int i
  | .dec n => .dec n
  | .flt n => .flt n
  | .unit => .unit
  | .none => .none
  | .some v => .some (ValAll.any v)
  | .vec vs => .vec (ValAll.anyList vs)
  | .newtype v => .newtype (ValAll.any v)
  | .struct fs => .struct (ValAll.anyFields fs)
  | .variant _ v => .variant (ValAll.any v)
  | .enumv n => .enumv n
theorem ValAll.anyList : (vs : List Val) → ∀ v ∈ vs, ValAll (fun _ => True) v
  | [] => nofun
  | v :: vs => List.forall_mem_cons.2 ⟨ValAll.any v, ValAll.anyList vs⟩
theorem ValAll.anyFields : (fs : List (Str × Val)) → ∀ f ∈ fs, ValAll (fun _ => True) f.2
  | [] => nofun
  | (_, v) :: fs => List.forall_mem_cons.2 ⟨ValAll.any v, ValAll.anyFields fs⟩
end

/-- What comes back from `emitXml`. -/
theorem expressible_of {ev : Ev} (h : EvAll (fun c => isXmlChar c = true) ev) (hk : Kept ev) : Expressible ev := by
  cases ev with
  | start n as nss =>
    exact ⟨fun a ha c hc => ⟨h.1 a ha c hc, fun e => hk a ha (e ▸ hc)⟩, fun b hb c hc => ⟨(h.2 b hb c hc).1, (h.2 b hb c hc).2.1⟩⟩
  | fin => trivial
  | chars s => exact fun c hc => ⟨h c hc, fun e => hk (e ▸ hc)⟩

theorem kept_of {ev : Ev} (h : EvAll (fun c => c ≠ '\t' ∧ c ≠ '\r') ev) : Kept ev := by
  cases ev with
  | start n as nss => exact fun a ha hc => (h.1 a ha _ hc).1 rfl
  | fin => trivial
  | chars s => exact fun hc => (h _ hc).2 rfl

end XmlText
end Xsd
