import Verif.Props.Content
import Verif.Props.Reader
/-!
# Fixed values (C24)

Elements: enforced when read, and always written. Attributes: written, but not enforced when read
(`C24_attribute_not_checked`); so the theorems are a part of C24. References to a top-level element with a fixed value are
written without tags (a defect shown with C11), so `C24_written_partial` is about values fixed in place.
-/
namespace Xsd

variable {x : Ext} {S : SchemaContext} {P : List TypeDef}

/-- The text that the reader sees in an element (its leading text, `""` if it has no child nodes; none if
it starts with something else). -/
def LeadingText (ch : Elem) (s : Str) : Prop := (ch.2 = [] ∧ s = []) ∨ ∃ rest, ch.2 = .text s :: rest

theorem textVal_iff {ch : Elem} {s : Str} : Queue.textVal ch = .ok s ↔ LeadingText ch s := by
  obtain ⟨i, cs⟩ := ch
  unfold LeadingText Queue.textVal
  cases cs with
  | nil =>
    constructor
    · intro h; cases h; exact .inl ⟨rfl, rfl⟩
    · rintro (⟨_, rfl⟩ | ⟨_, h⟩)
      · rfl
      · cases h
  | cons c cs =>
    constructor
    · intro h
      cases c <;> cases h
      exact .inr ⟨cs, rfl⟩
    · rintro (⟨h, _⟩ | ⟨_, h⟩) <;> cases h
      rfl

/-- Reading content that means a fixed value. -/
theorem readsAs_fixed {c : LeafContent} {f : Str} (hm : Means S c (.fixed f)) {ch : Elem} {t : Str}
    (ht : LeadingText ch t) {r : Res DErr Val} :
    ReadsAs x S P c ch r ↔ r = if t = f then .ok .unit else .err (.fixedMismatch f t) := by
  have ht := textVal_iff.2 ht
  constructor
  · rintro ⟨c', hc', h⟩
    cases hm.functional hc'
    simpa [withText, ht] using h
  · rintro rfl
    exact ⟨_, hm, by simp [withText, ht]⟩

theorem rmany_mem {m : Mode} {T : Name → Val → Elem → List Elem → Prop} {l : Leaf} (vs : List Val) {e : Elem}
    {es : List Elem} (h : RMany x m S T l vs e es) :
    ∀ w ∈ vs, ∃ es1, RItem x m S T l w e es1 ∧ ∀ ch ∈ es1, ch ∈ es := by
  induction vs generalizing es with
  | nil => simp
  | cons v vs ih =>
    obtain ⟨es1, es2, h1, _, h2, hc⟩ := h
    have hsub : (∀ ch ∈ es1, ch ∈ es) ∧ (∀ ch ∈ es2, ch ∈ es) := by
      obtain ⟨st, ne⟩ := m
      cases st with
      | true => simp only [Cat] at hc; subst hc; exact ⟨fun _ h => by simp [h], fun _ h => by simp [h]⟩
      | false =>
        have hp := hc.1.perm
        exact ⟨fun ch h => hp.mem_iff.2 (by simp [h]), fun ch h => hp.mem_iff.2 (by simp [h])⟩
    intro w hw
    rcases List.mem_cons.1 hw with rfl | hw
    · exact ⟨es1, h1, hsub.1⟩
    · obtain ⟨es', h', hs'⟩ := ih h2 w hw
      exact ⟨es', h', fun ch hc => hsub.2 ch (hs' ch hc)⟩

/-- The value of the field of `l`, and its occurrences. -/
theorem rleaves_field {T : Name → Val → Elem → List Elem → Prop} (ls : List Leaf) {fs : List (Str × Val)} {e : Elem}
    {es : List Elem} (h : RLeaves x .lenient S T ls fs e es) {l : Leaf} (hl : l ∈ ls) :
    ∃ f v es1, (f, v) ∈ fs ∧ fieldIdent x l.name = .ok f ∧ ROcc x .lenient S T l v e es1 ∧ ∀ ch ∈ es1, ch ∈ es := by
  induction ls generalizing fs es with
  | nil => cases hl
  | cons a ls ih =>
    obtain ⟨f, v, fs', es1, es2, rfl, hf, ho, hr, hc⟩ := h
    have hp := hc.1.perm
    rcases List.mem_cons.1 hl with rfl | hl
    · exact ⟨f, v, es1, by simp, hf, ho, fun ch h => hp.mem_iff.2 (by simp [h])⟩
    · obtain ⟨f', v', es', hm, hf', ho', hs⟩ := ih hr hl
      exact ⟨f', v', es', by simp [hm], hf', ho', fun ch h => hp.mem_iff.2 (by simp [hs ch h])⟩

/-- **C24, acceptance.** If an element is read successfully, each occurrence of a child element declared with a
fixed value (required, optional or repeated; at any position, in a sequence or in `xs:all`) that became part
of the value was a child with the declared name whose text is that fixed value. In particular a required one was
there. -/
theorem C24_accepted_partial (G : Generated x S P) {n : Name} {i : Str} (hi : typeIdent x n = .ok i) {ls : List Leaf}
    {as : List Attribute} (hd : IsElement S n ls as) {l : Leaf} (hl : l ∈ ls) (hv : l.isVirtual = false) {f : Str}
    (hm : Means S l.definition.content (.fixed f)) {e : Elem} {p : List Elem} {v : Val} {s' : Queue}
    (h : FromNode x P i ⟨e, p⟩ (.ok (v, s'))) :
    ∃ fl w fs, v = .struct fs ∧ (fl, w) ∈ fs ∧ fieldIdent x l.name = .ok fl ∧
      (w ≠ .none → w ≠ .vec [] → ∃ ch ∈ p, S.expanded l.name = .ok ch.1.name ∧ LeadingText ch f) ∧
      (l.mayMiss = false → l.repeats = false → w = .unit) := by
  obtain ⟨_, k, hk⟩ := FromNode.queue.1 h
  obtain ⟨d, hget, hc, rfl⟩ := hd
  obtain ⟨_, es, hes, hcat⟩ := fromNode_sound G k n i _ _ _ hi (by rw [hget]; rfl) hk
  cases k with
  | zero => cases hes
  | succ k =>
    obtain ⟨r, hr, hR⟩ := hes
    rw [hget] at hr; cases hr
    obtain ⟨fc, fa, rfl, hcont, hattrs⟩ := hR
    rw [hc] at hcont
    obtain ⟨es0, hcont, har⟩ := hcont
    obtain ⟨fl, w, es1, hmem, hf, ho, hsub⟩ := rleaves_field ls hcont hl
    replace hsub := fun ch h => har.mem.2 (hsub ch h)
    have hp := hcat.1.perm
    have item : ∀ u es2, RItem x .lenient S (TRepr x .lenient S k) l u e es2 → (∀ ch ∈ es2, ch ∈ es1) →
        u = .unit ∧ ∃ ch ∈ p, S.expanded l.name = .ok ch.1.name ∧ LeadingText ch f := by
      intro u es2 hu hs
      simp only [RItem, hv, Bool.false_eq_true, if_false] at hu
      obtain ⟨ch, rfl, hq, es3, junk, _, _, c', hc', hval⟩ := hu
      cases hm.functional hc'
      obtain ⟨ht, rfl, _⟩ := hval
      exact ⟨rfl, ch, hp.mem_iff.2 (List.mem_append.2 (.inl (hsub ch (hs ch (by simp))))), hq, ht⟩
    refine ⟨fl, w, fc ++ fa, rfl, by simp [hmem], hf, ?_, ?_⟩
    · intro hw1 hw2
      unfold ROcc at ho
      split at ho
      · obtain ⟨vs, hvs, hw'⟩ := ho
        have hne : vs ≠ [] := by
          rintro rfl
          split at hw'
          · rcases hw' with ⟨_, h⟩ | ⟨h, _⟩
            · exact hw1 h
            · exact h (by decide) rfl
          · exact hw2 hw'
        obtain ⟨u, vs', rfl⟩ := List.exists_cons_of_ne_nil hne
        obtain ⟨es2, hu, hs⟩ := rmany_mem _ hvs u (by simp)
        exact (item u es2 hu hs).2
      · split at ho
        · rcases ho with ⟨rfl, _⟩ | ⟨u, rfl, hu, _⟩
          · exact absurd rfl hw1
          · exact (item u es1 hu (fun _ h => h)).2
        · exact (item w es1 ho (fun _ h => h)).2
    · intro hopt hvec
      unfold ROcc at ho
      rw [if_neg (by simp [hvec]), if_neg (by simp [hopt])] at ho
      exact (item w es1 ho (fun _ h => h)).1

/-- **C24, rejection.** In an element whose preceding children are required single elements and are there, a child declared with
the fixed value `f` and having another text `t` makes the result `FixedMismatch`, with both texts. -/
theorem C24_mismatch_partial (G : Generated x S P) {n : Name} {i : Str} (hi : typeIdent x n = .ok i)
    {pre post : List Leaf} {l : Leaf} {as : List Attribute} (hd : IsElement S n (pre ++ l :: post) as)
    (hp : ∀ l' ∈ pre, l'.Plain) (hl : l.Plain) {f : Str} (hm : Means S l.definition.content (.fixed f)) {e : Elem}
    {chs rest : List Elem} {fs : List (Str × Val)} (hpre : ReadsSeq x S P pre chs fs) {ch : Elem}
    (hq : S.expanded l.name = .ok ch.1.name) {t : Str} (ht : LeadingText ch t) (hne : t ≠ f) :
    FromNode x P i ⟨e, chs ++ ch :: rest⟩ (.err (.fixedMismatch f t)) := by
  obtain ⟨rs, ras, hrs, _, heq⟩ := element_code G hi hd
  rw [heq, Ret.bind_iff (readLeaves_monoF rs _) (tail_mono ras)]
  refine .inr (.inl ⟨_, ?_, rfl⟩)
  obtain ⟨r1, r2, h1, h2, rfl⟩ := mapRes_split hrs
  obtain ⟨pr, r2', hpr, h2', rfl⟩ := mapRes_cons_ok.1 h2
  simp only [readLeaves_append]
  rw [Ret.bind_of_ok (readLeaves_monoF r1 _) (fun a => Mono.bind (g := fun _ r' => .ok (a.1 ++ r'.1, r'.2))
    (readLeaves_monoF (pr :: r2') a.2) (fun _ => Mono.const _))
    ((readLeaves_plain_ok pre hp h1).2 ⟨chs, ch :: rest, rfl, rfl, hpre⟩)]
  rw [Ret.map_iff (readLeaves_monoF _ _)]
  refine .inr (.inl ⟨_, ?_, rfl⟩)
  simp only [readLeaves]
  rw [Ret.bind_iff (readLeaf_monoF _ _) (readLeaves_cons_mono _ _)]
  obtain ⟨_, q', hq', hhit, _⟩ := readLeaf_plain (P := P) hl hpr
  rw [hq] at hq'; cases hq'
  refine .inr (.inl ⟨_, (hhit e ch rest _ rfl).2 ⟨.err (.fixedMismatch f t), ?_, rfl⟩, rfl⟩)
  rw [readsAs_fixed hm ht, if_neg hne]

/-- **C24, a top-level element with a fixed value.** `from_xml` accepts exactly the documents with its name and its text. -/
theorem C24_root_partial (G : Generated x S P) {n : Name} {i : Str} (hi : typeIdent x n = .ok i) {d : LeafDef}
    (hget : S.get n = some (.leaf d)) {f : Str} (hm : Means S d.content (.fixed f)) {e : Elem}
    (hq : S.expanded n = .ok e.1.name) {t : Str} (ht : LeadingText e t) (r : Res DErr Val) :
    FromXml x P i ⟨e⟩ r ↔ r = if t = f then .ok (.newtype .unit) else .err (.fixedMismatch f t) := by
  have hn : (S.get n).isSome = true := by rw [hget]; rfl
  obtain ⟨r0, td, hr0, hft, _, hg⟩ := G.find' hi hn
  rw [hget] at hr0; cases hr0
  have hrd := hg.read
  simp only [rootRead, Res.bind_eq_ok] at hrd
  obtain ⟨vr, hvr, hrd⟩ := hrd
  have hvf : vr = .fixed f := by
    rcases contentRead_ok hvr with ⟨_, h, _⟩ | ⟨f', h, rfl⟩ | ⟨_, _, h, _⟩
    · cases hm.functional h
    · cases hm.functional h; rfl
    · cases hm.functional h
  subst hvf
  have ht' : queueOps.text ⟨e, elemKids e.2⟩ = .ok t := textVal_iff.2 ht
  have hres : ∀ k, fromXml x cursorOps P (k + 1) i ⟨e⟩ =
      if t = f then .ok (.newtype .unit) else .err (.fixedMismatch f t) := by
    intro k
    rw [fromXml_eq G hi hn hq, if_pos rfl]
    simp only [fromNode, hft, runFrom, ← Res.ok.inj hrd, readVal, ht', ofExcept, Res.bind_ok]
    split <;> rfl
  constructor
  · rintro ⟨hr, k, hk⟩
    cases k with
    | zero =>
      rw [fromXml_eq G hi hn hq, if_pos rfl] at hk
      exact absurd hk.symm hr
    | succ k => rw [← hk, hres]
  · rintro rfl
    exact ⟨by split <;> simp, 1, hres 0⟩

/-! ### Writing -/

theorem writeLeaves_contains {cW : Str → Val → Ctx → WRes} {fields : List (Str × Val)} (lw : LeafWrite) {evl : List Ev}
    (hlw : ∀ c r, writeLeaf x cW lw fields c = .ok r → r.1 = evl) (ws : List LeafWrite) (hmem : lw ∈ ws) {c : Ctx}
    {r : List Ev × Ctx} (h : writeLeaves x cW fields ws c = .ok r) : ∃ a b, r.1 = a ++ evl ++ b := by
  induction ws generalizing c r with
  | nil => cases hmem
  | cons w ws ih =>
    simp only [writeLeaves, Res.bind_eq_ok] at h
    obtain ⟨r1, h1, r2, h2, h⟩ := h
    cases h
    rcases List.mem_cons.1 hmem with rfl | hmem
    · exact ⟨[], r2.1, by simp [hlw c r1 h1]⟩
    · obtain ⟨a, b, hab⟩ := ih hmem h2
      exact ⟨r1.1 ++ a, b, by simp [hab]⟩

/-- **C24, writing elements.** Whenever a value of an element type is written successfully, a required child declared with a fixed
value is written as a start tag, exactly that text, and an end tag. -/
theorem C24_written_partial (G : Generated x S P) {n : Name} {i : Str} (hi : typeIdent x n = .ok i) {ls : List Leaf}
    {as : List Attribute} (hd : IsElement S n ls as) {l : Leaf} (hl : l ∈ ls) (hs : l.Single) {f : Str}
    (hm : l.definition.content = .fixed f) {v : Val} {evs : List Ev} (h : ToXml x P i v (.ok evs)) :
    ∃ nm a b, S.xmlName l.name = .ok nm ∧ evs = a ++ [.start nm [] [], .chars f, .fin] ++ b := by
  obtain ⟨d, hget, hc, rfl⟩ := hd
  obtain ⟨r0, t, hr0, hft, _, hg⟩ := G.find' hi (by rw [hget]; rfl)
  rw [hget] at hr0; cases hr0
  have hw := hg.write
  simp only [rootWrite, Res.bind_eq_ok, hc, elementContentWrite] at hw
  obtain ⟨aws, _, cw, ⟨ws, hws, hcw⟩, hw⟩ := hw
  cases hcw
  obtain ⟨_, k, hk⟩ := h
  simp only [toXml, hft, Res.bind_eq_ok] at hk
  obtain ⟨r, hr, hk⟩ := hk
  cases hk
  cases k with
  | zero => cases hr
  | succ k =>
    simp only [toXmlWriter, hft, runTo, ← Res.ok.inj hw] at hr
    obtain ⟨w, hwm, hwl⟩ := (mapRes_ok hws).1 l hl
    simp only [leafWrite, Leaf.isOptional_eq, Leaf.isVec_eq, Res.bind_eq_ok, hs.notVirtual, Bool.false_eq_true, if_false, hm] at hwl
    obtain ⟨fl, hfl, nm, hnm, inner, hin, tags, htags, hwl⟩ := hwl
    cases htags; cases hwl
    have hinner : inner = .fixed f := by
      rcases contentWrite_ok hin with ⟨_, h, _⟩ | ⟨f', h, rfl⟩ | ⟨_, _, h, _⟩
      · cases h
      · cases h; rfl
      · cases h
    subst hinner
    refine ⟨nm, ?_⟩
    have hitem : ∀ c fields r, writeLeaf x (toXmlWriter x P k) ⟨fl, some nm, true, .fixed f, l.repeats, l.mayMiss⟩ fields c = .ok r →
        r.1 = [.start nm [] [], .chars f, .fin] := by
      intro c fields r h
      simp only [writeLeaf, hs.required, hs.notVec] at h
      split at h
      · cases h
      · simp only [Bool.false_eq_true, if_false, writeMany, writeItem, withTags, if_true, writeVal, Ctx.new, Ctx.writeStart,
          Res.bind_ok, Ctx.writeEnd] at h
        cases h; rfl
    cases v with
    | struct fields =>
      simp only [Res.bind_eq_ok] at hr
      obtain ⟨c1, _, hr⟩ := hr
      unfold withTags at hr
      split at hr
      · simp only [Res.bind_eq_ok] at hr
        obtain ⟨r1, h1, hr⟩ := hr
        cases hr
        obtain ⟨a, b, hab⟩ := writeLeaves_contains _ (fun c r => hitem c fields r) ws hwm h1
        exact ⟨c1.writeStart.1 ++ a, b ++ r1.2.writeEnd, hnm, by simp [hab]⟩
      · obtain ⟨a, b, hab⟩ := writeLeaves_contains _ (fun c r => hitem c fields r) ws hwm hr
        exact ⟨a, b, hnm, by simp [hab]⟩
    | _ => cases hr

theorem setNss_frame (nss : List (Str × Str)) (c : Ctx) :
    (setNss nss c).virt = c.virt ∧ (setNss nss c).inner.attrs = c.inner.attrs ∧ (setNss nss c).inner.name = c.inner.name := by
  unfold setNss
  induction nss generalizing c with
  | nil => exact ⟨rfl, rfl, rfl⟩
  | cons b nss ih =>
    simp only [List.foldl_cons]
    obtain ⟨h1, h2, h3⟩ := ih (if b.1 = [] then c.setDefaultNs b.2 else c.setNs b.1 b.2)
    obtain ⟨vv, i⟩ := c
    rw [h1, h2, h3]
    split <;> cases vv <;> exact ⟨rfl, rfl, rfl⟩

/-- What writing the attributes does to the context. -/
theorem writeAttrs_frame {fields : List (Str × Val)} (as : List AttrWrite) {c c' : Ctx}
    (h : writeAttrs x P fields as c = .ok c') :
    c'.virt = c.virt ∧ c'.inner.name = c.inner.name ∧ ∃ ws, c'.inner.attrs = c.inner.attrs ++ ws ∧
      ∀ a ∈ as, a.optional = false → ∀ f, a.inner = .fixed f → (a.name, f) ∈ ws := by
  induction as generalizing c with
  | nil => simp only [writeAttrs] at h; cases h; exact ⟨rfl, rfl, [], by simp, by simp⟩
  | cons a as ih =>
    simp only [writeAttrs, Res.bind_eq_ok] at h
    obtain ⟨c1, h1, h⟩ := h
    obtain ⟨hv, hn, ws, hws, hall⟩ := ih h
    have step : ∃ w1, c1.virt = c.virt ∧ c1.inner.name = c.inner.name ∧ c1.inner.attrs = c.inner.attrs ++ w1 ∧
        (a.optional = false → ∀ f, a.inner = .fixed f → (a.name, f) ∈ w1) := by
      have hset : ∀ s, (c.setAttr a.name s).virt = c.virt ∧ (c.setAttr a.name s).inner.name = c.inner.name ∧
          (c.setAttr a.name s).inner.attrs = c.inner.attrs ++ [(a.name, s)] := by
        intro s; obtain ⟨vv, i⟩ := c; cases vv <;> exact ⟨rfl, rfl, rfl⟩
      unfold writeAttr at h1
      split at h1
      · cases h1
      · split at h1
        · next ho =>
          split at h1
          · cases h1; exact ⟨[], rfl, rfl, by simp, by simp [ho]⟩
          · split at h1
            · next s hs => cases h1; exact ⟨_, (hset s).1, (hset s).2.1, (hset s).2.2, by simp [ho]⟩
            · cases h1
          · cases h1
        · split at h1
          · next s hs =>
            cases h1
            refine ⟨_, (hset s).1, (hset s).2.1, (hset s).2.2, ?_⟩
            intro _ f hf
            rw [hf] at hs
            simp only [showAttr, Option.some.injEq] at hs
            simp [hs]
          · cases h1
    obtain ⟨w1, hv1, hn1, ha1, hf1⟩ := step
    refine ⟨hv.trans hv1, hn.trans hn1, w1 ++ ws, by rw [hws, ha1, List.append_assoc], ?_⟩
    intro b hb ho f hf
    rcases List.mem_cons.1 hb with rfl | hb
    · exact List.mem_append.2 (.inl (hf1 ho f hf))
    · exact List.mem_append.2 (.inr (hall b hb ho f hf))

/-- **C24, writing attributes.** A required attribute declared with a fixed value is written on the root start tag with
that value, whatever the value of its field. -/
theorem C24_attribute_written_partial (G : Generated x S P) {n : Name} {i : Str} (hi : typeIdent x n = .ok i) {ls : List Leaf}
    {d : ElementDef} (hget : S.get n = some (.element d)) (hc : d.content = some (.leaves ls)) (hvirt : d.isVirtual = false)
    {a : Attribute} (ha : a ∈ d.attributes) (hreq : a.isOptional = false) {f : Str} (hf : a.content = .fixed f) {v : Val}
    {evs : List Ev} (h : ToXml x P i v (.ok evs)) :
    ∃ nm na attrs nss rest, S.xmlName n = .ok nm ∧ S.xmlName a.name = .ok na ∧ evs = .start nm attrs nss :: rest ∧
      (na, f) ∈ attrs := by
  obtain ⟨r0, t, hr0, hft, _, hg⟩ := G.find' hi (by rw [hget]; rfl)
  rw [hget] at hr0; cases hr0
  have hw := hg.write
  simp only [rootWrite, Res.bind_eq_ok, hc, elementContentWrite, hvirt, isNamedLeaf] at hw
  obtain ⟨aws, haws, cw, ⟨ws, hws, hcw⟩, hw⟩ := hw
  cases hcw
  obtain ⟨_, k, hk⟩ := h
  simp only [toXml, hft, Res.bind_eq_ok] at hk
  obtain ⟨r, hr, hk⟩ := hk
  cases hk
  cases k with
  | zero => cases hr
  | succ k =>
    simp only [toXmlWriter, hft, runTo, ← Res.ok.inj hw] at hr
    obtain ⟨w, hwm, hwl⟩ := (mapRes_ok haws).1 a ha
    simp only [attrWrite, Res.bind_eq_ok, hf] at hwl
    obtain ⟨fl, hfl, na, hna, inner, hin, hwl⟩ := hwl
    cases hin; cases hwl
    cases v with
    | struct fields =>
      simp only [Res.bind_eq_ok] at hr
      obtain ⟨c1, hc1, hr⟩ := hr
      obtain ⟨hv1, hn1, wsA, hA, hall⟩ := writeAttrs_frame aws hc1
      obtain ⟨f1, f2, f3⟩ := setNss_frame t.nss (Ctx.new t.xmlName)
      simp only [withTags, Bool.not_false, Bool.and_self, if_true, Res.bind_eq_ok] at hr
      obtain ⟨r1, h1, hr⟩ := hr
      cases hr
      have hcv : c1.virt = false := by rw [hv1, f1]; rfl
      refine ⟨t.xmlName, na, c1.inner.attrs, c1.inner.nss, r1.1 ++ r1.2.writeEnd, hg.xmlName, hna, ?_, ?_⟩
      · have : c1.inner.name = t.xmlName := by rw [hn1, f3]; rfl
        simp only [Ctx.writeStart, hcv, this]
        rfl
      · rw [hA]
        exact List.mem_append.2 (.inr (hall _ hwm hreq f rfl))
    | _ => cases hr

end Xsd
