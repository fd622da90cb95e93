import Verif.Spec.CleanText
import Verif.Spec.Repr
/-!
# Characters in documents and values

Everything that is read from a text consists of characters of XML.
-/
namespace Xsd
namespace XmlText

/-- All characters of texts and attribute values satisfy `p`. -/
inductive NodeAll (p : Char → Prop) : XNode → Prop where
  | text {s : Str} (h : ∀ c ∈ s, p c) : NodeAll p (.text s)
  | elem {i : ElemInfo} {cs : List XNode} (ha : ∀ a ∈ i.attrs, ∀ c ∈ a.value, p c) (h : ∀ n ∈ cs, NodeAll p n) : NodeAll p (.elem i cs)
  | other : NodeAll p .other

/-- The same for an element. -/
abbrev ElemAll (p : Char → Prop) (e : Elem) : Prop := NodeAll p (.elem e.1 e.2)

abbrev XStr (s : Str) : Prop := ∀ c ∈ s, isXmlChar c = true
abbrev XAttrs (as : List (Str × Str)) : Prop := ∀ a ∈ as, XStr a.2

/-- The characters that have been read. -/
def LOK : LState → Prop
  | .inTag _ as _ | .attrName _ as _ | .attrEnd _ as _ | .attrEq _ as _ | .slash _ as => XAttrs as
  | .attrVal _ as _ _ v | .attrRef _ as _ _ v _ => XAttrs as ∧ XStr v
  | _ => True

def TokOK : Tok → Prop
  | .start _ as => XAttrs as
  | .chars _ s => XStr s
  | _ => True

theorem decodeRef_xml {r : Str} {c : Char} (h : decodeRef r = some c) : isXmlChar c = true := by
  have hx : ∀ o : Option Nat, o.bind xmlChar = some c → isXmlChar c = true := by
    intro o h
    cases o with
    | none => exact absurd h nofun
    | some n =>
      simp only [Option.bind, xmlChar] at h
      split at h
      · next hn => injection h with h; subst h; exact hn.2
      · exact absurd h nofun
  unfold decodeRef at h
  split at h
  · injection h with h; subst h; decide
  split at h
  · injection h with h; subst h; decide
  split at h
  · injection h with h; subst h; decide
  split at h
  · injection h with h; subst h; decide
  split at h
  · injection h with h; subst h; decide
  split at h
  · split at h
    · exact absurd h nofun
    · exact hx _ h
  · split at h
    · exact absurd h nofun
    · exact hx _ h
  · exact absurd h nofun

theorem xstr_snoc {s : Str} (h : XStr s) {c : Char} (hc : isXmlChar c = true) : XStr (s ++ [c]) := by
  intro d hd
  rcases List.mem_append.1 hd with hd | hd
  · exact h d hd
  · rw [List.mem_singleton.1 hd]; exact hc

theorem xattrs_snoc {as : List (Str × Str)} (h : XAttrs as) {a v : Str} (hv : XStr v) : XAttrs (as ++ [(a, v)]) := by
  intro b hb
  rcases List.mem_append.1 hb with hb | hb
  · exact h b hb
  · rw [List.mem_singleton.1 hb]; exact hv

/-- A step from one state to the next. -/
def StepOK (r : Option (LState × List Tok)) : Prop := ∀ l ts, r = some (l, ts) → LOK l ∧ ∀ t ∈ ts, TokOK t

theorem stepOK_none : StepOK none := fun _ _ h => absurd h nofun

theorem stepOK_some {l : LState} {ts : List Tok} (h : LOK l) (ht : ∀ t ∈ ts, TokOK t) : StepOK (some (l, ts)) := by
  intro l' ts' e
  injection e with e; injection e with e1 e2
  subst e1; subst e2; exact ⟨h, ht⟩

theorem stepOK_nil {l : LState} (h : LOK l) : StepOK (some (l, [])) := stepOK_some h (by simp)

theorem stepOK_one {l : LState} {t : Tok} (h : LOK l) (ht : TokOK t) : StepOK (some (l, [t])) :=
  stepOK_some h (fun t' ht' => by rw [List.mem_singleton.1 ht']; exact ht)

theorem tagStep_ok {n : Str} {as : List (Str × Str)} {sp : Bool} {c : Char} (h : XAttrs as) : StepOK (tagStep n as sp c) := by
  unfold tagStep
  split
  · exact stepOK_nil h
  split
  · exact stepOK_one trivial h
  split
  · exact stepOK_nil h
  split
  · exact stepOK_nil h
  · exact stepOK_none

theorem xstr_nil : XStr [] := by simp [XStr]
theorem xattrs_nil : XAttrs [] := by simp [XAttrs]

theorem lexStep_ok {l : LState} (hl : LOK l) {c : Char} (hc : isXmlChar c = true) : StepOK (lexStep l c) := by
  have hs : XStr [c] := by intro d hd; rw [List.mem_singleton.1 hd]; exact hc
  have hm : ∀ (r : Str) (f : Char → LState × List Tok), (∀ d, isXmlChar d = true → StepOK (some (f d))) → StepOK ((decodeRef r).map f) := by
    intro r f hf
    cases h : decodeRef r with
    | none => exact stepOK_none
    | some d => exact hf d (decodeRef_xml h)
  have hsp : isXmlChar ' ' = true := by decide
  cases l with
  | content k =>
    simp only [lexStep]
    split
    · exact stepOK_nil trivial
    split
    · exact stepOK_nil trivial
    split
    · exact stepOK_none
    · exact stepOK_one trivial hs
  | ref r =>
    simp only [lexStep]
    split
    · exact hm _ _ fun d hd => stepOK_one trivial (by intro e he; rw [List.mem_singleton.1 he]; exact hd)
    · exact stepOK_nil trivial
  | lt => simp only [lexStep]; repeat' split
          all_goals first | exact stepOK_nil trivial | exact stepOK_none
  | openName n =>
    simp only [lexStep]
    split
    · exact stepOK_nil trivial
    · exact tagStep_ok xattrs_nil
  | inTag n as sp => exact tagStep_ok hl
  | attrName n as a => simp only [lexStep]; repeat' split
                       all_goals first | exact stepOK_nil hl | exact stepOK_none
  | attrEnd n as a => simp only [lexStep]; repeat' split
                      all_goals first | exact stepOK_nil hl | exact stepOK_none
  | attrEq n as a =>
    simp only [lexStep]
    split
    · exact stepOK_nil ⟨hl, xstr_nil⟩
    split
    · exact stepOK_nil hl
    · exact stepOK_none
  | attrVal n as a q v =>
    obtain ⟨h1, h2⟩ := hl
    simp only [lexStep]
    split
    · exact stepOK_nil (xattrs_snoc h1 h2)
    split
    · exact stepOK_none
    split
    · exact stepOK_nil ⟨h1, h2⟩
    split
    · exact stepOK_nil ⟨h1, xstr_snoc h2 hsp⟩
    · exact stepOK_nil ⟨h1, xstr_snoc h2 hc⟩
  | attrRef n as a q v r =>
    obtain ⟨h1, h2⟩ := hl
    simp only [lexStep]
    split
    · exact hm _ _ fun d hd => stepOK_nil ⟨h1, xstr_snoc h2 hd⟩
    · exact stepOK_nil ⟨h1, h2⟩
  | slash n as =>
    simp only [lexStep]
    split
    · refine stepOK_some trivial fun t ht => ?_
      simp only [List.mem_cons, List.not_mem_nil, or_false] at ht
      rcases ht with rfl | rfl
      · exact hl
      · trivial
    · exact stepOK_none
  | closeName n => simp only [lexStep]; repeat' split
                   all_goals first | exact stepOK_nil trivial | exact stepOK_one trivial trivial | exact stepOK_none
  | closeEnd n => simp only [lexStep]; repeat' split
                  all_goals first | exact stepOK_nil trivial | exact stepOK_one trivial trivial | exact stepOK_none
  | bang s => simp only [lexStep]; repeat' split
              all_goals first | exact stepOK_nil trivial | exact stepOK_none
  | comment k => simp only [lexStep]; repeat' split
                 all_goals first | exact stepOK_nil trivial | exact stepOK_one trivial trivial | exact stepOK_none
  | cdata k =>
    have hb : isXmlChar ']' = true := by decide
    simp only [lexStep]
    split
    · split
      · exact stepOK_one trivial (by intro e he; rw [List.mem_singleton.1 he]; exact hb)
      · exact stepOK_nil trivial
    split
    · exact stepOK_nil trivial
    · refine stepOK_one trivial (xstr_snoc (fun d hd => ?_) hc)
      rw [(List.mem_replicate.1 hd).2]; exact hb
  | piName n => simp only [lexStep]; repeat' split
                all_goals first | exact stepOK_nil trivial | exact stepOK_none
  | pi q => simp only [lexStep]; repeat' split
            all_goals first | exact stepOK_nil trivial | exact stepOK_one trivial trivial | exact stepOK_none

/-! ## Elements -/

abbrev XNodeOK (n : XNode) : Prop := NodeAll (fun c => isXmlChar c = true) n

structure FrameOK (f : Frame) : Prop where
  attrs : ∀ a ∈ f.info.attrs, XStr a.value
  kids : ∀ n ∈ f.kids, XNodeOK n

def ROK : RState → Prop
  | .before => True
  | .inside _ t r => FrameOK t ∧ ∀ f ∈ r, FrameOK f.2
  | .done e => XNodeOK (.elem e.1 e.2)

theorem readAttrs_xml {sc : Scope} {as : List (Str × Str)} (h : XAttrs as) {xs : List XAttr} (hr : readAttrs sc as = some xs) :
    ∀ a ∈ xs, XStr a.value := by
  induction as generalizing xs with
  | nil => injection hr with hr; subst hr; simp
  | cons a as ih =>
    unfold readAttrs at hr
    split at hr
    · next y ys h1 h2 =>
      injection hr with hr; subst hr
      intro b hb
      rcases List.mem_cons.1 hb with rfl | hb
      · have ha := h a (by simp)
        unfold readAttr at h1
        split at h1
        · next p l _ =>
          cases hl : alookup sc p with
          | none => rw [hl] at h1; exact absurd h1 nofun
          | some u => rw [hl] at h1; injection h1 with h1; subst h1; exact ha
        · injection h1 with h1; subst h1; exact ha
      · exact ih (fun b hb => h b (by simp [hb])) h2 b hb
    · exact absurd hr nofun

theorem readElem_ok {sc : Scope} {n : Str} {as : List (Str × Str)} (h : XAttrs as) {f : Frame} (hr : readElem sc n as = some f) : FrameOK f := by
  unfold readElem at hr
  simp only at hr
  split at hr
  · split at hr
    · next h1 h2 =>
      split at hr
      · injection hr with hr; subst hr
        exact ⟨readAttrs_xml (fun a ha => h a (List.mem_filter.1 ha).1) h2, by simp⟩
      · exact absurd hr nofun
    · exact absurd hr nofun
  · exact absurd hr nofun

theorem addText_ok {cs : List XNode} (h : ∀ n ∈ cs, XNodeOK n) {s : Str} (hs : XStr s) : ∀ n ∈ addText cs s, XNodeOK n := by
  unfold addText
  split
  · exact h
  split
  · next t ht =>
    intro n hn
    rcases List.mem_append.1 hn with hn | hn
    · exact h n (List.dropLast_subset _ hn)
    · rw [List.mem_singleton.1 hn]
      have ht := h _ (List.mem_of_getLast? ht)
      cases ht with
      | text ht =>
        refine .text fun c hc => ?_
        rcases List.mem_append.1 hc with hc | hc
        · exact ht c hc
        · exact hs c hc
  · intro n hn
    rcases List.mem_append.1 hn with hn | hn
    · exact h n hn
    · rw [List.mem_singleton.1 hn]; exact .text hs

theorem rstep_ok {st st' : RState} (h : ROK st) {t : Tok} (ht : TokOK t) (hr : rstep st t = some st') : ROK st' := by
  have hm : ∀ (o : Option Frame) (g : Frame → RState), (∀ f, o = some f → ROK (g f)) → o.map g = some st' → ROK st' := by
    intro o g hg he
    cases o with
    | none => exact absurd he nofun
    | some f => injection he with he; subst he; exact hg f rfl
  cases st with
  | before =>
    cases t with
    | start n as => exact hm _ (fun f => .inside n f []) (fun f hf => ⟨readElem_ok ht hf, by simp⟩) hr
    | fin n => exact absurd hr nofun
    | chars lit s =>
      simp only [rstep] at hr
      split at hr
      · injection hr with hr; subst hr; trivial
      · exact absurd hr nofun
    | other => injection hr with hr; subst hr; trivial
  | inside m u r =>
    obtain ⟨h1, h2⟩ := h
    cases t with
    | start n as =>
      refine hm _ (fun f => .inside n f ((m, u) :: r)) (fun f hf => ⟨readElem_ok ht hf, fun g hg => ?_⟩) hr
      rcases List.mem_cons.1 hg with rfl | hg
      · exact h1
      · exact h2 g hg
    | fin n =>
      simp only [rstep] at hr
      split at hr
      · split at hr
        · injection hr with hr; subst hr; exact .elem h1.attrs h1.kids
        · next m' v r =>
          injection hr with hr; subst hr
          have hv := h2 (m', v) (by simp)
          refine ⟨⟨hv.attrs, fun n hn => ?_⟩, fun f hf => h2 f (by simp [hf])⟩
          rcases List.mem_append.1 hn with hn | hn
          · exact hv.kids n hn
          · rw [List.mem_singleton.1 hn]; exact .elem h1.attrs h1.kids
      · exact absurd hr nofun
    | chars lit s => injection hr with hr; subst hr; exact ⟨⟨h1.attrs, addText_ok h1.kids ht⟩, h2⟩
    | other =>
      injection hr with hr; subst hr
      refine ⟨⟨h1.attrs, fun n hn => ?_⟩, h2⟩
      rcases List.mem_append.1 hn with hn | hn
      · exact h1.kids n hn
      · rw [List.mem_singleton.1 hn]; exact .other
  | done e =>
    cases t with
    | start n as => exact absurd hr nofun
    | fin n => exact absurd hr nofun
    | chars lit s =>
      simp only [rstep] at hr
      split at hr
      · injection hr with hr; subst hr; exact h
      · exact absurd hr nofun
    | other => injection hr with hr; subst hr; exact h

theorem rsteps_ok {ts : List Tok} {st st' : RState} (h : ROK st) (ht : ∀ t ∈ ts, TokOK t) (hr : rsteps st ts = some st') : ROK st' := by
  induction ts generalizing st with
  | nil => injection hr with hr; subst hr; exact h
  | cons t ts ih =>
    unfold rsteps at hr
    cases h1 : rstep st t with
    | none => rw [h1] at hr; exact absurd hr nofun
    | some st1 =>
      rw [h1] at hr
      exact ih (rstep_ok h (ht t (by simp)) h1) (fun t ht' => ht t (by simp [ht'])) hr

theorem readFrom_ok {s : Str} (hs : XStr s) {l l' : LState} {st st' : RState} (hl : LOK l) (h : ROK st)
    (hr : readFrom l st s = some (l', st')) : ROK st' := by
  induction s generalizing l st with
  | nil => injection hr with hr; injection hr with _ hr; subst hr; exact h
  | cons c s ih =>
    unfold readFrom at hr
    split at hr
    · next l1 ts h1 =>
      obtain ⟨h2, h3⟩ := lexStep_ok hl (hs c (by simp)) _ _ h1
      split at hr
      · next st1 h4 => exact ih (fun d hd => hs d (by simp [hd])) h2 (rsteps_ok h h3 h4) hr
      · exact absurd hr nofun
    · exact absurd hr nofun

theorem normEol_xml {s : Str} (h : XStr s) : XStr (normEol s) := by
  have hn : isXmlChar '\n' = true := by decide
  have hcons : ∀ {c : Char} {t : Str}, isXmlChar c = true → XStr t → XStr (c :: t) := by
    intro c t hc ht d hd
    rcases List.mem_cons.1 hd with rfl | hd
    · exact hc
    · exact ht d hd
  fun_induction normEol s with
  | case1 => exact h
  | case2 cs ih => exact hcons hn (ih fun d hd => h d (by simp [hd]))
  | case3 cs _ ih => exact hcons hn (ih fun d hd => h d (by simp [hd]))
  | case4 c cs _ _ ih => exact hcons (h c (by simp)) (ih fun d hd => h d (by simp [hd]))

theorem afterDecl_xml {s t : Str} (h : XStr s) (ht : afterDecl s = some t) : XStr t := by
  induction s using afterDecl.induct with
  | case1 => exact absurd ht nofun
  | case2 cs => injection ht with ht; subst ht; exact fun d hd => h d (by simp [hd])
  | case3 c cs hne ih =>
    unfold afterDecl at ht
    split at ht
    · exact absurd ht nofun
    · next h' => injection h' with h1 h2; exact (hne _ h1 h2).elim
    · next h' => injection h' with h1 h2; subst h2; exact ih (fun d hd => h d (by simp [hd])) ht

/-- **C67**, characters: a document consists of characters of XML. -/
theorem readXml_chars {s : Str} {e : Elem} (h : readXml s = some e) : ElemAll (fun c => isXmlChar c = true) e := by
  unfold readXml at h
  split at h
  · next hs =>
    have hs : XStr s := List.all_eq_true.1 hs
    have hs := normEol_xml hs
    have hs : XStr (skipBom (normEol s)) := by
      unfold skipBom
      split
      · next h' => exact fun d hd => hs d (by rw [h']; simp [hd])
      · exact hs
    split at h
    · next t ht =>
      have : XStr t := by
        unfold skipDecl at ht
        split at ht
        · next h' =>
          split at ht
          · exact afterDecl_xml (fun d hd => hs d (by rw [h']; simp [hd])) ht
          · injection ht with ht; subst ht; exact hs
        · injection ht with ht; subst ht; exact hs
      split at h
      · next h1 => injection h with h; subst h; exact readFrom_ok this (l := .content 0) (st := .before) trivial trivial h1
      · exact absurd h nofun
    · exact absurd h nofun
  · exact absurd h nofun

/-! ## Values -/

section
variable {x : Ext} {m : Mode} {S : SchemaContext} {p : Char → Prop}

theorem ValAll.and {q : Char → Prop} {v : Val} (h : ValAll p v) (h' : ValAll q v) : ValAll (fun c => p c ∧ q c) v := by
  induction h with
  | str h => cases h' with | str h' => exact .str fun c hc => ⟨h c hc, h' c hc⟩
  | bool b => exact .bool b
  | int i => exact .int i
  | dec n => exact .dec n
  | flt n => exact .flt n
  | unit => exact .unit
  | none => exact .none
  | some _ ih => cases h' with | some h' => exact .some (ih h')
  | vec _ ih => cases h' with | vec h' => exact .vec fun v hv => ih v hv (h' v hv)
  | newtype _ ih => cases h' with | newtype h' => exact .newtype (ih h')
  | struct _ ih => cases h' with | struct h' => exact .struct fun f hf => ih f hf (h' f hf)
  | variant _ ih => cases h' with | variant h' => exact .variant (ih h')
  | enumv n => exact .enumv n

theorem parsePrim_all {t : Prim} {s : Str} (hs : ∀ c ∈ s, p c) {v : Val} (h : parsePrim x t s = some v) : ValAll p v := by
  cases t with
  | string => injection h with h; subst h; exact .str hs
  | bool =>
    simp only [parsePrim] at h
    split at h
    · injection h with h; subst h; exact .bool _
    split at h
    · injection h with h; subst h; exact .bool _
    · exact absurd h nofun
  | i64 => obtain ⟨i, _, rfl⟩ := Option.map_eq_some_iff.1 h; exact .int _
  | u64 => obtain ⟨i, _, rfl⟩ := Option.map_eq_some_iff.1 h; exact .int _
  | i32 => obtain ⟨i, _, rfl⟩ := Option.map_eq_some_iff.1 h; exact .int _
  | decimal => obtain ⟨i, _, rfl⟩ := Option.map_eq_some_iff.1 h; exact .dec _
  | f32 => obtain ⟨i, _, rfl⟩ := Option.map_eq_some_iff.1 h; exact .flt _

theorem textIs_all {e : Elem} (he : ElemAll p e) {s : Str} (h : TextIs m e s) : ∀ c ∈ s, p c := by
  obtain ⟨i, cs⟩ := e
  have hk : ∀ {rest}, cs = .text s :: rest → ∀ c ∈ s, p c := by
    intro rest hc
    subst hc
    cases he with
    | elem _ h =>
      have := h (.text s) (by simp)
      cases this with | text h => exact h
  obtain ⟨st, ne⟩ := m
  cases st with
  | true =>
    rcases h with ⟨_, rfl⟩ | h
    · simp
    · exact hk h
  | false =>
    rcases h with ⟨_, rfl⟩ | ⟨rest, h⟩
    · simp
    · exact hk h

theorem elemKids_all {e : Elem} (he : ElemAll p e) : ∀ c ∈ elemKids e.2, ElemAll p c := by
  intro c hc
  obtain ⟨n, hn, h⟩ := List.mem_filterMap.1 hc
  cases he with
  | elem _ hk =>
    have := hk n hn
    cases n with
    | elem i cs => injection h with h; subst h; exact this
    | text s => exact absurd h nofun
    | other => exact absurd h nofun

theorem merge_mem {as bs cs : List Elem} (h : Merge as bs cs) : (∀ e ∈ as, e ∈ cs) ∧ ∀ e ∈ bs, e ∈ cs := by
  induction h with
  | nil => exact ⟨fun _ h => h, fun _ h => h⟩
  | left _ ih =>
    refine ⟨fun e he => ?_, fun e he => List.mem_cons_of_mem _ (ih.2 e he)⟩
    rcases List.mem_cons.1 he with rfl | he
    · simp
    · exact List.mem_cons_of_mem _ (ih.1 e he)
  | right _ ih =>
    refine ⟨fun e he => List.mem_cons_of_mem _ (ih.1 e he), fun e he => ?_⟩
    rcases List.mem_cons.1 he with rfl | he
    · simp
    · exact List.mem_cons_of_mem _ (ih.2 e he)

theorem cat_mem {L : Prop} {as bs cs : List Elem} (h : Cat L m as bs cs) : (∀ e ∈ as, e ∈ cs) ∧ ∀ e ∈ bs, e ∈ cs := by
  obtain ⟨st, ne⟩ := m
  cases st with
  | true => subst h; exact ⟨fun e he => List.mem_append_left _ he, fun e he => List.mem_append_right _ he⟩
  | false => exact merge_mem h.1

theorem arranged_mem {ls : List Leaf} {es' es : List Elem} (h : Arranged ls es' es) : ∀ e ∈ es', e ∈ es := by
  rcases h with rfl | ⟨_, h⟩
  · exact fun _ h => h
  · intro e he
    have : e ∈ es.filter (fun ch => decide (ch.1.name = e.1.name)) := by
      rw [← h e.1.name]; exact List.mem_filter.2 ⟨he, by simp⟩
    exact (List.mem_filter.1 this).1

abbrev EsAll (p : Char → Prop) (es : List Elem) : Prop := ∀ e ∈ es, ElemAll p e

variable {T : Name → Val → Elem → List Elem → Prop} (hT : ∀ n v e es, ElemAll p e → EsAll p es → T n v e es → ValAll p v)
include hT

theorem rval_all {c : LeafContent} {v : Val} {e : Elem} {es : List Elem} (he : ElemAll p e) (hes : EsAll p es)
    (h : RVal x m S T c v e es) : ValAll p v := by
  obtain ⟨c', _, h⟩ := h
  cases c' with
  | literal t => obtain ⟨s, hs, hp, _⟩ := h; exact parsePrim_all (textIs_all he hs) hp
  | fixed f => obtain ⟨_, rfl, _⟩ := h; exact .unit
  | named n => exact hT _ _ _ _ he hes h

theorem ritem_all {l : Leaf} {v : Val} {e : Elem} {es : List Elem} (he : ElemAll p e) (hes : EsAll p es)
    (h : RItem x m S T l v e es) : ValAll p v := by
  unfold RItem at h
  split at h
  · exact rval_all hT he hes h
  · obtain ⟨ch, rfl, _, es', junk, hc, _, h⟩ := h
    have hch := hes ch (by simp)
    exact rval_all hT hch (fun e h => elemKids_all hch e ((cat_mem hc).1 e h)) h

theorem rmany_all {l : Leaf} {vs : List Val} {e : Elem} {es : List Elem} (he : ElemAll p e) (hes : EsAll p es)
    (h : RMany x m S T l vs e es) : ∀ v ∈ vs, ValAll p v := by
  induction vs generalizing es with
  | nil => simp
  | cons v vs ih =>
    obtain ⟨es1, es2, h1, _, h2, hc⟩ := h
    obtain ⟨hm1, hm2⟩ := cat_mem hc
    intro w hw
    rcases List.mem_cons.1 hw with rfl | hw
    · exact ritem_all hT he (fun e h => hes e (hm1 e h)) h1
    · exact ih (fun e h => hes e (hm2 e h)) h2 w hw

theorem rocc_all {l : Leaf} {v : Val} {e : Elem} {es : List Elem} (he : ElemAll p e) (hes : EsAll p es)
    (h : ROcc x m S T l v e es) : ValAll p v := by
  unfold ROcc at h
  split at h
  · obtain ⟨vs, h1, h2⟩ := h
    have := rmany_all hT he hes h1
    split at h2
    · rcases h2 with ⟨_, rfl⟩ | ⟨_, rfl⟩
      · exact .none
      · exact .some (.vec this)
    · subst h2; exact .vec this
  split at h
  · rcases h with ⟨rfl, _⟩ | ⟨w, rfl, h, _⟩
    · exact .none
    · exact .some (ritem_all hT he hes h)
  · exact ritem_all hT he hes h

theorem rleaves_all {ls : List Leaf} {fs : List (Str × Val)} {e : Elem} {es : List Elem} (he : ElemAll p e) (hes : EsAll p es)
    (h : RLeaves x m S T ls fs e es) : ∀ f ∈ fs, ValAll p f.2 := by
  induction ls generalizing fs es with
  | nil => obtain ⟨rfl, _⟩ := h; simp
  | cons l ls ih =>
    obtain ⟨f, v, fs', es1, es2, rfl, _, h1, h2, hc⟩ := h
    obtain ⟨hm1, hm2⟩ := cat_mem hc
    intro g hg
    rcases List.mem_cons.1 hg with rfl | hg
    · exact rocc_all hT he (fun e h => hes e (hm1 e h)) h1
    · exact ih (fun e h => hes e (hm2 e h)) h2 g hg

theorem rcontent_all {c : Option ElementContent} {fs : List (Str × Val)} {e : Elem} {es : List Elem} (he : ElemAll p e) (hes : EsAll p es)
    (h : RContent x m S T c fs e es) : ∀ f ∈ fs, ValAll p f.2 := by
  unfold RContent at h
  split at h
  · obtain ⟨rfl, _⟩ := h; simp
  · obtain ⟨f, v, rfl, _, h⟩ := h
    intro g hg
    rw [List.mem_singleton.1 hg]; exact rval_all hT he hes h
  · obtain ⟨es', h, ha⟩ := h
    exact rleaves_all hT he (fun e h => hes e (arranged_mem ha e h)) h

omit hT in
theorem rstr_all {c : LeafContent} {s : Str} (hs : ∀ c ∈ s, p c) {v : Val} (h : RStr x m S c s v) : ValAll p v := by
  cases c with
  | literal t => exact parsePrim_all hs h
  | fixed f => obtain ⟨rfl, _⟩ := h; exact .unit
  | named n =>
    obtain ⟨c', _, h⟩ := h
    cases c' with
    | literal t => obtain ⟨_, rfl⟩ := h; exact .str hs
    | fixed f => exact h.elim
    | named n => obtain ⟨_, _, vn, _, _, _, rfl⟩ := h; exact .enumv vn

omit hT in
theorem attrOf_all {e : Elem} (he : ElemAll p e) {n s : Str} (h : attrOf e.1 n = some s) : ∀ c ∈ s, p c := by
  unfold attrOf at h
  obtain ⟨a, ha, rfl⟩ := Option.map_eq_some_iff.1 h
  cases he with
  | elem h _ => exact h a (List.mem_of_find?_eq_some ha)

omit hT in
theorem rattrs_all {as : List Attribute} {fs : List (Str × Val)} {e : Elem} (he : ElemAll p e) (h : RAttrs x m S as fs e) :
    ∀ f ∈ fs, ValAll p f.2 := by
  induction as generalizing fs with
  | nil => cases h; simp
  | cons a as ih =>
    obtain ⟨f, v, fs', rfl, _, h1, h2⟩ := h
    intro g hg
    rcases List.mem_cons.1 hg with rfl | hg
    · split at h2
      · rcases h2 with ⟨rfl, _⟩ | ⟨s, w, hs, rfl, hw⟩
        · exact .none
        · exact .some (rstr_all (attrOf_all he hs) hw)
      · obtain ⟨s, hs, hw⟩ := h2
        exact rstr_all (attrOf_all he hs) hw
    · exact ih h1 g hg

theorem rvariant_all {l : Leaf} {v : Val} {e : Elem} {es : List Elem} (he : ElemAll p e) (hes : EsAll p es)
    (h : RVariant x m S T l v e es) : ValAll p v := by
  unfold RVariant at h
  split at h
  · exact ritem_all hT he hes h.1
  split at h
  · obtain ⟨vs, rfl, _, h⟩ := h; exact .vec (rmany_all hT he hes h)
  · exact ritem_all hT he hes h

theorem rroot_all {r : Root} {v : Val} {e : Elem} {es : List Elem} (he : ElemAll p e) (hes : EsAll p es)
    (h : RRoot x m S T r v e es) : ValAll p v := by
  cases r with
  | leaf d => obtain ⟨w, rfl, h⟩ := h; exact .newtype (rval_all hT he hes h)
  | enum names => obtain ⟨_, vn, _, _, _, _, rfl, _⟩ := h; exact .enumv vn
  | element d =>
    obtain ⟨fc, fa, rfl, h1, h2⟩ := h
    refine .struct fun f hf => ?_
    rcases List.mem_append.1 hf with hf | hf
    · exact rcontent_all hT he hes h1 f hf
    · exact rattrs_all he h2 f hf
  | choice vs b d => obtain ⟨l, _, i, w, _, rfl, h⟩ := h; exact .variant (rvariant_all hT he hes h)

omit hT in
theorem trepr_all (k : Nat) : ∀ n v e es, ElemAll p e → EsAll p es → TRepr x m S k n v e es → ValAll p v := by
  induction k with
  | zero => exact fun _ _ _ _ _ _ h => h.elim
  | succ k ih => exact fun n v e es he hes ⟨r, _, h⟩ => rroot_all ih he hes h

omit hT in
/-- The strings in a value have the characters of the document. -/
theorem docRepr_all {n : Name} {v : Val} {e : Elem} (he : ElemAll p e) (h : DocRepr x m S n v e) : ValAll p v := by
  obtain ⟨_, k, es, junk, hc, _, h⟩ := h
  exact trepr_all k n v e es he (fun c h => elemKids_all he c ((cat_mem hc).1 c h)) h

end
end XmlText
end Xsd
