import Verif.Model.Display
import Verif.Props.SchemaText
import Verif.Props.Enums
import Verif.Props.Faults
import Verif.Props.SchemaTextSample
/-!
# Messages identify errors (C70)
-/
namespace Xsd

/-! ## Cutting messages into their parts -/

/-- Two texts that are a part without `t`, `t`, and a rest. -/
theorem cut_left {t : Char} {a a' r r' : Str} (h : t ∉ a) (h' : t ∉ a') (he : a ++ t :: r = a' ++ t :: r') : a = a' ∧ r = r' := by
  induction a generalizing a' with
  | nil =>
    cases a' with
    | nil => exact ⟨rfl, (List.cons.inj he).2⟩
    | cons c a' => exact absurd (by have := (List.cons.inj he).1; simp [this]) h'
  | cons c a ih =>
    cases a' with
    | nil => exact absurd (by have := (List.cons.inj he).1; simp [this]) h
    | cons c' a' =>
      obtain ⟨h1, h2⟩ := List.cons.inj he
      obtain ⟨h3, h4⟩ := ih (a' := a') (fun hc => h (.tail _ hc)) (fun hc => h' (.tail _ hc)) h2
      exact ⟨by rw [h1, h3], h4⟩

/-- The same from the other end. -/
theorem cut_right {t : Char} {a a' r r' : Str} (h : t ∉ r) (h' : t ∉ r') (he : a ++ t :: r = a' ++ t :: r') : a = a' ∧ r = r' := by
  have he := congrArg List.reverse he
  simp only [List.reverse_append, List.reverse_cons, List.append_assoc, List.singleton_append] at he
  obtain ⟨h1, h2⟩ := cut_left (by simpa using h) (by simpa using h') he
  exact ⟨List.reverse_inj.1 h2, List.reverse_inj.1 h1⟩

/-- Two fields in backticks, the second one without a backtick. -/
theorem cut_fields {m a a' b b' : Str} (h : '`' ∉ b) (h' : '`' ∉ b') (he : a ++ '`' :: (m ++ '`' :: (b ++ ['`'])) = a' ++ '`' :: (m ++ '`' :: (b' ++ ['`']))) :
    a = a' ∧ b = b' := by
  have he : ((a ++ '`' :: m) ++ '`' :: b) ++ ['`'] = ((a' ++ '`' :: m) ++ '`' :: b') ++ ['`'] := by simpa using he
  obtain ⟨h1, h2⟩ := cut_right h h' (List.append_cancel_right he)
  exact ⟨List.append_cancel_right h1, h2⟩

theorem showNat_not_mem {t : Char} (ht : ∀ d, d < 10 → digitChar d ≠ t) (n : Nat) : t ∉ showNat n := by
  intro h
  obtain ⟨d, hd, he⟩ := showNat_all_digits _ _ _ h
  exact ht d hd he.symm

theorem showNat_space (n : Nat) : ' ' ∉ showNat n := showNat_not_mem (by decide) n

/-! ## Schema errors -/

/-- The error without the offset. (The message has the row and the column instead.) -/
def XErr.said : XErr → XErr
  | .xml => .xml
  | .missingChild n _ => .missingChild n 0
  | .missingAttribute n e _ => .missingAttribute n e 0
  | .textExpected n _ => .textExpected n 0
  | .unsupportedAttribute n e _ => .unsupportedAttribute n e 0
  | .unsupportedChild n p _ => .unsupportedChild n p 0
  | .unsupportedElement n _ => .unsupportedElement n 0
  | .unsupportedAttributeValue n v e _ => .unsupportedAttributeValue n v e 0
  | .unexpectedAttribute n e _ => .unexpectedAttribute n e 0
  | .missingElement n p _ => .missingElement n p 0
  | .missingNamespace p _ => .missingNamespace p 0
  | .parseInt _ => .parseInt 0
  | .parseDecimal _ => .parseDecimal 0
  | .unsupportedType n _ => .unsupportedType n 0

/-- The names of elements and attributes in the error have no backtick. (Names of XML never have one.) -/
def XErr.Plain : XErr → Prop
  | .missingAttribute _ e _ => '`' ∉ e
  | .unsupportedAttribute _ e _ => '`' ∉ e
  | .unsupportedChild _ p _ => '`' ∉ p
  | .unsupportedAttributeValue n _ e _ => '`' ∉ n ∧ '`' ∉ e
  | .unexpectedAttribute _ e _ => '`' ∉ e
  | .missingElement _ p _ => '`' ∉ p
  | _ => True

variable {dbg : Str → Str} {inner inner' : Str}

theorem XErr.message_inj {e e' : XErr} (h : e.Plain) (h' : e'.Plain) (he : e.message dbg inner = e'.message dbg inner') : e.said = e'.said := by
  cases e <;> cases e' <;> simp [XErr.message, nodeMessage] at he <;> simp only [XErr.said]
  case missingAttribute.missingAttribute n a _ n' a' _ =>
    obtain ⟨rfl, rfl⟩ := cut_fields (m := c!" on element ") h h' (by simpa using he)
    rfl
  case unsupportedAttribute.unsupportedAttribute n a _ n' a' _ =>
    obtain ⟨rfl, rfl⟩ := cut_fields (m := c!" in ") h h' (by simpa using he)
    rfl
  case unsupportedChild.unsupportedChild n a _ n' a' _ =>
    obtain ⟨rfl, rfl⟩ := cut_fields (m := c!" in ") h h' (by simpa using he)
    rfl
  case unexpectedAttribute.unexpectedAttribute n a _ n' a' _ =>
    obtain ⟨rfl, rfl⟩ := cut_fields (m := c!" in ") h h' (by simpa using he)
    rfl
  case missingElement.missingElement n a _ n' a' _ =>
    obtain ⟨rfl, rfl⟩ := cut_fields (m := c!" in ") h h' (by simpa using he)
    rfl
  case unsupportedAttributeValue.unsupportedAttributeValue n v a _ n' v' a' _ =>
    have he : (v ++ '`' :: (c!" for attribute " ++ '`' :: n)) ++ '`' :: (c!" in " ++ '`' :: (a ++ ['`'])) =
        (v' ++ '`' :: (c!" for attribute " ++ '`' :: n')) ++ '`' :: (c!" in " ++ '`' :: (a' ++ ['`'])) := by simpa using he
    obtain ⟨h1, rfl⟩ := cut_fields h.2 h'.2 he
    obtain ⟨rfl, rfl⟩ := cut_fields (m := c!" for attribute ") (a := v) (a' := v') h.1 h'.1 (by
      have := congrArg (· ++ ['`']) h1
      simpa using this)
    rfl
  all_goals first | rfl | (subst he; rfl)

/-- The error without the offset. -/
def SErr.said : SErr → SErr
  | .xsd e file row col => .xsd e.said file row col
  | .openFile file => .openFile file
  | .notFound n => .notFound n

/-- The names of elements and attributes in the error have no backtick, and the path does not have the character that ends it in
the message. -/
def SErr.Plain : SErr → Prop
  | .xsd e file _ _ => e.Plain ∧ ')' ∉ file
  | .openFile file => ':' ∉ file
  | .notFound _ => True

theorem SErr.message_pos {e e' : XErr} {file file' : Str} {row row' col col' : Nat}
    (he : (SErr.xsd e file row col).message dbg inner = (SErr.xsd e' file' row' col').message dbg inner') :
    row = row' ∧ col = col' ∧ file ++ c!"): " ++ e.message dbg inner = file' ++ c!"): " ++ e'.message dbg inner' := by
  simp only [SErr.message, List.append_assoc, List.append_cancel_left_eq] at he
  obtain ⟨h1, h2⟩ := cut_left (t := ' ') (showNat_space row) (showNat_space row') he
  have h2 : showNat col ++ ' ' :: (c!"in " ++ (file ++ (c!"): " ++ e.message dbg inner))) =
      showNat col' ++ ' ' :: (c!"in " ++ (file' ++ (c!"): " ++ e'.message dbg inner'))) := by simpa using h2
  obtain ⟨h3, h4⟩ := cut_left (showNat_space col) (showNat_space col') h2
  refine ⟨showNat_inj h1, showNat_inj h3, ?_⟩
  simpa using h4

theorem SErr.message_inj {e e' : SErr} (h : e.Plain) (h' : e'.Plain) (he : e.message dbg inner = e'.message dbg inner') :
    e.said = e'.said := by
  cases e with
  | xsd e file row col =>
    cases e' with
    | xsd e' file' row' col' =>
      obtain ⟨rfl, rfl, h1⟩ := SErr.message_pos he
      obtain ⟨rfl, h2⟩ := cut_left (t := ')') h.2 h'.2 (by simpa using h1)
      have h2 : e.message dbg inner = e'.message dbg inner' := by simpa using h2
      simp only [SErr.said, XErr.message_inj h.1 h'.1 h2]
    | openFile file' => simp [SErr.message] at he
    | notFound n => simp [SErr.message] at he
  | openFile file =>
    cases e' with
    | xsd e' file' row' col' => simp [SErr.message] at he
    | openFile file' =>
      obtain ⟨rfl, _⟩ := cut_left (t := ':') (a := file) (a' := file') (r := ' ' :: inner) (r' := ' ' :: inner') h h' (by simpa [SErr.message] using he)
      rfl
    | notFound n => simp [SErr.message] at he
  | notFound n =>
    cases e' with
    | xsd e' file' row' col' => simp [SErr.message] at he
    | openFile file' => simp [SErr.message] at he
    | notFound n' => simp [SErr.message] at he; rw [he]

/-! ## Names in documents have no backtick -/

namespace XmlText

/-- The names in the start tag are names. -/
def InfoNamed (i : ElemInfo) : Prop := isNCName i.name.loc = true ∧ ∀ a ∈ i.attrs, isNCName a.loc = true

/-- All names are names. -/
inductive NodeNamed : XNode → Prop where
  | elem {i cs} (h : InfoNamed i) (hs : ∀ c ∈ cs, NodeNamed c) : NodeNamed (.elem i cs)
  | text (t) : NodeNamed (.text t)
  | other : NodeNamed .other

/-- The same for an open element. -/
def FrameNamed (f : Frame) : Prop := InfoNamed f.info ∧ ∀ c ∈ f.kids, NodeNamed c

/-- The same for what has been read. -/
def StateNamed : RState → Prop
  | .before => True
  | .inside _ t r => FrameNamed t ∧ ∀ f ∈ r, FrameNamed f.2
  | .done e => NodeNamed (.elem e.1 e.2)

theorem addText_named {k : List XNode} {t : Str} (h : ∀ c ∈ k, NodeNamed c) : ∀ c ∈ addText k t, NodeNamed c := by
  intro c hc
  unfold addText at hc
  split at hc
  · exact h c hc
  · split at hc <;>
      rcases List.mem_append.1 hc with hc | hc
    · exact h c (List.dropLast_subset _ hc)
    · simp only [List.mem_singleton] at hc; subst hc; exact .text _
    · exact h c hc
    · simp only [List.mem_singleton] at hc; subst hc; exact .text _

theorem qName_local {n p l : Str} (h : isQName n = true) (hs : splitColon n = some (p, l)) : isNCName l = true := by
  unfold isQName at h
  rw [hs] at h
  simp only [Bool.and_eq_true] at h
  exact h.2

theorem qName_ncName {n : Str} (h : isQName n = true) (hs : splitColon n = none) : isNCName n = true := by
  unfold isQName at h
  rw [hs] at h
  exact h

theorem readElem_named {sc : Scope} {n : Str} {raw : List (Str × Str)} {f : Frame} (h : readElem sc n raw = some f) : FrameNamed f := by
  unfold readElem at h
  simp only at h
  split at h
  · next hc =>
    obtain ⟨c1, c2, _, _⟩ := hc
    have c2 : ∀ a ∈ raw, isQName a.1 = true := by simpa [List.all_eq_true] using c2
    split at h
    · next q xs h1 h2 =>
      split at h
      · cases h
        refine ⟨⟨?_, ?_⟩, by simp⟩
        · unfold resolveName at h1
          split at h1
          · next hs =>
            rw [Option.map_eq_some_iff] at h1
            obtain ⟨u, _, rfl⟩ := h1
            exact qName_local c1 hs
          · next hs => split at h1 <;> (cases h1; exact qName_ncName c1 hs)
        · have gen : ∀ (l : List (Str × Str)) (xs : List XAttr), (∀ a ∈ l, isQName a.1 = true) → readAttrs (raw.filterMap (fun a => (nsDecl a.1).map (fun p => (p, a.2))) ++ sc) l = some xs →
              ∀ a ∈ xs, isNCName a.loc = true := by
            intro l
            induction l with
            | nil => intro xs _ h; simp [readAttrs] at h; subst h; simp
            | cons a l ih =>
              intro xs hq h
              simp only [readAttrs] at h
              split at h
              · next y ys g1 g2 =>
                cases h
                intro b hb
                rcases List.mem_cons.1 hb with rfl | hb
                · unfold readAttr at g1
                  split at g1
                  · next hs =>
                    rw [Option.map_eq_some_iff] at g1
                    obtain ⟨u, _, rfl⟩ := g1
                    exact qName_local (hq a (.head _)) hs
                  · next hs => cases g1; exact qName_ncName (hq a (.head _)) hs
                · exact ih ys (fun a ha => hq a (.tail _ ha)) g2 b hb
              · cases h
          exact gen _ _ (fun a ha => c2 a (List.mem_filter.1 ha).1) h2
      · cases h
    · cases h
  · cases h

theorem rstep_named {st st' : RState} {t : Tok} (h : StateNamed st) (hs : rstep st t = some st') : StateNamed st' := by
  unfold rstep at hs
  split at hs
  · rw [Option.map_eq_some_iff] at hs
    obtain ⟨f, hf, rfl⟩ := hs
    exact ⟨readElem_named hf, by simp⟩
  · cases hs
  · split at hs <;> cases hs; trivial
  · cases hs; trivial
  · rw [Option.map_eq_some_iff] at hs
    obtain ⟨f, hf, rfl⟩ := hs
    refine ⟨readElem_named hf, ?_⟩
    intro g hg
    rcases List.mem_cons.1 hg with rfl | hg
    · exact h.1
    · exact h.2 g hg
  · split at hs
    · split at hs
      · cases hs
        exact .elem h.1.1 h.1.2
      · cases hs
        refine ⟨⟨(h.2 _ (.head _)).1, ?_⟩, fun g hg => h.2 g (.tail _ hg)⟩
        intro c hc
        rcases List.mem_append.1 hc with hc | hc
        · exact (h.2 _ (.head _)).2 c hc
        · simp only [List.mem_singleton] at hc; subst hc; exact .elem h.1.1 h.1.2
    · cases hs
  · cases hs; exact ⟨⟨h.1.1, addText_named h.1.2⟩, h.2⟩
  · cases hs
    refine ⟨⟨h.1.1, ?_⟩, h.2⟩
    intro c hc
    rcases List.mem_append.1 hc with hc | hc
    · exact h.1.2 c hc
    · simp only [List.mem_singleton] at hc; subst hc; exact .other
  · cases hs
  · cases hs
  · split at hs <;> cases hs; exact h
  · cases hs; exact h

theorem placeAttrs_named {as : List XAttr} {ps : List Nat} (h : ∀ a ∈ as, isNCName a.loc = true) : ∀ a ∈ placeAttrs as ps, isNCName a.loc = true := by
  induction as generalizing ps with
  | nil => cases ps <;> simp [placeAttrs]
  | cons b as ih =>
    cases ps with
    | nil => simpa [placeAttrs] using h
    | cons p ps =>
      intro a ha
      rcases List.mem_cons.1 ha with rfl | ha
      · exact h b (.head _)
      · exact ih (fun a ha => h a (.tail _ ha)) a ha

theorem placeTop_named {m : Marks} {raw : List (Str × Str)} {st : RState} (h : StateNamed st) : StateNamed (placeTop m raw st) := by
  cases st with
  | inside n t r => exact ⟨⟨⟨h.1.1.1, placeAttrs_named h.1.1.2⟩, h.1.2⟩, h.2⟩
  | _ => exact h

theorem rstepAt_named {m : Marks} {st st' : RState} {t : Tok} (h : StateNamed st) (hs : rstepAt m st t = some st') : StateNamed st' := by
  unfold rstepAt at hs
  split at hs
  · rw [Option.map_eq_some_iff] at hs
    obtain ⟨s, hs, rfl⟩ := hs
    exact placeTop_named (rstep_named h hs)
  · exact rstep_named h hs

theorem rstepsAt_named {m : Marks} {st st' : RState} {ts : List Tok} (h : StateNamed st) (hs : rstepsAt m st ts = some st') : StateNamed st' := by
  induction ts generalizing st with
  | nil => cases hs; exact h
  | cons t ts ih =>
    simp only [rstepsAt, Option.bind_eq_some_iff] at hs
    obtain ⟨s, h1, h2⟩ := hs
    exact ih (rstepAt_named h h1) h2

theorem readFromAt_named {l l' : LState} {m : Marks} {st st' : RState} {cs : List (Char × Nat)} (h : StateNamed st)
    (hs : readFromAt l m st cs = some (l', st')) : StateNamed st' := by
  induction cs generalizing l m st with
  | nil => cases hs; exact h
  | cons c cs ih =>
    obtain ⟨c, p⟩ := c
    simp only [readFromAt] at hs
    split at hs
    · split at hs
      · next h1 => exact ih (rstepsAt_named h h1) hs
      · cases hs
    · cases hs

theorem readXmlAt_named {s : Str} {e : Elem} (h : readXmlAt s = some e) : NodeNamed (.elem e.1 e.2) := by
  unfold readXmlAt at h
  split at h
  · simp only at h
    split at h
    · split at h
      · next h1 =>
        cases h
        exact readFromAt_named (st := .before) trivial h1
      · cases h
    · cases h
  · cases h

theorem NodeNamed.inside {root e : Elem} (h : NodeNamed (.elem root.1 root.2)) (hi : Inside root e) : InfoNamed e.1 := by
  induction hi with
  | refl e => cases h with | elem h _ => exact h
  | kid hk _ ih => cases h with | elem _ hs => exact ih (hs _ hk)

theorem ncName_no_tick {n : Str} (h : isNCName n = true) : '`' ∉ n := by
  intro hc
  obtain ⟨c, cs, rfl, h1, h2⟩ := ncName_cons h
  rcases List.mem_cons.1 hc with rfl | hc
  · revert h1; decide
  · have := h2 _ hc
    revert this; decide

end XmlText

theorem Blames.plain {x : Ext} {root : Elem} {err : XErr} {e : Elem} (h : Blames x root err e) (hn : XmlText.InfoNamed e.1) : err.Plain := by
  have h1 := XmlText.ncName_no_tick hn.1
  cases err <;> simp only [XErr.Plain]
  case missingAttribute => exact h.2.1 ▸ h1
  case unsupportedAttribute => exact h.1 ▸ h1
  case unsupportedChild => exact h.1 ▸ h1
  case unsupportedAttributeValue =>
    obtain ⟨rfl, a, ha, rfl, _⟩ := h
    exact ⟨XmlText.ncName_no_tick (hn.2 a ha), h1⟩
  case unexpectedAttribute => exact h.2.1 ▸ h1
  case missingElement => exact h.2.1 ▸ h1

/-! ## C70 -/

/-- The path in a message ends where it should. -/
def SErr.PlainPath : SErr → Prop
  | .xsd _ file _ _ => ')' ∉ file
  | .openFile file => ':' ∉ file
  | .notFound _ => True

theorem LocatedText.plain {x : Ext} {T : TextFiles} {path : Str} {e : SErr} (h : LocatedText x T path e) (hp : e.PlainPath) : e.Plain := by
  cases e with
  | xsd err file row col =>
    refine ⟨?_, hp⟩
    obtain ⟨_, s, _, ⟨rfl, _⟩ | ⟨root, el, _, h1, h2, h3, _⟩⟩ := h
    · trivial
    · exact h3.plain ((XmlText.readXmlAt_named h1).inside h2)
  | openFile file => exact hp
  | notFound n => trivial

/-- **C70** (schemas): if two sets of files make the parser fail, and the two messages are the same, then it is the same error: the same
file, row, column and kind, with the same names and values in it. The paths in the messages must not contain the character
that ends them there (`C70_paths_needed`). -/
theorem C70_schema {x x' : Ext} {T T' : TextFiles} {k k' : Nat} {path path' : Str} {e e' : SErr} (h : parseFile x T.files k path = .err e)
    (h' : parseFile x' T'.files k' path' = .err e') (hp : e.PlainPath) (hp' : e'.PlainPath)
    (he : e.message dbg inner = e'.message dbg inner') : e.said = e'.said :=
  SErr.message_inj ((C68 x T k path e h).plain hp) ((C68 x' T' k' path' e' h').plain hp') he

/-- **C70** (positions): the row and the column can be read off every message, whatever the path and the error. -/
theorem C70_position {e e' : XErr} {file file' : Str} {row row' col col' : Nat}
    (he : (SErr.xsd e file row col).message dbg inner = (SErr.xsd e' file' row' col').message dbg inner') : row = row' ∧ col = col' :=
  ⟨(SErr.message_pos he).1, (SErr.message_pos he).2.1⟩

/-- **C70** (macro): the same for the messages of the macro. The three kinds of errors never have the same message. -/
theorem C70_macro {e e' : MacroErr} (h : ∀ s, e = .schema s → s.Plain) (h' : ∀ s, e' = .schema s → s.Plain)
    (he : e.message dbg inner = e'.message dbg inner') :
    (∀ s, e = .schema s → ∃ s', e' = .schema s' ∧ s.said = s'.said) ∧ ((∀ s, e ≠ .schema s) → e = e') := by
  cases e with
  | schema s =>
    refine ⟨?_, fun hn => absurd rfl (hn s)⟩
    rintro _ ⟨⟩
    cases e' with
    | schema s' => exact ⟨s', rfl, SErr.message_inj (h s rfl) (h' s' rfl) he⟩
    | _ => cases s <;> simp [MacroErr.message, SErr.message] at he
  | _ =>
    refine ⟨fun s hs => (by cases hs), fun _ => ?_⟩
    cases e' with
    | schema s' => cases s' <;> simp [MacroErr.message, SErr.message] at he
    | _ => first | rfl | simp [MacroErr.message] at he

/-- Names, types and fixed values do not have the character that ends them in the message. -/
def DErr.Plain : DErr → Prop
  | .missingElement n _ => ' ' ∉ n
  | .parseType t _ => ' ' ∉ t
  | .fixedMismatch e _ => '`' ∉ e
  | _ => True

/-- **C70** (documents): the message of a decoding error determines the error. The text that a number parser adds must not contain a colon. -/
theorem C70_decode (hd : ∀ a b, dbg a = dbg b → a = b) {e e' : TextErr} (h : ∀ d, e = .decode d → d.Plain) (h' : ∀ d, e' = .decode d → d.Plain)
    (hi : ':' ∉ inner) (hi' : ':' ∉ inner') (he : e.message dbg inner = e'.message dbg inner') : e = e' := by
  cases e with
  | xml =>
    cases e' with
    | xml => rfl
    | decode d => cases d <;> simp [TextErr.message, DErr.message] at he
  | decode d =>
    cases e' with
    | xml => cases d <;> simp [TextErr.message, DErr.message] at he
    | decode d' =>
      replace h := h d rfl
      replace h' := h' d' rfl
      cases d <;> cases d' <;> simp [TextErr.message, DErr.message] at he
      case missingElement.missingElement n ns n' ns' =>
        obtain ⟨rfl, h1⟩ := cut_left (t := ' ') h h' (by simpa using he)
        have h1 : debugOption dbg ns = debugOption dbg ns' := by simpa using h1
        cases ns with
        | none =>
          cases ns' with
          | none => rfl
          | some b => simp [debugOption] at h1
        | some a =>
          cases ns' with
          | none => simp [debugOption] at h1
          | some b => simp [debugOption] at h1; rw [hd a b h1]
      case parseType.parseType t v t' v' =>
        obtain ⟨rfl, h1⟩ := cut_left (t := ' ') h h' (by simpa using he)
        have h1 : v ++ ':' :: ' ' :: inner = v' ++ ':' :: ' ' :: inner' := by simpa using h1
        obtain ⟨rfl, _⟩ := cut_right (by simpa using hi) (by simpa using hi') h1
        rfl
      case fixedMismatch.fixedMismatch a r a' r' =>
        obtain ⟨rfl, h1⟩ := cut_left (t := '`') h h' (by simpa using he)
        have h1 : r = r' := by simpa using h1
        rw [h1]
      all_goals rw [he]

/-- No name of an element has a space, and no fixed value a backtick. -/
structure PlainSchema (S : SchemaContext) : Prop where
  name : ∀ n r l, S.get n = some r → l ∈ r.leaves → ' ' ∉ l.name.name
  fixed : ∀ n r f, S.get n = some r → r.value = some (.fixed f) ∨ (∃ l ∈ r.leaves, l.definition.content = .fixed f) → '`' ∉ f

/-- `PlainSchema`, decided. -/
def plainB (S : SchemaContext) : Bool :=
  S.elements.all (fun p => p.2.leaves.all (fun l => !l.name.name.contains ' ' &&
      (match l.definition.content with | .fixed f => !f.contains '`' | _ => true)) &&
    (match p.2.value with | some (.fixed f) => !f.contains '`' | _ => true))

theorem plainB_sound {S : SchemaContext} (h : plainB S = true) : PlainSchema S := by
  have mem : ∀ n r, S.get n = some r → (r.leaves.all (fun l => !l.name.name.contains ' ' &&
      (match l.definition.content with | .fixed f => !f.contains '`' | _ => true)) &&
    (match r.value with | some (.fixed f) => !f.contains '`' | _ => true)) = true := by
    intro n r hg
    exact List.all_eq_true.1 h _ (alookup_mem hg)
  constructor
  · intro n r l hg hl
    have := mem n r hg
    simp only [Bool.and_eq_true, List.all_eq_true] at this
    simpa using (this.1 l hl).1
  · intro n r f hg hf
    have := mem n r hg
    simp only [Bool.and_eq_true, List.all_eq_true] at this
    rcases hf with hf | ⟨l, hl, hf⟩
    · have := this.2
      rw [hf] at this
      simpa using this
    · have := (this.1 l hl).2
      rw [hf] at this
      simpa using this

section
variable {x : Ext} {S : SchemaContext}

theorem At.content {n : Name} {e0 : Elem} {c : LeafContent} {e : Elem} {rest : List Elem} (h : At x S n e0 c e rest) :
    c = .named n ∨ ∃ m r, S.get m = some r ∧ (r.value = some c ∨ ∃ l ∈ r.leaves, l.definition.content = c) := by
  have turn : ∀ {m e rest l rest'}, Turn x S m e rest l rest' → ∃ r, S.get m = some r ∧ l ∈ r.leaves := by
    intro m e rest l rest' ht
    cases ht with
    | field hg hd _ _ => exact ⟨_, hg, by simp [Root.leaves, hd]⟩
    | variant hg _ _ _ _ => exact ⟨_, hg, by simp [Root.leaves]⟩
  cases h with
  | root => exact .inl rfl
  | value h hg hc => exact .inr ⟨_, _, hg, .inl hc⟩
  | group h ht hv ho =>
    obtain ⟨r, h1, h2⟩ := turn ht
    exact .inr ⟨_, r, h1, .inr ⟨_, h2, rfl⟩⟩
  | child h ht hv hq hr hf ho =>
    obtain ⟨r, h1, h2⟩ := turn ht
    exact .inr ⟨_, r, h1, .inr ⟨_, h2, rfl⟩⟩

theorem Means.fixed_content {c : LeafContent} {f : Str} (h : Means S c (.fixed f)) :
    c = .fixed f ∨ ∃ m r, S.get m = some r ∧ r.value = some (.fixed f) := by
  generalize hc : LeafContent.fixed f = c' at h
  induction h with
  | literal t => cases hc
  | fixed s => cases hc; exact .inl rfl
  | alias h _ ih =>
    rcases ih hc with h1 | h1
    · exact .inr ⟨_, _, h, by simp [Root.value, h1]⟩
    · exact .inr h1
  | name h => cases hc

theorem xsdName_space (t : LiteralType) : ' ' ∉ t.xsdName := by cases t <;> decide

theorem expanded_loc {n : Name} {q : QName} (h : S.expanded n = .ok q) : q.loc = n.name := by
  unfold SchemaContext.expanded at h
  split at h <;> cases h
  rfl

theorem Faults.plain (hs : PlainSchema S) {n : Name} {e0 : Elem} {E : DErr} (h : Faults x S n e0 E) : E.Plain := by
  cases h with
  | element h hg hd _ _ _ _ hq _ =>
    simp only [DErr.Plain, expanded_loc hq]
    exact hs.name _ _ _ hg (by simp [Root.leaves, hd])
  | literal => exact xsdName_space _
  | attrLiteral => exact xsdName_space _
  | fixed h hc _ _ =>
    simp only [DErr.Plain]
    rcases hc.fixed_content with rfl | ⟨m, r, h1, h2⟩
    · rcases h.content with h1 | ⟨m, r, h1, h2⟩
      · cases h1
      · exact hs.fixed m r _ h1 h2
    · exact hs.fixed m r _ h1 (.inl h2)
  | _ => trivial

/-- **C70** (decoding): if two calls of `from_xml` fail with the same message, it is the same error; for every two generated modules in which groups are groups, whose element
names have no spaces and whose fixed values have no backticks, every two types and documents. -/
theorem C70_from_xml (hd : ∀ a b, dbg a = dbg b → a = b) (hi : ':' ∉ inner) (hi' : ':' ∉ inner')
    {P : List TypeDef} (G : Generated x S P) (hG : LooksAtGroups x S) (hs : PlainSchema S) {n : Name} {i : Str} {q : QName}
    (hn : typeIdent x n = .ok i) (hm : (S.get n).isSome = true) (hq : S.expanded n = .ok q) (hsp : ' ' ∉ n.name) {d : Doc} {E : DErr}
    (h : FromXml x P i d (.err E))
    {x' : Ext} {S' : SchemaContext} {P' : List TypeDef} (G' : Generated x' S' P') (hG' : LooksAtGroups x' S') (hs' : PlainSchema S') {n' : Name} {i' : Str} {q' : QName}
    (hn' : typeIdent x' n' = .ok i') (hm' : (S'.get n').isSome = true) (hq' : S'.expanded n' = .ok q') (hsp' : ' ' ∉ n'.name) {d' : Doc} {E' : DErr}
    (h' : FromXml x' P' i' d' (.err E')) (he : E.message dbg inner = E'.message dbg inner') : E = E' := by
  have h1 : E.Plain := by
    rcases C66_faults G hG hn hm hq h with ⟨_, rfl⟩ | ⟨_, hf⟩
    · simp only [DErr.Plain, expanded_loc hq]; exact hsp
    · exact hf.plain hs
  have h2 : E'.Plain := by
    rcases C66_faults G' hG' hn' hm' hq' h' with ⟨_, rfl⟩ | ⟨_, hf⟩
    · simp only [DErr.Plain, expanded_loc hq']; exact hsp'
    · exact hf.plain hs'
  exact TextErr.decode.inj (C70_decode (e := .decode E) (e' := .decode E') hd (by rintro _ ⟨⟩; exact h1) (by rintro _ ⟨⟩; exact h2) hi hi' he)

end

/-! ## Concrete cases -/

/-- A simple `{:?}`: the string in quotes. -/
def quoted (s : Str) : Str := '"' :: s ++ ['"']

namespace SchemaTextSample

example : (errorOf c!"main.xsd").map (SErr.message quoted []) = some
    c!"Error on line 2 (offset 28 in types.xsd): Error traversing XML tree: Encountered unsupported element `group` in `complexType`" := by
  decide +kernel

example : (errorOf c!"none.xsd").map (SErr.message quoted c!"No such file") = some c!"Failed to load XSD include none.xsd: No such file" := by
  decide +kernel

/-- The hypotheses of `C70_schema` hold for the errors of these files. -/
example : ∀ p ∈ [c!"main.xsd", c!"attr.xsd", c!"prefix.xsd", c!"broken.xsd", c!"none.xsd"], ∃ e, errorOf p = some e ∧ e.PlainPath := by
  intro p hp
  simp only [List.mem_cons, List.not_mem_nil, or_false] at hp
  rcases hp with rfl | rfl | rfl | rfl | rfl
  · exact ⟨.xsd (.unsupportedChild c!"group" c!"complexType" 84) c!"types.xsd" 2 28, by decide +kernel, by simp [SErr.PlainPath]⟩
  · exact ⟨.xsd (.unsupportedAttribute c!"block" c!"element" 86) c!"attr.xsd" 3 18, by decide +kernel, by simp [SErr.PlainPath]⟩
  · exact ⟨.xsd (.missingNamespace c!"b" 78) c!"prefix.xsd" 2 23, by decide +kernel, by simp [SErr.PlainPath]⟩
  · exact ⟨.xsd .xml c!"broken.xsd" 1 4, by decide +kernel, by simp [SErr.PlainPath]⟩
  · exact ⟨.openFile c!"none.xsd", by decide +kernel, by simp [SErr.PlainPath]⟩

end SchemaTextSample

/-- A schema with a type that is not supported. -/
def oddType (t : Str) : Str :=
  c!"<xs:schema xmlns:xs=\"http://www.w3.org/2001/XMLSchema\"><xs:element name=\"a\" type=\"xs:" ++ t ++ c!"\"/></xs:schema>"

/-- Two files whose paths differ, one of them with a closing parenthesis in it. -/
def oddFiles : TextFiles where
  read p := alookup [(c!"a", oddType c!"x): Unsupported XSD type y"), (c!"a): Unsupported XSD type x", oddType c!"y")] p
  parent _ := []
  push _ l := l
  err _ := (1, 1)

/-- The parser fails with this error. -/
def errsWith (F : Files) (k : Nat) (path : Str) (e : SErr) : Bool :=
  match parseFile sampleExt F k path with
  | .err e' => e' = e
  | _ => false

theorem errsWith_sound {F : Files} {k : Nat} {path : Str} {e : SErr} (h : errsWith F k path e = true) : parseFile sampleExt F k path = .err e := by
  unfold errsWith at h
  split at h
  · next h' => rw [h', of_decide_eq_true h]
  · cases h

/-- The condition on paths in `C70_schema` is needed: two files whose errors have the same message and name different files and types. -/
theorem C70_paths_needed : ∃ e e', parseFile sampleExt oddFiles.files 1 c!"a" = .err e ∧
    parseFile sampleExt oddFiles.files 1 c!"a): Unsupported XSD type x" = .err e' ∧
    e.message quoted [] = e'.message quoted [] ∧ e.said ≠ e'.said := by
  exact ⟨.xsd (.unsupportedType c!"x): Unsupported XSD type y" 76) c!"a" 1 77,
    .xsd (.unsupportedType c!"y" 76) c!"a): Unsupported XSD type x" 1 77, errsWith_sound (by decide +kernel), errsWith_sound (by decide +kernel),
    by decide +kernel, by decide +kernel⟩

/-- So is the condition on fixed values in `C70_decode`. -/
theorem C70_fixed_needed : ∃ e e' : DErr, e.message quoted [] = e'.message quoted [] ∧ e ≠ e' :=
  ⟨.fixedMismatch c!"a" c!"b`, but received `c", .fixedMismatch c!"a`, but received `b" c!"c", by decide +kernel, by decide +kernel⟩

namespace Sample2
open Sample (nm)

theorem sch_plain : PlainSchema sch := plainB_sound (by decide +kernel)

/-- The hypotheses of `C70_from_xml` hold for the sample schema and its documents. -/
example (he : (DErr.missingElement c!"y" (some c!"urn:a")).message quoted [] = (DErr.parseType LiteralType.int32.xsdName c!"four").message quoted c!"invalid digit") :
    DErr.missingElement c!"y" (some c!"urn:a") = DErr.parseType LiteralType.int32.xsdName c!"four" :=
  C70_from_xml (dbg := quoted) (by intro a b h; simpa [quoted] using h) (by simp) (by simp)
    generated groups.look sch_plain (n := nm c!"Pick") (by rfl) (by rfl) (by rfl) (by decide) noY_fails
    generated groups.look sch_plain (n' := nm c!"Pair") (by rfl) (by rfl) (by rfl) (by decide) notInt_fails he

end Sample2

end Xsd
