import Verif.Lemmas.Blame
import Verif.Props.Terminates
/-!
# Errors are attributed to the right file and position (C41)
-/
namespace Xsd

/-- The error is located: it names the file and the position where the problem is.

* An error of the parser names a file that is reached, and says something true about an element of the document in that file; row and column
  are those of the element, or of the attribute or child that is meant.
* For text that is not XML, the position is the one that the XML parser reports for that file.
* A file that cannot be read is reached and cannot be read. -/
def Located (x : Ext) (F : Files) (path : Str) : SErr → Prop
  | .xsd err file row col => Reached F path file ∧
    ((∃ d e n, F.read file = some (.doc d) ∧ Inside d.root e ∧ Blames x d.root err e ∧ err.start = some n ∧ d.pos n = (row, col)) ∨
      (err = .xml ∧ F.read file = some (.malformed row col)))
  | .openFile file => Reached F path file ∧ F.read file = none
  | .notFound _ => False

theorem Blames.start {x : Ext} {root : Elem} {err : XErr} {e : Elem} (h : Blames x root err e) : ∃ n, err.start = some n := by
  cases err <;> first | exact ⟨_, rfl⟩ | exact h.elim

theorem Reached.step {F : Files} {p q r : Str} (h : Includes F p q) (h' : Reached F q r) : Reached F p r := by
  rcases h' with rfl | h'
  · exact .inr (.single h)
  · exact .inr (.trans (.single h) h')

theorem Located.step {x : Ext} {F : Files} {p q : Str} {e : SErr} (h : Includes F p q) (h' : Located x F q e) : Located x F p e := by
  cases e with
  | xsd err file row col => exact ⟨h'.1.step h, h'.2⟩
  | openFile file => exact ⟨h'.1.step h, h'.2⟩
  | notFound n => exact h'.elim

section
variable {x : Ext} {F : Files}

/-- An error of a step of a schema: located in an included file, or about the document. -/
def StepErr (x : Ext) (F : Files) (path : Str) (root : Elem) : PErr → Prop
  | .schema e => ∃ q, Includes F path q ∧ Located x F q e
  | .xsd e => BlamesIn x root e

theorem liftX_err {α : Type} {r : Res XErr α} {e : PErr} (h : liftX r = .err e) : ∃ e', e = .xsd e' ∧ r = .err e' := by
  cases r <;> cases h; exact ⟨_, rfl, rfl⟩

theorem liftS_err {α : Type} {r : Res SErr α} {e : PErr} (h : liftS r = .err e) : ∃ e', e = .schema e' ∧ r = .err e' := by
  cases r <;> cases h; exact ⟨_, rfl, rfl⟩

theorem Res.bind_eq_err {ε α β : Type} {m : Res ε α} {f : α → Res ε β} {e : ε} (h : (m >>= f) = .err e) :
    m = .err e ∨ ∃ a, m = .ok a ∧ f a = .err e := by
  cases m with
  | ok a => exact .inr ⟨a, rfl, h⟩
  | err e' => cases h; exact .inl rfl
  | panic => cases h
  | diverge => cases h

theorem top_unsupported {root : Elem} {c : Nd} (hsch : root.1.name.loc = c!"schema") (hc : c ∈ (Nd.of root).xsdKids)
    (hn : ¬ (c.name = c!"include" ∨ c.name = c!"import")) (hu : c.name ∉ [c!"element", c!"complexType", c!"simpleType"]) :
    UnsupportedHere root c.elem :=
  unsupported_kid (nd := Nd.of root) (.refl _) hc (ns := [c!"element", c!"complexType", c!"simpleType", c!"include", c!"import"])
    (by rw [show (Nd.of root).name = _ from hsch]; simp [supportedIn]) (by simp_all)

/-- The attributes of a top-level node, after its name was looked at. -/
theorem heard_top {root : Elem} {c : Nd} {n : Str} {l : List Str} (hsch : root.1.name.loc = c!"schema") (hc : c ∈ (Nd.of root).xsdKids)
    (hn : c.name = n) (hna : n ≠ c!"attribute") (hfix : n = c!"element" → c!"fixed" ∈ l)
    (ht : ∀ q ∈ attrMeanings, q.1 = n → c!"schema" ∈ q.2.1 → ∀ m ∈ q.2.2, m = c!"name" ∨ m ∈ l) : Heard root (c.see c!"name") l := by
  refine Heard.see (heard_kid (nd := Nd.of root) (.refl _) hc fun m hm => ?_)
  change c.elem.1.name.loc = n at hn
  have hp : (Nd.of root).elem.1.name.loc = c!"schema" := hsch
  cases hm with
  | listed h hp' hm => exact List.mem_cons.2 (ht _ h hn (hp ▸ hp') m hm)
  | declared _ h => rw [hp] at h; simp at h
  | fixed h _ _ _ hm => exact .tail _ (hm ▸ hfix (hn.symm.trans h))
  | attrType h => exact absurd (hn.symm.trans h) hna
  | attrFixed h => exact absurd (hn.symm.trans h) hna

theorem top_err {root : Elem} {c : Nd} (k : Nat) (p : Name) (hsch : root.1.name.loc = c!"schema") (hc : c ∈ (Nd.of root).xsdKids)
    (hn : ¬ (c.name = c!"include" ∨ c.name = c!"import")) : (parseRoot x k (c.see c!"name") p).Err x root :=
  (allErr x k).root (c.see c!"name") _ (show Inside root c.elem from inside_kid (nd := Nd.of root) (.refl _) hc) (fun hu => top_unsupported (c := c) hsch hc hn hu)
    (fun h => heard_top hsch hc h (by decide) (by decide) (by decide)) (fun h => heard_top hsch hc h (by decide) (by decide) (by decide))
    (fun h => heard_top hsch hc h (by decide) (by decide) (by decide))

theorem parseItem_err {incl : Str → Namespaces → List (Name × List Name) → Res SErr PSchema} {path : Str} {d : XDoc} {c : Nd} {s : PCtx}
    {e : PErr} (hd : F.read path = some (.doc d)) (hsch : d.root.1.name.loc = c!"schema") (hs : Declared d.root s) (hc : c ∈ (Nd.of d.root).xsdKids)
    (hincl : ∀ q t deps e, incl q t deps = .err e → Located x F q e)
    (h : parseItem x F incl (F.parent path) c s = .err e) : StepErr x F path d.root e := by
  have hin : Inside d.root c.elem := inside_kid (nd := Nd.of d.root) (.refl _) hc
  unfold parseItem at h
  split at h
  · next hn =>
    rcases Res.bind_eq_err h with h | ⟨a, ha, h⟩
    · obtain ⟨e', rfl, h'⟩ := liftX_err h
      exact tryAttr_err hin _ _ h'
    · rw [liftX_ok, tryAttr_ok] at ha
      rcases Res.bind_eq_err h with h | ⟨P, hP, h⟩
      · obtain ⟨e', rfl, h'⟩ := liftS_err h
        exact ⟨_, ⟨d, c, a.value, hd, hc, hn, value_some ha, rfl⟩, hincl _ _ _ _ h'⟩
      · cases h
  · rcases Res.bind_eq_err h with h | ⟨a, ha, h⟩
    · obtain ⟨e', rfl, h'⟩ := liftX_err h
      exact tryAttr_err hin _ _ h'
    · rcases Res.bind_eq_err h with h | ⟨P, hP, h⟩
      · obtain ⟨e', rfl, h'⟩ := liftX_err h
        exact (top_err _ _ hsch hc ‹_› _ hs).1 _ h'
      · cases h

theorem Declared.keep {root : Elem} {s s' : PCtx} (h : Declared root s) (h1 : s'.docNss = s.docNss) (h2 : s'.defaultNs = s.defaultNs) :
    Declared root s' := ⟨h1 ▸ h.mem, h1 ▸ h.none, h2 ▸ h.default, h2 ▸ h.noDefault⟩

theorem addRoots_keep (l : List (Name × Root)) (s : PCtx) :
    (l.foldl (fun s p => s.addRoot p.1 p.2) s).docNss = s.docNss ∧ (l.foldl (fun s p => s.addRoot p.1 p.2) s).defaultNs = s.defaultNs := by
  induction l generalizing s with
  | nil => exact ⟨rfl, rfl⟩
  | cons p l ih => exact ih (s.addRoot p.1 p.2)

theorem parseItem_declared {incl : Str → Namespaces → List (Name × List Name) → Res SErr PSchema} {base : Str} {d : XDoc} {c : Nd} {s s' : PCtx}
    (_hin : Inside d.root c.elem) (hsch : d.root.1.name.loc = c!"schema") (hc : c ∈ (Nd.of d.root).xsdKids) (hs : Declared d.root s)
    (h : parseItem x F incl base c s = .ok s') : Declared d.root s' := by
  unfold parseItem at h
  split at h
  · obtain ⟨a, _, h⟩ := Res.bind_eq_ok.1 h
    obtain ⟨P, _, h⟩ := Res.bind_eq_ok.1 h
    cases h
    have := addRoots_keep P.context.elements s
    exact hs.keep this.1 this.2
  · obtain ⟨a, _, h⟩ := Res.bind_eq_ok.1 h
    obtain ⟨P, h2, h⟩ := Res.bind_eq_ok.1 h
    cases h
    rw [liftX_ok] at h2
    refine Declared.keep ((top_err _ _ hsch hc ‹_› _ hs).2 _ _ h2) rfl rfl

theorem docNss_declared (D : List (Option Str × Str)) (m : List (Str × Str)) (p : Str) :
    let r := D.foldl (fun m (p : Option Str × Str) => match p.1 with
      | some pfx => ainsert m pfx p.2
      | none => m) m
    (∀ u, alookup r p = some u → (some p, u) ∈ D ∨ alookup m p = some u) ∧ (alookup r p = none → alookup m p = none ∧ ∀ u, (some p, u) ∉ D) := by
  induction D generalizing m with
  | nil => exact ⟨fun u h => .inr h, fun h => ⟨h, fun u hu => (by cases hu)⟩⟩
  | cons d D ih =>
    obtain ⟨q, v⟩ := d
    cases q with
    | none =>
      refine ⟨fun u h => ((ih m).1 u h).imp (.tail _) id, fun h => ⟨((ih m).2 h).1, fun u hu => ?_⟩⟩
      rcases List.mem_cons.1 hu with hu | hu
      · cases hu
      · exact ((ih m).2 h).2 u hu
    | some q =>
      have ih := ih (ainsert m q v)
      simp only [alookup_ainsert] at ih
      refine ⟨fun u h => ?_, fun h => ?_⟩
      · rcases ih.1 u h with h | h
        · exact .inl (.tail _ h)
        · split at h
          · next hq => cases h; rw [hq]; exact .inl (.head _)
          · exact .inr h
      · obtain ⟨h1, h2⟩ := ih.2 h
        split at h1
        · cases h1
        · next hq =>
          refine ⟨h1, fun u hu => ?_⟩
          rcases List.mem_cons.1 hu with hu | hu
          · cases hu; exact hq rfl
          · exact h2 u hu

theorem new_declared (root : Elem) (t : Option Str) (nss : Namespaces) (deps : List (Name × List Name)) :
    Declared root (PCtx.new root.1 t nss deps) := by
  constructor
  · intro p u h
    rcases (docNss_declared root.1.nss [] p).1 u h with h | h
    · exact h
    · cases h
  · intro p h
    exact ((docNss_declared root.1.nss [] p).2 h).2
  · intro u h
    change (root.1.nss.find? _).map _ = _ at h
    rw [Option.map_eq_some_iff] at h
    obtain ⟨⟨q, v⟩, h1, rfl⟩ := h
    have h2 := of_decide_eq_true (List.find?_some (p := fun p : Option Str × Str => decide (p.1 = none)) h1)
    cases (show q = none from h2)
    exact List.mem_of_find?_eq_some h1
  · intro h u hu
    change (root.1.nss.find? _).map _ = _ at h
    rw [Option.map_eq_none_iff, List.find?_eq_none] at h
    exact h _ hu (decide_eq_true rfl)

theorem parseItems_err {incl : Str → Namespaces → List (Name × List Name) → Res SErr PSchema} {path : Str} {d : XDoc} {cs : List Nd} {s : PCtx}
    {e : PErr} (hd : F.read path = some (.doc d)) (hsch : d.root.1.name.loc = c!"schema") (hs : Declared d.root s) (hc : ∀ c ∈ cs, c ∈ (Nd.of d.root).xsdKids)
    (hincl : ∀ q t deps e, incl q t deps = .err e → Located x F q e)
    (h : parseItems x F incl (F.parent path) cs s = .err e) : StepErr x F path d.root e := by
  induction cs generalizing s with
  | nil => cases h
  | cons c cs ih =>
    rcases Res.bind_eq_err h with h | ⟨s1, h1, h⟩
    · exact parseItem_err hd hsch hs (hc c (.head _)) hincl h
    · exact ih (parseItem_declared (inside_kid (nd := Nd.of d.root) (.refl _) (hc c (.head _))) hsch (hc c (.head _)) hs h1)
        (fun d hd => hc d (.tail _ hd)) h

theorem parseFileWith_err (k : Nat) : ∀ path t deps e, parseFileWith x F k path t deps = .err e → Located x F path e := by
  induction k with
  | zero => intro path t deps e h; cases h
  | succ k ih =>
    intro path t deps e h
    unfold parseFileWith at h
    split at h
    · next hr => cases h; exact ⟨.inl rfl, hr⟩
    · next hr => cases h; exact ⟨.inl rfl, .inr ⟨rfl, hr⟩⟩
    · next d hd =>
      have step : ∀ e, parseSchemaRoot x F (parseFileWith x F k) (F.parent path) (Nd.of d.root) t deps = .err e →
          StepErr x F path d.root e := by
        intro e h
        unfold parseSchemaRoot at h
        split at h
        · next hn =>
          cases h
          refine ⟨_, .refl _, rfl, rfl, .inl ⟨rfl, fun hr => ?_⟩⟩
          rcases hn with hn | hn
          · exact hn (congrArg QName.ns hr)
          · exact hn (congrArg QName.loc hr)
        · next hn =>
          rcases Res.bind_eq_err h with h | ⟨_, _, h⟩
          · exact parseItems_err hd (by rcases Decidable.em (d.root.1.name.loc = c!"schema") with h | h; exact h; exact absurd (.inr h) hn)
              (new_declared _ _ _ _) (fun _ h => h) ih h
          · cases h
      unfold parseDoc at h
      split at h
      · cases h
      · next e' hr =>
        cases h
        have := step _ hr
        cases e' with
        | schema e =>
          obtain ⟨q, h1, h2⟩ := this
          exact h2.step h1
        | xsd err =>
          obtain ⟨el, h1, h2⟩ := this
          obtain ⟨n, hn⟩ := h2.start
          refine ⟨.inl rfl, .inl ⟨d, el, n, hd, h1, h2, hn, ?_⟩⟩
          rw [hn]
      · cases h
      · cases h

end

/-- C41: every error of parsing a file is located, whatever the depth of includes. -/
theorem C41 (x : Ext) (F : Files) (k : Nat) (path : Str) (e : SErr) (h : parseFile x F k path = .err e) : Located x F path e :=
  parseFileWith_err k _ _ _ _ h

namespace SchemaSample

/-- The node with an offset. -/
def at_ (n : Nat) : XNode → XNode
  | .elem i cs => .elem { i with start := n } cs
  | m => m

/-- `types.xsd` with an unsupported element at offset 7. -/
def badDoc : XDoc := xdoc (schemaElem [(some c!"xs", nsXsd)] [] [xe c!"complexType" [(c!"name", c!"City")] [xe c!"sequence" [] [at_ 7 (xe c!"any" [] [])]]])

/-- `main.xsd` imports it. -/
def badFiles : Files where
  read p := if p = c!"main.xsd" then some (.doc mainDoc) else if p = c!"types.xsd" then some (.doc badDoc) else none
  parent _ := []
  push _ l := l

/-- The error of the imported file is reported with its name and position. -/
example : parseFile sampleExt badFiles 2 c!"main.xsd" = .err (.xsd (.unsupportedElement c!"any" 7) c!"types.xsd" 7 1) := by decide +kernel

/-- A missing file. -/
example : parseFile sampleExt { badFiles with read := fun p => if p = c!"main.xsd" then some (.doc mainDoc) else none } 2 c!"main.xsd" =
    .err (.openFile c!"types.xsd") := by decide +kernel

/-- One file with a complex type. -/
def cityFile (ns : List XNode) : Files where
  read p := if p = c!"main.xsd" then some (.doc (xdoc (schemaElem [(some c!"xs", nsXsd)] [] [xe c!"complexType" [(c!"name", c!"City")] ns]))) else none
  parent _ := []
  push _ l := l

/-- `maxOccurs` has a meaning on a sequence in a choice, but none on a sequence in a sequence. -/
example : (∀ e, parseFile sampleExt (cityFile [xe c!"choice" [] [xe c!"sequence" [(c!"maxOccurs", c!"2")] []]]) 1 c!"main.xsd" ≠ .err e) ∧
    parseFile sampleExt (cityFile [xe c!"sequence" [] [xe c!"sequence" [(c!"maxOccurs", c!"2")] []]]) 1 c!"main.xsd" =
      .err (.xsd (.unsupportedAttribute c!"maxOccurs" c!"sequence" 0) c!"main.xsd" 0 1) :=
  ⟨fun e h => by
    have h' : (match parseFile sampleExt (cityFile [xe c!"choice" [] [xe c!"sequence" [(c!"maxOccurs", c!"2")] []]]) 1 c!"main.xsd" with
      | .ok _ => true
      | _ => false) = true := by decide +kernel
    rw [h] at h'
    exact absurd h' Bool.false_ne_true, by decide +kernel⟩

/-- The second annotation of a type is reported. -/
example : parseFile sampleExt (cityFile [xe c!"annotation" [] [], at_ 5 (xe c!"annotation" [] []), xe c!"sequence" [] []]) 1 c!"main.xsd" =
    .err (.xsd (.unsupportedChild c!"annotation" c!"complexType" 5) c!"main.xsd" 5 1) := by decide +kernel

end SchemaSample

end Xsd
