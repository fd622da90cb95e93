import Verif.Lemmas.Terminates
import Verif.Spec.Files
import Verif.Props.GrammarSample
/-!
# Parsing terminates (C40)
-/
namespace Xsd

/-! ## One definition -/

/-- Parsing one definition always terminates: the fuel that the model gives it is enough. -/
theorem C40_definition (x : Ext) (nd : Nd) (n : Name) (s : PCtx) : parseRoot x nd.fuel nd n s ≠ .diverge :=
  (allTot x _).root nd n (Nat.le_refl _) s

/-! ## Files -/

section
variable {x : Ext} {F : Files}

theorem liftX_tot {α : Type} {r : Res XErr α} (h : r.Tot) : (liftX r).Tot := by
  cases r with
  | diverge => exact absurd rfl h
  | _ => intro hh; cases hh

theorem liftS_tot {α : Type} {r : Res SErr α} (h : r.Tot) : (liftS r).Tot := by
  cases r with
  | diverge => exact absurd rfl h
  | _ => intro hh; cases hh

/-- The file that an include refers to. -/
def Nd.target? (F : Files) (base : Str) (c : Nd) (q : Str) : Prop :=
  (c.name = c!"include" ∨ c.name = c!"import") ∧ ∃ l, c.value c!"schemaLocation" = some l ∧ q = F.push base l

theorem parseItem_tot {incl : Str → Namespaces → List (Name × List Name) → Res SErr PSchema} {base : Str} {c : Nd} {s : PCtx}
    (h : ∀ q t deps, c.target? F base q → (incl q t deps).Tot) : (parseItem x F incl base c s).Tot := by
  unfold parseItem
  split
  · next hn =>
    refine .bind (liftX_tot (tryAttr_tot _ _)) fun a ha => .bind (liftS_tot (h _ _ _ ⟨hn, a.value, ?_, rfl⟩)) fun _ _ => .pure _
    rw [liftX_ok, tryAttr_ok] at ha
    unfold Nd.value
    rw [ha]
    rfl
  · refine .bind (liftX_tot (tryAttr_tot _ _)) fun a ha => .bind (liftX_tot ?_) fun _ _ => .pure _
    exact (allTot x _).root _ _ (Nat.le_refl _) s

theorem parseItems_tot {incl : Str → Namespaces → List (Name × List Name) → Res SErr PSchema} {base : Str} {cs : List Nd} {s : PCtx}
    (h : ∀ c ∈ cs, ∀ q t deps, c.target? F base q → (incl q t deps).Tot) : (parseItems x F incl base cs s).Tot := by
  induction cs generalizing s with
  | nil => intro hh; cases hh
  | cons c cs ih => exact .bind (parseItem_tot (h c (.head _))) fun _ _ => ih fun d hd => h d (.tail _ hd)

theorem parseFileWith_step {k : Nat} {path : Str} {t : Namespaces} {deps : List (Name × List Name)}
    (h : ∀ q t deps, Includes F path q → (parseFileWith x F k q t deps).Tot) : (parseFileWith x F (k + 1) path t deps).Tot := by
  intro hh
  unfold parseFileWith at hh
  split at hh
  · cases hh
  · cases hh
  · next d hd =>
    unfold parseDoc at hh
    split at hh
    · cases hh
    · cases hh
    · cases hh
    · next hr =>
      unfold parseSchemaRoot at hr
      split at hr
      · cases hr
      · refine Res.Tot.bind (parseItems_tot ?_) (fun _ _ => .pure _) hr
        rintro c hc q t deps ⟨hn, l, hl, rfl⟩
        exact h _ _ _ ⟨d, c, l, hd, hc, hn, hl, rfl⟩

/-- More fuel does not change a result. -/
theorem parseItems_more {incl incl' : Str → Namespaces → List (Name × List Name) → Res SErr PSchema} {base : Str}
    (h : ∀ q t deps, (incl q t deps).Tot → incl' q t deps = incl q t deps) (cs : List Nd) (s : PCtx)
    (ht : (parseItems x F incl base cs s).Tot) : parseItems x F incl' base cs s = parseItems x F incl base cs s := by
  have item : ∀ c s, (parseItem x F incl base c s).Tot → parseItem x F incl' base c s = parseItem x F incl base c s := by
    intro c s ht
    unfold parseItem at ht ⊢
    split
    · next hn =>
      rw [if_pos hn] at ht
      cases ha : liftX (c.tryAttr c!"schemaLocation") with
      | ok a =>
        rw [ha] at ht
        rw [Res.bind_ok, Res.bind_ok]
        have : (incl (F.push base a.value) s.nss s.deps).Tot := by
          intro hd
          rw [Res.bind_ok, hd] at ht
          exact ht rfl
        rw [h _ _ _ this]
      | err e => rfl
      | panic => rfl
      | diverge => rfl
    · rfl
  induction cs generalizing s with
  | nil => rfl
  | cons c cs ih =>
    unfold parseItems at ht ⊢
    have h1 : (parseItem x F incl base c s).Tot := by
      intro hd
      rw [hd] at ht
      exact ht rfl
    rw [item c s h1]
    cases hr : parseItem x F incl base c s with
    | ok s1 =>
      rw [hr] at ht
      exact ih s1 ht
    | err e => rfl
    | panic => rfl
    | diverge => rfl

theorem parseFileWith_more (k : Nat) : ∀ path t deps, (parseFileWith x F k path t deps).Tot →
    parseFileWith x F (k + 1) path t deps = parseFileWith x F k path t deps := by
  induction k with
  | zero => intro path t deps h; exact absurd rfl h
  | succ k ih =>
    intro path t deps h
    unfold parseFileWith at h ⊢
    split
    · rfl
    · rfl
    · next d hd =>
      rw [hd] at h
      dsimp only at h
      unfold parseDoc at h ⊢
      have key : parseSchemaRoot x F (parseFileWith x F (k + 1)) (F.parent path) (Nd.of d.root) t deps =
          parseSchemaRoot x F (parseFileWith x F k) (F.parent path) (Nd.of d.root) t deps := by
        unfold parseSchemaRoot at h ⊢
        split
        · rfl
        · next hn =>
          rw [if_neg hn] at h
          dsimp only at h ⊢
          rw [parseItems_more (incl := parseFileWith x F k) (incl' := parseFileWith x F (k + 1)) ih]
          intro hd
          rw [hd] at h
          exact h rfl
      rw [key]

theorem parseFileWith_le {k k' : Nat} (hk : k ≤ k') {path : Str} {t : Namespaces} {deps : List (Name × List Name)}
    (h : (parseFileWith x F k path t deps).Tot) : parseFileWith x F k' path t deps = parseFileWith x F k path t deps := by
  induction hk with
  | refl => rfl
  | step _ ih => rw [parseFileWith_more _ _ _ _ (by rw [Res.Tot, ih]; exact h), ih]

end

/-! ## No cycles -/

theorem filter_files_lt {α : Type} (p q : α → Bool) : ∀ {l : List α}, (∀ a, p a = true → q a = true) →
    (∃ a ∈ l, q a = true ∧ p a = false) → (l.filter p).length < (l.filter q).length
  | [], _, ⟨_, h, _⟩ => by cases h
  | b :: l, h, ⟨a, ha, hq, hp⟩ => by
    have mono : ∀ l : List α, (l.filter p).length ≤ (l.filter q).length := by
      intro l
      induction l with
      | nil => exact Nat.le_refl _
      | cons c l ih =>
        rw [List.filter_cons, List.filter_cons]
        split
        · next hc => rw [if_pos (h c hc), List.length_cons, List.length_cons]; omega
        · split
          · rw [List.length_cons]; omega
          · exact ih
    rw [List.filter_cons, List.filter_cons]
    rcases List.mem_cons.1 ha with rfl | ha
    · rw [if_pos hq, hp]
      have := mono l
      simp only [Bool.false_eq_true, if_false, List.length_cons]
      omega
    · have ih := filter_files_lt p q h ⟨a, ha, hq, hp⟩
      split
      · next hc => rw [if_pos (h b hc), List.length_cons, List.length_cons]; omega
      · split
        · rw [List.length_cons]; omega
        · exact ih

open Relation in
/-- C40, for files that do not include themselves: `all` are the files that can be reached from `path` by includes and imports, finitely many, and
none of them includes itself, directly or indirectly. Then parsing ends, with includes nested at most as deep as there are files, and the result does not depend on the fuel.
That it ends with circular includes is missing: see `C40_false`. -/
theorem C40_partial (x : Ext) (F : Files) (path : Str) (all : List Str) (h0 : path ∈ all)
    (hall : ∀ q, TransGen (Includes F) path q → q ∈ all)
    (hac : ∀ q, q = path ∨ TransGen (Includes F) path q → ¬ TransGen (Includes F) q q) :
    parseFile x F (all.length + 1) path ≠ .diverge ∧
    ∀ k, all.length + 1 ≤ k → parseFile x F k path = parseFile x F (all.length + 1) path := by
  open Classical in
  have key : ∀ k q, (q = path ∨ TransGen (Includes F) path q) → (all.filter (fun r => decide (TransGen (Includes F) q r))).length < k →
      ∀ t deps, parseFileWith x F k q t deps ≠ .diverge := by
    intro k
    induction k with
    | zero => intro q _ h; omega
    | succ k ih =>
      intro q hq hk t deps
      refine parseFileWith_step fun r t deps hr => ih r (.inr ?_) ?_ t deps
      · rcases hq with rfl | hq
        · exact .single hr
        · exact .tail hq hr
      · have hpr : TransGen (Includes F) path r := by
          rcases hq with rfl | hq
          · exact .single hr
          · exact .tail hq hr
        have : (all.filter (fun s => decide (TransGen (Includes F) r s))).length <
            (all.filter (fun s => decide (TransGen (Includes F) q s))).length := by
          refine filter_files_lt _ _ (fun s hs => decide_eq_true ?_) ⟨r, hall r hpr, decide_eq_true (.single hr), decide_eq_false (hac r (.inr hpr))⟩
          exact TransGen.trans (.single hr) (of_decide_eq_true hs)
        omega
  have h1 : parseFileWith x F (all.length + 1) path Namespaces.empty [] ≠ .diverge :=
    key _ path (.inl rfl) (Nat.lt_succ_of_le (List.length_filter_le _ _)) _ _
  exact ⟨h1, fun k hk => parseFileWith_le hk h1⟩

/-! ## What parsing says about the includes -/

theorem parseItems_ok_included {x : Ext} {F : Files} {incl : Str → Namespaces → List (Name × List Name) → Res SErr PSchema} {base : Str} {cs : List Nd} {s s' : PCtx}
    (h : parseItems x F incl base cs s = .ok s') {c : Nd} (hc : c ∈ cs) {q : Str} (hq : c.target? F base q) :
    ∃ t deps P, incl q t deps = .ok P := by
  induction cs generalizing s with
  | nil => cases hc
  | cons b cs ih =>
    obtain ⟨s1, h1, h2⟩ := Res.bind_eq_ok.1 h
    rcases List.mem_cons.1 hc with rfl | hc
    · obtain ⟨hn, l, hl, rfl⟩ := hq
      unfold parseItem at h1
      rw [if_pos hn] at h1
      obtain ⟨a, ha, h1⟩ := Res.bind_eq_ok.1 h1
      obtain ⟨P, hP, _⟩ := Res.bind_eq_ok.1 h1
      rw [liftX_ok, tryAttr_ok] at ha
      unfold Nd.value at hl
      rw [ha] at hl
      cases hl
      refine ⟨s.nss, s.deps, P, ?_⟩
      unfold liftS at hP
      split at hP <;> cases hP
      assumption
    · exact ih h2 hc

theorem parseFileWith_ok_acc {x : Ext} {F : Files} (k : Nat) : ∀ {path : Str} {t : Namespaces} {deps : List (Name × List Name)} {P : PSchema},
    parseFileWith x F k path t deps = .ok P → Acc (fun q p => Includes F p q) path := by
  induction k with
  | zero => intro path t deps P h; cases h
  | succ k ih =>
    intro path t deps P h
    refine ⟨_, fun q hq => ?_⟩
    obtain ⟨d, c, l, hd, hc, hn, hl, rfl⟩ := hq
    unfold parseFileWith at h
    rw [hd] at h
    dsimp only at h
    unfold parseDoc at h
    split at h
    · next hr =>
      unfold parseSchemaRoot at hr
      split at hr
      · cases hr
      · obtain ⟨s', h1, _⟩ := Res.bind_eq_ok.1 hr
        obtain ⟨t, deps, P, h⟩ := parseItems_ok_included h1 hc ⟨hn, l, hl, rfl⟩
        exact ih h
    all_goals cases h

theorem includes_finite (F : Files) (p : Str) : ∃ all : List Str, ∀ q, Includes F p q → q ∈ all := by
  cases hr : F.read p with
  | none =>
    refine ⟨[], fun q ⟨d, c, l, hd, _⟩ => ?_⟩
    rw [hr] at hd
    cases hd
  | some fc =>
    cases fc with
    | doc d =>
      refine ⟨(Nd.of d.root).xsdKids.filterMap fun c => (c.value c!"schemaLocation").map (F.push (F.parent p)), fun q ⟨d', c, l, hd, hc, _, hl, hq⟩ => ?_⟩
      rw [hr] at hd
      cases hd
      exact List.mem_filterMap.2 ⟨c, hc, by rw [hl, hq]; rfl⟩
    | _ =>
      refine ⟨[], fun q ⟨d, c, l, hd, _⟩ => ?_⟩
      rw [hr] at hd
      cases hd

/-- C40, exactly: if each sequence of includes and imports from the file ends, then parsing ends, however many files there are. -/
theorem C40_wellfounded_partial (x : Ext) (F : Files) (path : Str) (h : Acc (fun q p => Includes F p q) path) :
    ∃ k, parseFile x F k path ≠ .diverge := by
  suffices key : ∃ k, ∀ t deps, parseFileWith x F k path t deps ≠ .diverge by
    obtain ⟨k, hk⟩ := key
    exact ⟨k, hk _ _⟩
  induction h with
  | intro p _ ih =>
    obtain ⟨all, hall⟩ := includes_finite F p
    have : ∀ l : List Str, ∃ k, ∀ q ∈ l, Includes F p q → ∀ t deps, parseFileWith x F k q t deps ≠ .diverge := by
      intro l
      induction l with
      | nil => exact ⟨0, nofun⟩
      | cons q l ihl =>
        obtain ⟨k1, h1⟩ := ihl
        by_cases hq : Includes F p q
        · obtain ⟨k2, h2⟩ := ih q hq
          refine ⟨max k1 k2, fun r hr hi t deps => ?_⟩
          rcases List.mem_cons.1 hr with rfl | hr
          · rw [parseFileWith_le (k' := max k1 k2) (by omega) (h2 t deps)]
            exact h2 t deps
          · rw [parseFileWith_le (k' := max k1 k2) (by omega) (h1 r hr hi t deps)]
            exact h1 r hr hi t deps
        · refine ⟨k1, fun r hr hi => ?_⟩
          rcases List.mem_cons.1 hr with rfl | hr
          · exact absurd hi hq
          · exact h1 r hr hi
    obtain ⟨k, hk⟩ := this all
    exact ⟨k + 1, fun t deps => parseFileWith_step fun q t deps hq => hk q (hall q hq) hq t deps⟩

/-- C40, the converse: if a schema is returned then each sequence of includes and imports from the file ends. -/
theorem C40_returned (x : Ext) (F : Files) (k : Nat) (path : Str) (P : PSchema) (h : parseFile x F k path = .ok P) :
    Acc (fun q p => Includes F p q) path := parseFileWith_ok_acc k h

open Relation in
theorem transGen_first {α : Type} {R : α → α → Prop} {a b : α} (h : TransGen R a b) : ∃ c, R a c ∧ (c = b ∨ TransGen R c b) := by
  induction h with
  | single h => exact ⟨_, h, .inl rfl⟩
  | tail _ h ih =>
    obtain ⟨c, h1, h2⟩ := ih
    refine ⟨c, h1, .inr ?_⟩
    rcases h2 with rfl | h2
    · exact .single h
    · exact .tail h2 h

open Relation in
/-- A schema with files that include each other in a circle is never accepted: parsing ends with an error (or a panic) before it has followed the
circle, or it does not end. -/
theorem C40_circular (x : Ext) (F : Files) (k : Nat) (path q : Str) (P : PSchema) (hq : q = path ∨ TransGen (Includes F) path q)
    (hc : TransGen (Includes F) q q) : parseFile x F k path ≠ .ok P := by
  intro h
  have hp := C40_returned x F k path P h
  clear h
  induction hp with
  | intro p _ ih =>
    rcases hq with rfl | hq
    · obtain ⟨c, h1, h2⟩ := transGen_first hc
      exact ih c h1 (h2.imp Eq.symm id)
    · obtain ⟨c, h1, h2⟩ := transGen_first hq
      exact ih c h1 (h2.imp Eq.symm id)

namespace SchemaSample

/-- The hypotheses are met by the two files of the sample. -/
theorem files_includes {p q : Str} (h : Includes files p q) : p = c!"main.xsd" ∧ q = c!"types.xsd" := by
  obtain ⟨d, c, l, hd, hc, hn, hl, rfl⟩ := h
  have hd : (if p = c!"main.xsd" then some (FileContent.doc mainDoc) else if p = c!"types.xsd" then some (.doc typesDoc) else none) =
    some (.doc d) := hd
  split at hd
  · next hp =>
    refine ⟨hp, ?_⟩
    cases hd
    have key : ∀ c ∈ (Nd.of mainDoc.root).xsdKids, c.name = c!"include" ∨ c.name = c!"import" → (c.value c!"schemaLocation").all (fun l => decide (l = c!"types.xsd")) = true := by
      simp only [Nd.xsdKids, List.forall_mem_map]
      decide +kernel
    have := key c hc hn
    rw [hl] at this
    exact of_decide_eq_true this
  · split at hd
    · cases hd
      have key : ∀ c ∈ (Nd.of typesDoc.root).xsdKids, ¬ (c.name = c!"include" ∨ c.name = c!"import") := by
        simp only [Nd.xsdKids, List.forall_mem_map]
        decide +kernel
      exact absurd hn (key c hc)
    · cases hd

open Relation in
theorem files_reach {p q : Str} (h : TransGen (Includes files) p q) : p = c!"main.xsd" ∧ q = c!"types.xsd" := by
  induction h with
  | single h => exact files_includes h
  | tail _ h ih =>
    have := files_includes h
    rw [ih.2] at this
    exact absurd this.1 (by decide)

open Relation in
example : c!"main.xsd" ∈ [c!"main.xsd", c!"types.xsd"] ∧
    (∀ q, TransGen (Includes files) c!"main.xsd" q → q ∈ [c!"main.xsd", c!"types.xsd"]) ∧
    (∀ q, q = c!"main.xsd" ∨ TransGen (Includes files) c!"main.xsd" q → ¬ TransGen (Includes files) q q) := by
  refine ⟨.head _, fun q h => ?_, fun q _ h => ?_⟩
  · rw [(files_reach h).2]; exact .tail _ (.head _)
  · obtain ⟨h1, h2⟩ := files_reach h
    exact absurd (h1.symm.trans h2) (by decide)

/-- A file that includes itself. -/
def selfDoc : XDoc := tDoc [xe c!"include" [(c!"schemaLocation", c!"a.xsd")] []]

theorem self_diverges (k : Nat) : ∀ t deps, parseFileWith sampleExt (oneFile selfDoc) k c!"a.xsd" t deps = .diverge := by
  induction k with
  | zero => intros; rfl
  | succ k ih =>
    intro t deps
    have e : parseFileWith sampleExt (oneFile selfDoc) (k + 1) c!"a.xsd" t deps =
      parseDoc sampleExt (oneFile selfDoc) (parseFileWith sampleExt (oneFile selfDoc) k) c!"a.xsd" selfDoc t deps := rfl
    rw [e]
    unfold parseDoc
    have : parseSchemaRoot sampleExt (oneFile selfDoc) (parseFileWith sampleExt (oneFile selfDoc) k) ((oneFile selfDoc).parent c!"a.xsd")
        (Nd.of selfDoc.root) t deps = .diverge := by
      unfold parseSchemaRoot
      rw [if_neg (by decide)]
      show (parseItem sampleExt (oneFile selfDoc) _ _ _ _ >>= _) >>= _ = _
      unfold parseItem
      rw [if_pos (by decide)]
      show ((liftS (parseFileWith sampleExt (oneFile selfDoc) k c!"a.xsd" _ _) >>= _) >>= _) >>= _ = _
      rw [ih]
      rfl
    rw [this]

end SchemaSample

open SchemaSample Relation in
/-- The file that includes itself is a circle. -/
example : TransGen (Includes (oneFile selfDoc)) c!"a.xsd" c!"a.xsd" :=
  .single ⟨selfDoc, xn c!"include" [(c!"schemaLocation", c!"a.xsd")] [], c!"a.xsd", rfl, .head _, .inl rfl, rfl, rfl⟩

open SchemaSample in
/-- The includes of the sample end. -/
example : Acc (fun q p => Includes files p q) c!"main.xsd" :=
  C40_returned sampleExt files 2 _ parsedSchema (by decide +kernel)

open SchemaSample in
/-- C40 is false in general: parsing a file that includes itself does not end. -/
theorem C40_false : ¬ ∀ (x : Ext) (F : Files) (path : Str), ∃ k, parseFile x F k path ≠ .diverge := by
  intro h
  obtain ⟨k, hk⟩ := h sampleExt (oneFile selfDoc) c!"a.xsd"
  exact hk (self_diverges k _ _)

end Xsd
