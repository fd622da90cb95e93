import Verif.Spec.Moved
import Verif.Props.SchemaNames
/-!
# Which files matter for a schema (C77)
-/
namespace Xsd

/-- The same outcome of a part of a file, up to the place of other files. -/
inductive MovedPart (M : Str → Str → Prop) {α : Type} : Res PErr α → Res PErr α → Prop where
  | ok {a} : MovedPart M (.ok a) (.ok a)
  | schema {e e'} (h : MovedErr M e e') : MovedPart M (.err (.schema e)) (.err (.schema e'))
  | xsd {e} : MovedPart M (.err (.xsd e)) (.err (.xsd e))
  | panic : MovedPart M .panic .panic
  | diverge : MovedPart M .diverge .diverge

section
variable {M : Str → Str → Prop}

theorem MovedPart.bind {α β : Type} {r r' : Res PErr α} {f f' : α → Res PErr β} (h : MovedPart M r r')
    (hf : ∀ a, MovedPart M (f a) (f' a)) : MovedPart M (r >>= f) (r' >>= f') := by
  cases h with
  | ok => exact hf _
  | schema h => exact .schema h
  | xsd => exact .xsd
  | panic => exact .panic
  | diverge => exact .diverge

theorem MovedPart.refl_of_liftX {α : Type} (r : Res XErr α) : MovedPart M (liftX r) (liftX r) := by
  cases r with
  | ok a => exact .ok
  | err e => exact .xsd
  | panic => exact .panic
  | diverge => exact .diverge

theorem MovedResult.liftS {r r' : Res SErr PSchema} (h : MovedResult M r r') : MovedPart M (liftS r) (liftS r') := by
  cases h with
  | ok => exact .ok
  | err h => exact .schema h
  | panic => exact .panic
  | diverge => exact .diverge

variable {x : Ext} {F F' : Files} {incl incl' : Str → Namespaces → List (Name × List Name) → Res SErr PSchema}
  (hincl : ∀ q q', M q q' → ∀ t deps, MovedResult M (incl q t deps) (incl' q' t deps))
include hincl

theorem parseItem_moved {base base' : Str} {c : Nd} (s : PCtx)
    (hc : ∀ l, (c.name = c!"include" ∨ c.name = c!"import") → c.value c!"schemaLocation" = some l → M (F.push base l) (F'.push base' l)) :
    MovedPart M (parseItem x F incl base c s) (parseItem x F' incl' base' c s) := by
  unfold parseItem
  split
  · next hn =>
    cases ha : c.attr c!"schemaLocation" with
    | none =>
      have : ∃ e, c.tryAttr c!"schemaLocation" = .err e := by unfold Nd.tryAttr; rw [ha]; exact ⟨_, rfl⟩
      obtain ⟨e, he⟩ := this
      rw [he]
      exact .xsd
    | some a =>
      have hM := hc a.value hn (by unfold Nd.value; rw [ha]; rfl)
      have ha : c.tryAttr c!"schemaLocation" = .ok a := tryAttr_ok.2 ha
      rw [ha]
      exact MovedPart.bind (r := liftS (incl (F.push base a.value) s.nss s.deps)) (r' := liftS (incl' (F'.push base' a.value) s.nss s.deps))
        (hincl _ _ hM _ _).liftS fun S => .ok
  · refine .bind (.refl_of_liftX _) fun a => ?_
    exact .bind (.refl_of_liftX _) fun b => .ok

theorem parseItems_moved {base base' : Str} {cs : List Nd} (s : PCtx)
    (hc : ∀ c ∈ cs, ∀ l, (c.name = c!"include" ∨ c.name = c!"import") → c.value c!"schemaLocation" = some l →
      M (F.push base l) (F'.push base' l)) :
    MovedPart M (parseItems x F incl base cs s) (parseItems x F' incl' base' cs s) := by
  induction cs generalizing s with
  | nil => exact .ok
  | cons c cs ih =>
    exact .bind (parseItem_moved hincl s (hc c (.head _))) fun s1 => ih s1 fun c h => hc c (.tail _ h)

end

/-- **C77**: the same files in other places are parsed to the same schema, or to the same error in the corresponding file.
Nothing else matters: not the names of the files, and no file that is not included. -/
theorem C77 {x : Ext} {F F' : Files} {M : Str → Str → Prop} (hM : SameTree F F' M) {path path' : Str} (hp : M path path') (k : Nat) :
    MovedResult M (parseFile x F k path) (parseFile x F' k path') := by
  have key : ∀ (k : Nat) (q q' : Str), M q q' → ∀ t deps, MovedResult M (parseFileWith x F k q t deps) (parseFileWith x F' k q' t deps) := by
    intro k
    induction k with
    | zero => intro q q' _ t deps; exact .diverge
    | succ k ih =>
      intro q q' hq t deps
      unfold parseFileWith
      rw [hM.read hq]
      cases hd : F.read q with
      | none => exact .err (.openFile hq)
      | some f =>
        cases f with
        | malformed row col => exact .err (.xsd hq)
        | doc d =>
          have hdoc : MovedPart M (parseSchemaRoot x F (parseFileWith x F k) (F.parent q) (Nd.of d.root) t deps)
              (parseSchemaRoot x F' (parseFileWith x F' k) (F'.parent q') (Nd.of d.root) t deps) := by
            unfold parseSchemaRoot
            split
            · exact .xsd
            · exact .bind (parseItems_moved ih _ fun c hc l hn hl => hM.step hq hd hc hn hl) fun s => .ok
          dsimp only
          unfold parseDoc
          revert hdoc
          generalize parseSchemaRoot x F (parseFileWith x F k) (F.parent q) (Nd.of d.root) t deps = r
          generalize parseSchemaRoot x F' (parseFileWith x F' k) (F'.parent q') (Nd.of d.root) t deps = r'
          intro hdoc
          cases hdoc with
          | ok => exact .ok
          | schema h => exact .err h
          | xsd => exact .err (.xsd hq)
          | panic => exact .panic
          | diverge => exact .diverge
  exact key k path path' hp _ _

/-- **C77**, files that are not included: whatever they are, the result is the same. -/
theorem C77_others {x : Ext} {F F' : Files} {path : Str} (hr : ∀ q, LooksAt F path q → F'.read q = F.read q)
    (hpar : F'.parent = F.parent) (hpush : F'.push = F.push) (k : Nat) : parseFile x F' k path = parseFile x F k path := by
  have hM : SameTree F F' (fun q q' => q' = q ∧ LooksAt F path q) :=
    ⟨fun ⟨h, hl⟩ => by subst h; exact hr _ hl, fun ⟨h, hq⟩ hd hc hn hl => by
      subst h
      rw [hpar, hpush]
      exact ⟨rfl, .there hq hd hc hn hl⟩⟩
  have h := C77 (x := x) hM ⟨rfl, .here⟩ k
  revert h
  generalize parseFile x F k path = r
  generalize parseFile x F' k path = r'
  intro h
  cases h with
  | ok => rfl
  | err h =>
    cases h with
    | xsd h => obtain ⟨rfl, _⟩ := h; rfl
    | openFile h => obtain ⟨rfl, _⟩ := h; rfl
  | panic => rfl
  | diverge => rfl

end Xsd
