import Verif.Lemmas.NoPanic
import Verif.Props.Terminates
/-!
# Parsing does not panic (C44)
-/
namespace Xsd

section
variable {x : Ext} {F : Files}

theorem liftX_safe {α : Type} {Q : α → Prop} {r : Res XErr α} (h : r.Calm Q) : (liftX r).Calm Q := by
  cases r with
  | ok a => exact .pure (h.2 a rfl)
  | err e => exact .err _
  | panic => exact absurd rfl h.1
  | diverge => exact ⟨nofun, nofun⟩

theorem liftS_safe {α : Type} {r : Res SErr α} (h : r ≠ .panic) : (liftS r).Calm Any := by
  cases r with
  | panic => exact absurd rfl h
  | ok a => exact .pure trivial
  | err e => exact .err _
  | diverge => exact ⟨nofun, nofun⟩

theorem parseItem_safe (hx : x.SnakeAscii) {incl : Str → Namespaces → List (Name × List Name) → Res SErr PSchema} {base : Str} {c : Nd} {s : PCtx}
    (hg : c.Good) (h : ∀ q t deps, c.target? F base q → incl q t deps ≠ .panic) : (parseItem x F incl base c s).Calm Any := by
  unfold parseItem
  split
  · next hn =>
    refine .bind (liftX_safe (tryAttr_safe _ _)) fun a ha => .bind (liftS_safe (h _ _ _ ⟨hn, a.value, ?_, rfl⟩)) fun _ _ => .pure trivial
    unfold Nd.value
    rw [ha]
    rfl
  · refine .bind (liftX_safe (tryAttr_safe _ _)) fun a ha => .bind (liftX_safe (.any ?_)) fun _ _ => .pure trivial
    exact ((allSafe hx _).root (hg.see _) (p := ⟨a.value, s.target⟩) (hg.attr ha (by decide)) s).1

theorem parseItems_safe (hx : x.SnakeAscii) {incl : Str → Namespaces → List (Name × List Name) → Res SErr PSchema} {base : Str} {cs : List Nd} {s : PCtx}
    (hg : ∀ c ∈ cs, c.Good) (h : ∀ c ∈ cs, ∀ q t deps, c.target? F base q → incl q t deps ≠ .panic) :
    (parseItems x F incl base cs s).Calm Any := by
  induction cs generalizing s with
  | nil => exact .pure trivial
  | cons c cs ih =>
    exact .bind (parseItem_safe hx (hg c (.head _)) (h c (.head _))) fun _ _ => ih (fun d hd => hg d (.tail _ hd)) fun d hd => h d (.tail _ hd)

/-- What is read from an included file is read. -/
theorem Reads.step {path : Str} {d : XDoc} {c : Nd} {l : Str} (hp : F.read path = some (.doc d)) (hc : c ∈ (Nd.of d.root).xsdKids)
    (hn : c.name = c!"include" ∨ c.name = c!"import") (hl : c.value c!"schemaLocation" = some l) {q : Str} {d' : XDoc}
    (h : Reads F (F.push (F.parent path) l) q d') : Reads F path q d' := by
  induction h with
  | here h => exact .there (.here hp) hc hn hl h
  | there _ hc' hn' hl' hd ih => exact .there ih hc' hn' hl' hd

theorem parseFileWith_safe (hx : x.SnakeAscii) (k : Nat) : ∀ path t deps, (∀ q d, Reads F path q d → AsciiNames d.root) →
    parseFileWith x F k path t deps ≠ .panic := by
  induction k with
  | zero => intro path t deps _ h; cases h
  | succ k ih =>
    intro path t deps hr hh
    unfold parseFileWith at hh
    split at hh
    · cases hh
    · cases hh
    · next d hd =>
      have hg := hr _ _ (.here hd)
      unfold parseDoc at hh
      split at hh
      · cases hh
      · cases hh
      · next hp =>
        unfold parseSchemaRoot at hp
        split at hp
        · cases hp
        · refine (Res.Calm.bind (parseItems_safe (F := F) (base := F.parent path) hx (fun c hc => Nd.Good.kid (nd := Nd.of d.root) hg hc) ?_)
            (R := Any) (fun _ _ => .pure trivial)).1 hp
          rintro c hc q t deps ⟨hn, l, hl, rfl⟩
          exact ih _ _ _ fun q d' h => hr q d' (.step hd hc hn hl h)
      · cases hh

end

/-- **C44** for whole schemas: parsing a file does not panic if the names in it, and in the files that it includes, are in ASCII
(and case conversion keeps ASCII, as Inflector's does).

Missing: other names, for which it is false (`C44_parse_false`). -/
theorem C44_parse_partial (x : Ext) (hx : x.SnakeAscii) (F : Files) (k : Nat) (path : Str)
    (h : ∀ q d, Reads F path q d → AsciiNames d.root) : parseFile x F k path ≠ .panic :=
  parseFileWith_safe hx k path _ _ h

/-! ## Cases -/

mutual
/-- Checker for `AsciiNames`. -/
def asciiNode : XNode → Bool
  | .elem i cs => i.attrs.all (fun a => !nameAttrs.contains a.loc || a.value.all (fun c => decide (c.toNat < 128))) && asciiKids cs
  | .text _ => true
  | .other => true
/-- Checker for `AsciiNames`. -/
def asciiKids : List XNode → Bool
  | [] => true
  | n :: ns => asciiNode n && asciiKids ns
end

theorem asciiKids_mem {n : XNode} : ∀ {l : List XNode}, asciiKids l = true → n ∈ l → asciiNode n = true
  | _ :: _, h, hn => by
    rw [asciiKids, Bool.and_eq_true] at h
    rcases List.mem_cons.1 hn with rfl | hn
    · exact h.1
    · exact asciiKids_mem h.2 hn

theorem asciiNode_sound {e : Elem} (h : asciiNode (.elem e.1 e.2) = true) : AsciiNames e := by
  intro f hf
  induction hf with
  | refl e =>
    intro a ha hn c hc
    rw [asciiNode, Bool.and_eq_true] at h
    have := List.all_eq_true.1 h.1 a ha
    simp only [Bool.or_eq_true, Bool.not_eq_true', List.all_eq_true, decide_eq_true_eq] at this
    rcases this with h1 | h1
    · rw [List.contains_iff_mem.2 hn] at h1
      cases h1
    · exact h1 c hc
  | kid hk _ ih =>
    apply ih
    rw [asciiNode, Bool.and_eq_true] at h
    exact asciiKids_mem h.2 hk

theorem sampleExt_snakeAscii : sampleExt.SnakeAscii := by
  intro s hs c hc
  obtain ⟨d, hd, rfl⟩ := List.mem_map.1 hc
  have hd := hs d hd
  unfold Char.toLower
  split
  · next h =>
    have h1 := h.1
    have h2 := h.2
    simp only [Char.toNat, UInt32.toNat_add, UInt32.le_iff_toNat_le, ge_iff_le] at *
    simp at *
    omega
  · exact hd

namespace SchemaSample

/-- `C44_parse_partial` for the files `main.xsd` and `types.xsd`. -/
example : parseFile sampleExt files 2 c!"main.xsd" ≠ .panic := by
  apply C44_parse_partial _ sampleExt_snakeAscii
  intro q d h
  have hf : ∀ q d, files.read q = some (.doc d) → asciiNode (.elem d.root.1 d.root.2) = true := by
    intro q d h
    unfold files at h
    dsimp only at h
    split at h
    · cases h; decide +kernel
    · split at h
      · cases h; decide +kernel
      · cases h
  exact asciiNode_sound (hf q d (by cases h <;> assumption))

/-- The type `A` with a choice between elements of the given names. -/
def choiceOf (a b : Str) : XDoc :=
  tDoc [xe c!"complexType" [(c!"name", c!"A")] [xe c!"sequence" [] [xe c!"choice" []
    [xe c!"element" [(c!"name", a), (c!"type", c!"xs:string")] [], xe c!"element" [(c!"name", b), (c!"type", c!"xs:string")] []]]]]

/-- **C44** is false for whole schemas: the name of a choice between `aé` and `bé` is `é`, for which the slice `name[0..1]` panics. -/
theorem C44_parse_false : parseFile sampleExt (oneFile (choiceOf c!"aé" c!"bé")) 1 c!"a.xsd" = .panic ∧
    parseFile sampleExt (oneFile (choiceOf c!"état" c!"pays")) 1 c!"a.xsd" = .panic := by decide +kernel

end SchemaSample

end Xsd
