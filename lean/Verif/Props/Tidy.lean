import Verif.Lemmas.TidyParse
import Verif.Props.Prefixes
import Verif.Props.Terminates
/-!
# C81: the order of attributes and what is not XML Schema do not matter
-/
namespace Xsd
namespace Tidy

open Pre (Alike)

/-- With enough fuel on both sides. -/
theorem Near.strict {ε ε' α β : Type} {f : α → β} {r : Res ε α} {r' : Res ε' β} (h : Near f r r') (hr : r ≠ .diverge) (hr' : r' ≠ .diverge) : Alike f r r' := by
  cases h with
  | ok a => exact .ok a
  | err e e' => exact .err e e'
  | panic => exact .panic
  | left r => exact absurd rfl hr
  | right r => exact absurd rfl hr'

section
variable (x : Ext) (O : Order) {F F' : Files} (hF : F'.push = F.push)
  {incl incl' : Str → Namespaces → List (Name × List Name) → Res SErr PSchema} (hi : ∀ p t deps, Alike (fun S => S) (incl p t deps) (incl' p t deps))
include hF hi

theorem item_ti (base : Str) (c : Nd) (hc : Good c) (s : PCtx) :
    Alike (fun s => s) (parseItem x F incl base c s) (parseItem x F' incl' base (tidyNd O c) s) := by
  unfold parseItem
  show Alike _ (if c.name = c!"include" ∨ c.name = c!"import" then _ else _) (if c.name = c!"include" ∨ c.name = c!"import" then _ else _)
  have key : ∀ (n : Str), n ∈ known → ∀ {h h' : XAttr → Res PErr PCtx}, (∀ a : XAttr, Alike (fun s => s) (h a) (h' (unplaced a))) →
      Alike (fun s => s) (liftX (c.tryAttr n) >>= h) (liftX ((tidyNd O c).tryAttr n) >>= h') := by
    intro n hn h h' hh
    unfold Nd.tryAttr
    rw [attr_ti hc.1 hn]
    cases c.attr n with
    | none => exact .err _ _
    | some a => exact hh a
  refine .ite (fun _ => ?_) fun _ => ?_
  · refine key _ (by decide) fun a => ?_
    rw [hF]
    exact .bind (Pre.liftS_re (hi _ _ _)) fun S => .ok' rfl
  · refine key _ (by decide) fun a => ?_
    exact .bind (Pre.liftX_re (((tidyOK O x c.fuel (tidyNd O c).fuel).root (c.see c!"name") hc _ s).strict (C40_definition x (c.see c!"name") _ _)
      (C40_definition x (tidyNd O (c.see c!"name")) _ _))) fun q => .ok' rfl

theorem items_ti (base : Str) : ∀ (cs : List Nd), (∀ c ∈ cs, Good c) → ∀ s : PCtx,
    Alike (fun s => s) (parseItems x F incl base cs s) (parseItems x F' incl' base (cs.map (tidyNd O)) s)
  | [], _, s => .ok s
  | c :: cs, hg, s => by
    rw [List.map_cons, parseItems, parseItems]
    exact .bind (item_ti x O hF hi base c (hg c List.mem_cons_self) s) fun s1 => items_ti base cs (fun k hk => hg k (List.mem_cons_of_mem _ hk)) s1

theorem schemaRoot_ti (base : Str) (d : XDoc) (hg : ClearDoc d) (nss : Namespaces) (deps : List (Name × List Name)) :
    Alike (fun S => S) (parseSchemaRoot x F incl base (Nd.of d.root) nss deps) (parseSchemaRoot x F' incl' base (Nd.of (tidyDoc O d).root) nss deps) := by
  have he : Nd.of (tidyDoc O d).root = tidyNd O (Nd.of d.root) := rfl
  have hg' : Good (Nd.of d.root) := hg
  rw [he]
  unfold parseSchemaRoot
  refine .ite (fun _ => .err _ _) fun _ => ?_
  rw [attrVal_ti hg'.1 (by decide), xsdKids_ti]
  have hn : ∀ t, PCtx.new (tidyInfo O d.root.1) t nss deps = PCtx.new d.root.1 t nss deps := by
    intro t
    unfold PCtx.new
    rw [attrOf_ti (O := O) hg.1]
    rfl
  simp only
  rw [show (tidyNd O (Nd.of d.root)).info = tidyInfo O d.root.1 from rfl, hn]
  exact .bind (items_ti x O hF hi base _ (good_xsdKids hg') _) fun s => .ok' rfl

end

theorem file_ti (x : Ext) (O : Str → Order) {F : Files} (h : ClearFiles F) (k : Nat) (path : Str) (nss : Namespaces) (deps : List (Name × List Name)) :
    Alike (fun S => S) (parseFileWith x F k path nss deps) (parseFileWith x (tidyFiles O F) k path nss deps) := by
  induction k generalizing path nss deps with
  | zero => exact .diverge
  | succ k ih =>
    unfold parseFileWith
    show Alike _ _ (match (F.read path).map (tidyFile (O path)) with | none => _ | some (.malformed r c) => _ | some (.doc d) => _)
    cases hr : F.read path with
    | none => exact .err _ _
    | some f =>
      cases f with
      | malformed r c => exact .err _ _
      | doc d =>
        simp only [Option.map_some, tidyFile]
        unfold parseDoc
        have := schemaRoot_ti x (O path) (F := F) (F' := tidyFiles O F) rfl ih (F.parent path) d (h path d hr) nss deps
        rw [show (tidyFiles O F).parent = F.parent from rfl]
        revert this
        generalize parseSchemaRoot x F _ _ _ _ _ = r
        generalize parseSchemaRoot x (tidyFiles O F) _ _ _ _ _ = r'
        intro this
        cases this with
        | ok S => exact .ok' rfl
        | err e e' => exact .err _ _
        | panic => exact .panic
        | diverge => exact .diverge

/-- **C81**: the same is read from files that differ only in the order of attributes, in attributes and elements that are not in
the language of XML Schema, and in comments and text that are not at the beginning of a documentation. -/
theorem C81 (x : Ext) {F F' : Files} (hF : ClearFiles F) (hF' : ClearFiles F') {O O' : Str → Order} (h : tidyFiles O F = tidyFiles O' F') (k : Nat)
    (path : Str) (S : PSchema) : parseFile x F' k path = .ok S ↔ parseFile x F k path = .ok S := by
  have h1 := file_ti x O hF k path Namespaces.empty []
  have h2 := file_ti x O' hF' k path Namespaces.empty []
  rw [h] at h1
  unfold parseFile
  revert h1 h2
  generalize parseFileWith x F k path _ _ = r
  generalize parseFileWith x F' k path _ _ = r'
  generalize parseFileWith x (tidyFiles O' F') k path _ _ = r''
  intro h1 h2
  cases h1 <;> cases h2 <;> simp

/-- **C81**, failures: the ones are rejected if and only if the others are, and crash the parser if and only if the others do. -/
theorem C81_fails (x : Ext) {F F' : Files} (hF : ClearFiles F) (hF' : ClearFiles F') {O O' : Str → Order} (h : tidyFiles O F = tidyFiles O' F') (k : Nat)
    (path : Str) : ((∃ e, parseFile x F' k path = .err e) ↔ ∃ e, parseFile x F k path = .err e) ∧
      (parseFile x F' k path = .panic ↔ parseFile x F k path = .panic) := by
  have h1 := file_ti x O hF k path Namespaces.empty []
  have h2 := file_ti x O' hF' k path Namespaces.empty []
  rw [h] at h1
  unfold parseFile
  revert h1 h2
  generalize parseFileWith x F k path _ _ = r
  generalize parseFileWith x F' k path _ _ = r'
  generalize parseFileWith x (tidyFiles O' F') k path _ _ = r''
  intro h1 h2
  cases h1 <;> cases h2 <;> simp

end Tidy
end Xsd
