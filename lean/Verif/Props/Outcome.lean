import Verif.Lemmas.Outcome
import Verif.Props.Faults
import Verif.Props.ReadTerminatesFiles
/-!
# What generated readers return is the outcome of following the schema (C69)
-/
namespace Xsd

variable {x : Ext} {S : SchemaContext} {P : List TypeDef}

/-- **C69, what is returned.** Whatever a call of `from_xml` returns, a value or an error, is the outcome of following the schema through the
document (`GetsDoc`, defined on the schema and the document alone in `Verif/Spec/Outcome.lean`). -/
theorem C69_outcome (G : Generated x S P) (hG : LooksAtGroups x S) {n : Name} {i : Str} {q : QName} (hi : typeIdent x n = .ok i)
    (hn : (S.get n).isSome = true) (hq : S.expanded n = .ok q) {d : Doc} {r : Res DErr Val} (h : FromXml x P i d r) :
    GetsDoc x S n d.root r := by
  obtain ⟨hd, k, hk⟩ := h
  rw [fromXml_eq G hi hn hq] at hk
  refine ⟨q, hq, ?_⟩
  split at hk
  · next hr =>
    refine .inl ⟨hr, k, ?_⟩
    have hF := fromNode_follows G hG k n i d.root (elemKids d.root.2) hi hn
    cases hr : fromNode x queueOps P k i ⟨d.root, elemKids d.root.2⟩ with
    | diverge => rw [hr] at hk; exact absurd hk.symm hd
    | ok a =>
      rw [hr] at hk; cases hk
      obtain ⟨o, ho, he⟩ := hF (by rw [hr]; exact nofun)
      rw [hr] at he
      cases o <;> cases he
      exact .inl ⟨_, ho, rfl⟩
    | err E =>
      rw [hr] at hk; cases hk
      obtain ⟨o, ho, he⟩ := hF (by rw [hr]; exact nofun)
      rw [hr] at he
      cases o <;> cases he
      exact .inr (.inl ⟨_, ho, rfl⟩)
    | panic =>
      rw [hr] at hk; cases hk
      obtain ⟨o, ho, he⟩ := hF (by rw [hr]; exact nofun)
      rw [hr] at he
      cases o <;> cases he
      exact .inr (.inr ⟨ho, rfl⟩)
  · next hr => cases hk; exact .inr ⟨hr, rfl⟩

/-- **C69.** A call of `from_xml` returns `r`, a value or an error, if and only if `r` is the outcome of following the schema through the document. For every
generated module in which no type contains itself and groups are groups, every type and every document. -/
theorem C69 (G : Generated x S P) (hW : FiniteTypes S) (hG : LooksAtGroups x S) {n : Name} {i : Str} {q : QName} (hi : typeIdent x n = .ok i)
    (hn : (S.get n).isSome = true) (hq : S.expanded n = .ok q) (d : Doc) (r : Res DErr Val) :
    FromXml x P i d r ↔ GetsDoc x S n d.root r := by
  refine ⟨C69_outcome G hG hi hn hq, fun h => ?_⟩
  obtain ⟨r', hr'⟩ := C17_partial G hW hG i d
  cases GetsDoc.agree _ _ (C69_outcome G hG hi hn hq hr') h
  exact hr'

/-- **C69, there is one outcome.** -/
theorem C69_unique (G : Generated x S P) (hW : FiniteTypes S) (hG : LooksAtGroups x S) {n : Name} {i : Str} {q : QName}
    (hi : typeIdent x n = .ok i) (hn : (S.get n).isSome = true) (hq : S.expanded n = .ok q) (e : Elem) :
    ∃ o, GetsDoc x S n e o ∧ ∀ o', GetsDoc x S n e o' → o' = o := by
  obtain ⟨r, hr⟩ := C17_partial G hW hG i ⟨e⟩
  have h := C69_outcome G hG hi hn hq hr
  exact ⟨r, h, fun o' h' => GetsDoc.agree _ _ h' h⟩

/-- **C69, for schema files and generated code that compiles.** -/
theorem C69_compiled {F : Files} {path : Str} {k : Nat} {Q : PSchema} {ds : List TypeDef} (hx : x.NameLaws) (B : Tree.NoForeignRefs F path)
    (h : parseFile x F k path = .ok Q) (hc : Tree.TypeCount F path Q.context.elements.length) (hds : generateAll x Q.context = .ok ds)
    (hd : RefsDistinct x Q.context) (hC : Compiles x ds) {n : Name} {i : Str} {q : QName} (hi : typeIdent x n = .ok i)
    (hn : (Q.context.get n).isSome = true) (hq : Q.context.expanded n = .ok q) (d : Doc) (r : Res DErr Val) :
    FromXml x ds i d r ↔ GetsDoc x Q.context n d.root r := by
  have hk := (parseFileWith_log k path _ _ Q ⟨[], rfl⟩ h).1
  have hB := (C58_exact_partial hx hk hds hd).1 hC
  have G := hB.generated hx hk hds
  exact C69 G (Tree.finite_of (Tree.parsed_groups B h hc) hB.sized) (Tree.looks_of hx G (Tree.parsed_groups B h hc)) hi hn hq d r

open SchemaSample in
/-- The conditions of `C69_compiled` are met by a recursive type with a repeated choice. -/
example : ∃ k Q ds, parseFile sampleExt (repeatedChoice []) k c!"a.xsd" = .ok Q ∧ generateAll sampleExt Q.context = .ok ds ∧
    ∀ n i q, typeIdent sampleExt n = .ok i → (Q.context.get n).isSome = true → Q.context.expanded n = .ok q → ∀ d r,
      FromXml sampleExt ds i d r ↔ GetsDoc sampleExt Q.context n d.root r := by
  obtain ⟨k, Q, ds, B, h, hc, hds, hd, hC⟩ := (Tree.returnsB_sound sampleExt_nameLaws (F := repeatedChoice []) (path := c!"a.xsd") (k := 9)
    (rank := fun _ n => if n.name = c!"ABC" then 1 else 0) (by decide +kernel)).ex
  exact ⟨k, Q, ds, h, hds, fun n i q hi hn hq d r => C69_compiled sampleExt_nameLaws B h hc hds hd hC hi hn hq d r⟩

namespace Sample2
open Sample (nm leaf nss q el at')

/-- `Pick` contains the group `Grp`. -/
theorem finite : FiniteTypes sch := rankB_sound (rank := fun n => if n.name = c!"Pick" then 1 else 0) (by decide +kernel)

/-- The error of `noY` is the only outcome. -/
example : GetsDoc sampleExt sch (nm c!"Pick") noY (.err (.missingElement c!"y" (some c!"urn:a"))) ∧
    ∀ v, ¬ GetsDoc sampleExt sch (nm c!"Pick") noY (.ok v) := by
  have h := (C69 generated finite groups.look (n := nm c!"Pick") (by rfl) (by rfl) (by rfl) ⟨noY⟩ _).1 noY_fails
  exact ⟨h, fun v hv => by cases GetsDoc.agree _ _ h hv⟩

/-- An `xs:all` with the optional member `a` after the required member `b`. -/
def lateA : Elem := root c!"AllOpt" [kid c!"b" c!"4", kid c!"a" c!"s"]

/-- Following the schema by hand: `a` is not next, `b` is found, and `a` is left over. -/
theorem lateA_gets : GetsDoc sampleExt sch (nm c!"AllOpt") lateA (.ok (.struct [(c!"a", .none), (c!"b", .int 4)])) := by
  refine ⟨q c!"AllOpt", by rfl, .inl ⟨by rfl, 1, .inl ⟨_, ⟨elem allOptLeaves, by rfl, .inl ⟨([(c!"a", .none), (c!"b", .int 4)], [kidE c!"a" c!"s"]), ?_,
    .inl ⟨[], rfl, rfl⟩⟩⟩, rfl⟩⟩⟩
  refine ⟨c!"a", by rfl, .inl ⟨(.none, [kidE c!"b" c!"4", kidE c!"a" c!"s"]), .inl ⟨?_, rfl⟩, ?_⟩⟩
  · rintro ch r hr (⟨_, h⟩ | ⟨h, _⟩)
    · cases hr; revert h; decide +kernel
    · cases h
  · refine .inl ⟨([(c!"b", .int 4)], [kidE c!"a" c!"s"]), ⟨c!"b", by rfl, .inl ⟨(.int 4, [kidE c!"a" c!"s"]), ?_, .inl ⟨_, rfl, rfl⟩⟩⟩, rfl⟩
    refine ⟨q c!"b", by rfl, .inl ⟨kidE c!"b" c!"4", [kidE c!"a" c!"s"], ⟨[], _, rfl, rfl, rfl, by simp, fun _ => rfl⟩, ?_⟩⟩
    exact .inl ⟨(.int 4, []), ⟨_, .literal _, .inl ⟨.int 4, .inl ⟨c!"4", .inr ⟨_, rfl⟩, .inl ⟨_, by rfl, rfl⟩⟩, rfl⟩⟩, rfl⟩

/-- So the reader returns that value. -/
example : FromXml sampleExt pgm c!"AllOpt" ⟨lateA⟩ (.ok (.struct [(c!"a", .none), (c!"b", .int 4)])) :=
  (C69 generated finite groups.look (n := nm c!"AllOpt") (by rfl) (by rfl) (by rfl) ⟨lateA⟩ _).2 lateA_gets

end Sample2

end Xsd
