import Verif.Model.Derive
import Verif.Props.GenerateAll
import Verif.Props.FileSample
/-!
# The attribute macro keeps the module (C57)
-/
namespace Xsd

/-! ## Specification: how Rust reads a module

`attribute* visibility mod identifier { inner-attribute* item* }`, where the attributes in front are outer ones. -/

/-- A member of a module: one that was written by the user, or a generated one. -/
inductive Member where
  | user (s : Str)
  | generated (d : TypeDef)

/-- A module. -/
structure RustMod where
  outer : List Str
  vis : Str
  ident : Str
  inner : List Str
  members : List Member

/-- The members of a module, up to the end of the token stream. -/
inductive ReadsMembers : List Tok → List Member → Prop where
  | close : ReadsMembers [.closeBrace] []
  | item {s ts ms} (h : ReadsMembers ts ms) : ReadsMembers (.item s :: ts) (.user s :: ms)
  | generated {d ts ms} (h : ReadsMembers ts ms) : ReadsMembers (.generated d :: ts) (.generated d :: ms)

/-- The body of a module: inner attributes and members. -/
inductive ReadsBody : List Tok → List Str → List Member → Prop where
  | members {ts ms} (h : ReadsMembers ts ms) : ReadsBody ts [] ms
  | inner {s ts as ms} (h : ReadsBody ts as ms) : ReadsBody (.attr ⟨true, s⟩ :: ts) (s :: as) ms

/-- A module. -/
inductive ReadsMod : List Tok → RustMod → Prop where
  | mod {v i ts as ms} (h : ReadsBody ts as ms) : ReadsMod (.vis v :: .kwMod :: .ident i :: .openBrace :: ts) ⟨[], v, i, as, ms⟩
  | outer {s ts m} (h : ReadsMod ts m) : ReadsMod (.attr ⟨false, s⟩ :: ts) { m with outer := s :: m.outer }

/-- The module as the user wrote it. -/
def ItemMod.written (item : ItemMod) : RustMod :=
  ⟨(item.attrs.filter (fun a => !a.inner)).map RustAttr.text, item.vis, item.ident, (item.attrs.filter RustAttr.inner).map RustAttr.text,
    (item.content.getD []).map .user⟩

/-! ## The module is kept -/

theorem readsMembers_quote (items : List Str) (ds : List TypeDef) :
    ReadsMembers (items.map .item ++ ds.map .generated ++ [.closeBrace]) (items.map .user ++ ds.map .generated) := by
  induction items with
  | nil =>
    induction ds with
    | nil => exact .close
    | cons d ds ih => exact .generated ih
  | cons i items ih => exact .item ih

theorem readsMod_quote (item : ItemMod) (ds : List TypeDef) (h : ∀ a ∈ item.attrs, a.inner = false) :
    ReadsMod (quoteMod item ds)
      ⟨item.attrs.map RustAttr.text, item.vis, item.ident, [], (item.content.getD []).map .user ++ ds.map .generated⟩ := by
  obtain ⟨attrs, v, i, c⟩ := item
  unfold quoteMod
  dsimp only at h ⊢
  induction attrs with
  | nil => simpa using ReadsMod.mod (.members (readsMembers_quote (c.getD []) ds))
  | cons a attrs ih =>
    obtain ⟨b, s⟩ := a
    have hb : b = false := h ⟨b, s⟩ (.head _)
    subst hb
    exact .outer (ih fun a ha => h a (.tail _ ha))

/-- How the macro succeeds: there is a schema, and the result is the template around its code. -/
theorem macroAll_ok {x : Ext} {F : Files} {k : Nat} {order : List (Name × Root) → List (Name × Root)} {dir : Str}
    {args : List (Str × Str)} {item : ItemMod} {ts : List Tok} (h : macroAll x F k order dir args item = .ok ts) :
    ∃ path P ds, macroArgs args none = .ok (some path) ∧ parseFile x F k (F.push dir path) = .ok P ∧
      generateAll x { P.context with elements := order P.context.elements } = .ok ds ∧ ts = quoteMod item ds := by
  obtain ⟨p, h1, h⟩ := Res.bind_eq_ok.1 h
  cases p with
  | none => cases h
  | some path =>
    dsimp only at h
    split at h
    · next hg =>
      cases h
      obtain ⟨P, h2, h⟩ := Res.bind_eq_ok.1 hg
      split at h
      · next hds => cases h; exact ⟨path, P, _, h1, h2, hds, rfl⟩
      · cases h
      · cases h
      · cases h
    · cases h
    · cases h
    · cases h

theorem macroArgs_ok : ∀ {args : List (Str × Str)} {o : Option Str} {path : Str}, macroArgs args o = .ok (some path) →
    (∀ p ∈ args, p.1 = c!"schema") ∧ ((args.getLast?.map Prod.snd).or o = some path)
  | [], o, path, h => by unfold macroArgs at h; cases h; exact ⟨nofun, rfl⟩
  | (key, value) :: args, o, path, h => by
    unfold macroArgs at h
    split at h
    · next hk =>
      obtain ⟨h1, h2⟩ := macroArgs_ok h
      refine ⟨?_, ?_⟩
      · intro p hp
        rcases List.mem_cons.1 hp with rfl | hp
        · exact hk
        · exact h1 p hp
      · cases args with
        | nil => exact h2
        | cons a as =>
          rw [List.getLast?_cons_cons]
          cases hg : (a :: as).getLast? with
          | none => rw [List.getLast?_eq_none_iff] at hg; cases hg
          | some p => rw [hg] at h2; exact h2
    · cases h

/-- C57, for modules without inner attributes: if the macro succeeds, what it returns is, for Rust, the module as the user wrote it
(its attributes, visibility, name and members, in order) with the items generated for the schema appended. The schema file is the one given
by the last `schema` argument, relative to the crate. That this holds with inner attributes is missing: see `C57_false`. -/
theorem C57_partial (x : Ext) (F : Files) (k : Nat) (order : List (Name × Root) → List (Name × Root)) (dir : Str)
    (args : List (Str × Str)) (item : ItemMod) (ts : List Tok) (h : macroAll x F k order dir args item = .ok ts)
    (hi : ∀ a ∈ item.attrs, a.inner = false) :
    ∃ path P ds, args.getLast? = some (c!"schema", path) ∧ parseFile x F k (F.push dir path) = .ok P ∧
      generateAll x { P.context with elements := order P.context.elements } = .ok ds ∧
      ReadsMod ts { item.written with members := item.written.members ++ ds.map .generated } := by
  obtain ⟨path, P, ds, h1, h2, h3, rfl⟩ := macroAll_ok h
  refine ⟨path, P, ds, ?_, h2, h3, ?_⟩
  · obtain ⟨ha, hl⟩ := macroArgs_ok h1
    cases hg : args.getLast? with
    | none => rw [hg] at hl; cases hl
    | some p =>
      rw [hg] at hl
      have := ha p (List.mem_of_getLast? hg)
      obtain ⟨a, b⟩ := p
      cases hl
      cases this
      rfl
  · have hf : item.attrs.filter (fun a => !a.inner) = item.attrs := List.filter_eq_self.2 fun a ha => by rw [hi a ha]; rfl
    have hn : item.attrs.filter RustAttr.inner = [] := List.filter_eq_nil_iff.2 fun a ha => by rw [hi a ha]; nofun
    have := readsMod_quote item ds hi
    unfold ItemMod.written
    rw [hf, hn]
    exact this

/-- The reading of a token stream is unique. -/
theorem ReadsMembers.det {ts : List Tok} {ms ms' : List Member} (h : ReadsMembers ts ms) (h' : ReadsMembers ts ms') : ms = ms' := by
  induction h generalizing ms' with
  | close => cases h'; rfl
  | item _ ih => cases h' with | item h' => rw [ih h']
  | generated _ ih => cases h' with | generated h' => rw [ih h']

theorem ReadsBody.det {ts : List Tok} {as as' : List Str} {ms ms' : List Member} (h : ReadsBody ts as ms) (h' : ReadsBody ts as' ms') :
    as = as' ∧ ms = ms' := by
  induction h generalizing as' with
  | members h => cases h' with
    | members h' => exact ⟨rfl, h.det h'⟩
    | inner h' => cases h
  | inner _ ih => cases h' with
    | members h' => cases h'
    | inner h' => obtain ⟨rfl, rfl⟩ := ih h'; exact ⟨rfl, rfl⟩

theorem ReadsMod.det {ts : List Tok} {m m' : RustMod} (h : ReadsMod ts m) (h' : ReadsMod ts m') : m = m' := by
  induction h generalizing m' with
  | mod h => cases h' with | mod h' => obtain ⟨rfl, rfl⟩ := h.det h'; rfl
  | outer _ ih => cases h' with | outer h' => rw [ih h']

namespace SchemaSample

/-- A module with an attribute, two items, and visibility. -/
def sampleMod (inner : Bool) : ItemMod := ⟨[⟨inner, c!"allow(dead_code)"⟩], c!"pub(crate)", c!"schema", some [c!"use std::fmt;", c!"fn f() {}"]⟩

/-- The hypotheses of `C57_partial` are met: the macro succeeds for the schema of two files. -/
theorem macro_ok (b : Bool) : (match macroAll sampleExt { files with push := fun _ l => l } 2 id [] [(c!"schema", c!"main.xsd")] (sampleMod b) with
    | .ok ts => ts.length
    | _ => 0) = 13 := by cases b <;> decide +kernel

example : ∀ a ∈ (sampleMod false).attrs, a.inner = false := by decide

/-- The module without a schema, and with an unknown argument, is rejected. -/
example : macroArgs [(c!"scheme", c!"a")] none = .err .unsupportedProperty := by simp [macroArgs]

end SchemaSample

open SchemaSample in
/-- C57 is false in general: an inner attribute of the module is put in front of it, where it is not allowed; Rust cannot read the
result at all. -/
theorem C57_false : ¬ ∀ (x : Ext) (F : Files) (k : Nat) (order : List (Name × Root) → List (Name × Root)) (dir : Str)
    (args : List (Str × Str)) (item : ItemMod) (ts : List Tok), macroAll x F k order dir args item = .ok ts → ∃ m, ReadsMod ts m := by
  intro h
  have hok := macro_ok true
  cases hr : macroAll sampleExt { files with push := fun _ l => l } 2 id [] [(c!"schema", c!"main.xsd")] (sampleMod true) with
  | err e => rw [hr] at hok; cases hok
  | panic => rw [hr] at hok; cases hok
  | diverge => rw [hr] at hok; cases hok
  | ok ts =>
    obtain ⟨m, hm⟩ := h _ _ _ _ _ _ _ _ hr
    obtain ⟨_, _, _, _, _, _, rfl⟩ := macroAll_ok hr
    cases hm

end Xsd
