import Verif.Lemmas.ExecSim
import Verif.Lemmas.ExecMono
import Verif.Lemmas.Gen
/-!
# The observable behaviour of generated code

`FromXml x P i d r`: in the generated module `P`, `i::from_xml` called on the document `d` returns `r`.
`ToXml x P i v r`: `to_xml` of the value `v` of type `i` returns `r`. The fuel of the interpreter
(`Verif/Model/Exec.lean`) is hidden: a call that does not return has no result.
-/
namespace Xsd

variable {x : Ext} {S : SchemaContext} {P : List TypeDef}

/-- `i::from_xml(d)` returns `r`. -/
def FromXml (x : Ext) (P : List TypeDef) (i : Str) (d : Doc) (r : Res DErr Val) : Prop :=
  r ≠ .diverge ∧ ∃ k, fromXml x cursorOps P k i d = r

/-- `v.to_xml()`, at type `i`, returns `r` (the events written). -/
def ToXml (x : Ext) (P : List TypeDef) (i : Str) (v : Val) (r : Res Unit (List Ev)) : Prop :=
  r ≠ .diverge ∧ ∃ k, toXml x P k i v = r

/-- A call has at most one result. -/
theorem FromXml.unique {i : Str} {d : Doc} {r r' : Res DErr Val} (h : FromXml x P i d r) (h' : FromXml x P i d r') :
    r = r' := by
  obtain ⟨hr, k, hk⟩ := h
  obtain ⟨hr', k', hk'⟩ := h'
  have m := fromXml_mono (x := x) (o := cursorOps) (P := P) (Nat.le_max_left k k') i d
  have m' := fromXml_mono (x := x) (o := cursorOps) (P := P) (Nat.le_max_right k k') i d
  have e := Res.le_eq m (hk ▸ hr)
  have e' := Res.le_eq m' (hk' ▸ hr')
  rw [hk] at e; rw [hk'] at e'
  rw [← e, ← e']

theorem ToXml.unique {i : Str} {v : Val} {r r' : Res Unit (List Ev)} (h : ToXml x P i v r) (h' : ToXml x P i v r') :
    r = r' := by
  obtain ⟨hr, k, hk⟩ := h
  obtain ⟨hr', k', hk'⟩ := h'
  have m := toXml_mono (x := x) (P := P) (Nat.le_max_left k k') i v
  have m' := toXml_mono (x := x) (P := P) (Nat.le_max_right k k') i v
  have e := Res.le_eq m (hk ▸ hr)
  have e' := Res.le_eq m' (hk' ▸ hr')
  rw [hk] at e; rw [hk'] at e'
  rw [← e, ← e']

/-- `from_xml` in terms of the specification of the cursor. -/
theorem fromXml_eq (G : Generated x S P) {n : Name} {i : Str} {q : QName} (hi : typeIdent x n = .ok i)
    (hn : (S.get n).isSome = true) (hq : S.expanded n = .ok q) (k : Nat) (d : Doc) :
    fromXml x cursorOps P k i d =
      if d.root.1.name = q then (do let r ← fromNode x queueOps P k i ⟨d.root, elemKids d.root.2⟩; pure r.1)
      else .err (.missingElement q.loc q.ns) := by
  rw [← fromXml_hom cursor_hom]
  obtain ⟨r, t, hr, hf, rfl, hg⟩ := G.find' hi hn
  have := hg.rootName
  rw [hq] at this; cases this
  simp only [fromXml, hf, Doc.tryChild, Doc.child]
  by_cases h : d.root.1.name = t.rootName
  · rw [if_pos ((Elem.is_iff _ _).2 h), if_pos h]; rfl
  · rw [if_neg (fun h' => h ((Elem.is_iff _ _).1 h')), if_neg h]; rfl

theorem FromXml.ok_iff (G : Generated x S P) {n : Name} {i : Str} {q : QName} (hi : typeIdent x n = .ok i)
    (hn : (S.get n).isSome = true) (hq : S.expanded n = .ok q) {d : Doc} {v : Val} :
    FromXml x P i d (.ok v) ↔
      d.root.1.name = q ∧ ∃ k s', fromNode x queueOps P k i ⟨d.root, elemKids d.root.2⟩ = .ok (v, s') := by
  constructor
  · rintro ⟨_, k, hk⟩
    rw [fromXml_eq G hi hn hq] at hk
    split at hk
    · next h =>
      rw [Res.bind_eq_ok] at hk
      obtain ⟨⟨w, s'⟩, hw, hk⟩ := hk
      cases hk
      exact ⟨h, k, s', hw⟩
    · cases hk
  · rintro ⟨h, k, s', hk⟩
    refine ⟨(by intro hh; cases hh), k, ?_⟩
    rw [fromXml_eq G hi hn hq, if_pos h, hk]; rfl

end Xsd
