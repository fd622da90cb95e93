import Verif.Spec.Eval
import Verif.Spec.Det
/-!
# Specification: the elements that start a group or an alternative
-/
namespace Xsd

/-- `q` is the name of an element that can come first in the group `n`: the first element of an alternative, or one of the
elements of a sequence up to and including the first that is not optional. -/
inductive Leads (S : SchemaContext) : Name → QName → Prop where
  | variant {n : Name} {vs : List Leaf} {b : Bool} {d : Option Str} {l : Leaf} {q : QName}
      (hg : S.get n = some (.choice vs b d)) (hl : l ∈ vs) (hv : l.isVirtual = false) (hq : S.expanded l.name = .ok q) :
      Leads S n q
  | variantGroup {n : Name} {vs : List Leaf} {b : Bool} {d : Option Str} {l : Leaf} {m : Name} {q : QName}
      (hg : S.get n = some (.choice vs b d)) (hl : l ∈ vs) (hv : l.isVirtual = true)
      (hm : l.definition.content = .named m) (h : Leads S m q) : Leads S n q
  | field {n : Name} {d : ElementDef} {pre post : List Leaf} {l : Leaf} {q : QName}
      (hg : S.get n = some (.element d)) (hc : d.content = some (.leaves (pre ++ l :: post)))
      (ho : ∀ a ∈ pre, a.mayMiss = true) (hv : l.isVirtual = false) (hq : S.expanded l.name = .ok q) : Leads S n q
  | fieldGroup {n : Name} {d : ElementDef} {pre post : List Leaf} {l : Leaf} {m : Name} {q : QName}
      (hg : S.get n = some (.element d)) (hc : d.content = some (.leaves (pre ++ l :: post)))
      (ho : ∀ a ∈ pre, a.mayMiss = true) (hv : l.isVirtual = true) (hm : l.definition.content = .named m)
      (h : Leads S m q) : Leads S n q

/-- `q` is the name of an element that can come first in the leaf `l`. -/
def LeafLeads (S : SchemaContext) (l : Leaf) (q : QName) : Prop :=
  (l.isVirtual = false ∧ S.expanded l.name = .ok q) ∨
    (l.isVirtual = true ∧ ∃ m, l.definition.content = .named m ∧ Leads S m q)

/-- The children `chs`, read in order with the content `c`; the first failure ends it. -/
inductive ReadsList (x : Ext) (S : SchemaContext) (P : List TypeDef) (c : LeafContent) :
    List Elem → Res DErr (List Val) → Prop where
  | nil : ReadsList x S P c [] (.ok [])
  | err {ch : Elem} {chs : List Elem} {e : DErr} (h : ReadsAs x S P c ch (.err e)) : ReadsList x S P c (ch :: chs) (.err e)
  | panic {ch : Elem} {chs : List Elem} (h : ReadsAs x S P c ch .panic) : ReadsList x S P c (ch :: chs) .panic
  | cons {ch : Elem} {chs : List Elem} {v : Val} {r : Res DErr (List Val)} (h : ReadsAs x S P c ch (.ok v))
      (hs : ReadsList x S P c chs r) : ReadsList x S P c (ch :: chs) (do let vs ← r; .ok (v :: vs))

/-- `run` is the longest prefix of `p` that consists of elements called `q`. -/
def MaximalRun (q : QName) (p run rest : List Elem) : Prop :=
  p = run ++ rest ∧ (∀ ch ∈ run, ch.1.name = q) ∧ ∀ ch rest', rest = ch :: rest' → ch.1.name ≠ q

/-- The result of reading the alternative `l` of a choice from a node whose next pending child is `ch`. -/
def AltReads (x : Ext) (S : SchemaContext) (P : List TypeDef) (l : Leaf) (e ch : Elem) (rest : List Elem)
    (r : Res DErr (Val × Queue)) : Prop :=
  ∃ i, pascalIdent x l.name = .ok i ∧
    if l.isVirtual then
      ∃ m im r', l.definition.content = .named m ∧ typeIdent x m = .ok im ∧ FromNode x P im ⟨e, ch :: rest⟩ r' ∧
        r = (do let w ← r'; .ok (.variant i w.1, w.2))
    else if l.repeats then
      ∃ run rest' r', MaximalRun ch.1.name (ch :: rest) run rest' ∧ ReadsList x S P l.definition.content run r' ∧
        r = (do let vs ← r'; .ok (.variant i (.vec vs), (⟨e, rest'⟩ : Queue)))
    else
      ∃ r', ReadsAs x S P l.definition.content ch r' ∧ r = (do let v ← r'; .ok (.variant i v, (⟨e, rest⟩ : Queue)))

end Xsd
