import Verif.Spec.Api
import Verif.Spec.Repr
/-!
# Calls of generated readers, without fuel

`FromNode x P i s r`: `i::from_xml_node` called on a node in state `s` (the element and its pending child
elements) returns `r`. `ReadsAs x S P c ch r`: reading the content `c` from the child element `ch` gives `r`.
-/
namespace Xsd

/-- The result of a computation that is approximated by more and more fuel. -/
def Ret {ε α : Type} (f : Nat → Res ε α) (r : Res ε α) : Prop := r ≠ .diverge ∧ ∃ k, f k = r

/-- `i::from_xml_node` on a node in state `s` returns `r`: the cursor of the implementation may hold the pending children in any of its
buffers. -/
def FromNode (x : Ext) (P : List TypeDef) (i : Str) (s : Queue) (r : Res DErr (Val × Queue)) : Prop :=
  ∀ c : Cursor, c.abs = s → Ret (fun k => (fromNode x cursorOps P k i c).mapSt Cursor.abs) r

/-- Forget the node state. -/
def Res.fst {ε α β : Type} : Res ε (α × β) → Res ε α
  | .ok a => .ok a.1
  | .err e => .err e
  | .panic => .panic
  | .diverge => .diverge

/-- Continue with the text of an element. -/
def withText (ch : Elem) (f : Str → Res DErr Val) : Res DErr Val :=
  match Queue.textVal ch with
  | .ok s => f s
  | .error e => .err e

/-- Reading the content `c` from the element `ch`. -/
def ReadsAs (x : Ext) (S : SchemaContext) (P : List TypeDef) (c : LeafContent) (ch : Elem) (r : Res DErr Val) : Prop :=
  ∃ c', Means S c c' ∧
    match c' with
    | .literal t => r = withText ch (fun s =>
        match parsePrim x t.prim s with | some v => .ok v | none => .err (.parseType t.xsdName s))
    | .fixed f => r = withText ch (fun s => if s = f then .ok .unit else .err (.fixedMismatch f s))
    | .named n => ∃ i r', typeIdent x n = .ok i ∧ FromNode x P i (Queue.new ch) r' ∧ r = r'.fst

end Xsd
