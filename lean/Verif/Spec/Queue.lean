import Verif.Model.Decode
/-!
# Specification of the decode cursor: a plain queue of element children

Independent of the three buffers of the implementation. Also the language of client histories: a
client holds any number of nodes (handles) and calls any operation on any of them, in any order.
-/
namespace Xsd

/-- A call on a decode `Node` (the public methods of xsd/src/decode.rs:88-188). -/
inductive Op where
  | peek (q : QName)
  | next (q : QName)
  | tryNext (q : QName)
  | child (q : QName)
  | tryChild (q : QName)
  | attr (name : Str)
  | tryAttr (name : Str)
  | text

/-- What the caller sees. -/
inductive Obs where
  | bool (b : Bool)
  | node (e : Option Elem)
  | tryNode (e : Except DErr Elem)
  | attr (v : Option Str)
  | tryAttr (v : Except DErr Str)
  | text (v : Except DErr Str)
  | badHandle

/-- The node handed to the caller, if any. -/
def Obs.elem : Obs → Option Elem
  | .node e => e
  | .tryNode (.ok e) => some e
  | _ => none

/-- Runs a history against a list of live nodes; every node handed out becomes a new handle at the end
of the list. `step` and `mk` are the node implementation. -/
def runHist {σ : Type} (step : σ → Op → Obs × σ) (mk : Elem → σ) :
    List σ → List (Nat × Op) → List Obs
  | _, [] => []
  | h, (i, op) :: ops =>
    match h[i]? with
    | none => .badHandle :: runHist step mk h ops
    | some s =>
      let (o, s') := step s op
      o :: runHist step mk (h.set i s' ++ (o.elem.map mk).toList) ops

/-- One call on the implementation model. -/
def Cursor.step (c : Cursor) : Op → Obs × Cursor
  | .peek q => let (b, c) := c.peekChild q; (.bool b, c)
  | .next q => let (e, c) := c.nextChild q; (.node e, c)
  | .tryNext q => let (e, c) := c.tryNextChild q; (.tryNode e, c)
  | .child q => let (e, c) := c.child q; (.node e, c)
  | .tryChild q => let (e, c) := c.tryChild q; (.tryNode e, c)
  | .attr n => (.attr (c.attr n), c)
  | .tryAttr n => (.tryAttr (c.tryAttribute n), c)
  | .text => (.text c.text, c)

/-- Specification state: an element and those of its element children not handed out yet, in document
order. -/
structure Queue where
  node : Elem
  pending : List Elem

namespace Queue

/-- A fresh node: every element child is pending. -/
def new (e : Elem) : Queue := ⟨e, e.2.filterMap XNode.asElem⟩

/-- Take the head if it has the wanted name. -/
def popIf (q : QName) : List Elem → Option Elem × List Elem
  | e :: es => if e.1.name = q then (some e, es) else (none, e :: es)
  | [] => (none, [])

/-- Take the earliest element with the wanted name. -/
def takeFirst (q : QName) (es : List Elem) : Option Elem × List Elem :=
  (es.find? (fun e => e.1.name = q), es.eraseP (fun e => e.1.name = q))

def orMissing (q : QName) : Option Elem → Except DErr Elem
  | some e => .ok e
  | none => .error (.missingElement q.loc q.ns)

/-- Value of the attribute without namespace. -/
def attrVal (e : Elem) (n : Str) : Option Str :=
  (e.1.attrs.filter (fun a => a.ns = none ∧ a.loc = n)).head?.map XAttr.value

def textVal (e : Elem) : Except DErr Str :=
  match e.2 with
  | [] => .ok []
  | .text s :: _ => .ok s
  | .elem _ _ :: _ => .error (.textExpected e.1.name.loc)
  | .other :: _ => .error (.textExpected e.1.name.loc)

def step (s : Queue) : Op → Obs × Queue
  | .peek q => (.bool (s.pending.head?.any (fun e => e.1.name = q)), s)
  | .next q => (.node (popIf q s.pending).1, ⟨s.node, (popIf q s.pending).2⟩)
  | .tryNext q => (.tryNode (orMissing q (popIf q s.pending).1), ⟨s.node, (popIf q s.pending).2⟩)
  | .child q => (.node (takeFirst q s.pending).1, ⟨s.node, (takeFirst q s.pending).2⟩)
  | .tryChild q =>
    (.tryNode (orMissing q (takeFirst q s.pending).1), ⟨s.node, (takeFirst q s.pending).2⟩)
  | .attr n => (.attr (attrVal s.node n), s)
  | .tryAttr n =>
    (.tryAttr (match attrVal s.node n with
      | some v => .ok v
      | none => .error (.missingAttribute n)), s)
  | .text => (.text (textVal s.node), s)

end Queue

/-- Runs a history on one node only, ignoring the nodes it hands out. -/
def runOn {σ : Type} (step : σ → Op → Obs × σ) : σ → List Op → List Obs × σ
  | s, [] => ([], s)
  | s, op :: ops =>
    let (o, s') := step s op
    let (os, s'') := runOn step s' ops
    (o :: os, s'')

end Xsd
