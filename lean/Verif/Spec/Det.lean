import Verif.Spec.Repr
/-!
# Schemas that can be read with one element of lookahead

`detOK x S C` is a decidable condition on a schema: with one element of lookahead it is always clear which leaf
or variant the next child element belongs to (the classical LL(1) condition, XML Schema's "unique
particle attribution"). `C` is a certificate; for each type
* `first`: at least the names that the first child element of a value can have,
* `null`: a value may have no child element,
* `stop`: at least the names that would be mistaken for a continuation of a value that has ended.

Any certificate that satisfies the local conditions will do; `Cert.compute` finds the least one.
-/
namespace Xsd

structure Cert where
  first : Name → List QName
  stop : Name → List QName
  null : Name → Bool

def disj (a b : List QName) : Bool := a.all (fun q => !b.contains q)
def sub (a b : List QName) : Bool := a.all (fun q => b.contains q)

/-- The name of the first pending element is one of these. -/
def headIn (L : List QName) : List Elem → Bool
  | [] => false
  | e :: _ => L.contains e.1.name

section Det
variable (x : Ext) (S : SchemaContext) (C : Cert)

/-- The expanded name of a leaf. -/
def Leaf.qn (l : Leaf) : List QName :=
  match S.expanded l.name with
  | .ok q => [q]
  | _ => []

/-- The group that a virtual leaf refers to. -/
def Leaf.target (l : Leaf) : Option Name :=
  match l.definition.content with
  | .named n => some n
  | _ => none

/-- The leaves up to and including the first one that may not be absent. -/
def leading (ls : List Leaf) : List Leaf := ls.takeWhile Leaf.mayMiss ++ (ls.dropWhile Leaf.mayMiss).take 1

/-- The names that start one of the leaves, given those that start a group. -/
def lookOf (look : Name → Option (List QName)) : List Leaf → Option (List QName)
  | [] => some []
  | l :: ls =>
    match (if l.isVirtual then l.target.bind look else some (l.qn S)), lookOf look ls with
    | some a, some b => some (a ++ b)
    | _, _ => none

/-- The names on which a group is entered: those of its leaves up to the first required one, or of all
variants. `none` if the nesting of groups exceeds the fuel, if something else than a group is
referred to, or if the type has no usable identifier. -/
def lookSet : Nat → Name → Option (List QName)
  | 0, _ => none
  | k + 1, n =>
    if pascalIdent x n = typeIdent x n then
      match S.get n with
      | some (.element d) =>
        match d.content with
        | some (.leaves ls) => lookOf S (lookSet k) (leading ls)
        | _ => some []
      | some (.choice vs _ _) => lookOf S (lookSet k) vs
      | _ => none
    else none

def look (n : Name) : Option (List QName) := lookSet x S (S.elements.length + 1) n

def leafFirst (l : Leaf) : List QName :=
  if l.isVirtual then (match l.target with | some n => C.first n | none => []) else l.qn S

def leafNull (l : Leaf) : Bool :=
  l.repeats || l.mayMiss || (l.isVirtual && (match l.target with | some n => C.null n | none => false))

/-- The names on which an optional or repeated leaf is entered. -/
def leafLook (l : Leaf) : List QName :=
  if l.isVirtual then (match l.target with | some n => (look x S n).getD [] | none => []) else l.qn S

def leafStop (l : Leaf) : List QName :=
  (if l.repeats || l.mayMiss then leafLook x S l else []) ++
    (if l.isVirtual then (match l.target with | some n => C.stop n | none => []) else [])

/-- A virtual leaf refers to a group. -/
def isGroup (n : Name) : Bool :=
  match S.get n with
  | some (.element _) => true
  | some (.choice _ _ _) => true
  | _ => false

def leafDet (l : Leaf) : Bool :=
  if l.isVirtual then
    match l.target with
    | some n => isGroup S n &&
      (if l.repeats || l.mayMiss then
        (match look x S n with
         | some L => sub (C.first n) L && (!l.repeats || disj (C.stop n) (C.first n))
         | none => false)
       else true)
    | none => false
  else true

def listFirst : List Leaf → List QName
  | [] => []
  | l :: ls => leafFirst S C l ++ (if leafNull C l || l.anywhere then listFirst ls else [])

def listNull (ls : List Leaf) : Bool := ls.all (leafNull C)

def listStop : List Leaf → List QName
  | [] => []
  | l :: ls => listStop ls ++ (if listNull C ls then leafStop x S C l else [])

def listDet : List Leaf → Bool
  | [] => true
  | l :: ls => leafDet x S C l && disj (leafStop x S C l) (listFirst S C ls) && listDet ls

def variantsFirst (vs : List Leaf) : List QName := vs.flatMap (leafFirst S C)

def variantStop (l : Leaf) : List QName :=
  if l.isVirtual then (match l.target with | some n => C.stop n | none => [])
  else if l.repeats then l.qn S else []

def variantDet (l : Leaf) : Bool :=
  if l.isVirtual then
    match l.target with
    | some n => isGroup S n && (match look x S n with | some L => sub (C.first n) L | none => false)
    | none => false
  else true

def variantsDet : List Leaf → Bool
  | [] => true
  | l :: vs => variantDet x S C l && disj (leafLook x S l) (variantsFirst S C vs) && variantsDet vs

/-- Content that is a single value. -/
def contentDet (n : Name) (c : LeafContent) : Bool :=
  match inlined S c with
  | .ok (.named m) => sub (C.first m) (C.first n) && sub (C.stop m) (C.stop n) && (!C.null m || C.null n)
  | .ok _ => C.null n
  | _ => false

def rootDet (n : Name) : Root → Bool
  | .leaf d => contentDet S C n d.content
  | .enum names => C.null n &&
    (match escapeEnumNames x names with | .ok tab => decide ((tab.map Prod.snd).Nodup) | _ => false)
  | .element d =>
    match d.content with
    | none => C.null n
    | some (.leaf _ d) => contentDet S C n d.content
    | some (.leaves ls) => listDet x S C ls && sub (listFirst S C ls) (C.first n) &&
      sub (listStop x S C ls) (C.stop n) && (!listNull C ls || C.null n)
  | .choice vs _ _ => variantsDet x S C vs && sub (variantsFirst S C vs) (C.first n) &&
      sub (vs.flatMap (variantStop S C)) (C.stop n)

/-- See the head of this file. -/
def detOK : Bool := S.elements.all (fun p => rootDet x S C p.1 p.2)

end Det

theorem lookLeaves_eq (ls : List Leaf) : lookLeaves ls = leading ls := by
  induction ls with
  | nil => rfl
  | cons l ls ih =>
    unfold lookLeaves leading
    rw [Leaf.isOptional_eq]
    cases h : l.mayMiss with
    | true => simp [List.takeWhile_cons, List.dropWhile_cons, h, ih, leading]
    | false => simp [List.takeWhile_cons, List.dropWhile_cons, h]

/-- One round of the computation of a certificate. -/
def Cert.step (x : Ext) (S : SchemaContext) (C : List (Name × (List QName × List QName × Bool))) :
    List (Name × (List QName × List QName × Bool)) :=
  let get (n : Name) := (alookup C n).getD ([], [], false)
  let D : Cert := ⟨fun n => (get n).1, fun n => (get n).2.1, fun n => (get n).2.2⟩
  let single (c : LeafContent) := match inlined S c with
    | .ok (.named m) => get m
    | _ => ([], [], true)
  S.elements.map (fun p => (p.1, match p.2 with
    | .leaf d => single d.content
    | .enum _ => ([], [], true)
    | .element d =>
      match d.content with
      | none => ([], [], true)
      | some (.leaf _ d) => single d.content
      | some (.leaves ls) => ((listFirst S D ls).eraseDups, (listStop x S D ls).eraseDups, listNull D ls)
    | .choice vs _ _ => ((variantsFirst S D vs).eraseDups, (vs.flatMap (variantStop S D)).eraseDups, false)))

def iter {α : Type} (f : α → α) : Nat → α → α
  | 0, a => a
  | k + 1, a => iter f k (f a)

/-- The least certificate, if the schema is small enough for the number of rounds. -/
def Cert.compute (x : Ext) (S : SchemaContext) : Cert :=
  let C := iter (Cert.step x S) (2 * S.elements.length + 2) []
  ⟨fun n => ((alookup C n).getD ([], [], false)).1, fun n => ((alookup C n).getD ([], [], false)).2.1,
   fun n => ((alookup C n).getD ([], [], false)).2.2⟩

/-- The schema can be read with one element of lookahead. -/
def Deterministic (x : Ext) (S : SchemaContext) : Prop := ∃ C, detOK x S C = true

end Xsd
