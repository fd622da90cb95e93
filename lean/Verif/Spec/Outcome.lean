import Verif.Spec.Faults
/-!
# Specification: the outcome of reading a document

`GetsType x S k n e rest o`: a value of the type `n` is read from the element `e` whose child elements `rest` are not read yet, and the outcome is
`o`: a value and the child elements that are still not read after it, or the first error. The relation is defined on the schema and the document; no generated code is involved.

Members are read in the declared order. A member that is an element takes the next child element; if it is a required member of an `xs:all` it takes
the first child element of its name, wherever it is. A member that can be missing or repeats is read if, and as long as, the next child element can be the
first of it. Of a choice the first alternative is read that the next child element can start. Nothing is undone: there is no backtracking.
`panic` stands for an attribute type for which the generated code does not compile. The index `k` bounds the nesting depth of types.
-/
namespace Xsd

/-- First `R`, then `F` with the value; an error of `R` ends it. -/
def Then {α β : Type} (R : Res DErr α → Prop) (F : α → Res DErr β → Prop) (o : Res DErr β) : Prop :=
  (∃ a, R (.ok a) ∧ F a o) ∨ (∃ E, R (.err E) ∧ o = .err E) ∨ (R .panic ∧ o = .panic)

/-- `F` with the text of the element, which is empty or starts with it. -/
def TextGives {α : Type} (e : Elem) (F : Str → Res DErr α → Prop) (o : Res DErr α) : Prop :=
  (∃ s, TextIs .lenient e s ∧ F s o) ∨ ((∀ s, ¬ TextIs .lenient e s) ∧ o = .err (.textExpected e.1.name.loc))

/-- `ch` is the first element called `q` in `rest`, and `rest'` are the others; unless `anywhere` it is the next one. -/
def Found (anywhere : Bool) (q : QName) (rest : List Elem) (ch : Elem) (rest' : List Elem) : Prop :=
  ∃ before after, rest = before ++ ch :: after ∧ rest' = before ++ after ∧ ch.1.name = q ∧ (∀ c ∈ before, c.1.name ≠ q) ∧
    (anywhere = false → before = [])

section
variable (x : Ext) (S : SchemaContext)

/-- The text `s` as a value of a literal type. -/
def GetsLiteral (t : LiteralType) (s : Str) (o : Res DErr Val) : Prop :=
  (∃ v, parsePrim x t.prim s = some v ∧ o = .ok v) ∨ (parsePrim x t.prim s = none ∧ o = .err (.parseType t.xsdName s))

/-- The text `s` as a value of an enumeration. -/
def GetsEnum (names : List Name) (s : Str) (o : Res DErr Val) : Prop :=
  ∃ tab, escapeEnumNames x names = .ok tab ∧
    ((∃ before vn after, tab = before ++ (vn, s) :: after ∧ (∀ p ∈ before, p.2 ≠ s) ∧ o = .ok (.enumv vn)) ∨
      ((∀ p ∈ tab, p.2 ≠ s) ∧ o = .err (.invalidVariant s)))

/-- The content `c`; `T` interprets named types. -/
def GetsVal (T : Name → Elem → List Elem → Res DErr (Val × List Elem) → Prop) (c : LeafContent) (e : Elem) (rest : List Elem)
    (o : Res DErr (Val × List Elem)) : Prop :=
  ∃ c', Means S c c' ∧
    match c' with
    | .literal t => Then (TextGives e (GetsLiteral x t)) (fun v o => o = .ok (v, rest)) o
    | .fixed f => TextGives e (fun s o => (s = f ∧ o = .ok (.unit, rest)) ∨ (s ≠ f ∧ o = .err (.fixedMismatch f s))) o
    | .named n => T n e rest o

/-- One occurrence of a member. -/
def GetsOne (T : Name → Elem → List Elem → Res DErr (Val × List Elem) → Prop) (anywhere : Bool) (l : Leaf) (e : Elem) (rest : List Elem)
    (o : Res DErr (Val × List Elem)) : Prop :=
  if l.isVirtual then GetsVal x S T l.definition.content e rest o
  else ∃ q, S.expanded l.name = .ok q ∧
    ((∃ ch rest', Found anywhere q rest ch rest' ∧
        Then (GetsVal x S T l.definition.content ch (elemKids ch.2)) (fun w o => o = .ok (w.1, rest')) o) ∨
      ((∀ ch rest', ¬ Found anywhere q rest ch rest') ∧ o = .err (.missingElement q.loc q.ns)))

/-- As many occurrences of a member as there are. -/
inductive GetsMany (T : Name → Elem → List Elem → Res DErr (Val × List Elem) → Prop) (l : Leaf) (e : Elem) :
    List Elem → Res DErr (List Val × List Elem) → Prop where
  | stop {rest} (h : NotNext S l rest) : GetsMany T l e rest (.ok ([], rest))
  | fail {rest E} (h : ¬ NotNext S l rest) (h1 : GetsOne x S T false l e rest (.err E)) : GetsMany T l e rest (.err E)
  | panic {rest} (h : ¬ NotNext S l rest) (h1 : GetsOne x S T false l e rest .panic) : GetsMany T l e rest .panic
  | more {rest v mid vs rest'} (h : ¬ NotNext S l rest) (h1 : GetsOne x S T false l e rest (.ok (v, mid)))
      (h2 : GetsMany T l e mid (.ok (vs, rest'))) : GetsMany T l e rest (.ok (v :: vs, rest'))
  | moreFail {rest v mid E} (h : ¬ NotNext S l rest) (h1 : GetsOne x S T false l e rest (.ok (v, mid)))
      (h2 : GetsMany T l e mid (.err E)) : GetsMany T l e rest (.err E)
  | morePanic {rest v mid} (h : ¬ NotNext S l rest) (h1 : GetsOne x S T false l e rest (.ok (v, mid)))
      (h2 : GetsMany T l e mid .panic) : GetsMany T l e rest .panic

/-- All occurrences of a member, with the `Vec`/`Option` around its type. -/
def GetsOcc (T : Name → Elem → List Elem → Res DErr (Val × List Elem) → Prop) (l : Leaf) (e : Elem) (rest : List Elem)
    (o : Res DErr (Val × List Elem)) : Prop :=
  if l.repeats then
    Then (GetsMany x S T l e rest)
      (fun w o => o = .ok (if l.mayMiss then (if w.1 = [] then .none else .some (.vec w.1)) else .vec w.1, w.2)) o
  else if l.mayMiss then
    (NotNext S l rest ∧ o = .ok (.none, rest)) ∨
      (¬ NotNext S l rest ∧ Then (GetsOne x S T false l e rest) (fun w o => o = .ok (.some w.1, w.2)) o)
  else GetsOne x S T l.isUnordered l e rest o

/-- The members of a sequence. -/
def GetsLeaves (T : Name → Elem → List Elem → Res DErr (Val × List Elem) → Prop) :
    List Leaf → Elem → List Elem → Res DErr (List (Str × Val) × List Elem) → Prop
  | [], _, rest, o => o = .ok ([], rest)
  | l :: ls, e, rest, o => ∃ f, fieldIdent x l.name = .ok f ∧
      Then (GetsOcc x S T l e rest) (fun w => Then (GetsLeaves T ls e w.2) (fun fs o => o = .ok ((f, w.1) :: fs.1, fs.2))) o

/-- The content fields of an element definition. -/
def GetsContent (T : Name → Elem → List Elem → Res DErr (Val × List Elem) → Prop) (c : Option ElementContent) (e : Elem) (rest : List Elem)
    (o : Res DErr (List (Str × Val) × List Elem)) : Prop :=
  match c with
  | none => o = .ok ([], rest)
  | some (.leaf n d) => ∃ f, fieldIdent x n = .ok f ∧ Then (GetsVal x S T d.content e rest) (fun w o => o = .ok ([(f, w.1)], w.2)) o
  | some (.leaves ls) => GetsLeaves x S T ls e rest o

/-- The value `s` of an attribute. -/
def GetsStr (c : LeafContent) (s : Str) (o : Res DErr Val) : Prop :=
  match c with
  | .literal t => GetsLiteral x t s o
  | .fixed _ => o = .ok .unit
  | .named _ => ∃ c', Means S c c' ∧
    match c' with
    | .literal t => (t.prim = .string ∧ o = .ok (.str s)) ∨ (t.prim ≠ .string ∧ o = .panic)
    | .fixed _ => o = .panic
    | .named n => (∃ names, S.get n = some (.enum names) ∧ GetsEnum x names s o) ∨
        ((∀ names, S.get n ≠ some (.enum names)) ∧ o = .panic)

/-- An attribute. -/
def GetsAttr (a : Attribute) (e : Elem) (o : Res DErr Val) : Prop :=
  (∃ s, attrOf e.1 a.name.name = some s ∧
      if a.isOptional then Then (GetsStr x S a.content s) (fun w o => o = .ok (.some w)) o else GetsStr x S a.content s o) ∨
    (attrOf e.1 a.name.name = none ∧ o = if a.isOptional then .ok .none else .err (.missingAttribute a.name.name))

/-- The attribute fields of an element definition. -/
def GetsAttrs : List Attribute → Elem → Res DErr (List (Str × Val)) → Prop
  | [], _, o => o = .ok []
  | a :: as, e, o => ∃ f, fieldIdent x a.name = .ok f ∧
      Then (GetsAttr x S a e) (fun w => Then (GetsAttrs as e) (fun fs o => o = .ok ((f, w) :: fs))) o

/-- The payload of an alternative. -/
def GetsVariant (T : Name → Elem → List Elem → Res DErr (Val × List Elem) → Prop) (l : Leaf) (e : Elem) (rest : List Elem)
    (o : Res DErr (Val × List Elem)) : Prop :=
  if l.isVirtual = false ∧ l.repeats = true then Then (GetsMany x S T l e rest) (fun w o => o = .ok (.vec w.1, w.2)) o
  else GetsOne x S T false l e rest o

/-- The alternatives of the choice `n`. -/
def GetsChoice (T : Name → Elem → List Elem → Res DErr (Val × List Elem) → Prop) (n : Name) :
    List Leaf → Elem → List Elem → Res DErr (Val × List Elem) → Prop
  | [], _, _, o => ∃ i, typeIdent x n = .ok i ∧ o = .err (.missingVariant i)
  | l :: vs, e, rest, o =>
    (¬ NotNext S l rest ∧ ∃ i, pascalIdent x l.name = .ok i ∧
        Then (GetsVariant x S T l e rest) (fun w o => o = .ok (.variant i w.1, w.2)) o) ∨
      (NotNext S l rest ∧ GetsChoice T n vs e rest o)

/-- The type `n`, defined by `r`. -/
def GetsRoot (T : Name → Elem → List Elem → Res DErr (Val × List Elem) → Prop) (n : Name) (r : Root) (e : Elem) (rest : List Elem)
    (o : Res DErr (Val × List Elem)) : Prop :=
  match r with
  | .leaf d => Then (GetsVal x S T d.content e rest) (fun w o => o = .ok (.newtype w.1, w.2)) o
  | .enum names => Then (TextGives e (GetsEnum x names)) (fun v o => o = .ok (v, rest)) o
  | .element d => Then (GetsContent x S T d.content e rest)
      (fun fc => Then (GetsAttrs x S d.attributes e) (fun fa o => o = .ok (.struct (fc.1 ++ fa), fc.2))) o
  | .choice vs _ _ => GetsChoice x S T n vs e rest o

/-- See the head of this file. -/
def GetsType : Nat → Name → Elem → List Elem → Res DErr (Val × List Elem) → Prop
  | 0, _, _, _, _ => False
  | k + 1, n, e, rest, o => ∃ r, S.get n = some r ∧ GetsRoot x S (GetsType k) n r e rest o

/-- The document with root element `e` read as a value of the type `n`: child elements that are left over are ignored. -/
def GetsDoc (n : Name) (e : Elem) (o : Res DErr Val) : Prop :=
  ∃ q, S.expanded n = .ok q ∧
    ((e.1.name = q ∧ ∃ k, Then (GetsType x S k n e (elemKids e.2)) (fun w o => o = .ok w.1) o) ∨
      (e.1.name ≠ q ∧ o = .err (.missingElement q.loc q.ns)))

end

end Xsd
