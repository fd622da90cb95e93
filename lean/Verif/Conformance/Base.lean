import Verif.Props.Sample
import Verif.Model.Schema
import Verif.Model.ApiText
import Verif.Model.SchemaText
/-!
# The tests of the repository, evaluated in the model

The integration tests of the repository (`xsd/tests/*.rs`) compare the value decoded from a document with an expected value, and
the text encoded for that value with the document. `tools/conformance.py` translates their schema files, documents and expected
values to terms of the model, and the modules beside this one evaluate parser, generator, reader and writer on them. These are
tests of the model, not proofs: they are evidence that the definitions mean what the Rust code means.
-/
namespace Xsd.Conformance

/-- Inflector's `to_snake_case`, for ASCII: each character with its index, after trailing non-alphanumeric characters are removed. `fresh` is
true at the start and after a separator. -/
def snakeGo (w : Str) : Nat → Bool → Str → Str
  | _, _, [] => []
  | i, fresh, c :: cs =>
    if !c.isAlphanum then (if fresh then snakeGo w (i + 1) true cs else '_' :: snakeGo w (i + 1) true cs)
    else if !fresh && c == c.toUpper && ((w[i + 1]?).any Char.isLower || (w[i - 1]?).any Char.isLower) then
      '_' :: c.toLower :: snakeGo w (i + 1) false cs
    else c.toLower :: snakeGo w (i + 1) false cs

/-- Without trailing non-alphanumeric characters. -/
def trimRight (s : Str) : Str := (s.reverse.dropWhile (fun c => !c.isAlphanum)).reverse

/-- Inflector's `to_pascal_case`, for ASCII. -/
def pascalGo : Bool → Bool → Char → Str → Str
  | _, _, _, [] => []
  | found, fresh, last, c :: cs =>
    if !c.isAlphanum then (if found then pascalGo true true last cs else pascalGo false fresh last cs)
    else if c.isDigit then c :: pascalGo true true last cs
    else if fresh || (last.isLower && c.isUpper) then c.toUpper :: pascalGo true false last cs
    else c.toLower :: pascalGo true false c cs

/-- A number with at most one decimal, in tenths. -/
def parseTenths (s : Str) : Option Nat :=
  match s.span (· ≠ '.') with
  | (a, []) => (parseNat a).map (· * 10)
  | (a, _ :: b) => if b.length = 1 then (parseNat a).bind fun n => (parseNat b).map fun m => 10 * n + m else none

/-- How such a number is printed. -/
def showTenths (n : Nat) : Str := if n % 10 = 0 then showNat (n / 10) else showNat (n / 10) ++ '.' :: showNat (n % 10)

/-- Inflector as above, ASCII character classes, and numbers with one decimal. -/
def ext : Ext where
  pascal s := pascalGo false true ' ' (trimRight s)
  snake s := snakeGo s 0 true (trimRight s)
  isAlphanumeric := Char.isAlphanum
  isAlphabetic := Char.isAlpha
  isWhitespace := Char.isWhitespace
  identOk s := s != [] && s.all (fun c => c.isAlphanum || c == '_') && !(s.head?.any Char.isDigit)
  parseDecimal := parseTenths
  showDecimal := showTenths
  parseFloat := parseTenths
  showFloat := showTenths

/-- The position of a file in the directory: `./` is ignored. -/
def pushPath (l : Str) : Str := if l.take 2 = c!"./" then l.drop 2 else l

/-- Files in one directory, with their texts and trees. -/
def directory (fs : List (Str × Str × Elem)) : Files where
  read p := (alookup fs p).map (fun f => .doc ⟨f.2, XmlText.textPos f.1⟩)
  parent _ := []
  push _ l := pushPath l

/-- Files in one directory, as texts. -/
def textDirectory (fs : List (Str × Str)) : TextFiles where
  read p := alookup fs p
  parent _ := []
  push _ l := pushPath l
  err _ := (0, 0)

mutual
/-- Are the nodes equal? -/
def sameNode : XNode → XNode → Bool
  | .text s, .text t => s == t
  | .other, .other => true
  | .elem i cs, .elem j ds => decide (i = j) && sameNodes cs ds
  | _, _ => false
def sameNodes : List XNode → List XNode → Bool
  | [], [] => true
  | c :: cs, d :: ds => sameNode c d && sameNodes cs ds
  | _, _ => false
end

mutual
theorem sameNode_eq {n m : XNode} (h : sameNode n m = true) : n = m := by
  match n, m with
  | .text s, .text t => rw [beq_iff_eq.1 h]
  | .other, .other => rfl
  | .elem i cs, .elem j ds =>
    simp only [sameNode, Bool.and_eq_true, decide_eq_true_eq] at h
    rw [h.1, sameNodes_eq h.2]
theorem sameNodes_eq {n m : List XNode} (h : sameNodes n m = true) : n = m := by
  match n, m with
  | [], [] => rfl
  | c :: cs, d :: ds =>
    simp only [sameNodes, Bool.and_eq_true] at h
    rw [sameNode_eq h.1, sameNodes_eq h.2]
end

/-- The text is read as this tree, with these positions. -/
def readsAs (s : Str) (e : Elem) : Bool :=
  match XmlText.readXmlAt s with
  | some f => sameNode (.elem f.1 f.2) (.elem e.1 e.2)
  | none => false

theorem directory_texts {fs : List (Str × Str × Elem)} (h : fs.all (fun f => readsAs f.2.1 f.2.2) = true) :
    (textDirectory (fs.map (fun f => (f.1, f.2.1)))).files = directory fs := by
  have : ∀ p, (alookup (fs.map (fun f => (f.1, f.2.1))) p).map (fileContent (fun _ => (0, 0))) =
      (alookup fs p).map (fun f => FileContent.doc ⟨f.2, XmlText.textPos f.1⟩) := by
    intro p
    induction fs with
    | nil => rfl
    | cons f fs ih =>
      obtain ⟨n, s, e⟩ := f
      simp only [List.all_cons, Bool.and_eq_true] at h
      simp only [List.map_cons, alookup]
      split
      · simp only [Option.map_some, Option.some.injEq, fileContent]
        have hr := h.1
        unfold readsAs at hr
        split at hr
        · next f' hf =>
          rw [hf]
          have := sameNode_eq hr
          simp only [XNode.elem.injEq] at this
          obtain ⟨a, b⟩ := f'
          obtain ⟨c, d⟩ := e
          cases this.1; cases this.2
          rfl
        · cases hr
      · exact ih h.2
  unfold textDirectory TextFiles.files directory
  simp only [Files.mk.injEq, and_true]
  exact funext this

/-- Values are compared like in Rust: the fields of a struct have no order. -/
def same : Nat → Val → Val → Bool
  | 0, _, _ => false
  | k + 1, v, w =>
    match v, w with
    | .some v, .some w => same k v w
    | .newtype v, .newtype w => same k v w
    | .variant n v, .variant m w => n == m && same k v w
    | .vec vs, .vec ws => vs.length == ws.length && (vs.zip ws).all (fun p => same k p.1 p.2)
    | .struct fs, .struct gs =>
      fs.length == gs.length && fs.all (fun f => match alookup gs f.1 with | some w => same k f.2 w | none => false)
    | .str a, .str b => a == b
    | .bool a, .bool b => a == b
    | .int a, .int b => a == b
    | .flt a, .flt b => a == b
    | .dec a, .dec b => a == b
    | .enumv a, .enumv b => a == b
    | .unit, .unit => true
    | .none, .none => true
    | _, _ => false

/-- xml-rs does not print the declaration of a namespace that is already declared, with the same prefix and URI, in an
enclosing element. -/
def printed : List (List (Str × Str)) → List Ev → List Ev
  | scope, .start n as nss :: es =>
    let new := nss.filter (fun p => (scope.filterMap (alookup · p.1)).head? ≠ some p.2)
    .start n as new :: printed (nss :: scope) es
  | scope, .fin :: es => .fin :: printed scope.tail es
  | scope, e :: es => e :: printed scope es
  | _, [] => []

/-- The test: the schema is parsed and all code is generated, the document is decoded as the expected value, and this is encoded as
the document. -/
def passes (F : Files) (path ty : Str) (d : Doc) (evs : List Ev) (expected : Val) : Bool :=
  match parseFile ext F 9 path with
  | .ok S =>
    match generateAll ext S.context with
    | .ok P =>
      match fromXml ext cursorOps P 30 ty d with
      | .ok v =>
        same 30 v expected && (match toXml ext P 30 ty v with
          | .ok es => decide (printed [] es = evs)
          | _ => false)
      | _ => false
    | _ => false
  | _ => false

/-- The test as it is in the repository, with the texts themselves. -/
def passesText (F : Files) (path ty text written : Str) (expected : Val) : Bool :=
  match parseFile ext F 9 path with
  | .ok S =>
    match generateAll ext S.context with
    | .ok P =>
      match fromXmlText ext P 30 ty text with
      | .ok v =>
        same 30 v expected && (match toXmlText ext P 30 ty v with
          | .ok t => decide (t = written)
          | _ => false)
      | _ => false
    | _ => false
  | _ => false

end Xsd.Conformance
