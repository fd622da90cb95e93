import Verif.Model.XmlText
/-!
# Texts of an event stream

`Written`: which texts an XML writer may produce for a list of events. It leaves open how characters are escaped, which
quotes are used, how elements without content are written, where lines are broken, and whether a namespace declaration that is already in scope is
repeated. `Xsd.XmlText.emitXml` is one of them.
-/
namespace Xsd
namespace XmlText

/-- White space other than carriage returns (which would be read as line feeds). -/
def Blank (w : Str) : Prop := ∀ c ∈ w, c = ' ' ∨ c = '\t' ∨ c = '\n'

/-- The digit `c` has the value `d`. -/
def Digit (c : Char) (d : Nat) : Prop := (c!"0123456789abcdef")[d]? = some c ∨ (c!"0123456789ABCDEF")[d]? = some c

/-- The digits `ds` stand for the number `n` to the base `b`. -/
inductive Numeral (b : Nat) : Str → Nat → Prop where
  | one {c : Char} {d : Nat} (hd : Digit c d) (hb : d < b) : Numeral b [c] d
  | more {ds : Str} {n : Nat} {c : Char} {d : Nat} (h : Numeral b ds n) (hd : Digit c d) (hb : d < b) : Numeral b (ds ++ [c]) (b * n + d)

/-- `r`, between `&` and `;`, stands for `c`. -/
inductive Refers : Str → Char → Prop where
  | lt : Refers c!"lt" '<'
  | gt : Refers c!"gt" '>'
  | amp : Refers c!"amp" '&'
  | quot : Refers c!"quot" '"'
  | apos : Refers c!"apos" '\''
  | dec {ds : Str} {c : Char} (h : Numeral 10 ds c.toNat) : Refers ('#' :: ds) c
  | hex {ds : Str} {c : Char} (h : Numeral 16 ds c.toNat) : Refers ('#' :: 'x' :: ds) c

/-- `SpellsText k s t k'`: `t` spells the characters `s` in the content of an element. `k` is the number of `]` (two at most) before `t`, `k'`
after it: `]]>` must not occur. -/
inductive SpellsText : Nat → Str → Str → Nat → Prop where
  | nil {k : Nat} : SpellsText k [] [] k
  | lit {k k' : Nat} {c : Char} {s t : Str} (hx : isXmlChar c = true) (h1 : c ≠ '<') (h2 : c ≠ '&') (h3 : c ≠ '\r')
      (h4 : c = '>' → k < 2) (h : SpellsText (if c = ']' then min 2 (k + 1) else 0) s t k') : SpellsText k (c :: s) (c :: t) k'
  | ref {k k' : Nat} {c : Char} {r s t : Str} (hx : isXmlChar c = true) (hr : Refers r c) (h : SpellsText 0 s t k') :
      SpellsText k (c :: s) ('&' :: (r ++ ';' :: t)) k'

/-- `t` spells the attribute value `s` between quotes `q`. -/
inductive SpellsAttr (q : Char) : Str → Str → Prop where
  | nil : SpellsAttr q [] []
  | lit {c : Char} {s t : Str} (hx : isXmlChar c = true) (h1 : c ≠ '<') (h2 : c ≠ '&') (h3 : c ≠ '\t' ∧ c ≠ '\n' ∧ c ≠ '\r') (h4 : c ≠ q)
      (h : SpellsAttr q s t) : SpellsAttr q (c :: s) (c :: t)
  | ref {c : Char} {r s t : Str} (hx : isXmlChar c = true) (hr : Refers r c) (h : SpellsAttr q s t) :
      SpellsAttr q (c :: s) ('&' :: (r ++ ';' :: t))

/-- Attributes, each with white space before it. -/
inductive AttrsText : List (Str × Str) → Str → Prop where
  | nil : AttrsText [] []
  | cons {a v t w w1 w2 rest : Str} {q : Char} {as : List (Str × Str)} (hw : Blank w) (hn : w ≠ []) (hw1 : Blank w1) (hw2 : Blank w2)
      (hq : q = '"' ∨ q = '\'') (hv : SpellsAttr q v t) (h : AttrsText as rest) :
      AttrsText ((a, v) :: as) (w ++ (a ++ (w1 ++ '=' :: (w2 ++ q :: (t ++ q :: rest)))))

/-- The namespace declarations `ds` suffice for the bindings `nss` where `sc` is in scope. -/
def DeclsFor (sc : Scope) (nss ds : List (Str × Str)) : Prop :=
  ∃ f : Str × Str → Bool, ds = nss.filter f ∧
    ∀ b ∈ nss, (f b = true → b ≠ ([], [])) ∧ (f b = false → b = ([], []) ∨ alookup sc b.1 = some b.2)

/-- The text `t` between `<` and the end of a start tag. -/
def TagText (sc : Scope) (n : Str) (as nss ds : List (Str × Str)) (t : Str) : Prop :=
  DeclsFor sc nss ds ∧ ∃ ta w, AttrsText (ds.map declAttr ++ as) ta ∧ Blank w ∧ t = n ++ (ta ++ w)

/-- May white space be added before a start tag? -/
def spaceBefore : List Open → Prop
  | [] => True
  | o :: _ => o.text = false

/-- `Written st k evs t`: after the start tags of `st` (innermost first), the text `t` stands for the events `evs`. White space may be added before tags in
elements without text (but not in elements without any content). `k` is as in `SpellsText`. -/
inductive Written : List Open → Nat → List Ev → Str → Prop where
  | nil {k : Nat} {w : Str} (hw : Blank w) : Written [] k [] w
  | start {st : List Open} {k : Nat} {w n ta t : Str} {as nss ds : List (Str × Str)} {evs : List Ev} (hw : Blank w)
      (hs : w = [] ∨ spaceBefore st) (ht : TagText (openScope st) n as nss ds ta)
      (h : Written (⟨n, false, false, ds ++ openScope st⟩ :: addElem st) 0 evs t) :
      Written st k (.start n as nss :: evs) (w ++ '<' :: (ta ++ '>' :: t))
  | empty {st : List Open} {k : Nat} {w n ta t : Str} {as nss ds : List (Str × Str)} {evs : List Ev} (hw : Blank w)
      (hs : w = [] ∨ spaceBefore st) (ht : TagText (openScope st) n as nss ds ta) (h : Written (addElem st) 0 evs t) :
      Written st k (.start n as nss :: .fin :: evs) (w ++ '<' :: (ta ++ '/' :: '>' :: t))
  | fin {o : Open} {st : List Open} {k : Nat} {w w' t : Str} {evs : List Ev} (hw : Blank w) (hw' : Blank w')
      (hs : w = [] ∨ (o.text = false ∧ o.elems = true)) (h : Written st 0 evs t) :
      Written (o :: st) k (.fin :: evs) (w ++ '<' :: '/' :: (o.name ++ (w' ++ '>' :: t)))
  | chars {o : Open} {st : List Open} {k k' : Nat} {s ts t : Str} {evs : List Ev} (hs : SpellsText k s ts k')
      (h : Written ({ o with text := o.text || s != [] } :: st) k' evs t) : Written (o :: st) k (.chars s :: evs) (ts ++ t)
  | outer {k : Nat} {s t : Str} {evs : List Ev} (hs : Blank s) (h : Written [] (if s = [] then k else 0) evs t) :
      Written [] k (.chars s :: evs) (s ++ t)

/-- The names in an event are names of XML: element and attribute names are qualified names, and namespace declarations bind different prefixes other than
the reserved ones. -/
def WellNamed : Ev → Prop
  | .start n as nss => isQName n = true ∧ (∀ a ∈ as, isQName a.1 = true) ∧ (nss.map Prod.fst).Nodup ∧
      ∀ b ∈ nss, b ≠ ([], []) → (b.1 = [] ∨ isNCName b.1 = true) ∧ b.2 ≠ [] ∧ b.1 ≠ c!"xml" ∧ b.1 ≠ c!"xmlns" ∧
        b.2 ≠ xmlNs ∧ b.2 ≠ xmlnsNs
  | _ => True

/-- The characters that XML can express in content, in attribute values and in namespace names. A carriage return in content and a tab in an attribute
value are not among them because xml-rs writes them as they are: they are read as line feed and as space. -/
def Expressible : Ev → Prop
  | .start _ as nss => (∀ a ∈ as, ∀ c ∈ a.2, isXmlChar c = true ∧ c ≠ '\t') ∧ ∀ b ∈ nss, ∀ c ∈ b.2, isXmlChar c = true ∧ c ≠ '\t'
  | .fin => True
  | .chars s => ∀ c ∈ s, isXmlChar c = true ∧ c ≠ '\r'

end XmlText
end Xsd
