import Verif.Model.ApiText
import Verif.Spec.XmlText
import Verif.Spec.Api
/-!
# Values and modules that XML can express

`FromText`/`ToText` are `from_xml` and `to_xml` on texts. `CleanVal`: the strings in a value consist of characters that XML has, without
tabs and carriage returns. `CleanCode`: the names in generated code are names of XML, and its strings are clean, too.
-/
namespace Xsd

/-- `i::from_xml(s)` returns `r`. -/
def FromText (x : Ext) (P : List TypeDef) (i s : Str) (r : Res TextErr Val) : Prop :=
  r ≠ .diverge ∧ ∃ k, fromXmlText x P k i s = r

/-- `v.to_xml()`, at type `i`, returns `r`. -/
def ToText (x : Ext) (P : List TypeDef) (i : Str) (v : Val) (r : Res Unit Str) : Prop :=
  r ≠ .diverge ∧ ∃ k, toXmlText x P k i v = r

namespace XmlText

/-- Characters that come back from text and from attributes. -/
def CleanChar (c : Char) : Prop := isXmlChar c = true ∧ c ≠ '\t' ∧ c ≠ '\r'

def CleanStr (s : Str) : Prop := ∀ c ∈ s, CleanChar c

/-- All characters of all strings in a value satisfy `p`. -/
inductive ValAll (p : Char → Prop) : Val → Prop where
  | str {s : Str} (h : ∀ c ∈ s, p c) : ValAll p (.str s)
  | bool (b : Bool) : ValAll p (.bool b)
  | int (i : Int) : ValAll p (.int i)
  | dec (n : Nat) : ValAll p (.dec n)
  | flt (n : Nat) : ValAll p (.flt n)
  | unit : ValAll p .unit
  | none : ValAll p .none
  | some {v : Val} (h : ValAll p v) : ValAll p (.some v)
  | vec {vs : List Val} (h : ∀ v ∈ vs, ValAll p v) : ValAll p (.vec vs)
  | newtype {v : Val} (h : ValAll p v) : ValAll p (.newtype v)
  | struct {fs : List (Str × Val)} (h : ∀ f ∈ fs, ValAll p f.2) : ValAll p (.struct fs)
  | variant {n : Str} {v : Val} (h : ValAll p v) : ValAll p (.variant n v)
  | enumv (n : Str) : ValAll p (.enumv n)

/-- All strings in a value are clean. -/
abbrev CleanVal (v : Val) : Prop := ValAll CleanChar v

/-- No string in a value has tabs or carriage returns. -/
abbrev NoTabs (v : Val) : Prop := ValAll (fun c => c ≠ '\t' ∧ c ≠ '\r') v

/-- What `emitXml` writes so that it comes back: carriage returns in text and tabs in attribute values are not escaped, and XML turns them into line
feeds and spaces. -/
def Kept : Ev → Prop
  | .start _ as _ => ∀ a ∈ as, '\t' ∉ a.2
  | .fin => True
  | .chars s => '\r' ∉ s

/-- Decimals and floats are printed with clean characters. -/
def CleanNumbers (x : Ext) : Prop := (∀ n, CleanStr (x.showDecimal n)) ∧ ∀ n, CleanStr (x.showFloat n)

/-- A namespace that can be declared. -/
def CleanBinding (b : Str × Str) : Prop :=
  b ≠ ([], []) → (b.1 = [] ∨ isNCName b.1 = true) ∧ b.2 ≠ [] ∧ b.1 ≠ c!"xml" ∧ b.1 ≠ c!"xmlns" ∧ b.2 ≠ xmlNs ∧ b.2 ≠ xmlnsNs

def CleanValWrite : ValWrite → Prop
  | .fixed s => CleanStr s
  | _ => True

def CleanShow : AttrShow → Prop
  | .fixed s => CleanStr s
  | _ => True

def CleanLeaf (l : LeafWrite) : Prop := (∀ n ∈ l.newCtx, isQName n = true) ∧ CleanValWrite l.inner

def CleanContent : ContentWrite → Prop
  | .nothing => True
  | .single _ v => CleanValWrite v
  | .leaves ls => ∀ l ∈ ls, CleanLeaf l

def CleanTo : ToBody → Prop
  | .leaf v _ => CleanValWrite v
  | .enumText => True
  | .element as _ c => (∀ a ∈ as, isQName a.name = true ∧ CleanShow a.inner) ∧ CleanContent c
  | .choice vs _ => ∀ v ∈ vs, isQName v.name = true ∧ CleanValWrite v.inner

def CleanDecl : Decl → Prop
  | .enum vs => ∀ v ∈ vs, CleanStr v.2
  | _ => True

/-- The names and strings in one definition. -/
def CleanType (t : TypeDef) : Prop :=
  isQName t.xmlName = true ∧ (∀ b ∈ t.nss, CleanBinding b ∧ CleanStr b.2) ∧ CleanTo t.toXml ∧ CleanDecl t.decl

/-- The names and strings in a module. -/
def CleanCode (P : List TypeDef) : Prop := ∀ t ∈ P, CleanType t

/-! All of this can be computed. -/

instance : DecidablePred CleanChar := fun c => inferInstanceAs (Decidable (isXmlChar c = true ∧ c ≠ '\t' ∧ c ≠ '\r'))
instance : DecidablePred CleanStr := fun s => inferInstanceAs (Decidable (∀ c ∈ s, CleanChar c))
instance : DecidablePred CleanBinding := fun b => inferInstanceAs (Decidable (b ≠ ([], []) → (b.1 = [] ∨ isNCName b.1 = true) ∧ b.2 ≠ [] ∧
  b.1 ≠ c!"xml" ∧ b.1 ≠ c!"xmlns" ∧ b.2 ≠ xmlNs ∧ b.2 ≠ xmlnsNs))
instance : DecidablePred CleanValWrite
  | .fixed s => inferInstanceAs (Decidable (CleanStr s))
  | .chars _ | .call _ => isTrue trivial
instance : DecidablePred CleanShow
  | .fixed s => inferInstanceAs (Decidable (CleanStr s))
  | .lit _ | .display _ => isTrue trivial
instance : DecidablePred CleanLeaf := fun l => inferInstanceAs (Decidable ((∀ n ∈ l.newCtx, isQName n = true) ∧ CleanValWrite l.inner))
instance : DecidablePred CleanContent
  | .nothing => isTrue trivial
  | .single _ v => inferInstanceAs (Decidable (CleanValWrite v))
  | .leaves ls => inferInstanceAs (Decidable (∀ l ∈ ls, CleanLeaf l))
instance : DecidablePred CleanTo
  | .leaf v _ => inferInstanceAs (Decidable (CleanValWrite v))
  | .enumText => isTrue trivial
  | .element as _ c => inferInstanceAs (Decidable ((∀ a ∈ as, isQName a.name = true ∧ CleanShow a.inner) ∧ CleanContent c))
  | .choice vs _ => inferInstanceAs (Decidable (∀ v ∈ vs, isQName v.name = true ∧ CleanValWrite v.inner))
instance : DecidablePred CleanDecl
  | .enum vs => inferInstanceAs (Decidable (∀ v ∈ vs, CleanStr v.2))
  | .newtype _ _ | .struct _ | .choice _ => isTrue trivial
instance : DecidablePred CleanType := fun t => inferInstanceAs (Decidable (isQName t.xmlName = true ∧ (∀ b ∈ t.nss, CleanBinding b ∧ CleanStr b.2) ∧
  CleanTo t.toXml ∧ CleanDecl t.decl))
instance : DecidablePred CleanCode := fun P => inferInstanceAs (Decidable (∀ t ∈ P, CleanType t))

instance : DecidablePred Kept
  | .start _ as _ => inferInstanceAs (Decidable (∀ a ∈ as, '\t' ∉ a.2))
  | .fin => isTrue trivial
  | .chars s => inferInstanceAs (Decidable ('\r' ∉ s))

end XmlText

/-- Whatever `v.to_xml()` writes comes back. -/
def WritesKept (x : Ext) (P : List TypeDef) (i : Str) (v : Val) : Prop := ∀ evs, ToXml x P i v (.ok evs) → ∀ ev ∈ evs, XmlText.Kept ev

end Xsd
