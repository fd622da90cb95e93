import Verif.Spec.Repr
/-!
# What a type writes around its values
-/
namespace Xsd

/-- What the writer of a type writes: one element, text without an element around it, or the members of a group. -/
inductive Shape where
  | element
  | text
  | members
  deriving DecidableEq

/-- The content of the element is that of another type, or a text under the name of a simple type. -/
def ElementDef.named (d : ElementDef) : Prop := ∃ n ld m, d.content = some (.leaf n ld) ∧ ld.content = .named m

/-- What is written for values of the type `n`: simple types, enumerations, records and alternatives with tags of their own are written as an
element; an element with the type of another one, and an extension, are written as that other type is; and a name for a text as that text. -/
inductive WrittenAs (S : SchemaContext) : Name → Shape → Prop where
  | simple {n d} (h : S.get n = some (.leaf d)) (hc : ∀ m, d.content ≠ .named m) : WrittenAs S n .element
  | enum {n vs} (h : S.get n = some (.enum vs)) : WrittenAs S n .element
  | record {n d} (h : S.get n = some (.element d)) (hv : d.isVirtual = false) (hc : ¬ d.named) : WrittenAs S n .element
  | choice {n vs docs} (h : S.get n = some (.choice vs false docs)) : WrittenAs S n .element
  | group {n d} (h : S.get n = some (.element d)) (hv : d.isVirtual = true) (hc : ¬ d.named) : WrittenAs S n .members
  | choiceGroup {n vs docs} (h : S.get n = some (.choice vs true docs)) : WrittenAs S n .members
  | typedText {n d m t} (h : S.get n = some (.leaf d)) (hc : d.content = .named m) (ht : Means S d.content (.literal t)) : WrittenAs S n .text
  | typedFixed {n d m s} (h : S.get n = some (.leaf d)) (hc : d.content = .named m) (ht : Means S d.content (.fixed s)) : WrittenAs S n .text
  | typed {n d m m' sh} (h : S.get n = some (.leaf d)) (hc : d.content = .named m) (ht : Means S d.content (.named m')) (hs : WrittenAs S m' sh) :
      WrittenAs S n sh
  | extendsText {n d ln ld m t} (h : S.get n = some (.element d)) (hd : d.content = some (.leaf ln ld)) (hc : ld.content = .named m)
      (ht : Means S ld.content (.literal t)) : WrittenAs S n .text
  | extendsFixed {n d ln ld m s} (h : S.get n = some (.element d)) (hd : d.content = some (.leaf ln ld)) (hc : ld.content = .named m)
      (ht : Means S ld.content (.fixed s)) : WrittenAs S n .text
  | extends {n d ln ld m m' sh} (h : S.get n = some (.element d)) (hd : d.content = some (.leaf ln ld)) (hc : ld.content = .named m)
      (ht : Means S ld.content (.named m')) (hs : WrittenAs S m' sh) : WrittenAs S n sh

end Xsd
