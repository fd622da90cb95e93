import Verif.Spec.Buildable
import Verif.Props.Alias
/-!
# Specification: schemas for which code can be generated
-/
namespace Xsd

/-- A word that can be an identifier, raw or not: it has the form of one and is none of the four words that cannot be raw. -/
def Usable (x : Ext) (w : Str) : Prop := x.identOk w = true ∧ w ∉ [c!"crate", c!"self", c!"Self", c!"super"]

/-- The conditions on a schema under which code is generated for it. -/
structure Generable (x : Ext) (S : SchemaContext) : Prop where
  /-- the names of types, in Pascal case -/
  types : ∀ n r, S.get n = some r → Usable x (x.pascal n.name)
  /-- the names that definitions refer to, after following simple types -/
  refs : ∀ n r, S.get n = some r → ∀ c ∈ r.allContents, ∀ m, Means S c (.named m) → Usable x (x.pascal m.name)
  /-- the names of elements and attributes in a type, in snake case -/
  fields : ∀ n e, S.get n = some (.element e) → ∀ m ∈ e.fieldNames, Usable x (x.snake m.name)
  /-- the names of the alternatives of a choice have the form of identifiers -/
  choices : ∀ n vs b d, S.get n = some (.choice vs b d) → ∀ l ∈ vs, x.identOk (x.pascal l.name.name) = true
  /-- so do the variants of enumerations -/
  enums : ∀ n vs, S.get n = some (.enum vs) → ∀ tab, escapeEnumNames x vs = .ok tab → ∀ p ∈ tab, x.identOk p.1 = true
  /-- no simple type or element is an alias of itself -/
  acyclic : ∀ n, ¬ S.Aliases n n

end Xsd
