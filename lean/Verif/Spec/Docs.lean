import Verif.Props.Text
import Verif.Model.Node
/-!
# What the documentation of a declaration is
-/
namespace Xsd

/-- The first child with the name. -/
def FirstKid (n : Str) (nd k : Nd) : Prop :=
  ∃ a b, nd.xsdKids = a ++ k :: b ∧ k.name = n ∧ ∀ j ∈ a, j.name ≠ n

/-- The text of the documentation written for a declaration: of the first `documentation` in the first `annotation`. -/
def DocText (nd : Nd) (t : Str) : Prop :=
  ∃ an d rest, FirstKid c!"annotation" nd an ∧ FirstKid c!"documentation" an d ∧ d.kids = .text t :: rest

/-- The words of the documentation written for a declaration; there are none if there is no documentation. -/
def DocWords (x : Ext) (nd : Nd) (ws : List Str) : Prop :=
  (∃ t, DocText nd t ∧ Words x t ws) ∨ ((∀ t, ¬ DocText nd t) ∧ ws = [])

/-- Words with one space between them. -/
def unwords (ws : List Str) : Str := (ws.intersperse [' ']).flatten

/-- A documentation attribute shows the documentation of a declaration: it has the words of the documentation, and there
is an attribute iff there are any. -/
def DocShown (x : Ext) (nd : Nd) (d : Option Str) : Prop :=
  ∃ ws, DocWords x nd ws ∧ ((ws = [] ∧ d = none) ∨ (ws ≠ [] ∧ d = some (unwords ws)))

end Xsd
