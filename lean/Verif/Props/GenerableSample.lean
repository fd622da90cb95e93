import Verif.Props.Generable
import Verif.Props.NoPanic
/-!
# Cases for C60
-/
namespace Xsd

/-- The result is a value. -/
def Res.goodB {ε α : Type} : Res ε α → Bool
  | .ok _ => true
  | _ => false

theorem goodB_sound {ε α : Type} {r : Res ε α} (h : r.goodB = true) : r.Good := by
  cases r with
  | ok a => exact ⟨a, rfl⟩
  | _ => cases h

theorem generable_of_parsed {x : Ext} {F : Files} {k : Nat} {path : Str} {P : PSchema} (h : parseFile x F k path = .ok P)
    (hg : (generateAll x P.context).Good) : Generable x P.context := (C60_generated_iff x F k path P h _ (.refl _)).1 hg

namespace SchemaSample

/-- The conditions hold for the sample files, where two types of the same Pascal-case name, a choice and references between files occur. -/
theorem parsedSchema_generable : parseFile sampleExt files 2 c!"main.xsd" = .ok parsedSchema ∧ Generable sampleExt parsedSchema.context := by
  have h : parseFile sampleExt files 2 c!"main.xsd" = .ok parsedSchema := by decide +kernel
  refine ⟨h, generable_of_parsed h (goodB_sound ?_)⟩
  decide +kernel

/-- The outcome of parsing and generating one file. -/
def outcome (d : XDoc) : Option (Res Str (List Str)) :=
  match parseFile sampleExt (oneFile d) 1 c!"a.xsd" with
  | .ok P => some (match generateAll sampleExt P.context with
    | .ok ds => .ok (ds.map TypeDef.ident) | .err e => .err e | .panic => .panic | .diverge => .diverge)
  | _ => none

/-- Where the conditions fail: a type `self`, a reference to a missing type `self`, an element `self`, an alternative that gives no identifier,
and an element that has the name of its type. An alternative `self` is accepted (though rustc rejects the result: C49, C58). -/
theorem C60_conditions_needed :
    outcome (tDoc [xe c!"simpleType" [(c!"name", c!"self")] [xe c!"restriction" [(c!"base", c!"xs:string")] []]]) = some .panic ∧
    outcome (tDoc [xe c!"element" [(c!"name", c!"a"), (c!"type", c!"t:self")] []]) = some .panic ∧
    outcome (tDoc [xe c!"complexType" [(c!"name", c!"A")] [xe c!"sequence" []
      [xe c!"element" [(c!"name", c!"self"), (c!"type", c!"xs:string")] []]]]) = some .panic ∧
    outcome (choiceOf c!"a" c!"b·c") = some .panic ∧
    outcome (tDoc [xe c!"element" [(c!"name", c!"a"), (c!"type", c!"t:a")] []]) = some .diverge ∧
    outcome (choiceOf c!"a" c!"self") = some (.ok [c!"AASelf", c!"A"]) := by decide +kernel

end SchemaSample

end Xsd
