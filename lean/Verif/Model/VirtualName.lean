import Verif.Model.Ast
/-!
# `xsd-internal/src/xsd/parse/mod.rs` and `annotation.rs`: names of groups, and documentation text
-/
namespace Xsd

/-- `str::len`: the number of bytes (parse/mod.rs:34). -/
def utf8Len (s : Str) : Nat := (s.map Char.utf8Size).sum

section
variable (x : Ext)

/-- The `zip`, `take_while`, `map` of `mutal_prefix` and `mutal_suffix` (parse/mod.rs:76-78, 100-102). -/
def commonStart : Str → Str → Str
  | a :: as, b :: bs => if a = b ∧ a ≠ '_' ∧ b ≠ '_' then a :: commonStart as bs else []
  | _, _ => []

/-- `mutal_prefix` (parse/mod.rs:73-80). -/
def mutalPrefix (l r : Str) : Str := commonStart (x.snake l) (x.snake r)

/-- `mutal_suffix` (parse/mod.rs:96-107). -/
def mutalSuffix (l r : Str) : Str := (commonStart (x.snake l).reverse (x.snake r).reverse).reverse

/-- `derive_mutal_prefix` and `derive_mutal_suffix` (parse/mod.rs:59-71, 82-94), for the given step. -/
def deriveMutal (step : Str → Str → Str) : List Str → Option Str
  | [] => none
  | n :: ns =>
    let r := ns.foldl step n
    if r = [] then none else some r

/-- The loop body of `derive_virtual_name` (parse/mod.rs:50-53). `name[0..1]` panics if the first character
takes more than one byte. `to_ascii_uppercase` of one ASCII character is `Char.toUpper`. -/
def capitalise : Str → Res Str Str
  | [] => .ok []
  | c :: cs => if c.utf8Size = 1 then .ok (c.toUpper :: cs) else .panic

/-- The concatenation of parse/mod.rs:48-54. -/
def concatNames : List Str → Res Str Str
  | [] => .ok []
  | n :: ns => do
    let h ← capitalise n
    let t ← concatNames ns
    pure (h ++ t)

/-- `derive_virtual_name` (parse/mod.rs:19-57), up to the namespace that `get_node_name` adds. -/
def virtualName (names : List Str) (shorten : Bool) : Res Str Str :=
  if shorten then
    match deriveMutal (mutalPrefix x) names, deriveMutal (mutalSuffix x) names with
    | some p, some s => .ok (if utf8Len p > utf8Len s then p else s)
    | some p, none => .ok p
    | none, some s => .ok s
    | none, none => concatNames names
  else concatNames names

/-- `str::split_whitespace` (std): the maximal pieces without white space, the empty ones dropped. `cur` is the piece
being read, in order (parse/annotation.rs:30). -/
def splitWs : Str → Str → List Str
  | cur, [] => if cur = [] then [] else [cur]
  | cur, c :: cs =>
    if x.isWhitespace c then (if cur = [] then splitWs [] cs else cur :: splitWs [] cs)
    else splitWs (cur ++ [c]) cs

/-- `join(" ")` (std) (parse/annotation.rs:30). -/
def joinSpace : List Str → Str
  | [] => []
  | [w] => w
  | w :: ws => w ++ ' ' :: joinSpace ws

/-- `cleanup_docs` (annotation.rs:29-31). -/
def cleanupDocs (s : Str) : Str := joinSpace (splitWs x [] s)

end

end Xsd
