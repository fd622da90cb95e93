import Verif.Model.Schema
/-!
# Schema files with other namespace prefixes

The specification of C80. A prefix is only a short name for a namespace within one file: which one is used, or whether the
namespace of XML Schema is declared with a prefix or as the default one, does not matter.
-/
namespace Xsd
namespace Pre

/-- A way to rewrite a file. Attributes get the values `value`, elements the namespace declarations `decls`, and everything
is moved. -/
structure Rewriting where
  /-- the new value of an attribute that is a qualified name -/
  value : XAttr → Str
  /-- the new namespace declarations of an element -/
  decls : ElemInfo → List (Option Str × Str)
  /-- the new place -/
  place : Nat → Nat

/-- The attributes of schema elements whose values are qualified names. -/
def qualified : List Str := [c!"type", c!"base", c!"ref"]

section
variable (R : Rewriting)

/-- An attribute of the new file. -/
def reAttr (a : XAttr) : XAttr :=
  { a with value := if a.loc ∈ qualified then R.value a else a.value, start := R.place a.start }

/-- The name, attributes and namespaces of an element of the new file. -/
def reInfo (i : ElemInfo) : ElemInfo := { i with attrs := i.attrs.map (reAttr R), nss := R.decls i, start := R.place i.start }

mutual
/-- A node of the new file. -/
def reNode : XNode → XNode
  | .elem i cs => .elem (reInfo R i) (reKids cs)
  | .text s => .text s
  | .other => .other
/-- Nodes of the new file. -/
def reKids : List XNode → List XNode
  | [] => []
  | n :: ns => reNode n :: reKids ns
end

end

mutual
/-- All attributes in a node. -/
def attrsIn : XNode → List XAttr
  | .elem i cs => i.attrs ++ attrsInAll cs
  | .text _ => []
  | .other => []
/-- All attributes in these nodes. -/
def attrsInAll : List XNode → List XAttr
  | [] => []
  | n :: ns => attrsIn n ++ attrsInAll ns
end

/-- The name `n` in the namespace `uri` is meant by `v`, given these declarations: the namespace is the one that is declared
for the prefix; names without a prefix are in the default namespace. The parser handles the latter wrongly if the default
namespace is not the one of XML Schema (C33), so this case is left out. -/
inductive Means (decls : List (Option Str × Str)) : Str → Str → Option Str → Prop
  | prefixed {p n u : Str} (hp : ':' ∉ p) (hd : (some p, u) ∈ decls) : Means decls (p ++ ':' :: n) n (some u)
  | builtin {n : Str} (hn : ':' ∉ n) (hd : (none, nsXsd) ∈ decls) : Means decls n n (some nsXsd)
  | bare {n : Str} (hn : ':' ∉ n) (hd : ∀ u, (none, u) ∉ decls) : Means decls n n none

/-- The prefix is not declared. -/
def Undeclared (decls : List (Option Str × Str)) (v : Str) : Prop := ∃ p n, v = p ++ ':' :: n ∧ ':' ∉ p ∧ ∀ u, (some p, u) ∉ decls

/-- The values mean the same name, or both mean nothing. -/
def SameMeaning (decls : List (Option Str × Str)) (v : Str) (decls' : List (Option Str × Str)) (v' : Str) : Prop :=
  (∃ n u, Means decls v n u ∧ Means decls' v' n u) ∨ (Undeclared decls v ∧ Undeclared decls' v')

/-- The second document is the first with other prefixes: all qualified names mean the same as before. The declarations are
those of the root element; no prefix is declared twice (which XML demands). -/
def RenamedDoc (d d' : XDoc) : Prop := ∃ R : Rewriting,
  d'.root = (reInfo R d.root.1, reKids R d.root.2) ∧
  (d.root.1.nss.map Prod.fst).Nodup ∧ (d'.root.1.nss.map Prod.fst).Nodup ∧
  ∀ a ∈ d.root.1.attrs ++ attrsInAll d.root.2, a.loc ∈ qualified → SameMeaning d.root.1.nss a.value d'.root.1.nss (R.value a)

/-- The second file is the first with other prefixes. -/
inductive RenamedFile : Option FileContent → Option FileContent → Prop
  | none : RenamedFile none none
  | malformed (r c r' c' : Nat) : RenamedFile (some (.malformed r c)) (some (.malformed r' c'))
  | doc {d d' : XDoc} (h : RenamedDoc d d') : RenamedFile (some (.doc d)) (some (.doc d'))

/-- The second file system is the first with other prefixes in the files, in each file others. -/
structure RenamedFiles (F F' : Files) : Prop where
  parent : F'.parent = F.parent
  push : F'.push = F.push
  read : ∀ path, RenamedFile (F.read path) (F'.read path)

end Pre
end Xsd
