import Verif.Model.XmlText
/-!
# When two documents say the same

Two documents say the same if they differ only in the prefixes they bind to namespaces and where they do so, in the order of attributes,
in what comments and processing instructions say, and in where things stand in the text.
-/
namespace Xsd

/-- An attribute without its position. -/
def XAttr.plain (a : XAttr) : Option Str × Str × Str := (a.ns, a.loc, a.value)

/-- Two start tags say the same: the names stand for the same, and the attributes are the same up to their order. No name occurs twice, as
in all well-formed documents. -/
structure TagRestated (i i' : ElemInfo) : Prop where
  name : i.name = i'.name
  attrs : (i.attrs.map XAttr.plain).Perm (i'.attrs.map XAttr.plain)
  unique : (i.attrs.map fun a => (a.ns, a.loc)).Nodup

mutual
/-- Two nodes say the same. -/
inductive Restated : XNode → XNode → Prop
  | elem {i i' : ElemInfo} {cs cs' : List XNode} (tag : TagRestated i i') (kids : RestatedKids cs cs') : Restated (.elem i cs) (.elem i' cs')
  | text (s : Str) : Restated (.text s) (.text s)
  | other : Restated .other .other
/-- Two lists of nodes say the same. -/
inductive RestatedKids : List XNode → List XNode → Prop
  | nil : RestatedKids [] []
  | cons {c c' : XNode} {cs cs' : List XNode} (h : Restated c c') (t : RestatedKids cs cs') : RestatedKids (c :: cs) (c' :: cs')
end

/-- Two texts say the same: both are no documents, or they are documents that say the same. -/
inductive TextRestated : Str → Str → Prop
  | none {s s' : Str} (h : XmlText.readXml s = none) (h' : XmlText.readXml s' = none) : TextRestated s s'
  | doc {s s' : Str} {e e' : Elem} (h : XmlText.readXml s = some e) (h' : XmlText.readXml s' = some e')
    (hd : Restated (.elem e.1 e.2) (.elem e'.1 e'.2)) : TextRestated s s'

end Xsd
