import Verif.Model.XmlText
import Verif.Model.Exec
/-!
# The text interface of generated code

`from_xml` takes a text and `to_xml` returns one (`xsd-internal/src/xsd/schema.rs:258-301`).
-/
namespace Xsd

/-- `FromXmlError` (xsd/src/decode.rs:7-37) with its variant `Xml`, without the contents of roxmltree's error. -/
inductive TextErr where
  | xml
  | decode (e : DErr)
  deriving Repr, DecidableEq

/-- The generated `from_xml` (schema.rs:290-301): `decode` (xsd/src/decode.rs:51-54), then the reader of the type. -/
def fromXmlText (x : Ext) (P : List TypeDef) (k : Nat) (i s : Str) : Res TextErr Val :=
  match XmlText.readXml s with
  | none => .err .xml
  | some e =>
    match fromXml x cursorOps P k i ⟨e⟩ with
    | .ok v => .ok v
    | .err e => .err (.decode e)
    | .panic => .panic
    | .diverge => .diverge

/-- The generated `to_xml` (schema.rs:258-275). -/
def toXmlText (x : Ext) (P : List TypeDef) (k : Nat) (i : Str) (v : Val) : Res Unit Str :=
  match toXml x P k i v with
  | .ok evs => .ok (XmlText.emitXml evs)
  | .err e => .err e
  | .panic => .panic
  | .diverge => .diverge

end Xsd
