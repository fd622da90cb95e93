import Verif.Model.Schema
import Verif.Model.ApiText
import Verif.Model.Derive
/-!
# The messages of errors

`thiserror` makes `Display` from the format strings in `#[error(..)]`. Each definition is one of these enums; each line is one format string.
What other libraries print (errors of roxmltree, of `std::io`, of number parsers) is a parameter, `inner`.
-/
namespace Xsd

/-- `{:?}` of an `Option<String>` (xsd/src/decode.rs:11, xsd-internal/src/xsd/node.rs:13). `dbg` is `{:?}` of a string: it is put in quotes and escaped by
the standard library. -/
def debugOption (dbg : Str → Str) : Option Str → Str
  | none => c!"None"
  | some s => c!"Some(" ++ dbg s ++ c!")"

/-- `FromXmlError` (xsd/src/decode.rs:7-37), except for `Xml` (`TextErr.message`) and `Infallible` (never made). -/
def DErr.message (dbg : Str → Str) (inner : Str) : DErr → Str
  | .missingElement n ns => c!"Missing required element " ++ n ++ c!" (" ++ debugOption dbg ns ++ c!")"
  | .missingAttribute n => c!"Missing required attribute " ++ n
  | .textExpected n => c!"Expected element " ++ n ++ c!" to contain text content"
  | .invalidVariant n => c!"Encountered invalid enum variant " ++ n
  | .missingVariant n => c!"Could not find valid variant for choice `" ++ n ++ c!"`"
  | .parseType t v => c!"Failed to parse type " ++ t ++ c!" from " ++ v ++ c!": " ++ inner
  | .fixedMismatch e r => c!"Expected fixed value `" ++ e ++ c!"`, but received `" ++ r ++ c!"`"

/-- `FromXmlError` with `Xml` (xsd/src/decode.rs:9-10). -/
def TextErr.message (dbg : Str → Str) (inner : Str) : TextErr → Str
  | .xml => c!"XML error: " ++ inner
  | .decode e => e.message dbg inner

/-- The text that `XsdError::Node` puts before the message of a `NodeError` (xsd-internal/src/xsd/error.rs:9). -/
def nodeMessage (s : Str) : Str := c!"Error traversing XML tree: " ++ s

/-- `XsdError` (xsd-internal/src/xsd/error.rs:3-54) with `NodeError` (xsd-internal/src/xsd/node.rs:11-49). The children that the parser asks
for by `try_remove` are all in the namespace of XML Schema. -/
def XErr.message (dbg : Str → Str) (inner : Str) : XErr → Str
  | .xml => c!"XML parsing error: " ++ inner
  | .missingChild n _ => nodeMessage (c!"Missing required element " ++ n ++ c!" (" ++ debugOption dbg (some nsXsd) ++ c!")")
  | .missingAttribute n e _ => nodeMessage (c!"Missing required attribute `" ++ n ++ c!"` on element `" ++ e ++ c!"`")
  | .textExpected n _ => nodeMessage (c!"Expected element " ++ n ++ c!" to contain text content")
  | .unsupportedAttribute n e _ => nodeMessage (c!"Encountered unsupported attribute `" ++ n ++ c!"` in `" ++ e ++ c!"`")
  | .unsupportedChild n p _ => nodeMessage (c!"Encountered unsupported element `" ++ n ++ c!"` in `" ++ p ++ c!"`")
  | .unsupportedElement n _ => c!"Encountered unsupported element `" ++ n ++ c!"` at that location"
  | .unsupportedAttributeValue n v e _ =>
    c!"Encountered unsupported value `" ++ v ++ c!"` for attribute `" ++ n ++ c!"` in `" ++ e ++ c!"`"
  | .unexpectedAttribute n e _ => c!"Encountered unexpected attribute `" ++ n ++ c!"` in `" ++ e ++ c!"`"
  | .missingElement n p _ => c!"Missing element `" ++ n ++ c!"` in `" ++ p ++ c!"`"
  | .missingNamespace p _ => c!"Missing namespace for `" ++ p ++ c!"`"
  | .parseInt _ => c!"Failed to parse int value"
  | .parseDecimal _ => c!"Failed to parse decimal value"
  | .unsupportedType n _ => c!"Unsupported XSD type " ++ n

/-- `SchemaError` (xsd-internal/src/xsd/schema.rs:329-347). -/
def SErr.message (dbg : Str → Str) (inner : Str) : SErr → Str
  | .xsd e file row col =>
    c!"Error on line " ++ showNat row ++ c!" (offset " ++ showNat col ++ c!" in " ++ file ++ c!"): " ++ e.message dbg inner
  | .openFile file => c!"Failed to load XSD include " ++ file ++ c!": " ++ inner
  | .notFound n => c!"Element `" ++ n ++ c!"` not found in schema"

/-- The message in the `compile_error!` of the macro (xsd-derive/src/lib.rs:21, 30, 63). -/
def MacroErr.message (dbg : Str → Str) (inner : Str) : MacroErr → Str
  | .unsupportedProperty => c!"unsupported property"
  | .schemaRequired => c!"Argument `schema` required"
  | .schema e => e.message dbg inner

end Xsd
