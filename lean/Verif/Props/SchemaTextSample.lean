import Verif.Props.SchemaText
import Verif.Props.Sample
/-!
# Concrete cases for C68
-/
namespace Xsd.SchemaTextSample

/-- A schema with a comment and a character of two bytes before an include. -/
def mainText : Str := c!"<?xml version=\"1.0\"?>
<xs:schema xmlns:xs=\"http://www.w3.org/2001/XMLSchema\" targetNamespace=\"é\">
  <!-- é --> <xs:include schemaLocation=\"types.xsd\"/>
</xs:schema>"

/-- The included file: `xs:group` is not supported. -/
def typesText : Str := c!"<xs:schema xmlns:xs=\"http://www.w3.org/2001/XMLSchema\">
  <xs:complexType name=\"Ö\"><xs:group/></xs:complexType>
</xs:schema>"

/-- A file with an attribute that is not supported. -/
def attrText : Str := c!"<schema xmlns=\"http://www.w3.org/2001/XMLSchema\">
\t<element name=\"a\"
\t\ttype =\"string\" block='#all'/>
</schema>"

/-- An undeclared prefix. -/
def prefixText : Str := c!"<xs:schema xmlns:xs=\"http://www.w3.org/2001/XMLSchema\">
 <xs:element name=\"a\" type=\"b:c\"/>
</xs:schema>"

/-- A file that is not well-formed. -/
def brokenText : Str := c!"<a></b>"

/-- Four files. -/
def files : TextFiles where
  read p := alookup [(c!"main.xsd", mainText), (c!"types.xsd", typesText), (c!"attr.xsd", attrText), (c!"prefix.xsd", prefixText),
    (c!"broken.xsd", brokenText)] p
  parent _ := []
  push _ l := l
  err _ := (1, 4)

/-- The error, the file and the position. -/
def errorOf (path : Str) : Option SErr :=
  match parseFile sampleExt files.files 5 path with
  | .err e => some e
  | _ => none

example : errorOf c!"main.xsd" = some (.xsd (.unsupportedChild c!"group" c!"complexType" 84) c!"types.xsd" 2 28) := by decide +kernel
example : errorOf c!"attr.xsd" = some (.xsd (.unsupportedAttribute c!"block" c!"element" 86) c!"attr.xsd" 3 18) := by decide +kernel
example : errorOf c!"prefix.xsd" = some (.xsd (.missingNamespace c!"b" 78) c!"prefix.xsd" 2 23) := by decide +kernel
example : errorOf c!"broken.xsd" = some (.xsd .xml c!"broken.xsd" 1 4) := by decide +kernel
example : errorOf c!"none.xsd" = some (.openFile c!"none.xsd") := by decide +kernel

/-- Namespaces declared on a nested element, one of them for a prefix that is declared outside. -/
def nestedText : Str := c!"\uFEFF<?xml version='1.0'?><a xmlns='u' xmlns:p='v' p:x='1'>\r\n<p:b xmlns:p='w' xmlns:xml='http://www.w3.org/XML/1998/namespace' y='&#50;' /></a>"

set_option maxRecDepth 100000 in
/-- `C68_document` applies: the inner `p` hides the outer one, and offsets are those of the text, in bytes. -/
example : XmlText.readXmlAt nestedText = some
    (⟨⟨c!"a", some c!"u"⟩, [⟨c!"x", some c!"v", c!"1", 49⟩], [(none, c!"u"), (some c!"p", c!"v")], 24⟩,
      [.text c!"\n", .elem ⟨⟨c!"b", some c!"w"⟩, [⟨c!"y", none, c!"2", 125⟩], [(some c!"p", c!"w"), (none, c!"u")], 59⟩ []]) := by rfl

end Xsd.SchemaTextSample
