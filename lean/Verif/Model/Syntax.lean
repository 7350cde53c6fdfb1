import Verif.Basic

/-!
# Constants of `/repo/src/shared/syntax.rs` that the modelled code uses
-/

namespace XmlDom
namespace Syn

/-- `XML_DECL_START`, `/repo/src/shared/syntax.rs` 7 -/
def declStart : Str := c! "<?xml"
/-- `XML_DECL_END`, `/repo/src/shared/syntax.rs` 8 -/
def declEnd : Str := c! "?>"
/-- `XML_PI_START`, `/repo/src/shared/syntax.rs` 10 -/
def piStart : Str := c! "<?"
/-- `XML_PI_END`, `/repo/src/shared/syntax.rs` 11 -/
def piEnd : Str := c! "?>"
/-- `XML_PI_RESERVED`, `/repo/src/shared/syntax.rs` 12 -/
def piReserved : Str := c! "xml"
/-- `XML_COMMENT_START`, `/repo/src/shared/syntax.rs` 14 -/
def commentStart : Str := c! "<!--"
/-- `XML_COMMENT_END`, `/repo/src/shared/syntax.rs` 15 -/
def commentEnd : Str := c! "-->"
/-- `XML_CDATA_START`, `/repo/src/shared/syntax.rs` 17 -/
def cdataStart : Str := c! "<![CDATA["
/-- `XML_CDATA_END`, `/repo/src/shared/syntax.rs` 18 -/
def cdataEnd : Str := c! "]]>"
/-- `XML_DOCTYPE_START`, `/repo/src/shared/syntax.rs` 20 -/
def doctypeStart : Str := c! "<!DOCTYPE"
/-- `XML_DOCTYPE_END`, `/repo/src/shared/syntax.rs` 21 -/
def doctypeEnd : Str := c! ">"
/-- `XML_DOCTYPE_ENTITY_START`, `/repo/src/shared/syntax.rs` 22 -/
def doctypeEntityStart : Str := c! "["
/-- `XML_DOCTYPE_ENTITY_END`, `/repo/src/shared/syntax.rs` 23 -/
def doctypeEntityEnd : Str := c! "]"
/-- `XML_DOCTYPE_PUBLIC`, `/repo/src/shared/syntax.rs` 24 -/
def doctypePublic : Str := c! "PUBLIC"
/-- `XML_DOCTYPE_SYSTEM`, `/repo/src/shared/syntax.rs` 25 -/
def doctypeSystem : Str := c! "SYSTEM"
/-- `XML_ELEMENT_START_START`, `/repo/src/shared/syntax.rs` 27 -/
def elementStartStart : Str := c! "<"
/-- `XML_ELEMENT_START_END`, `/repo/src/shared/syntax.rs` 28 -/
def elementStartEnd : Str := c! ">"
/-- `XML_ELEMENT_END_START`, `/repo/src/shared/syntax.rs` 29 -/
def elementEndStart : Str := c! "</"
/-- `XML_ELEMENT_END_END`, `/repo/src/shared/syntax.rs` 30 -/
def elementEndEnd : Str := c! ">"
/-- `XML_ENTITY_START`, `/repo/src/shared/syntax.rs` 32 -/
def entityStart : Str := c! "<!ENTITY"
/-- `XML_ENTITY_END`, `/repo/src/shared/syntax.rs` 33 -/
def entityEnd : Str := c! ">"
/-- `XML_ENTITYREF_START`, `/repo/src/shared/syntax.rs` 36 -/
def entityrefStart : Str := c! "&"
/-- `XML_NUMBERED_ENTITYREF_START`, `/repo/src/shared/syntax.rs` 37 -/
def numberedEntityrefStart : Str := c! "&#"
/-- `XML_ENTITYREF_END`, `/repo/src/shared/syntax.rs` 39 -/
def entityrefEnd : Str := c! ";"
/-- `XML_NOTATION_START`, `/repo/src/shared/syntax.rs` 41 -/
def notationStart : Str := c! "<!NOTATION"
/-- `XML_NOTATION_END`, `/repo/src/shared/syntax.rs` 42 -/
def notationEnd : Str := c! ">"
/-- `XML_NS_SEPARATOR`, `/repo/src/shared/syntax.rs` 44 -/
def nsSeparator : Char := ':'
/-- `XML_DECL_VERSION`, `/repo/src/shared/syntax.rs` 52 -/
def declVersion : Str := c! "version"
/-- `XML_DECL_VERSION_10`, `/repo/src/shared/syntax.rs` 54 -/
def version10 : Str := c! "1.0"
/-- `XML_DECL_VERSION_11`, `/repo/src/shared/syntax.rs` 55 -/
def version11 : Str := c! "1.1"
/-- `XML_DECL_ENCODING`, `/repo/src/shared/syntax.rs` 57 -/
def declEncoding : Str := c! "encoding"
/-- `XML_DECL_STANDALONE`, `/repo/src/shared/syntax.rs` 59 -/
def declStandalone : Str := c! "standalone"
/-- `XML_DECL_STANDALONE_YES`, `/repo/src/shared/syntax.rs` 61 -/
def standaloneYes : Str := c! "yes"
/-- `XML_DECL_STANDALONE_NO`, `/repo/src/shared/syntax.rs` 62 -/
def standaloneNo : Str := c! "no"
/-- `XML_NS_URI`, `/repo/src/shared/syntax.rs` 68 -/
def xmlNsUri : Str := c! "http://www.w3.org/XML/1998/namespace"
/-- `XML_NS_ATTRIBUTE`, `/repo/src/shared/syntax.rs` 69 -/
def xmlPrefix : Str := c! "xml"
/-- `XML_NS_ATTR_ID`, `/repo/src/shared/syntax.rs` 72 -/
def idAttr : Str := c! "id"
/-- `XMLNS_NS_URI`, `/repo/src/shared/syntax.rs` 83 -/
def xmlnsNsUri : Str := c! "http://www.w3.org/2000/xmlns/"
/-- `XMLNS_NS_ATTRIBUTE`, `/repo/src/shared/syntax.rs` 84 -/
def xmlnsPrefix : Str := c! "xmlns"
/-- `XML_NAME_CDATA`, `/repo/src/shared/syntax.rs` 90 -/
def nameCdata : Str := c! "#cdata-section"
/-- `XML_NAME_COMMENT`, `/repo/src/shared/syntax.rs` 91 -/
def nameComment : Str := c! "#comment"
/-- `XML_NAME_DOCUMENT`, `/repo/src/shared/syntax.rs` 92 -/
def nameDocument : Str := c! "#document"
/-- `XML_NAME_DOCUMENT_FRAGMENT`, `/repo/src/shared/syntax.rs` 93 -/
def nameDocumentFragment : Str := c! "#document-fragment"
/-- `XML_NAME_TEXT`, `/repo/src/shared/syntax.rs` 94 -/
def nameText : Str := c! "#text"
/-- `XML_FEATURE_CORE`, `/repo/src/shared/syntax.rs` 100 -/
def featureCore : Str := c! "Core"
/-- `XML_FEATURE_XML`, `/repo/src/shared/syntax.rs` 101 -/
def featureXml : Str := c! "XML"
/-- `XML_FEATURE_V1`, `/repo/src/shared/syntax.rs` 103 -/
def featureV1 : Str := c! "1.0"
/-- `XML_FEATURE_V2`, `/repo/src/shared/syntax.rs` 104 -/
def featureV2 : Str := c! "2.0"

end Syn
end XmlDom
