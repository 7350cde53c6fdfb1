import Verif.Conformance.Node

/-!
# The unit tests inside `/repo/src` on the model
-/

namespace XmlDom.Conformance

/-! ## `/repo/src/shared/text.rs` 474-602 -/

/-- Lines 481-510; `SpaceHandling::default()` is the constructor `default`. -/
def test_space_handling : Bool :=
  decide (SpaceHandling.display .default = c! "xml:space=\"default\"") &&
  decide (SpaceHandling.display .preserve = c! "xml:space=\"preserve\"") &&
  decide (SpaceHandling.fromStr (c! "default") = some .default) &&
  decide (SpaceHandling.fromStr (c! "preserve") = some .preserve) &&
  (SpaceHandling.fromStr []).isNone &&
  (SpaceHandling.fromStr (c! "other")).isNone

example : test_space_handling = true := by decide +kernel

/-- Lines 512-520. -/
def test_end_of_line_handling : Bool :=
  decide (normalizeEol
      (c! "one\x0dtwo\x0d\x0a\x0athree\x0a\x0d\u0085four\u0085five\u2028") =
    c! "one\x0atwo\x0a\x0athree\x0a\x0afour\x0afive\x0a")

example : test_end_of_line_handling = true := by decide +kernel

/-- Lines 537-547. -/
def test_normalize_avalue_trim : Bool :=
  decide (normalizeAttrValue asciiUni (fun _ => .ok none) true 2 (c! "  abc ") =
    .ok (c! "  abc ")) &&
  decide (normalizeAttrValue asciiUni (fun _ => .ok none) false 2 (c! "  abc ") =
    .ok (c! "abc"))

example : test_normalize_avalue_trim = true := by decide +kernel

/-- `TestResolver`, lines 549-582. -/
def testResolver (s : Str) : Outcome (Option Str) :=
  if s = c! "&pound;" then .ok (some (c! "£"))
  else if s = c! "&yen;" then .ok (some (c! "¥"))
  else if s = c! "&euro;" then .ok (some (c! "€"))
  else if s = c! "&currency;" then .ok (some (c! "$, &pound;, &euro;, and &yen;"))
  else .ok none

/-- Lines 584-601. -/
def test_normalize_avalue_entity_resolver : Bool :=
  decide (normalizeAttrValue asciiUni testResolver true 3 (c! "10$ in &pound;s please") =
    .ok (c! "10$ in £s please")) &&
  decide (normalizeAttrValue asciiUni testResolver false 3 (c! "&yen; to &euro;") =
    .ok (c! "¥ to €")) &&
  decide (normalizeAttrValue asciiUni testResolver false 3 (c! "&currency;") =
    .ok (c! "$, £, €, and ¥"))

example : test_normalize_avalue_entity_resolver = true := by decide +kernel

/-! ## `/repo/src/shared/name.rs` 387-491 -/

/-- The outcome is an error. -/
def failed {α : Type} : Outcome α → Bool
  | .err _ => true
  | _ => false

/-- Lines 394-400. -/
def test_parse_invalid_chars : Bool :=
  [' ', '\t', '\r', '\n', '\x00', '!', '?'].all fun c =>
    failed (Name.fromStr (c! "he" ++ [c] ++ c! "lo"))

example : test_parse_invalid_chars = true := by decide +kernel

/-- Lines 402-426. -/
def test_parse : Bool :=
  decide (Name.fromStr (c! "hello") =
    .ok { localName := c! "hello", pfx := none, namespaceUri := none }) &&
  decide (Name.fromStr (c! "x:hello") =
    .ok { localName := c! "hello", pfx := some (c! "x"), namespaceUri := none }) &&
  decide (Name.newNs (c! "http://example.org/schema/x") (c! "x:hello") =
    .ok { localName := c! "hello", pfx := some (c! "x"),
          namespaceUri := some (c! "http://example.org/schema/x") })

example : test_parse = true := by decide +kernel

/-- Lines 428-441. -/
def test_error_on_empty : Bool :=
  decide (Name.fromStr [] = .err .syntax) &&
  decide (Name.fromStr (c! ":name") = .err .syntax) &&
  decide (Name.fromStr (c! "prefix:") = .err .syntax) &&
  decide (Name.newNs [] (c! "prefix:name") = .err .syntax)

example : test_error_on_empty = true := by decide +kernel

/-- The name is accepted and answers `is_id_attribute(true)` and `(false)` like this. -/
def idAnswers (n : Outcome Name) (lax strict : Bool) : Bool :=
  match n with
  | .ok n => n.isIdAttribute true == lax && n.isIdAttribute false == strict
  | _ => false

/-- Lines 443-467. -/
def test_xml_ns_names : Bool :=
  idAnswers (Name.newNs xmlNsUri (c! "xml:id")) true true &&
  decide (Name.newNs rdfNs (c! "xml:id") = .err .namespace) &&
  idAnswers (Name.fromStr (c! "another:id")) true false &&
  idAnswers (Name.fromStr (c! "x:hello")) false false

example : test_xml_ns_names = true := by decide +kernel

/-- The name is accepted and answers `is_namespace_attribute` like this. -/
def nsAnswers (n : Outcome Name) (b : Bool) : Bool :=
  match n with
  | .ok n => n.isNamespaceAttribute == b
  | _ => false

/-- Lines 469-490. -/
def test_xmlns_ns_names : Bool :=
  nsAnswers (Name.newNs xmlnsNs (c! "xmlns")) true &&
  nsAnswers (Name.newNs xmlnsNs (c! "xmlns:p")) true &&
  decide (Name.newNs rdfNs (c! "xmlns") = .err .namespace) &&
  decide (Name.newNs rdfNs (c! "xmlns:rdf") = .err .namespace) &&
  nsAnswers (Name.fromStr (c! "x:hello")) false

example : test_xmlns_ns_names = true := by decide +kernel

/-! ## `/repo/src/level2/ext/decl.rs` 193-287 -/

/-- Lines 197-217. -/
def test_version : Bool :=
  decide (XmlVersion.display .v10 = c! "1.0") &&
  decide (XmlVersion.display .v11 = c! "1.1") &&
  decide (XmlVersion.fromStr (c! "1.0") = some .v10) &&
  decide (XmlVersion.fromStr (c! "1.1") = some .v11) &&
  (XmlVersion.fromStr (c! "1.2")).isNone

example : test_version = true := by decide +kernel

/-- `XmlDecl::new(V10, e, s)` is written as `t`. -/
def declShows (e : Option Str) (s : Option Bool) (t : Str) : Bool :=
  decide ((XmlDecl.new .v10 e s).map XmlDecl.display = .ok t)

/-- Lines 219-254. -/
def test_decl_display : Bool :=
  decide (XmlDecl.default.display = c! "<?xml version=\"1.0\"?>") &&
  declShows none none (c! "<?xml version=\"1.0\"?>") &&
  declShows (some (c! "UTF-8")) none (c! "<?xml version=\"1.0\" encoding=\"UTF-8\"?>") &&
  declShows (some (c! "UTF-8")) (some true)
    (c! "<?xml version=\"1.0\" encoding=\"UTF-8\" standalone=\"yes\"?>") &&
  declShows (some (c! "UTF-8")) (some false)
    (c! "<?xml version=\"1.0\" encoding=\"UTF-8\" standalone=\"no\"?>") &&
  declShows none (some false) (c! "<?xml version=\"1.0\" standalone=\"no\"?>")

example : test_decl_display = true := by decide +kernel

/-- Lines 256-286. -/
def test_encoding_strings : Bool :=
  ([c! "UTF-8", c! "UTF-16", c! "ISO-10646-UCS-2", c! "ISO-10646-UCS-4", c! "ISO-8859-1",
      c! "ISO-8859-2", c! "ISO-2022-JP", c! "Shift_JIS", c! "EUC-JP"].all
    fun s => decide (isEncoding s = .ok true)) &&
  ([[], c! "16-UTF", c! "ISO/10646-UCS-2", c! "ISO 10646-UCS-4", c! "ISO§8859-1"].all
    fun s => decide (isEncoding s = .ok false))

example : test_encoding_strings = true := by decide +kernel

/-! ## `/repo/src/level2/ext/options.rs` 186-206 -/

/-- Lines 190-205. -/
def test_none : Bool :=
  Options.new.hasNone && !Options.new.hasAssumeIds && !Options.new.hasParseEntities &&
  !Options.new.hasAddNamespaces &&
  decide (Options.new.display = c! "ProcessingOptions {}") &&
  decide (Options.new.binary false = c! "00000000") &&
  decide (Options.new.binary true = c! "0b00000000")

example : test_none = true := by decide +kernel

/-! ## `/repo/src/level2/ext/namespaced.rs` 260-443 -/

/-- The constants of lines 271-274. -/
def html : Str := c! "http://www.w3.org/1999/xhtml"
/-- As `html`. -/
def xsd : Str := c! "http://www.w3.org/2001/XMLSchema"
/-- As `html`. -/
def xslt : Str := c! "http://www.w3.org/1999/XSL/Transform"
/-- As `html`. -/
def ex : Str := c! "http://example.org/xmlns/example"

/-- `make_document_node`, lines 276-284. -/
def makeDocumentNode : Test NodeId :=
  must fun h => createDocumentWithOptions h (some (c! "http://example.org/")) (some (c! "root"))
    none Options.new.setAddNamespaces

/-- `make_node`, lines 286-294. -/
def makeElement (d : NodeId) (name : Str) : Test NodeId := do
  let el ← must fun h => createElement h d name
  let root ← get fun h => documentElement h d
  let _ ← must fun h => appendChild h root el
  pure el

/-- `contains_mapping`, `get_namespace` and `resolve_namespace` for one prefix. -/
def prefixIs (n : NodeId) (p : Option Str) (r : Option Str) : Test Unit := do
  check fun h => containsMapping h n p == r.isSome
  check fun h => getNamespace h n p == r
  check fun h => decide (resolveNamespace h (h.next + 1) n p = .ok r)

/-- `contains_mapped_namespace`, `get_prefix` and `resolve_prefix` for one namespace. -/
def namespaceIs (n : NodeId) (uri : Str) (r : NamespacePrefix) : Test Unit := do
  check fun h => containsMappedNamespace plainEnv h n uri == !r.isNone
  check fun h => decide (getPrefix plainEnv h n uri = r)
  check fun h => decide (resolvePrefix plainEnv h (h.next + 1) n uri = .ok r)

/-- Lines 296-314. -/
def test_empty_element : Test Unit := do
  let d ← makeDocumentNode
  let n ← makeElement d (c! "element")
  check fun h => decide (asView h n .namespaced = .ok n)
  prefixIs n none none
  prefixIs n (some (c! "s")) none
  namespaceIs n html .none

example : passes test_empty_element = true := by decide +kernel

/-- Lines 316-342. -/
def test_this_element_string_prefix : Test Unit := do
  let d ← makeDocumentNode
  let n ← makeElement d (c! "element")
  ignore fun h => insertMapping h n (some (c! "xsd")) xsd
  prefixIs n none none
  prefixIs n (some (c! "xsd")) (some xsd)
  check fun h => !containsMappedNamespace plainEnv h n html
  namespaceIs n xsd (.some (c! "xsd"))

example : passes test_this_element_string_prefix = true := by decide +kernel

/-- Lines 344-370. -/
def test_this_element_none_prefix : Test Unit := do
  let d ← makeDocumentNode
  let n ← makeElement d (c! "element")
  ignore fun h => insertMapping h n none xsd
  prefixIs n none (some xsd)
  prefixIs n (some (c! "xsd")) none
  check fun h => !containsMappedNamespace plainEnv h n html
  namespaceIs n xsd .default

example : passes test_this_element_none_prefix = true := by decide +kernel

/-- `resolve_namespace`. -/
def resolvesTo (n : NodeId) (p : Option Str) (r : Option Str) : Test Unit :=
  check fun h => decide (resolveNamespace h (h.next + 1) n p = .ok r)

/-- `resolve_prefix`. -/
def resolvesPrefix (n : NodeId) (uri : Str) (r : NamespacePrefix) : Test Unit :=
  check fun h => decide (resolvePrefix plainEnv h (h.next + 1) n uri = .ok r)

/-- Lines 372-442. -/
def test_tree_resolve : Test Unit := do
  let d ← makeDocumentNode
  let root ← makeElement d (c! "element")
  ignore fun h => insertMapping h root (some (c! "xsd")) xsd
  let teen1 ← makeElement d (c! "teen1")
  ignore fun h => insertMapping h teen1 none ex
  ignore fun h => appendChild h root teen1
  let teen2 ← makeElement d (c! "teen2")
  ignore fun h => insertMapping h teen2 none html
  ignore fun h => appendChild h root teen2
  let child ← makeElement d (c! "child")
  ignore fun h => insertMapping h child (some (c! "xslt")) xslt
  ignore fun h => appendChild h teen2 child
  check fun h => getNamespace h root (some (c! "xsd")) == some xsd
  check fun h => getNamespace h root (some (c! "xslt")) == none
  check fun h => getNamespace h child (some (c! "xsd")) == none
  check fun h => getNamespace h child (some (c! "xslt")) == some xslt
  resolvesTo child (some (c! "xsd")) (some xsd)
  resolvesTo child none (some html)
  resolvesTo child (some (c! "xslt")) (some xslt)
  resolvesPrefix child xsd (.some (c! "xsd"))
  resolvesPrefix child html .default
  resolvesPrefix child xslt (.some (c! "xslt"))

example : passes test_tree_resolve = true := by decide +kernel

/-! ## `/repo/src/parser/mod.rs` 421-491

The tests give the text of a document; the events written here are what `quick-xml` makes
of it with the text trimmed (line 97). The tests only ask for a success; the text written
back is checked here as well, as the tests print it. -/

/-- `test_good_xml`, lines 425-434. -/
def goodXml (evs : List Event) (t : Str) : Test Unit := do
  let d ← must fun h => readXml plainEnv h (evs ++ [.eof])
  shows d t

/-- A name or a piece of text that decodes. -/
abbrev tx (s : Str) : Option Str := some s

/-- Lines 436-470. -/
def test_documents : Test Unit := do
  goodXml [.empty (tx (c! "xml")) []] (c! "<xml></xml>")
  goodXml [.decl (tx (c! "1.0")) none none, .empty (tx (c! "xml")) []]
    (c! "<?xml version=\"1.0\"?><xml></xml>")
  goodXml [.comment (tx (c! " start here ")), .empty (tx (c! "xml")) [],
      .comment (tx (c! " end here "))]
    (c! "<!-- start here --><xml></xml><!-- end here -->")
  goodXml [.start (tx (c! "xml")) [], .comment (tx (c! " I'm inside ")), .close]
    (c! "<xml><!-- I&#39;m inside --></xml>")
  goodXml [.pi (tx (c! "xml-stylesheet type=\"text/xsl\" href=\"style.xsl\"")),
      .empty (tx (c! "xml")) []]
    (c! "<?xml-stylesheet type=\"text/xsl\" href=\"style.xsl\"?><xml></xml>")
  goodXml [.start (tx (c! "xml")) [], .empty (tx (c! "xslt")) [], .close]
    (c! "<xml><xslt></xslt></xml>")
  goodXml [.start (tx (c! "xml")) [.good (c! "id") (c! "11")], .close]
    (c! "<xml id=\"11\"></xml>")

example : passes test_documents = true := by decide +kernel

/-- Lines 472-490. -/
def test_its_complicated : Test Unit :=
  goodXml
    [.decl (tx (c! "1.0")) none none,
      .pi (tx (c! "xml-stylesheet type=\"text/xsl\" href=\"style.xsl\"")),
      .start (tx (c! "root")) [],
      .text (tx (c! "This is text")),
      .start (tx (c! "list")) [],
      .comment (tx (c! " just one for now ")),
      .empty (tx (c! "item")) [.good (c! "id") (c! "1")],
      .close,
      .cdata (tx (c! "\n  This is OK, <markup/> is allowed here\n  ")),
      .close]
    (c! "<?xml version=\"1.0\"?><?xml-stylesheet type=\"text/xsl\" href=\"style.xsl\"?><root>This is text<list><!-- just one for now --><item id=\"1\"></item></list><![CDATA[ \n  This is OK, <markup/> is allowed here\n   ]]></root>")

example : passes test_its_complicated = true := by decide +kernel

end XmlDom.Conformance
