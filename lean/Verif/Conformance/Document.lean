import Verif.Conformance.Attributes

/-!
# `/repo/tests/document.rs`, `/repo/tests/id_map.rs` and `/repo/tests/implementation.rs` on
the model
-/

namespace XmlDom.Conformance

/-- `TEST_TEXT`, line 10. -/
def testText : Str := c! "Here is some useless text for testing"

/-- `Name::from_str(s).unwrap()` is the name of the node. -/
def nameIs (n : NodeId) (name : Outcome Name) : Test Unit :=
  check fun h => decide (name = .ok (nodeName h n))

/-- The node has no parent and an owner document, and converts to `v`. -/
def freshAs (v : View) (n : NodeId) : Test Unit := do
  check fun h => decide (asView h n v = .ok n)
  check fun h => (parentNode h n).isNone
  check fun h => (ownerDocument h n).isSome

/-- Lines 12-25. -/
def test_create_attribute : Test Unit := do
  let d ← createEmptyRdfDocument
  let a ← must fun h => createAttribute h d (c! "test")
  freshAs .attribute a
  check fun h => (nodeValue h a).isNone
  check fun h => attrSpecified h a
  nameIs a (Name.fromStr (c! "test"))
  valueIs a none
  check fun h => !hasChildNodes h a

example : passes test_create_attribute = true := by decide +kernel

/-- Lines 27-43. -/
def test_create_attribute_ns : Test Unit := do
  let d ← createEmptyRdfDocument
  let a ← must fun h => createAttributeNs h d dcNs (c! "dc:test")
  freshAs .attribute a
  check fun h => (nodeValue h a).isNone
  check fun h => attrSpecified h a
  nameIs a (Name.newNs dcNs (c! "dc:test"))
  valueIs a none
  check fun h => !hasChildNodes h a

example : passes test_create_attribute_ns = true := by decide +kernel

/-- Lines 45-61. -/
def test_create_attribute_with : Test Unit := do
  let d ← createEmptyRdfDocument
  let a ← must fun h => createAttributeWith h d (c! "test") (c! "some 'data'")
  freshAs .attribute a
  check fun h => attrSpecified h a
  nameIs a (Name.fromStr (c! "test"))
  valueIs a (some (c! "some &#39;data&#39;"))
  check fun h => (childNodes h a).length == 1

example : passes test_create_attribute_with = true := by decide +kernel

/-- Lines 63-75. -/
def test_create_cdata_section : Test Unit := do
  let d ← createEmptyRdfDocument
  let n ← must fun h => createCdataSection h d testText
  freshAs .cdataSection n
  nameIs n (.ok Name.forCdata)
  check fun h => charLength h n == byteLen testText
  check fun h => charData h n == some testText
  check fun h => !hasChildNodes h n

example : passes test_create_cdata_section = true := by decide +kernel

/-- Lines 77-87. -/
def test_create_document_fragment : Test Unit := do
  let d ← createEmptyRdfDocument
  let n ← must fun h => createDocumentFragment h d
  freshAs .documentFragment n
  nameIs n (.ok Name.forDocumentFragment)
  check fun h => !hasChildNodes h n

example : passes test_create_document_fragment = true := by decide +kernel

/-- Lines 89-100. -/
def test_create_entity_reference : Test Unit := do
  let d ← createEmptyRdfDocument
  let n ← must fun h => createEntityReference h d (c! "test")
  freshAs .entityReference n
  nameIs n (Name.fromStr (c! "test"))
  check fun h => !hasChildNodes h n

example : passes test_create_entity_reference = true := by decide +kernel

/-- Lines 102-114. -/
def test_create_comment : Test Unit := do
  let d ← createEmptyRdfDocument
  let n ← must fun h => createComment h d testText
  freshAs .comment n
  nameIs n (.ok Name.forComment)
  check fun h => charLength h n == byteLen testText
  check fun h => charData h n == some testText
  check fun h => !hasChildNodes h n

example : passes test_create_comment = true := by decide +kernel

/-- Lines 116-129. -/
def test_create_element : Test Unit := do
  let d ← createEmptyRdfDocument
  let n ← must fun h => createElement h d (c! "test")
  freshAs .element n
  check fun h => (nodeValue h n).isNone
  nameIs n (Name.fromStr (c! "test"))
  check fun h => !hasAttributes h n
  check fun h => !hasChildNodes h n

example : passes test_create_element = true := by decide +kernel

/-- Lines 131-146. -/
def test_create_element_ns : Test Unit := do
  let d ← createEmptyRdfDocument
  let n ← must fun h => createElementNs h d dcNs (c! "dc:test")
  freshAs .element n
  check fun h => (nodeValue h n).isNone
  nameIs n (Name.newNs dcNs (c! "dc:test"))
  check fun h => !hasAttributes h n
  check fun h => !hasChildNodes h n

example : passes test_create_element_ns = true := by decide +kernel

/-- Lines 148-164. -/
def test_create_processing_instruction : Test Unit := do
  let d ← createEmptyRdfDocument
  let n ← must fun h => createProcessingInstruction h d (c! "test") (some testText)
  freshAs .processingInstruction n
  nameIs n (Name.fromStr (c! "test"))
  check fun h => piTarget h n == c! "test"
  check fun h => piLength h n == byteLen testText
  check fun h => piData h n == some testText
  check fun h => !hasChildNodes h n

example : passes test_create_processing_instruction = true := by decide +kernel

/-- Lines 166-178. -/
def test_create_text_node : Test Unit := do
  let d ← createEmptyRdfDocument
  let n ← must fun h => createTextNode h d testText
  freshAs .text n
  nameIs n (.ok Name.forText)
  check fun h => charLength h n == byteLen testText
  check fun h => charData h n == some testText
  check fun h => !hasChildNodes h n

example : passes test_create_text_node = true := by decide +kernel

/-- Lines 180-194. -/
def test_get_element_by_id : Test Unit := do
  let d ← createExampleRdfDocument
  check fun h => (getElementById h d (c! "title")).isSome
  check fun h => (getElementById h d (c! "main")).isNone

example : passes test_get_element_by_id = true := by decide +kernel

/-- The number of elements `get_elements_by_tag_name` returns. -/
def byTag (d : NodeId) (tag : Str) (k : Nat) : Test Unit := do
  let ns ← ask fun h => docGetElementsByTagName h (h.next + 1) d tag
  check fun _ => ns.length == k

/-- The number of elements `get_elements_by_tag_name_ns` returns. -/
def byTagNs (d : NodeId) (uri loc : Str) (k : Nat) : Test Unit := do
  let ns ← ask fun h => docGetElementsByTagNameNs h (h.next + 1) d uri loc
  check fun _ => ns.length == k

/-- Lines 196-266. -/
def test_get_elements : Test Unit := do
  let d ← createExampleRdfDocument
  byTag d (c! "dc:created") 0
  byTag d (c! "dc:creator") 1
  byTag d (c! "*") 6
  byTagNs d dcNs (c! "created") 0
  byTagNs d dcNs (c! "creator") 1
  byTagNs d dcNs (c! "*") 4
  byTagNs d rdfNs (c! "*") 2
  byTagNs d (c! "*") (c! "Description") 2

example : passes test_get_elements = true := by decide +kernel

/-- Lines 268-280. -/
def test_only_one_root : Test Unit := do
  let d ← createEmptyRdfDocument
  let _ ← get fun h => documentElement h d
  let second ← must fun h => createElement h d (c! "should_not_work")
  refusedWith .hierarchyRequest fun h => appendChild h d second

example : passes test_only_one_root = true := by decide +kernel

/-- Lines 282-297. -/
def test_remove_root : Test Unit := do
  let d ← createEmptyRdfDocument
  let root ← get fun h => documentElement h d
  let _ ← must fun h => removeChild h d root
  check fun h => (documentElement h d).isNone

example : passes test_remove_root = true := by decide +kernel

/-- Lines 299-321. -/
def test_replace_root : Test Unit := do
  let d ← createEmptyRdfDocument
  let root ← get fun h => documentElement h d
  let second ← must fun h => createElement h d (c! "should_work")
  let _ ← must fun h => replaceChild h d second root
  let root ← get fun h => documentElement h d
  check fun h => decide (asView h root .element = .ok root)
  check fun h => (parentNode h root).isSome
  check fun h => (ownerDocument h root).isSome
  nameIs root (Name.fromStr (c! "should_work"))

example : passes test_replace_root = true := by decide +kernel

/-! ## `/repo/tests/id_map.rs` -/

/-- The element with the id has this local name and the prefix `dc`. -/
def idNamed (d : NodeId) (id loc : Str) : Test Unit := do
  let n ← get fun h => getElementById h d id
  check fun h => nodeLocalName h n == loc
  check fun h => nodePrefix h n == some (c! "dc")

/-- Lines 7-35. -/
def test_get_element_by_id_strict : Test Unit := do
  let d ← createExampleRdfDocument
  idNamed d (c! "title") (c! "title")
  check fun h => (getElementById h d (c! "description")).isNone
  check fun h => (getElementById h d (c! "unknown")).isNone
  check fun h => (getElementById h d []).isNone

example : passes test_get_element_by_id_strict = true := by decide +kernel

/-- Lines 37-70. -/
def test_get_element_by_id_lax : Test Unit := do
  let d ← createExampleRdfDocumentOptions Options.new.setAssumeIds
  idNamed d (c! "title") (c! "title")
  idNamed d (c! "description") (c! "Description")
  check fun h => (getElementById h d (c! "unknown")).isNone
  check fun h => (getElementById h d []).isNone

example : passes test_get_element_by_id_lax = true := by decide +kernel

/-- Lines 72-98. -/
def test_no_duplicates : Test Unit := do
  let d ← createEmptyRdfDocument
  let root ← get fun h => documentElement h d
  let n ← createElementWith d dcNs (c! "dc:title") (c! "A Guide to Growing Roses")
  ignore fun h => setAttributeNs plainEnv h n xmlNsUri (c! "xml:id") (c! "title")
  ignore fun h => appendChild h root n
  let n ← createElementWith d dcNs (c! "dc:title-2") (c! "Another Guide to Growing Roses")
  refusedWith .syntax fun h => setAttributeNs plainEnv h n xmlNsUri (c! "xml:id") (c! "title")

example : passes test_no_duplicates = true := by decide +kernel

/-! ## `/repo/tests/implementation.rs` -/

/-- Lines 7-13. -/
def test_create_document_no_element : Test Unit := do
  let d ← must fun h => createDocument h none none none
  check fun h => (documentElement h d).isNone

example : passes test_create_document_no_element = true := by decide +kernel

/-- Lines 15-33. -/
def test_create_document_name : Test Unit := do
  let d ← createEmptyRdfDocument
  check fun h => (documentElement h d).isSome
  let d ← must fun h => createDocument h none (some (c! "rdf:RDF")) none
  check fun h => (documentElement h d).isSome

example : passes test_create_document_name = true := by decide +kernel

/-- Lines 35-40. -/
def test_create_document_invalid_name : Test Unit :=
  refused fun h => createDocument h (some rdfNs) none none

example : passes test_create_document_invalid_name = true := by decide +kernel

/-- Lines 42-53. -/
def test_create_document : Test Unit := do
  let d ← createEmptyRdfDocument
  let root ← get fun h => documentElement h d
  let name ← ask fun _ => Name.newNs rdfNs (c! "rdf:RDF")
  check fun h => tagName h root == name.display

example : passes test_create_document = true := by decide +kernel

/-- The identifiers used in the tests. -/
def xhtmlPublic : Str := c! "-//W3C//DTD XHTML 1.0 Transitional//EN"
/-- As `xhtmlPublic`. -/
def xhtmlSystem : Str := c! "http://www.w3.org/TR/xhtml1/DTD/xhtml1-transitional.dtd"

/-- Lines 55-90. -/
def test_create_document_type : Test Unit := do
  let t ← must fun h => createDocumentType h (c! "html") (some xhtmlPublic) (some xhtmlSystem)
  check fun h => decide (asView h t .documentType = .ok t)
  nameIs t (Name.fromStr (c! "html"))
  check fun h => dtPublicId h t == some xhtmlPublic
  check fun h => dtSystemId h t == some xhtmlSystem
  let d ← must fun h => createDocument h (some rdfNs) (some (c! "rdf:RDF")) (some t)
  check fun h => docType h d == some t

example : passes test_create_document_type = true := by decide +kernel

end XmlDom.Conformance
