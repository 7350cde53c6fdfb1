import Verif.Conformance.Document

/-!
# `/repo/tests/elements.rs`, `/repo/tests/processing_instruction.rs`, `/repo/tests/text.rs`
and `/repo/tests/display.rs` on the model
-/

namespace XmlDom.Conformance

/-! ## `/repo/tests/elements.rs` -/

/-- `create_example_element`, lines 10-33. The handle of the document goes out of scope at
the end, so the tests run with the owner document gone. -/
def createExampleElement : Test NodeId := do
  let d ← createEmptyRdfDocument
  let el ← get fun h => documentElement h d
  ignore fun h => setAttribute plainEnv h el (c! "one") (c! "ONE")
  ignore fun h => setAttributeNs plainEnv h el dcNs (c! "dc:two") (c! "TWO")
  let a ← must fun h => createAttributeWith h d (c! "three") (c! "THREE")
  ignore fun h => setAttributeNode plainEnv h el a
  let a ← must fun h => createAttributeNs h d dcNs (c! "dc:four")
  ignore fun h => setValue h a (c! "FOUR")
  ignore fun h => setAttributeNodeNs plainEnv h el a
  dropped d
  check fun h => (ownerDocument h el).isNone
  pure el

/-- The number of attributes. -/
def attributeCount (el : NodeId) (k : Nat) : Test Unit :=
  check fun h => (attributes h el).length == k

/-- Lines 35-42. -/
def test_add_attributes : Test Unit := do
  let el ← createExampleElement
  attributeCount el 4

example : passes test_add_attributes = true := by decide +kernel

/-- Lines 44-59. -/
def test_remove_attributes_success : Test Unit := do
  let el ← createExampleElement
  attributeCount el 4
  must fun h => removeAttribute plainEnv h el (c! "one")
  attributeCount el 3
  must fun h => removeAttribute plainEnv h el (c! "dc:two")
  attributeCount el 2
  must fun h => removeAttributeNs plainEnv h el dcNs (c! "four")
  attributeCount el 1

example : passes test_remove_attributes_success = true := by decide +kernel

/-- Lines 61-78. -/
def test_remove_attributes_failure : Test Unit := do
  let el ← createExampleElement
  attributeCount el 4
  must fun h => removeAttribute plainEnv h el (c! "dc:one")
  attributeCount el 4
  must fun h => removeAttribute plainEnv h el (c! "two")
  attributeCount el 4
  must fun h => removeAttributeNs plainEnv h el xmlnsNs (c! "four")
  attributeCount el 4

example : passes test_remove_attributes_failure = true := by decide +kernel

/-- `assert!(element.has_attribute(name) == b)`. -/
def hasIs (el : NodeId) (name : Str) (b : Bool) : Test Unit :=
  check fun h => decide (hasAttribute plainEnv h el name = .ok b)

/-- `assert!(element.has_attribute_ns(uri, name) == b)`. -/
def hasNsIs (el : NodeId) (uri name : Str) (b : Bool) : Test Unit :=
  check fun h => decide (hasAttributeNs plainEnv h el uri name = .ok b)

/-- Lines 80-101. -/
def test_has_attribute : Test Unit := do
  let el ← createExampleElement
  hasIs el (c! "one") true
  hasIs el (c! "dc:two") true
  hasIs el (c! "three") true
  hasIs el (c! "dc:four") true
  hasNsIs el dcNs (c! "two") true
  hasNsIs el dcNs (c! "four") true
  hasIs el (c! "five") false
  hasIs el (c! "dc:one") false
  hasIs el (c! "two") false
  hasNsIs el dcNs (c! "three") false
  hasNsIs el xmlnsNs (c! "two") false

example : passes test_has_attribute = true := by decide +kernel

/-- `assert!(element.get_attribute(name).is_some() == b)`. -/
def getIs (el : NodeId) (name : Str) (b : Bool) : Test Unit := do
  let v ← ask fun h => getAttribute plainEnv h el name
  check fun _ => v.isSome == b

/-- `assert!(element.get_attribute_ns(uri, name).is_some() == b)`. -/
def getNsIs (el : NodeId) (uri name : Str) (b : Bool) : Test Unit := do
  let v ← ask fun h => getAttributeNs plainEnv h el uri name
  check fun _ => v.isSome == b

/-- Lines 103-124. -/
def test_get_attribute : Test Unit := do
  let el ← createExampleElement
  getIs el (c! "one") true
  getIs el (c! "dc:two") true
  getIs el (c! "three") true
  getIs el (c! "dc:four") true
  getNsIs el dcNs (c! "two") true
  getNsIs el dcNs (c! "four") true
  getIs el (c! "five") false
  getIs el (c! "dc:one") false
  getIs el (c! "two") false
  getNsIs el dcNs (c! "three") false
  getNsIs el xmlnsNs (c! "two") false

example : passes test_get_attribute = true := by decide +kernel

/-! ## `/repo/tests/processing_instruction.rs` -/

/-- Lines 5-20. -/
def pi_test_set_data : Test Unit := do
  let d ← createEmptyRdfDocument
  let n ← must fun h => createProcessingInstruction h d (c! "test") (some (c! "some data"))
  check fun h => piData h n == some (c! "some data")
  must fun h => piSetData h n (c! "nothing here")
  check fun h => piData h n == some (c! "nothing here")

example : passes pi_test_set_data = true := by decide +kernel

/-- Lines 22-35. -/
def pi_test_unset_data : Test Unit := do
  let d ← createEmptyRdfDocument
  let n ← must fun h => createProcessingInstruction h d (c! "test") (some (c! "some data"))
  check fun h => piData h n == some (c! "some data")
  must fun h => piUnsetData h n
  check fun h => (piData h n).isNone

example : passes pi_test_unset_data = true := by decide +kernel

/-- Lines 37-56. -/
def test_reserved_name : Test Unit := do
  let d ← createEmptyRdfDocument
  refused fun h => createProcessingInstruction h d (c! "xml") (some (c! "reserved-name"))
  refused fun h => createProcessingInstruction h d (c! "XML") (some (c! "reserved-name"))
  refused fun h => createProcessingInstruction h d (c! "xMl") (some (c! "reserved-name"))
  let _ ← must fun h =>
    createProcessingInstruction h d (c! "xml-ok") (some (c! "should-work"))

example : passes test_reserved_name = true := by decide +kernel

/-! ## `/repo/tests/text.rs` -/

/-- `text.data()` equals `s`. -/
def dataIs (n : NodeId) (s : Str) : Test Unit := check fun h => charData h n == some s

/-- The data of the nodes, which all convert to `v`. -/
def allData (v : View) : List NodeId → List Str → Test Unit
  | [], [] => pure ()
  | n :: ns, s :: ss => do
    check fun h => decide (asView h n v = .ok n)
    dataIs n s
    allData v ns ss
  | _, _ => check fun _ => false

/-- Lines 9-37. -/
def test_text_node_contents : Test Unit := do
  let d ← createExampleRdfDocument
  let root ← get fun h => documentElement h d
  let description ← get fun h => firstChild h root
  let cs ← ask fun h => .ok (childNodes h description)
  check fun _ => cs.length == 4
  for p in cs.zip [c! "Rose Bush", c! "A Guide to Growing Roses",
      c! "Describes process for planting &#38; nurturing different kinds of rose bushes.",
      c! "2001-01-20"] do
    let ts ← ask fun h => .ok (childNodes h p.1)
    allData .text ts [p.2]

example : passes test_text_node_contents = true := by decide +kernel

/-- The text `Hello cruel world!` below the root element. -/
def hello : Test NodeId := do
  let d ← createEmptyRdfDocument
  let root ← get fun h => documentElement h d
  let t ← must fun h => createTextNode h d (c! "Hello cruel world!")
  let _ ← must fun h => appendChild h root t
  check fun h => (childNodes h root).length == 1
  let t ← get fun h => firstChild h root
  dataIs t (c! "Hello cruel world!")
  pure t

/-- `assert_eq!(text.substring_data(offset, count), result)`. -/
def substringIs (n : NodeId) (offset count : Nat) (result : Outcome Str) : Test Unit :=
  check fun h => decide (nodeSubstringData true h n offset count = result)

/-- Lines 39-62. -/
def test_text_substring : Test Unit := do
  let t ← hello
  substringIs t 0 0 (.ok [])
  substringIs t 6 5 (.ok (c! "cruel"))
  substringIs t 12 10 (.ok (c! "world!"))
  substringIs t 20 5 (.err .indexSize)

example : passes test_text_substring = true := by decide +kernel

/-- Lines 64-96. -/
def test_text_insert : Test Unit := do
  let t ← hello
  must fun h => nodeInsertData true h t 6 (c! "my ")
  dataIs t (c! "Hello my cruel world!")
  refused fun h => nodeInsertData true h t 30 (c! "my ")
  dataIs t (c! "Hello my cruel world!")
  must fun h => nodeInsertData true h t 0 (c! "¡")
  dataIs t (c! "¡Hello my cruel world!")

example : passes test_text_insert = true := by decide +kernel

/-- Lines 98-133. -/
def test_text_replace : Test Unit := do
  let t ← hello
  must fun h => nodeReplaceData true h t 6 6 (c! "my happy ")
  dataIs t (c! "Hello my happy world!")
  must fun h => nodeReplaceData true h t 0 0 (c! "my happy ")
  dataIs t (c! "my happy Hello my happy world!")
  must fun h => nodeReplaceData true h t 15 30 (c! "world")
  dataIs t (c! "my happy Hello world")

example : passes test_text_replace = true := by decide +kernel

/-- Lines 135-175. -/
def test_text_delete : Test Unit := do
  let t ← hello
  must fun h => nodeDeleteData true h t 6 6
  dataIs t (c! "Hello world!")
  must fun h => nodeDeleteData true h t 0 0
  dataIs t (c! "Hello world!")
  must fun h => nodeDeleteData true h t 6 0
  dataIs t (c! "Hello world!")
  refused fun h => nodeDeleteData true h t 20 6
  dataIs t (c! "Hello world!")
  must fun h => nodeDeleteData true h t 6 20
  dataIs t (c! "Hello ")

example : passes test_text_delete = true := by decide +kernel

/-- Lines 177-203. -/
def test_cdata_split : Test Unit := do
  let d ← createEmptyRdfDocument
  let root ← get fun h => documentElement h d
  let t ← must fun h => createCdataSection h d (c! "onetwo")
  ignore fun h => appendChild h root t
  check fun h => (childNodes h root).length == 1
  let _ ← must fun h => splitText true h t 3
  let cs ← ask fun h => .ok (childNodes h root)
  allData .cdataSection cs [c! "one", c! "two"]

example : passes test_cdata_split = true := by decide +kernel

/-- Split the `i`-th child of `root` at `offset`; there are `k` children afterwards. -/
def splitAt (root : NodeId) (i offset k : Nat) : Test Unit := do
  let t ← get fun h => (childNodes h root)[i]?
  let _ ← must fun h => splitText true h t offset
  check fun h => (childNodes h root).length == k

/-- Lines 205-249. -/
def test_text_split : Test Unit := do
  let d ← createEmptyRdfDocument
  let root ← get fun h => documentElement h d
  for s in [c! "onetwo", c! "threefour", c! "fivesix"] do
    let t ← must fun h => createTextNode h d s
    ignore fun h => appendChild h root t
  check fun h => (childNodes h root).length == 3
  splitAt root 0 3 4
  splitAt root 2 0 5
  splitAt root 4 9 6
  let cs ← ask fun h => .ok (childNodes h root)
  allData .text cs [c! "one", c! "two", [], c! "threefour", c! "fivesix", []]

example : passes test_text_split = true := by decide +kernel

/-! ## `/repo/tests/display.rs` -/

/-- Lines 11-46. -/
def test_display_element : Test Unit := do
  let d ← createEmptyRdfDocument
  let n ← must fun h => createElement h d (c! "test")
  shows n (c! "<test></test>")
  let a ← must fun h => createAttributeWith h d (c! "test") (c! "data")
  let _ ← must fun h => setAttributeNode plainEnv h n a
  shows n (c! "<test test=\"data\"></test>")
  let a ← must fun h => createAttributeNs h d dcNs (c! "dc:creator")
  let _ ← must fun h => setAttributeNode plainEnv h n a
  let s ← ask (shown n)
  check fun _ => byteLen s == 39
  check fun _ => (c! "<test").isPrefixOf s
  check fun _ => contains (c! " test=\"data\"") s
  check fun _ => contains (c! " dc:creator=\"\"") s
  check fun _ => (c! "></test>").isSuffixOf s

example : passes test_display_element = true := by decide +kernel

/-- Lines 48-67. -/
def test_display_attribute : Test Unit := do
  let d ← createEmptyRdfDocument
  let a ← must fun h => createAttribute h d (c! "test")
  must fun h => setValue h a (c! "test-data")
  shows a (c! "test=\"test-data\"")
  let a ← must fun h => createAttributeNs h d dcNs (c! "dc:creator")
  must fun h => setValue h a (c! "Rose Bush")
  shows a (c! "dc:creator=\"Rose Bush\"")

example : passes test_display_attribute = true := by decide +kernel

/-- Lines 69-133: the kinds of leaves. -/
def test_display_leaves : Test Unit := do
  let d ← createEmptyRdfDocument
  let n ← must fun h => createTextNode h d (c! "this is textual test data")
  shows n (c! "this is textual test data")
  let n ← must fun h => createCdataSection h d (c! "this is textual test data")
  shows n (c! "<![CDATA[ this is textual test data ]]>")
  let n ← must fun h => createEntityReference h d (c! "amp")
  shows n (c! "&amp;")
  let n ← must fun h => createProcessingInstruction h d (c! "foo") none
  shows n (c! "<?foo?>")
  let n ← must fun h => createProcessingInstruction h d (c! "foo") (some (c! "version=\"1.0\""))
  shows n (c! "<?foo version=\"1.0\"?>")
  let n ← must fun h => createComment h d (c! "this is textual test data")
  shows n (c! "<!--this is textual test data-->")

example : passes test_display_leaves = true := by decide +kernel

/-- The expected text of the document type in the tests. -/
def xhtmlText : Str :=
  c! "<!DOCTYPE html PUBLIC \"-//W3C//DTD XHTML 1.0 Transitional//EN\" SYSTEM \"http://www.w3.org/TR/xhtml1/DTD/xhtml1-transitional.dtd\">"

/-- Lines 135-202. -/
def test_display_document : Test Unit := do
  let t ← must fun h => createDocumentType h (c! "html") (some xhtmlPublic) (some xhtmlSystem)
  shows t xhtmlText
  let d ← must fun h =>
    createDocument h (some (c! "http://www.w3.org/1999/xhtml")) (some (c! "html")) (some t)
  shows d (xhtmlText ++ c! "<html></html>")
  let decl ← ask fun _ => XmlDecl.new .v11 (some (c! "UTF-8")) none
  must fun h => setXmlDeclaration h d decl
  shows d (c! "<?xml version=\"1.1\" encoding=\"UTF-8\"?>" ++ xhtmlText ++ c! "<html></html>")

example : passes test_display_document = true := by decide +kernel

/-- Lines 204-225. -/
def test_display_document_fragment : Test Unit := do
  let d ← createEmptyRdfDocument
  let f ← must fun h => createDocumentFragment h d
  for s in [c! "one", c! "two", c! "three"] do
    let n ← must fun h => createElement h d s
    let _ ← must fun h => appendChild h f n
  shows f (c! "<![CDATA[#document-fragment <one></one><two></two><three></three>]]>")

example : passes test_display_document_fragment = true := by decide +kernel

/-- Lines 226-299. -/
def test_display_entity : Test Unit := do
  let d ← createEmptyRdfDocument
  let n ← must fun h => createInternalEntity h d (c! "name") (c! "My Name")
  shows n (c! "<!ENTITY name \"My Name\">")
  let n ← must fun h => createEntity h d (c! "name") (some (c! "file-name.xml")) none
  shows n (c! "<!ENTITY name PUBLIC \"file-name.xml\">")
  let n ← must fun h => createEntity h d (c! "name") none (some (c! "file-name.xml"))
  shows n (c! "<!ENTITY name SYSTEM \"file-name.xml\">")
  let n ← must fun h =>
    createEntity h d (c! "name") (some (c! "foo-bar")) (some (c! "file-name.xml"))
  shows n (c! "<!ENTITY name PUBLIC \"foo-bar\" \"file-name.xml\">")

example : passes test_display_entity = true := by decide +kernel

/-- Lines 301-336. -/
def test_display_notation : Test Unit := do
  let d ← createEmptyRdfDocument
  let n ← must fun h => createNotation h d (c! "name") (some (c! "file-name.xml")) none
  shows n (c! "<!NOTATION name PUBLIC \"file-name.xml\">")
  let n ← must fun h => createNotation h d (c! "name") none (some (c! "file-name.xml"))
  shows n (c! "<!NOTATION name SYSTEM \"file-name.xml\">")
  let n ← must fun h =>
    createNotation h d (c! "name") (some (c! "foo-bar")) (some (c! "file-name.xml"))
  shows n (c! "<!NOTATION name PUBLIC \"foo-bar\" \"file-name.xml\">")

example : passes test_display_notation = true := by decide +kernel

end XmlDom.Conformance
