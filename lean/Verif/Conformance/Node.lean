import Verif.Conformance.Content

/-!
# `/repo/tests/node.rs` and the two programs in `/repo/examples` on the model
-/

namespace XmlDom.Conformance

/-- `make_node`, lines 415-450. -/
def makeNode (d : NodeId) (t : NodeType) (pre : Str) : Test NodeId :=
  match t with
  | .element => must fun h => createElement h d (pre ++ c! "-element")
  | .attribute => must fun h => createAttribute h d (pre ++ c! "-attribute")
  | .text => must fun h => createTextNode h d (pre ++ c! "-text")
  | .cdata => must fun h => createCdataSection h d (pre ++ c! "-cdata")
  | .entityReference => must fun h => createEntityReference h d (pre ++ c! "-text")
  | .processingInstruction =>
    must fun h => createProcessingInstruction h d (pre ++ c! "-pi") none
  | .comment => must fun h => createComment h d (pre ++ c! "-comment")
  | .document => pure d
  | .documentType =>
    must fun h => createDocumentType h (c! "html") (some xhtmlPublic) (some xhtmlSystem)
  | .documentFragment => must fun h => createDocumentFragment h d
  | .entity => must fun h => createInternalEntity h d (pre ++ c! "-entity") (c! "some value")
  | .notationNode =>
    must fun h => createNotation h d (pre ++ c! "-notation") (some (c! "file-name.xml")) none

/-- `ALL_CHILDREN`, lines 452-465. -/
def allTypes : List NodeType :=
  [.element, .attribute, .text, .cdata, .entityReference, .entity, .processingInstruction,
    .comment, .document, .documentType, .documentFragment, .notationNode]

/-- Whether the call succeeds; a panic fails the test. -/
def isOk {α : Type} (f : Heap → Result α) : Test Bool := fun h =>
  match f h with
  | (.ok _, h1) => some (true, h1)
  | (.err _, h1) => some (false, h1)
  | _ => none

/-- `test_parent`, lines 467-486. -/
def testParent (d : NodeId) (t : NodeType) (allowed : List NodeType) : Test Unit := do
  let p ← makeNode d t (c! "parent")
  for ct in allTypes do
    let c ← makeNode d ct (c! "child")
    let b ← isOk fun h => appendChild h p c
    check fun _ => b == decide (ct ∈ allowed)

/-- The children allowed in elements, entities, entity references and fragments in the
test. -/
def contentTypes : List NodeType :=
  [.element, .text, .comment, .processingInstruction, .cdata, .entityReference]

/-- Lines 7-76. -/
def test_is_child_allowed : Test Unit := do
  let d ← must fun h =>
    createDocument h (some (c! "http://www.w3.org/1999/xhtml")) (some (c! "html")) none
  testParent d .element contentTypes
  testParent d .attribute [.text, .entityReference]
  testParent d .text []
  testParent d .cdata []
  testParent d .entityReference contentTypes
  testParent d .entity contentTypes
  testParent d .processingInstruction []
  testParent d .comment []
  testParent d .documentType []
  testParent d .documentFragment contentTypes
  testParent d .notationNode []

example : passes test_is_child_allowed = true := by decide +kernel

/-- `append_element_node`, lines 488-498. -/
def appendElementNode (p : NodeId) (name : Str) : Test NodeId := do
  let d ← get fun h => ownerDocument h p
  let n ← must fun h => createElement h d name
  let _ ← must fun h => appendChild h p n
  pure n

/-- `append_text_node`, lines 500-510. -/
def appendTextNode (p : NodeId) (s : Str) : Test NodeId := do
  let d ← get fun h => ownerDocument h p
  let n ← must fun h => createTextNode h d s
  let _ ← must fun h => appendChild h p n
  pure n

/-- A document in the namespace `http://example.org/`. -/
def exampleDocument (name : Str) : Test NodeId :=
  must fun h => createDocument h (some (c! "http://example.org/")) (some name) none

/-- `make_sibling_document`, lines 512-529; the document and its root element. -/
def makeSiblingDocument : Test (NodeId × NodeId) := do
  let d ← exampleDocument (c! "root")
  let root ← get fun h => documentElement h d
  for i in [c! "1", c! "2", c! "3", c! "4", c! "5"] do
    let _ ← appendElementNode root (c! "child-" ++ i)
  check fun h => (childNodes h root).length == 5
  pure (d, root)

/-- `compare_node_names`, lines 531-539. -/
def namesAre (root : NodeId) (names : List Str) : Test Unit :=
  check fun h => decide ((childNodes h root).map (fun n => (nodeName h n).display) = names)

/-- The names of the children at the start. -/
def fiveNames : List Str := [c! "child-1", c! "child-2", c! "child-3", c! "child-4", c! "child-5"]

/-- Lines 78-161. -/
def test_insert_child_node : Test Unit := do
  let (d, root) ← makeSiblingDocument
  let cs ← ask fun h => .ok (childNodes h root)
  namesAre root fiveNames
  let mid ← get fun _ => cs[2]?
  let n ← must fun h => createElement h d (c! "inserted-1")
  let n ← must fun h => insertBefore h root n (some mid)
  check fun h => (parentNode h n).isSome && (ownerDocument h n).isSome
  namesAre root
    [c! "child-1", c! "child-2", c! "inserted-1", c! "child-3", c! "child-4", c! "child-5"]
  let first ← get fun _ => cs.head?
  let n ← must fun h => createElement h d (c! "inserted-2")
  let n ← must fun h => insertBefore h root n (some first)
  check fun h => (parentNode h n).isSome && (ownerDocument h n).isSome
  namesAre root
    [c! "inserted-2", c! "child-1", c! "child-2", c! "inserted-1", c! "child-3", c! "child-4",
      c! "child-5"]
  let n ← must fun h => createElement h d (c! "inserted-3")
  let n ← must fun h => insertBefore h root n none
  check fun h => (parentNode h n).isSome && (ownerDocument h n).isSome
  namesAre root
    [c! "inserted-2", c! "child-1", c! "child-2", c! "inserted-1", c! "child-3", c! "child-4",
      c! "child-5", c! "inserted-3"]
  let no ← must fun h => createElement h d (c! "not-a-child")
  let n ← must fun h => createElement h d (c! "not-inserted")
  refused fun h => insertBefore h root n (some no)

example : passes test_insert_child_node = true := by decide +kernel

/-- Lines 163-225. -/
def test_replace_child_node : Test Unit := do
  let (d, root) ← makeSiblingDocument
  let cs ← ask fun h => .ok (childNodes h root)
  namesAre root fiveNames
  let mid ← get fun _ => cs[2]?
  let n ← must fun h => createElement h d (c! "inserted-1")
  let _ ← must fun h => replaceChild h root n mid
  namesAre root [c! "child-1", c! "child-2", c! "inserted-1", c! "child-4", c! "child-5"]
  let first ← get fun _ => cs.head?
  let n ← must fun h => createElement h d (c! "inserted-2")
  let _ ← must fun h => replaceChild h root n first
  namesAre root [c! "inserted-2", c! "child-2", c! "inserted-1", c! "child-4", c! "child-5"]
  let last ← get fun _ => cs.getLast?
  let n ← must fun h => createElement h d (c! "inserted-3")
  let _ ← must fun h => replaceChild h root n last
  namesAre root [c! "inserted-2", c! "child-2", c! "inserted-1", c! "child-4", c! "inserted-3"]
  let no ← must fun h => createElement h d (c! "not-a-child")
  let n ← must fun h => createElement h d (c! "not-inserted")
  refused fun h => replaceChild h root n no

example : passes test_replace_child_node = true := by decide +kernel

/-- Lines 227-273. -/
def test_remove_child_node : Test Unit := do
  let (d, root) ← makeSiblingDocument
  let cs ← ask fun h => .ok (childNodes h root)
  namesAre root fiveNames
  let mid ← get fun _ => cs[2]?
  let _ ← must fun h => removeChild h root mid
  namesAre root [c! "child-1", c! "child-2", c! "child-4", c! "child-5"]
  let first ← get fun _ => cs.head?
  let _ ← must fun h => removeChild h root first
  namesAre root [c! "child-2", c! "child-4", c! "child-5"]
  let last ← get fun _ => cs.getLast?
  let _ ← must fun h => removeChild h root last
  namesAre root [c! "child-2", c! "child-4"]
  let no ← must fun h => createElement h d (c! "not-a-child")
  refused fun h => removeChild h root no

example : passes test_remove_child_node = true := by decide +kernel

/-- The qualified name of the node. -/
def shownName (n : NodeId) (s : Str) : Test Unit := check fun h => (nodeName h n).display == s

/-- Lines 275-332. -/
def test_siblings : Test Unit := do
  let (_, root) ← makeSiblingDocument
  let mid ← get fun h => (childNodes h root)[2]?
  shownName mid (c! "child-3")
  let next ← get fun h => nextSibling h mid
  shownName next (c! "child-4")
  let last ← get fun h => nextSibling h next
  shownName last (c! "child-5")
  check fun h => (nextSibling h last).isNone
  let previous ← get fun h => previousSibling h mid
  shownName previous (c! "child-2")
  let first ← get fun h => previousSibling h previous
  shownName first (c! "child-1")
  check fun h => (previousSibling h first).isNone

example : passes test_siblings = true := by decide +kernel

/-- Lines 340-367. -/
def test_normalize : Test Unit := do
  let d ← exampleDocument (c! "root")
  let root ← get fun h => documentElement h d
  let _ ← appendElementNode root (c! "element-1")
  let _ ← appendTextNode root (c! "text-1")
  let _ ← appendTextNode root (c! "text-2")
  let _ ← appendElementNode root (c! "element-2")
  let _ ← appendTextNode root (c! "text-3")
  let _ ← appendTextNode root []
  let _ ← appendTextNode root (c! "text-4")
  let _ ← appendElementNode root (c! "element-3")
  check fun h => (childNodes h root).length == 8
  must fun h => normalize h root
  check fun h => (childNodes h root).length == 5

example : passes test_normalize = true := by decide +kernel

/-- Lines 369-391. -/
def test_normalize_empty : Test Unit := do
  let d ← exampleDocument (c! "root")
  let root ← get fun h => documentElement h d
  let _ ← appendElementNode root (c! "element-1")
  let _ ← appendTextNode root []
  let _ ← appendElementNode root (c! "element-2")
  check fun h => (childNodes h root).length == 3
  must fun h => normalize h root
  check fun h => (childNodes h root).length == 2

example : passes test_normalize_empty = true := by decide +kernel

/-- Lines 393-411. -/
def test_wrong_document : Test Unit := do
  let d1 ← exampleDocument (c! "root-1")
  let root1 ← get fun h => documentElement h d1
  let d2 ← exampleDocument (c! "root-2")
  let root2 ← get fun h => documentElement h d2
  refusedWith .wrongDocument fun h => appendChild h root2 root1

example : passes test_wrong_document = true := by decide +kernel

/-! ## `/repo/examples` -/

/-- `/repo/examples/create_html_document.rs` 5-52. -/
def create_html_document : Test Unit := do
  let t ← must fun h => createDocumentType h (c! "html") (some xhtmlPublic) (some xhtmlSystem)
  let d ← must fun h =>
    createDocument h (some (c! "http://www.w3.org/1999/xhtml")) (some (c! "html")) (some t)
  let root ← get fun h => documentElement h d
  ignore fun h => setAttribute plainEnv h root (c! "lang") (c! "en")
  let n ← must fun h => createElement h d (c! "head")
  ignore fun h => appendChild h root n
  let n ← must fun h => createElement h d (c! "body")
  ignore fun h => appendChild h root n
  let xml ← ask (shown d)
  check fun _ => (c! "<!DOCTYPE html ").isPrefixOf xml
  check fun _ => contains (c! "<html lang=\"en\">") xml
  check fun _ => contains (c! "<head></head>") xml
  check fun _ => contains (c! "<body></body>") xml
  check fun _ => (c! "</html>").isSuffixOf xml

example : passes create_html_document = true := by decide +kernel

/-- `create_user_element`, `/repo/examples/java_example.rs` 46-53. -/
def createUserElement (d : NodeId) (name value : Str) : Test NodeId := do
  let n ← must fun h => createElement h d name
  let t ← must fun h => createTextNode h d value
  ignore fun h => appendChild h n t
  pure n

/-- `create_user`, `/repo/examples/java_example.rs` 26-43. -/
def createUser (d : NodeId) (id first last occupation : Str) : Test NodeId := do
  let user ← must fun h => createElement h d (c! "user")
  ignore fun h => setAttribute plainEnv h user (c! "id") id
  let n ← createUserElement d (c! "firstname") first
  ignore fun h => appendChild h user n
  let n ← createUserElement d (c! "lastname") last
  ignore fun h => appendChild h user n
  let n ← createUserElement d (c! "occupation") occupation
  ignore fun h => appendChild h user n
  pure user

/-- `/repo/examples/java_example.rs` 6-23; the program only prints the text. -/
def java_example : Test Unit := do
  let d ← must fun h => createDocument h (some (c! "zetcode.com")) (some (c! "users")) none
  let root ← get fun h => documentElement h d
  let u ← createUser d (c! "1") (c! "Robert") (c! "Brown") (c! "programmer")
  ignore fun h => appendChild h root u
  let u ← createUser d (c! "2") (c! "Pamela") (c! "Kyle") (c! "writer")
  ignore fun h => appendChild h root u
  shows d (c! "<users><user id=\"1\"><firstname>Robert</firstname><lastname>Brown</lastname><occupation>programmer</occupation></user><user id=\"2\"><firstname>Pamela</firstname><lastname>Kyle</lastname><occupation>writer</occupation></user></users>")

example : passes java_example = true := by decide +kernel

end XmlDom.Conformance
