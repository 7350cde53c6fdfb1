import Verif.Conformance.Basic

/-!
# `/repo/tests/attributes.rs` on the model
-/

namespace XmlDom.Conformance

/-- `attribute.value()` equals `v`. -/
def valueIs (a : NodeId) (v : Option Str) : Test Unit :=
  check fun h => decide (attrValue asciiUni h a = .ok v)

/-- `element.get_attribute(name)` equals `v`. -/
def attributeIs (n : NodeId) (name : Str) (v : Option Str) : Test Unit :=
  check fun h => decide (getAttribute plainEnv h n name = .ok v)

/-- Lines 5-18. -/
def attr_test_set_data : Test Unit := do
  let d ← createEmptyRdfDocument
  let a ← must fun h => createAttributeWith h d (c! "test") (c! "some data")
  valueIs a (some (c! "some data"))
  must fun h => setValue h a (c! "nothing here")
  valueIs a (some (c! "nothing here"))

example : passes attr_test_set_data = true := by decide +kernel

/-- Lines 20-31. -/
def attr_test_unset_data : Test Unit := do
  let d ← createEmptyRdfDocument
  let a ← must fun h => createAttributeWith h d (c! "test") (c! "some data")
  valueIs a (some (c! "some data"))
  must fun h => unsetValue h a
  valueIs a none

example : passes attr_test_unset_data = true := by decide +kernel

/-- Lines 33-45. -/
def test_escaping : Test Unit := do
  let d ← createEmptyRdfDocument
  let a ← must fun h =>
    createAttributeWith h d (c! "test") (c! "hello <\"world\"> & 'everyone' in it")
  valueIs a (some (c! "hello &#60;&#34;world&#34;&#62; &#38; &#39;everyone&#39; in it"))

example : passes test_escaping = true := by decide +kernel

/-- Lines 47-76. -/
def test_set_attribute : Test Unit := do
  let d ← createEmptyRdfDocument
  let el ← get fun h => documentElement h d
  check fun h => (attributes h el).length == 0
  must fun h => setAttribute plainEnv h el (c! "test-1") (c! "1")
  check fun h => (attributes h el).length == 1
  attributeIs el (c! "test-1") (some (c! "1"))
  must fun h => setAttribute plainEnv h el (c! "test-2") (c! "2")
  check fun h => (attributes h el).length == 2
  attributeIs el (c! "test-2") (some (c! "2"))
  attributeIs el (c! "test-1") (some (c! "1"))
  must fun h => setAttribute plainEnv h el (c! "test-1") (c! "one")
  check fun h => (attributes h el).length == 2
  attributeIs el (c! "test-1") (some (c! "one"))
  attributeIs el (c! "test-2") (some (c! "2"))

example : passes test_set_attribute = true := by decide +kernel

/-- Lines 78-112. -/
def test_model_parent_owner : Test Unit := do
  let d ← createEmptyRdfDocument
  let a ← must fun h => createAttribute h d (c! "test-1")
  check fun h => (ownerDocument h a).isSome
  check fun h => (ownerElement h a).isNone
  check fun h => (parentNode h a).isNone
  check fun h => (nodeValue h a).isNone
  check fun h => attrSpecified h a
  check fun h => !hasChildNodes h a
  check fun h => !hasAttributes h a
  let el ← get fun h => documentElement h d
  let _ ← must fun h => setAttributeNode plainEnv h el a
  check fun h => (ownerDocument h a).isSome
  check fun h => (ownerElement h a).isSome
  check fun h => (parentNode h a).isNone
  check fun h => (nodeValue h a).isNone
  check fun h => attrSpecified h a
  check fun h => !hasChildNodes h a
  check fun h => !hasAttributes h a

example : passes test_model_parent_owner = true := by decide +kernel

/-- Lines 114-140. -/
def test_model_siblings : Test Unit := do
  let d ← createEmptyRdfDocument
  let el ← get fun h => documentElement h d
  for n in [c! "1", c! "2", c! "3", c! "4", c! "5"] do
    must fun h => setAttribute plainEnv h el (c! "test-" ++ n) n
  for n in [c! "1", c! "2", c! "3", c! "4", c! "5"] do
    let found ← ask fun h => getAttributeNode plainEnv h el (c! "test-" ++ n)
    let a ← get fun _ => found
    check fun h => (previousSibling h a).isNone
    check fun h => (nextSibling h a).isNone

example : passes test_model_siblings = true := by decide +kernel

/-- Set `test` to `v` and read `w`. -/
def setAndGet (el : NodeId) (v w : Str) : Test Unit := do
  must fun h => setAttribute plainEnv h el (c! "test") v
  attributeIs el (c! "test") (some w)

/-- Lines 142-193. -/
def test_normalization_new_lines : Test Unit := do
  let d ← createEmptyRdfDocument
  let el ← get fun h => documentElement h d
  setAndGet el (c! "hello\nworld") (c! "hello world")
  setAndGet el (c! "hello\x0aworld") (c! "hello world")
  setAndGet el (c! "hello\x0dworld") (c! "hello world")
  setAndGet el (c! "hello\x0d\x0aworld") (c! "hello world")
  setAndGet el (c! "hello\x0d\u0085world") (c! "hello world")
  setAndGet el (c! "hello\u0085world") (c! "hello world")
  setAndGet el (c! "hello\u2028world") (c! "hello world")

example : passes test_normalization_new_lines = true := by decide +kernel

/-- Lines 195-209. -/
def test_normalization_whitespace : Test Unit := do
  let d ← createEmptyRdfDocument
  let el ← get fun h => documentElement h d
  setAndGet el (c! "hello\x09\x0a\x0dworld") (c! "hello   world")

example : passes test_normalization_whitespace = true := by decide +kernel

/-- Lines 211-229. -/
def test_normalization_character_entities : Test Unit := do
  let d ← createEmptyRdfDocument
  let el ← get fun h => documentElement h d
  setAndGet el (c! "hello&#xA7;world") (c! "hello§world")
  setAndGet el (c! "hello&#49;world") (c! "hello1world")

example : passes test_normalization_character_entities = true := by decide +kernel

/-- Lines 231-245, `#[should_panic]`: the panic is in `get_attribute`. -/
def test_normalization_entity_not_found : Test Unit := do
  let d ← createEmptyRdfDocument
  let el ← get fun h => documentElement h d
  must fun h => setAttribute plainEnv h el (c! "test") (c! "hello&pound;world")
  panics fun h => getAttribute plainEnv h el (c! "test")

example : passes test_normalization_entity_not_found = true := by decide +kernel

end XmlDom.Conformance
