import Verif.Lemmas.Witness
import Verif.Model.Access
import Verif.Model.Parser

/-!
# The tests of the repository, run on the model

The modules of this directory transcribe the test functions of `/repo/tests` and the unit
tests in `/repo/src` line by line and run them on the model. They are tests of the model
and not proofs about it: the code itself cannot be run here, so this is the check that the
model computes what the authors of the code say the code computes.

A test is a program that threads the heap and stops at the first failing assertion.
-/

namespace XmlDom.Conformance

/-- A test: given the heap, a value and a heap, or nothing after a failed assertion. -/
def Test (α : Type) := Heap → Option (α × Heap)

instance : Monad Test where
  pure a := fun h => some (a, h)
  bind t f := fun h =>
    match t h with
    | some (a, h1) => f a h1
    | none => none

/-- `call.unwrap()`, and `assert!(call.is_ok())`. -/
def must {α : Type} (f : Heap → Result α) : Test α := fun h =>
  match f h with
  | (.ok a, h1) => some (a, h1)
  | _ => none

/-- `assert!(call.is_err())`. -/
def refused {α : Type} (f : Heap → Result α) : Test Unit := fun h =>
  match f h with
  | (.err _, h1) => some ((), h1)
  | _ => none

/-- `assert_eq!(call, Err(e))`. -/
def refusedWith {α : Type} (e : DomError) (f : Heap → Result α) : Test Unit := fun h =>
  match f h with
  | (.err x, h1) => if x = e then some ((), h1) else none
  | _ => none

/-- `#[should_panic]` at the last call of a test. -/
def panics {α : Type} (f : Heap → Outcome α) : Test Unit := fun h =>
  match f h with
  | .panic _ => some ((), h)
  | _ => none

/-- A call whose result is dropped, as under `#[allow(unused_must_use)]`. -/
def ignore {α : Type} (f : Heap → Result α) : Test Unit := fun h =>
  match f h with
  | (.ok _, h1) => some ((), h1)
  | (.err _, h1) => some ((), h1)
  | _ => none

/-- `option.unwrap()`. -/
def get {α : Type} (f : Heap → Option α) : Test α := fun h =>
  match f h with
  | some a => some (a, h)
  | none => none

/-- A reading call that must not panic. -/
def ask {α : Type} (f : Heap → Outcome α) : Test α := fun h =>
  match f h with
  | .ok a => some (a, h)
  | _ => none

/-- `assert!`. -/
def check (f : Heap → Bool) : Test Unit := fun h => if f h then some ((), h) else none

/-- A handle goes out of scope. -/
def dropped (n : NodeId) : Test Unit := fun h => some ((), dropNode h n)

/-- The result of a test started with nothing allocated. -/
def passes {α : Type} (t : Test α) : Bool := (t Heap.empty).isSome

/-- `format!("{}", node)`. -/
def shown (n : NodeId) (h : Heap) : Outcome Str := fmtNode plainEnv h (h.next + 1) n

/-- `assert_eq!(format!("{}", node), text)`. -/
def shows (n : NodeId) (s : Str) : Test Unit := check fun h => decide (shown n h = .ok s)

/-- `text` contains `part`, as `str::contains`. -/
def contains (part : Str) : Str → Bool
  | [] => decide (part = [])
  | c :: cs => part.isPrefixOf (c :: cs) || contains part cs

/-! ## `/repo/tests/common/mod.rs` -/

/-- `DC_NS`. -/
def dcNs : Str := c! "http://purl.org/dc/elements/1.1/"
/-- `RDF_NS`. -/
def rdfNs : Str := c! "http://www.w3.org/1999/02/22-rdf-syntax-ns#"
/-- `XML_NS_URI`. -/
def xmlNsUri : Str := c! "http://www.w3.org/XML/1998/namespace"
/-- `XMLNS_NS`. -/
def xmlnsNs : Str := c! "http://www.w3.org/2000/xmlns/"

/-- `create_empty_rdf_document`, lines 14-19. -/
def createEmptyRdfDocument : Test NodeId :=
  must fun h => createDocument h (some rdfNs) (some (c! "rdf:RDF")) none

/-- `create_element_with`, lines 91-98. -/
def createElementWith (d : NodeId) (ns qn content : Str) : Test NodeId := do
  let node ← must fun h => createElementNs h d ns qn
  let t ← must fun h => createTextNode h d content
  ignore fun h => appendChild h node t
  pure node

/-- `create_example_rdf_document_options`, lines 40-88. -/
def createExampleRdfDocumentOptions (options : Options) : Test NodeId := do
  let d ← must fun h =>
    createDocumentWithOptions h (some rdfNs) (some (c! "rdf:RDF")) none options
  let root ← get fun h => documentElement h d
  ignore fun h => setAttributeNs plainEnv h root xmlnsNs (c! "xmlns:rdf") rdfNs
  ignore fun h => setAttribute plainEnv h root (c! "id") (c! "main")
  let description ← must fun h => createElementNs h d rdfNs (c! "rdf:Description")
  ignore fun h => setAttributeNs plainEnv h root rdfNs (c! "rdf:about")
    (c! "http://media.example.com/audio/guide.ra")
  ignore fun h => setAttributeNs plainEnv h root xmlnsNs (c! "xmlns:rdf") rdfNs
  let creator ← createElementWith d dcNs (c! "dc:creator") (c! "Rose Bush")
  ignore fun h => appendChild h description creator
  let title ← createElementWith d dcNs (c! "dc:title") (c! "A Guide to Growing Roses")
  ignore fun h => setAttributeNs plainEnv h title xmlNsUri (c! "xml:id") (c! "title")
  ignore fun h => appendChild h description title
  let inner ← createElementWith d dcNs (c! "dc:Description")
    (c! "Describes process for planting & nurturing different kinds of rose bushes.")
  ignore fun h => setAttribute plainEnv h inner (c! "id") (c! "description")
  ignore fun h => appendChild h description inner
  let date ← createElementWith d dcNs (c! "dc:date") (c! "2001-01-20")
  ignore fun h => appendChild h description date
  ignore fun h => appendChild h root description
  pure d

/-- `create_example_rdf_document`, lines 35-37: `ProcessingOptions::default()` has no
option set. -/
def createExampleRdfDocument : Test NodeId := createExampleRdfDocumentOptions Options.new

end XmlDom.Conformance
