# Formal model of rust-xml_dom: design

The subject is the source tree in `/repo` (`johnstonskj/rust-xml_dom` at the pinned
commit). The code is read as text; it is neither built nor run here. The model and
all proofs are Lean 4 (`/verif/lean`, built with `lake build`).

## 1. Trusted base

* The Lean 4.33.0 kernel. Theorems may depend on the standard axioms `propext`,
  `Classical.choice` and `Quot.sound` only. `lean/Verif/Audit.lean` makes the build fail
  when any theorem uses another axiom; `AXIOMS.md` lists the axioms of every property
  theorem. No own axioms, no `sorry`, no `native_decide`, no `bv_decide`.
* The reading of the Rust source: every definition below `Verif/Model` carries a
  comment with the file and lines it models and names its simplifications. As a check of
  this reading, `Verif/Conformance/*` transcribes the tests of the repository (all of
  `/repo/tests`, the unit tests in `/repo/src`, the programs in `/repo/examples`) and runs
  them on the model in the kernel. All of them pass. They are tests and support no claim.
* The behaviour of the Rust standard library that the code calls, as described in
  section 3.
* The specification files `Verif/Spec/*.lean`: small definitions, independent of the
  model, which the property statements use.

## 2. Shape of the model

* A string is `List Char` (Unicode scalar values). Byte offsets are modelled through
  `byteLen` (sum of UTF-8 sizes) and `splitAtByte`, which fails off a char boundary.
* An `Rc<RefCell<NodeImpl>>` is a `NodeId` (a number never reused) into a `Heap`
  (`next`, `live`, `get`). `Rc::ptr_eq` is equality of ids. A `Weak` is a `NodeId`;
  `upgrade` succeeds exactly if the id is live.
* Every API method is a total function from a heap to an `Outcome` and a heap. An
  `Outcome` is `ok`, `err` (the DOM error enum), `panic` (with its kind) or `diverge`
  (endless recursion, which is a stack overflow in the real program). The heap after
  an error or a panic is kept, so partial effects are visible.
* A method is only ever called on handles, and a handle keeps its node alive. So a
  call in a history with a dead argument is skipped.
* Dropping: the environment may deallocate any node to which no live node holds a
  strong reference (children, attributes, doc type, entities, notations). This covers
  every schedule of handle drops.
* `RefCell` borrow conflicts are modelled where they can happen, as panics: a node
  appended to itself; an attribute call with the element itself as the attribute; an
  element that is its own document. `Model/Cell` is a second model of the calls with every
  guard the source takes, as a list of live guards passed down; C106 proves that both give
  the same states. It also finds the conflict that the first model reports as another kind
  of panic (C107).
* `HashMap` is an association list with unique keys. Its iteration order is an
  arbitrary permutation chosen per call by the environment (`Env.attrOrder` for the maps
  of nodes, `Env.nsOrder` for namespace maps; `Env.Ok` says that they are permutations),
  and the theorems hold for all of them. Only C91 (text form of a clone) asks that equal
  maps of different nodes are iterated in the same order, which holds for a cloned
  `HashMap` because it keeps the hasher and the layout of the table.
* `usize` sums check for overflow at 2^64: a panic with overflow checks (debug), wrap
  around without (release); `Env.overflowChecks` chooses.
* The Unicode classes `\pL` and `\d` of the `regex` crate are parameters of the
  environment, constrained only on ASCII. The three regular expressions of the source
  are modelled as leftmost scanners (each alternative is deterministic).
* Recursive tree walks take fuel; running out of fuel is `diverge`. The theorems show
  that the depth of the tree is enough fuel, for trees of any depth.
* The XML reader is modelled from the `quick-xml` events on: its input is a list of
  events (with decoding errors as data), followed by endless `Eof`.
* A history is a list of operations (every mutating API call and `drop`) executed
  from the empty heap by `run`. Invariants are proved over all histories. The mutating
  calls are first decomposed into primitive steps (`Verif/Lemmas/Step.lean`, a proof device,
  not part of the model; `Verif/Lemmas/OpSteps.lean` proves the decomposition), and the
  invariants are proved per primitive step. `Reachable h` means: some history whose
  environments are all `Env.Ok` ends in `h`. `ReachableBy P h` restricts the calls of the
  history to those that satisfy `P` (for instance `TidyCall`: no deep clone, no attribute
  text, no `unset_value` on a node that is no attribute).
* A failed `create_document` leaves the nodes it made in the heap without any reference to
  them. The real program frees them at the return; here a later `drop` does.

### Layers

* `Verif/Basic`: strings, outcomes. `Verif/Model/*`: the code. `Verif/Spec/*`: the words
  used in the statements. `Verif/Lemmas/*`: proofs shared by properties. `Verif/Props/*`:
  the theorems `Cnn_...`, each near an `example` that meets its hypotheses.
  `Verif/Conformance/*`: the tests of the repository on the model.
* Trees (`Spec/Walk`): `Forest` is a finite ordered forest of node ids, `Unfolds h l F` says
  that `F` is the forest below the nodes `l` in the heap `h`, `Copies` relates two forests
  node by node. Queries, clones and the text form are compared with functions on forests.
* Footprints (`Spec/Footprint`): for every call the set of nodes and fields it can write.
* Text form (`Spec/Serial`): `Xml` is an abstract document, `Xml.print` its text, `Shows`
  says that a heap holds that document. `Spec/Reader` is an independent XML 1.0 reader of
  elements, attributes, references, text, comments, CDATA sections and processing
  instructions, `Spec/Document` one of whole documents, document types without internal
  subset, entity and notation declarations. They are used for the round trips;
  `Leaf.asRead` says what the text form of a leaf stands for. `Spec/Shown`: which nodes the
  text form of a node contains, and which attributes have no readable value.
* Outcomes (`Spec/Outcome`, `Spec/SetAttr`): tables of every way in which `insert_before`,
  `replace_child` and the `set_attribute` calls end, with the condition of each.
* Reader (`Spec/Parse`): `Events` relates a document to the event stream of a conforming
  tokenizer, `Held` says that the heap holds the document read, `Calm` is the class of
  events on which nothing can panic. `Spec/Stream` gives every stream of events, broken or
  not, a meaning (`Means`): content and declaration, an error, or a panic.
* Guards: `Model/Cell` is a state-and-guards monad; `Lemmas/Cell`, `Lemmas/CellAttr` and
  `Lemmas/CellParse` prove for each call what it does under which live guards.
* Reading calls and conversions: `Model/Access`. Inverse calls: `Spec/Undo`. Documents up
  to the order of attributes and normalization of values: `Spec/Trip`.

### Not modelled

* `quick-xml` tokenization, decoding and unescaping; `regex` internals; the hash
  function; the allocator; logging; `Debug` output; thread safety (the types are not
  `Send`); memory exhaustion and the stack depth at which recursion really overflows.
* `get_implementation_version` (a constant), the `make_ref`/`dyn` plumbing, `Hash` and
  `Debug` implementations.

## 3. Standard library behaviour assumed

`str` slicing panics off char boundaries or with start > end; `String::replace_range`
likewise; `str::split`, `splitn`, `trim`, `trim_matches`, `starts_with`; `Vec::insert`
panics past the length; `Vec::remove`, `Iterator::position/find/any`; `HashMap`
insert/remove/get with structural key equality; `u32::from_str_radix` fails on empty,
non-digit or overflowing input; `char::try_from(u32)` fails on surrogates and above
0x10FFFF; `RefCell` panics on conflicting borrows; `Weak::upgrade` fails after drop;
`format!` of integers.

## 4. Plan per property

| id | model | proof |
|----|-------|-------|
| C01 | `insertBefore` | list equation against `Spec.insertBeforeList`; holds unless new is an earlier sibling of ref (`_partial`), witness for the failure |
| C02 | `appendChild` | direct computation and frame |
| C03 | `removeChild` | direct computation and frame |
| C04 | `replaceChild` | as C01, `_partial` with witness |
| C05 | `insertBefore`, `removeChild` | case analysis over all error paths |
| C06 | `replaceChild` | false: witness; `_partial` under a precondition that excludes late errors |
| C07 | histories | false (deep clone, attribute text, unset_value): witnesses; `_partial` invariant over the histories without those calls |
| C08 | histories | as C07 |
| C09 | histories | false: witness; `_partial` over histories whose insertions do not create a cycle |
| C10 | histories | invariant over all histories |
| C11 | histories | invariant over all histories |
| C12 | histories | exact WrongDocument condition; invariant for non-document parents over all histories, for documents without document cloning (`_partial`) |
| C13 | `nextSibling`, `previousSibling` | index computation |
| C14 | `insertBefore` ... | exact panic conditions |
| C15 | histories | invariant over all histories |
| C16-C20 | `CharData` | string algebra over `splitAtByte`; documented offset = length is rejected (witness, `_partial`) |
| C21 | `length` | false for data with escapable characters (witness), `_partial` for plain data |
| C22 | `split` | `_partial` for data without escapable characters or offset within limits; witness |
| C23 | `CharData`, `split` | case analysis; split on a comment loses data (witness, `_partial`) |
| C24 | `normalize` | loop invariant against a list specification |
| C25 | `normalize` | from C24: a normal list is a fixed point |
| C26 | `normalize` | false: witness; C24 is the part that holds |
| C27-C30 | `Name` | grammar characterisation; panics exactly on parts that start with a multi-byte name start character (witness, `_partial`) |
| C31 | histories | invariant over all histories |
| C32-C33 | `escape` | induction on the string, independent decoder |
| C34 | `normalizeEol` | relation `Spec.EolNorm` by induction |
| C35 | `normalizeAttr` | token list specification; collapse of inner spaces is false (witness, `_partial`) |
| C36 | `attrValue` | false: exact panic condition and witnesses |
| C37-C43 | `Element` calls | assoc-list reasoning for every permutation; failures as witnesses |
| C44-C46 | id map | histories; staleness as witness |
| C47-C50 | namespaces | induction on the ancestor chain; `xmlns:p` as witness |
| C51-C53 | queries | induction on the unfolded tree; leading comment as witness |
| C54-C56 | clone | induction on the tree; sharing as witness |
| C57-C59 | display | induction on the tree; reference reader |
| C60 | `XmlDecl` | grammar characterisation |
| C61 | options | bit vectors, all 256 values lifted |
| C62-C65 | reader | induction on the tree / event list; error swallowing and panics as witnesses |
| C66-C67 | creation | direct computation and frame |
| C68-C69 | histories / direct | invariant, frame |
| C70 | histories | invariant over all histories and drop schedules |
| C71 | `hasFeature` | case analysis on all strings |
| C72 | char classes | range arithmetic; upper bound wrong (witness, `_partial`) |
| C73 | all calls | footprint per call, over the primitive steps |
| C74-C76 | names, ids, conversions | invariants over later histories; exact tables |
| C77 | predicates, owner element | `remove_attribute` keeps the owner (witness, `_partial`) |
| C78 | codes and messages | complete tables, injectivity |
| C79-C80 | `SpaceHandling`, `set_prefix` | witnesses and the part that holds |
| C81-C83 | mappings, PI data, option text | exact effects; all option bytes |
| C84-C86 | document element, character references, reserved names | witnesses and the part that holds |
| C87-C89 | inverse calls | equality of heaps up to links; `value` after `set_value` |
| C90-C91 | text form under `normalize` and `clone_node` | induction on the fuel of the display, step by step |
| C92 | read, then write | composition of C62, C57 and C59 |
| C93-C94 | outcomes of the editing calls | exact condition of every outcome; missing DOM checks as witnesses |
| C95-C96 | sub-trees | reachability along child lists against the query and the parent links; deep clone as witness |
| C97 | histories | two runs with different iteration orders, call by call |
| C98-C101 | `data`, `normalize_mappings`, names from bytes, binary options | direct; escaping and `unimplemented!` as witnesses |
| C102-C105 | text form of content, documents and declarations; write, then read | reference reader against `Xml.print` by induction on trees; composition with C62 |
| C109 | the reader on any stream | inductive meaning of a stream; soundness by induction on the meaning, totality on the length |
| C106-C108 | calls with their guards (`Model/Cell`) | refinement call by call, then over histories; no conflict by case analysis; witnesses |

## 5. Deviations of the code from DOM or XML found while proving

Each is the witness of a `_full_false` theorem or stated in a theorem of its own. Where the
claim holds on part of the inputs, a theorem named `_exact` or `_iff` says on which part, or
what happens on all of them (C26, C36, C43, C47, C48, C52, C53, C57, C64, C65, C80, C85, C89);
`C45_origin_partial` says where every id of a document came from.

* `insert_before` and `replace_child` misplace a node that is an earlier sibling of the
  reference (C01, C04); `replace_child` removes the old child before it can fail (C06).
* There is no ancestor check, so a node can be put below itself (C09). A node appended to
  itself is detached and then panics (C14).
* A document fragment can never be inserted: the type table refuses it (C10).
* The text child of a new attribute, and the children of a deep clone, have no parent link
  (C07); a clone shares its attribute nodes with the original (C56); a cloned document keeps
  the id map of the original (C45).
* The children of a deep clone of a document belong to the original document (C12).
* Offsets equal to the length are refused (C19); `length` counts escaped bytes (C21), and
  `split` compares offsets with that length (C22); `split` on a comment loses data (C23).
* `normalize` does not descend (C26).
* A name that starts with a character of several UTF-8 bytes panics (C27, C72).
* Inner spaces of attribute values are not collapsed, `%` starts a reference (C35), and
  an entity reference in a value panics (C36).
* Two attributes with one qualified name can be in different namespaces, and then lookup
  depends on the iteration order of the map (C37-C40, C43). A duplicate id is refused after
  the attribute was stored (C41).
* Ids stay registered after the attribute is gone (C45).
* `resolve_namespace` panics when the parent was dropped (C47). `set_attribute` of `xmlns`
  records nothing, `xmlns:p` maps the prefix `xmlns` (C49).
* An element in the namespace `*` matches every query (C52). The document query starts at
  the first child of any type (C53), as does `document_element` (C84). Element queries
  report the element itself (C51).
* CDATA is printed with spaces around it, a document fragment as CDATA, and an entity
  reference in an attribute value makes the display panic (C57).
* Errors inside the root element are ignored by the reader (C64); a bad element name panics
  (C65); processing instructions are split at a space only (C62); a document type is an
  error; stray end tags at the top are ignored (C64). What it does with any other stream is
  stated in C109.
* `Char` ends at U+10FFF instead of U+10FFFF (C72). `to_entity` cuts numbers to 16 bits
  (C85). `SpaceHandling` does not read what it writes (C79). `set_prefix` checks nothing
  (C80). `for_namespace` panics on the empty prefix (C86).
* `remove_attribute` and friends do not clear `owner_element` (C77). `create_document`
  accepts any node as document type (C66). No call puts an entity or notation into a
  document type (C75).
* An attribute of one element can be set on another, and an attribute that an element does
  not have can be removed from it, which removes the one with the same name; an element
  "removed" as an attribute from itself panics (C94). A document refuses to move its own
  element (C93).
* `data` escapes, so copying it from node to node escapes again and again (C98).
  `normalize_mappings` is `unimplemented!()` when the option is on (C99).
* A CDATA section gets two spaces and a comment is escaped each time it is written and read
  (C102, C105). A document type with a public id is written as `PUBLIC "p" SYSTEM "s"` or
  `PUBLIC "p"`, neither of which is XML (C103, C104); an entity with a public id only and a
  notation without ids are not XML either (C104).
* `set_attribute_node` holds the document exclusively while it computes the value of an id,
  so an entity reference in an attribute named `id` panics with a borrow conflict, also in
  the reader (C107).
