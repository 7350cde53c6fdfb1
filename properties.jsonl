{"id": "C01", "title": "insert_before puts the node directly in front of the reference", "statement": "When insert_before(new, Some(ref)) returns Ok, the child list of the receiver afterwards is the old child list with new taken out and then placed immediately before ref; every other child keeps its relative order. With no reference child the node becomes the last child.", "quantifier": "every heap, receiver, new child and reference child, including a new child that is already a child of the receiver", "why_tests_cant": "The outcome depends on the relative positions of new and ref in lists of any length and on where new currently lives; tests use short lists and nodes that are not yet attached.", "anchors": ["src/level2/trait_impls.rs:917-1012 Node::insert_before", "src/level2/trait_impls.rs:1033-1056 Node::remove_child"]}
{"id": "C02", "title": "append_child effect and frame", "statement": "When append_child(new) returns Ok in a state whose links are consistent, new is the last child of the receiver, its parent_node is the receiver, it no longer occurs in the child list of its former parent, and no other node changes at all.", "quantifier": "every heap, receiver and new child", "why_tests_cant": "The frame part speaks about every node of the heap that the call does not mention.", "anchors": ["src/level2/trait_impls.rs:1058-1060 Node::append_child", "src/level2/trait_impls.rs:917-1012 Node::insert_before"]}
{"id": "C03", "title": "remove_child effect and frame", "statement": "remove_child(old) returns Err(NotFound) exactly when old is not a child of the receiver and then changes nothing; otherwise it returns old, old has no parent, exactly its first occurrence leaves the child list, and no other node changes.", "quantifier": "every heap, receiver and node", "why_tests_cant": "Exact error condition and frame over arbitrary heaps, including inconsistent ones.", "anchors": ["src/level2/trait_impls.rs:1033-1056 Node::remove_child"]}
{"id": "C04", "title": "replace_child keeps the position", "statement": "When replace_child(new, old) returns Ok, new occupies exactly the place old had among the other children, old is detached and returned.", "quantifier": "every heap, receiver, new and old child, including a new child that is already a sibling of old", "why_tests_cant": "Depends on relative positions in lists of arbitrary length; tests only use fresh replacement nodes.", "anchors": ["src/level2/trait_impls.rs:1014-1031 Node::replace_child"]}
{"id": "C05", "title": "a failing insert, append or remove changes nothing", "statement": "If insert_before, append_child or remove_child returns an error, the whole document is exactly as before the call.", "quantifier": "every heap and all arguments", "why_tests_cant": "Failure atomicity must hold in every state and for every error path.", "anchors": ["src/level2/trait_impls.rs:917-1060"]}
{"id": "C06", "title": "a failing replace_child changes nothing", "statement": "If replace_child returns an error, the whole document is exactly as before the call.", "quantifier": "every heap and all arguments", "why_tests_cant": "The failing paths after the removal step need rare combinations (wrong document, second document element).", "anchors": ["src/level2/trait_impls.rs:1014-1031 Node::replace_child"]}
{"id": "C07", "title": "parent and child links agree", "statement": "In every state reachable through the API, a node is in child_nodes() of p exactly when its parent_node() is p.", "quantifier": "every finite sequence of API calls with any arguments, errors and panics included, and every drop schedule of handles", "why_tests_cant": "An invariant over unbounded histories.", "anchors": ["src/level2/trait_impls.rs:917-1070", "src/level2/node_impl.rs:104-366", "src/level2/trait_impls.rs:104-115 Attribute::set_value"]}
{"id": "C08", "title": "a node is a child of at most one node, at most once", "statement": "In every reachable state no node occurs twice in one child list or in the child lists of two nodes.", "quantifier": "every finite history of API calls", "why_tests_cant": "An invariant over unbounded histories.", "anchors": ["src/level2/trait_impls.rs:917-1070", "src/level2/node_impl.rs:308-366 NodeImpl::clone_node"]}
{"id": "C09", "title": "the node graph is acyclic", "statement": "In every reachable state no node is its own descendant; an insertion that would create a cycle is refused with HierarchyRequest.", "quantifier": "every finite history of API calls", "why_tests_cant": "Cycles need several cooperating calls; their effect (endless recursion) cannot be observed by a terminating test.", "anchors": ["src/level2/trait_impls.rs:917-1012 Node::insert_before", "src/level2/trait_impls.rs:1267-1321 is_child_allowed"]}
{"id": "C10", "title": "children respect the DOM type table", "statement": "In every reachable state every child of a node has a type that the DOM Level 2 table allows under the type of its parent.", "quantifier": "every finite history of API calls, cloning, splitting, attribute creation and parsing included", "why_tests_cant": "An invariant over unbounded histories; the unit test only covers one append per pair of types.", "anchors": ["src/level2/trait_impls.rs:1267-1321 is_child_allowed", "src/level2/trait_impls.rs:917-1012", "src/level2/node_impl.rs:118-139 NodeImpl::new_attribute", "src/level2/node_impl.rs:308-366"]}
{"id": "C11", "title": "a document has at most one element child", "statement": "In every reachable state the child list of every Document contains at most one Element.", "quantifier": "every finite history of API calls", "why_tests_cant": "An invariant over unbounded histories.", "anchors": ["src/level2/trait_impls.rs:939-948", "src/level2/trait_impls.rs:1014-1031"]}
{"id": "C12", "title": "no mixing of documents", "statement": "A node whose owner document differs from that of the receiver is refused with WrongDocument; in every reachable state a child of a non-document node has the same owner document as its parent, and a child of a document is owned by that document.", "quantifier": "every finite history of API calls over any number of documents", "why_tests_cant": "An invariant over unbounded histories and document sets.", "anchors": ["src/level2/trait_impls.rs:1212-1245 check_same_document", "src/level2/trait_impls.rs:984-995"]}
{"id": "C13", "title": "sibling navigation enumerates child_nodes", "statement": "For a node with consistent links, next_sibling and previous_sibling of its i-th child are the (i+1)-th and (i-1)-th child, they are inverse to each other, and first_child/last_child are the ends; attributes have no siblings and no parent.", "quantifier": "every heap, node and index", "why_tests_cant": "Quantifies over lists of any length and position.", "anchors": ["src/level2/trait_impls.rs:812-898"]}
{"id": "C14", "title": "when tree edits panic", "statement": "insert_before, append_child, replace_child and remove_child never panic while the owner documents involved are alive and the node is not inserted into itself; inserting an Element or EntityReference into itself always panics instead of returning HierarchyRequest, and detaches it first.", "quantifier": "every heap and all arguments", "why_tests_cant": "Absence of panics must hold for every state; Vec::insert index bounds depend on list lengths.", "anchors": ["src/level2/trait_impls.rs:917-1056", "src/level2/trait_impls.rs:1212-1245"]}
{"id": "C15", "title": "owner_document never changes", "statement": "The owner document of a node is fixed at creation: no history of API calls changes it while the document is alive.", "quantifier": "every node and every finite history", "why_tests_cant": "An invariant over unbounded histories.", "anchors": ["src/level2/trait_impls.rs:984-995", "src/level2/node_impl.rs:104-306"]}
{"id": "C16", "title": "substring_data returns exactly the requested bytes", "statement": "For data a++m++b, substring_data(len a, len m) with m not empty returns m; if offset+count passes the end it returns the rest from offset; a zero count returns the empty string.", "quantifier": "every string, offset and count (64-bit), in debug and release arithmetic", "why_tests_cant": "Unbounded strings with multi-byte characters and the whole usize range.", "anchors": ["src/level2/trait_impls.rs:144-165 CharacterData::substring_data"]}
{"id": "C17", "title": "replace_data splices exactly the requested range", "statement": "For data a++m++b with m++b not empty, replace_data(len a, len m, r) leaves a++r++b; if offset+count passes the end everything from offset is replaced.", "quantifier": "every string, range and replacement", "why_tests_cant": "Unbounded strings with multi-byte characters.", "anchors": ["src/level2/trait_impls.rs:194-222 CharacterData::replace_data"]}
{"id": "C18", "title": "insert, delete and append are the corresponding splices", "statement": "insert_data(offset, s) equals replacing an empty range, delete_data equals replacing by nothing, append_data concatenates; deleting what was inserted restores the data, and substring_data after insert_data returns what was inserted.", "quantifier": "every string, offset, count", "why_tests_cant": "Algebraic laws over all strings.", "anchors": ["src/level2/trait_impls.rs:167-192"]}
{"id": "C19", "title": "exact IndexSize conditions of the character data calls", "statement": "The calls return IndexSize exactly when the offset is greater than the number of units in the data (as documented); an offset equal to the length is accepted.", "quantifier": "every string, offset and count", "why_tests_cant": "An iff over all strings and offsets.", "anchors": ["src/level2/traits.rs:184-271", "src/level2/trait_impls.rs:144-222"]}
{"id": "C20", "title": "character data calls panic only off a character boundary or on overflow", "statement": "With in-range offsets on character boundaries and no overflow of offset+count the calls never panic; an offset strictly inside a multi-byte character always panics instead of returning an error.", "quantifier": "every string, offset and count in the usize range", "why_tests_cant": "Needs all strings and all offsets.", "anchors": ["src/level2/trait_impls.rs:144-222"]}
{"id": "C21", "title": "length agrees with the offsets the data accepts", "statement": "length() is the number of units addressable by substring_data, replace_data and split: every offset below length() is accepted by them.", "quantifier": "every node value", "why_tests_cant": "Relation between two functions over all strings.", "anchors": ["src/level2/traits.rs:132-168 CharacterData::length and data", "src/shared/text.rs:187-202 escape"]}
{"id": "C22", "title": "split preserves the content", "statement": "split(offset) on a Text or CDATA node leaves the first part in the node, returns a new node of the same type with the rest, and, when there is a parent, inserts it as the next sibling; the concatenation of both is the old data.", "quantifier": "every string and offset, attached or not", "why_tests_cant": "Unbounded strings, positions and sibling lists.", "anchors": ["src/level2/trait_impls.rs:1124-1166 Text::split"]}
{"id": "C23", "title": "failing character data calls change nothing", "statement": "If substring_data, insert_data, delete_data, replace_data or split returns an error or panics, no node is changed.", "quantifier": "every heap and all arguments", "why_tests_cant": "All error paths in all states.", "anchors": ["src/level2/trait_impls.rs:143-223", "src/level2/trait_impls.rs:1124-1166"]}
{"id": "C24", "title": "normalize merges adjacent text", "statement": "After normalize() on a node with consistent links its direct children contain no empty Text and no two adjacent Text nodes; the concatenated character data between non-text children and the sequence of non-text children are unchanged.", "quantifier": "every child list", "why_tests_cant": "Lists of any length with any mix of node types.", "anchors": ["src/level2/trait_impls.rs:1072-1095 Node::normalize"]}
{"id": "C25", "title": "normalize is idempotent", "statement": "Calling normalize() twice has the same effect as calling it once.", "quantifier": "every heap and node with consistent links", "why_tests_cant": "Quantifies over all child lists.", "anchors": ["src/level2/trait_impls.rs:1072-1095 Node::normalize"]}
{"id": "C26", "title": "normalize works on the full depth of the sub-tree", "statement": "After normalize() no node of the sub-tree has an empty Text child or two adjacent Text children (the documented DOM behaviour).", "quantifier": "every sub-tree", "why_tests_cant": "Quantifies over all trees.", "anchors": ["src/level2/traits.rs:1588-1604 Node::normalize doc", "src/level2/trait_impls.rs:1072-1095"]}
{"id": "C27", "title": "Name::from_str accepts exactly the qualified names", "statement": "Name::from_str succeeds exactly on strings of the form local or prefix:local whose parts are non-empty XML Names without colon, and never panics.", "quantifier": "every string", "why_tests_cant": "A grammar equivalence over all strings.", "anchors": ["src/shared/name.rs:79-101 Name::from_str", "src/shared/name.rs:170-179 Name::check_part", "src/shared/text.rs:350-393 is_xml_name"]}
{"id": "C28", "title": "names round-trip through their string form", "statement": "Displaying a parsed name gives the input string back, and parsing the display of a parsed name gives the same name; distinct strings give distinct names.", "quantifier": "every accepted string", "why_tests_cant": "A round trip over all strings.", "anchors": ["src/shared/name.rs:68-101"]}
{"id": "C29", "title": "reserved namespace rules", "statement": "Name::new_ns succeeds only with a non-empty namespace, keeps prefix and local part, and refuses with Namespace exactly the uses of xml and xmlns as prefix or local name with a foreign namespace URI.", "quantifier": "every namespace and qualified name string", "why_tests_cant": "Quantifies over all pairs of strings.", "anchors": ["src/shared/name.rs:127-135 Name::new_ns", "src/shared/name.rs:181-208 Name::check_namespace_uri"]}
{"id": "C30", "title": "error classification for bad names", "statement": "An empty string, an empty part or more than one colon gives Syntax; otherwise a part that is not an XML Name gives InvalidCharacter.", "quantifier": "every rejected string", "why_tests_cant": "A complete classification over all strings.", "anchors": ["src/shared/name.rs:79-101", "src/shared/name.rs:170-179"]}
{"id": "C31", "title": "every element, attribute and PI name in a document is well formed", "statement": "In every reachable state the node_name of every Element, Attribute, EntityReference and ProcessingInstruction consists of XML Names; a processing instruction target is never xml in any case.", "quantifier": "every finite history of API calls", "why_tests_cant": "An invariant over unbounded histories.", "anchors": ["src/level2/trait_impls.rs:252-321", "src/shared/name.rs:79-208"]}
{"id": "C32", "title": "escaped data carries no markup", "statement": "The data() of a Text or Comment and the value() of an attribute contain no <, >, quote or apostrophe, and every & starts a decimal character reference.", "quantifier": "every string", "why_tests_cant": "All strings.", "anchors": ["src/shared/text.rs:187-217 escape", "src/level2/traits.rs:157-168", "src/level2/trait_impls.rs:80-103"]}
{"id": "C33", "title": "escaping is invertible", "statement": "Replacing the decimal character references of escape(s) by their characters gives s back; escape is injective and distributes over concatenation.", "quantifier": "every string", "why_tests_cant": "A round trip over all strings.", "anchors": ["src/shared/text.rs:187-209"]}
{"id": "C34", "title": "end-of-line normalization follows XML 1.1 section 2.11", "statement": "The result contains no CR, NEL or LS, replaces each line break form by one LF, keeps all other characters in order, never grows and is idempotent.", "quantifier": "every string", "why_tests_cant": "All strings.", "anchors": ["src/shared/text.rs:143-153 normalize_end_of_lines"]}
{"id": "C35", "title": "attribute value normalization follows XML 1.1 section 3.3.3", "statement": "For a value made of plain characters, white space and character references to valid characters the normalized value is the one of the specification: references replaced, white space turned into spaces; for non-CDATA types leading and trailing spaces are dropped and runs of spaces collapsed.", "quantifier": "every sequence of characters and references", "why_tests_cant": "All strings.", "anchors": ["src/shared/text.rs:64-120 normalize_attribute_value", "src/shared/text.rs:219-232"]}
{"id": "C36", "title": "reading an attribute never panics", "statement": "value() and get_attribute() return for every attribute value that set_attribute or set_value accepted.", "quantifier": "every attribute value string", "why_tests_cant": "All strings; panics hide in rare references.", "anchors": ["src/shared/text.rs:86-88", "src/shared/text.rs:219-232", "src/level2/entity_resolver.rs:14-41 resolve", "src/level2/trait_impls.rs:80-103"]}
{"id": "C37", "title": "set_attribute then get_attribute", "statement": "After set_attribute(name, v) returns Ok, get_attribute(name) returns the escaped, normalized form of v, whatever attributes the element had before and whatever the hash map iteration order.", "quantifier": "every element state, name, value and iteration order", "why_tests_cant": "Hash iteration order and prior attribute sets cannot be enumerated.", "anchors": ["src/level2/trait_impls.rs:429-565"]}
{"id": "C38", "title": "set_attribute leaves other attributes alone", "statement": "Setting or removing one attribute does not change what get_attribute returns for any other qualified name, nor any attribute of another element.", "quantifier": "every element state, pair of names and iteration order", "why_tests_cant": "Frame over all names and nodes.", "anchors": ["src/level2/trait_impls.rs:442-586"]}
{"id": "C39", "title": "remove_attribute removes", "statement": "After remove_attribute(name) the element has no attribute with that name.", "quantifier": "every element state, name and iteration order", "why_tests_cant": "All states and all iteration orders.", "anchors": ["src/level2/trait_impls.rs:452-457", "src/level2/trait_impls.rs:567-586"]}
{"id": "C40", "title": "has_attribute agrees with get_attribute_node", "statement": "has_attribute(name) is true exactly when get_attribute_node(name) returns a node; likewise for the namespace variants.", "quantifier": "every element state, name and iteration order", "why_tests_cant": "All states and all iteration orders.", "anchors": ["src/level2/trait_impls.rs:459-484", "src/level2/trait_impls.rs:643-672", "src/level2/trait_impls.rs:708-757"]}
{"id": "C41", "title": "a failing set_attribute changes nothing", "statement": "If set_attribute, set_attribute_ns or set_attribute_node returns an error, the element keeps its attributes.", "quantifier": "every state and arguments", "why_tests_cant": "The error after the insertion needs a duplicate id.", "anchors": ["src/level2/trait_impls.rs:486-565"]}
{"id": "C42", "title": "attribute maps are well formed", "statement": "In every reachable state each entry of attributes() is an Attribute node stored under its own node_name, with unique names, and its owner_element is the element that holds it.", "quantifier": "every finite history of API calls", "why_tests_cant": "An invariant over unbounded histories.", "anchors": ["src/level2/trait_impls.rs:486-586", "src/level2/node_impl.rs:308-366"]}
{"id": "C43", "title": "attribute lookup is deterministic", "statement": "get_attribute, get_attribute_node and their namespace variants return the same node for every iteration order of the hash map.", "quantifier": "every reachable element state and iteration order", "why_tests_cant": "Hash order is random per process; a test sees one order.", "anchors": ["src/level2/trait_impls.rs:459-484", "src/level2/trait_impls.rs:643-672"]}
{"id": "C44", "title": "an id stays bound to its first element", "statement": "Once get_element_by_id(id) returns an element, no further history changes the answer to another element; it can only become None when the element is dropped.", "quantifier": "every finite history of API calls", "why_tests_cant": "An invariant over unbounded histories.", "anchors": ["src/level2/trait_impls.rs:323-340", "src/level2/trait_impls.rs:523-555"]}
{"id": "C45", "title": "get_element_by_id returns an element that carries the id", "statement": "The element returned by get_element_by_id(id) currently has an id attribute whose value is id, and belongs to the document.", "quantifier": "every finite history of API calls", "why_tests_cant": "Staleness shows only after particular histories.", "anchors": ["src/level2/trait_impls.rs:323-340", "src/level2/trait_impls.rs:575-576", "src/level2/trait_impls.rs:567-586"]}
{"id": "C46", "title": "duplicate ids are refused", "statement": "Setting an id attribute whose value is already registered in the document returns Syntax and does not rebind the id; a new id value is registered for the element.", "quantifier": "every state, element and id value", "why_tests_cant": "All states and values.", "anchors": ["src/level2/trait_impls.rs:523-555"]}
{"id": "C47", "title": "resolve_namespace finds the nearest declaration", "statement": "With the namespace option on, resolve_namespace(prefix) returns the mapping of the nearest inclusive ancestor that maps the prefix, and None when there is none; it terminates on acyclic trees.", "quantifier": "every ancestor chain of any length", "why_tests_cant": "Chains of any depth.", "anchors": ["src/level2/ext/namespaced.rs:119-156"]}
{"id": "C48", "title": "get_prefix and resolve_prefix are sound", "statement": "If resolve_prefix(uri) returns a prefix then some inclusive ancestor maps that prefix to uri, and it returns None only when no inclusive ancestor maps anything to uri; for every hash order.", "quantifier": "every ancestor chain and iteration order", "why_tests_cant": "All chains and all iteration orders.", "anchors": ["src/level2/ext/namespaced.rs:162-204"]}
{"id": "C49", "title": "a namespace declaration attribute maps its prefix", "statement": "Setting an attribute xmlns=uri maps the default prefix to uri, and xmlns:p=uri maps the prefix p to uri, so that resolve_namespace finds it.", "quantifier": "every element, prefix and uri", "why_tests_cant": "All prefixes and uris.", "anchors": ["src/level2/trait_impls.rs:505-518", "src/level2/ext/namespaced.rs:208-228"]}
{"id": "C50", "title": "namespace queries are silent when the option is off", "statement": "If the owner document lacks the add-namespaces option, all namespace queries of the element return nothing and declarations record nothing.", "quantifier": "every state and argument", "why_tests_cant": "All states.", "anchors": ["src/level2/ext/namespaced.rs:88-228", "src/level2/ext/options.rs:120-150"]}
{"id": "C51", "title": "get_elements_by_tag_name is the filtered pre-order", "statement": "On an element whose sub-tree is finite the result is exactly the elements of the sub-tree reachable through elements, the receiver included, whose qualified name matches or the pattern is *, in document order, each once per occurrence.", "quantifier": "every tree and pattern", "why_tests_cant": "Trees of any size and shape.", "anchors": ["src/level2/trait_impls.rs:588-606", "src/level2/trait_impls.rs:1182-1184"]}
{"id": "C52", "title": "get_elements_by_tag_name_ns is the filtered pre-order", "statement": "The same for namespace and local name with independent wildcards; elements without namespace match only the wildcard namespace.", "quantifier": "every tree and pattern pair", "why_tests_cant": "Trees of any size and shape.", "anchors": ["src/level2/trait_impls.rs:678-706", "src/level2/trait_impls.rs:1186-1206"]}
{"id": "C53", "title": "the document query covers the whole document", "statement": "Document::get_elements_by_tag_name returns all matching elements of the document in document order.", "quantifier": "every document", "why_tests_cant": "Depends on what precedes the document element.", "anchors": ["src/level2/trait_impls.rs:236-238 document_element", "src/level2/trait_impls.rs:342-362"]}
{"id": "C54", "title": "shallow clone", "statement": "clone_node(false) returns a new node with the same type, name and value, without parent and without children, and changes no existing node.", "quantifier": "every heap and node", "why_tests_cant": "Frame over all nodes.", "anchors": ["src/level2/trait_impls.rs:1066-1070", "src/level2/node_impl.rs:308-366"]}
{"id": "C55", "title": "deep clone copies the sub-tree", "statement": "clone_node(true) on a finite sub-tree returns a tree of new nodes of the same shape with the same types, names and values in the same order, sharing no node with the original, and changes no existing node.", "quantifier": "every finite sub-tree", "why_tests_cant": "Trees of any size and shape.", "anchors": ["src/level2/node_impl.rs:308-366"]}
{"id": "C56", "title": "a clone is independent of the original", "statement": "Changing a clone, its attributes included, never changes the original; the nodes of a deep clone are linked to their parents.", "quantifier": "every node and every later edit", "why_tests_cant": "All edits after all clones.", "anchors": ["src/level2/node_impl.rs:308-366"]}
{"id": "C57", "title": "Display is the documented serialization of the tree", "statement": "The string form of a node is the serialization of its sub-tree: tags around attributes and children in order, escaped character data, and the fixed forms for the other node types; it terminates on every finite tree and does not change the document.", "quantifier": "every finite sub-tree and attribute iteration order", "why_tests_cant": "Trees of any size and shape.", "anchors": ["src/shared/display.rs:11-183"]}
{"id": "C58", "title": "no text content can inject markup", "statement": "In the string form of an element the text children and attribute values contribute no markup: every < of the output belongs to a tag, comment, CDATA section or PI written by the serializer.", "quantifier": "every tree of elements, attributes and text", "why_tests_cant": "All strings and trees.", "anchors": ["src/shared/display.rs:11-43", "src/shared/text.rs:187-202"]}
{"id": "C59", "title": "serialize then parse gives the tree back", "statement": "Reading the string form of an element tree with a reference XML reader gives the same element names, attribute values and merged text back.", "quantifier": "every finite tree of elements, attributes and text with well-formed names", "why_tests_cant": "A round trip over all trees.", "anchors": ["src/shared/display.rs:11-43"]}
{"id": "C60", "title": "XML declarations", "statement": "XmlDecl::new accepts exactly the encodings of the EncName production and panics otherwise; the string form is the XMLDecl production and determines version, encoding and standalone; version strings round-trip.", "quantifier": "every encoding string and declaration", "why_tests_cant": "All strings.", "anchors": ["src/level2/ext/decl.rs:59-187"]}
{"id": "C61", "title": "processing options are independent flags", "statement": "Setting one option turns exactly that option on, the other options keep their value; options combine by or/and bitwise; setting is idempotent and order independent.", "quantifier": "every options value", "why_tests_cant": "All combinations and orders.", "anchors": ["src/level2/ext/options.rs:96-170"]}
{"id": "C62", "title": "the reader builds the tree of the event stream", "statement": "For the event stream of a well-formed document (balanced, one root, good names, distinct attributes) the reader returns a Document whose tree has the same elements, attributes, text, comments, CDATA and PIs in the same order.", "quantifier": "every well-formed event stream of any depth", "why_tests_cant": "Streams of any length and depth.", "anchors": ["src/parser/mod.rs:121-364"]}
{"id": "C63", "title": "the reader returns a Document", "statement": "Whenever the reader returns Ok the result is a new node of type Document without parent, and no node that existed before is changed.", "quantifier": "every event stream, well formed or not", "why_tests_cant": "All streams.", "anchors": ["src/parser/mod.rs:121-239"]}
{"id": "C64", "title": "the reader reports errors", "statement": "If the event stream contains an error, an unexpected event or ends inside an element, the reader returns an error.", "quantifier": "every event stream", "why_tests_cant": "All streams and error positions.", "anchors": ["src/parser/mod.rs:145-149", "src/parser/mod.rs:198-239"]}
{"id": "C65", "title": "the reader does not panic", "statement": "No input makes the reader panic.", "quantifier": "every event stream", "why_tests_cant": "All streams.", "anchors": ["src/parser/mod.rs:243-416"]}
{"id": "C66", "title": "create_document", "statement": "create_document returns a parentless Document whose only child is the requested root element (or none), owned by it, with the given doc_type; a namespace without a name is refused with Namespace; on error no existing node changes.", "quantifier": "every argument combination", "why_tests_cant": "All strings.", "anchors": ["src/level2/trait_impls.rs:398-407", "src/level2/trait_impls.rs:1323-1356"]}
{"id": "C67", "title": "creating a node has no side effects", "statement": "A create call on a document returns a new node that no other node refers to, without parent and children (attributes with a value have one text child), owned by the document, with the given name and data; nothing else changes.", "quantifier": "every heap, document and argument", "why_tests_cant": "Frame over all nodes.", "anchors": ["src/level2/trait_impls.rs:252-321", "src/level2/node_impl.rs:104-306", "src/level2/ext/dom_impl.rs:46-90"]}
{"id": "C68", "title": "node type and name never change", "statement": "node_type and node_name of a node are the same after any history as at its creation.", "quantifier": "every node and finite history", "why_tests_cant": "An invariant over unbounded histories.", "anchors": ["src/level2/trait_impls.rs:782-1104"]}
{"id": "C69", "title": "node_value reads back what was set", "statement": "After set_node_value(v), node_value is Some(v); after unset_node_value it is None; no other node is affected; data() of Text and Comment is its escaped form.", "quantifier": "every heap, node and string", "why_tests_cant": "Frame over all nodes.", "anchors": ["src/level2/trait_impls.rs:790-805", "src/level2/traits.rs:157-179"]}
{"id": "C70", "title": "references never dangle", "statement": "In every reachable state and drop schedule every node found through child_nodes, attributes, doc_type, parent_node, owner_document, owner_element or get_element_by_id is alive; parent_node and owner_document of a survivor are None after the parent or document was dropped.", "quantifier": "every finite history and every drop schedule", "why_tests_cant": "All histories and schedules.", "anchors": ["src/shared/rc_cell.rs:66-115", "src/level2/trait_impls.rs:323-340", "src/level2/trait_impls.rs:812-821", "src/level2/trait_impls.rs:909-915"]}
{"id": "C71", "title": "feature queries", "statement": "has_feature and is_supported are true exactly for Core and XML in versions 1.0 and 2.0.", "quantifier": "every feature and version string", "why_tests_cant": "All strings.", "anchors": ["src/level2/trait_impls.rs:420-423", "src/level2/trait_impls.rs:1097-1099"]}
{"id": "C72", "title": "XML character classes", "statement": "The character predicates agree with the productions Char, RestrictedChar, S, NameStartChar and NameChar of XML 1.0/1.1.", "quantifier": "every Unicode scalar value", "why_tests_cant": "More than a million characters; the tests look at a handful.", "anchors": ["src/shared/text.rs:265-383"]}
{"id": "C73", "title": "a call changes only its footprint", "statement": "A mutating call changes only the nodes it is given, the old parent of an inserted or split node, and for normalize the children and their siblings; setting an attribute may besides record an id in the owner document. Every other existing node keeps every field, and no call except the release of its last handle ends a node.", "quantifier": "every reachable state, call and other node", "why_tests_cant": "All states, all calls, all nodes that are not involved.", "anchors": ["src/level2/trait_impls.rs:74-1166", "src/level2/node_impl.rs:308-366", "src/parser/mod.rs:121-364"]}
{"id": "C74", "title": "names read back", "statement": "The tag name, namespace uri, prefix, local name and target of a created node are those it was created with, whatever is called later.", "quantifier": "every qualified name, reachable state and later history", "why_tests_cant": "All names and all histories.", "anchors": ["src/level2/traits.rs:1652-1697", "src/level2/traits.rs:898-900", "src/level2/traits.rs:1791-1793", "src/shared/name.rs:68-135"]}
{"id": "C75", "title": "ids of document types, entities and notations", "statement": "The public id, system id and notation name given to create_document_type, create_notation and create_entity are read back whatever is called later, and are absent from nodes of other types; no call resolves an entity or notation into a document type.", "quantifier": "every reachable state and later history", "why_tests_cant": "All histories.", "anchors": ["src/level2/trait_impls.rs:372-390", "src/level2/trait_impls.rs:763-773", "src/level2/trait_impls.rs:1109-1115"]}
{"id": "C76", "title": "conversions follow the node type", "statement": "is_x and as_x accept exactly the nodes whose type implements the interface, as_x returns the same node, every node has exactly one basic view, and the answer never changes during the life of a node.", "quantifier": "every node of every reachable state and history", "why_tests_cant": "All states and histories.", "anchors": ["src/level2/convert.rs:59-209", "src/level2/ext/convert.rs:27-41", "src/shared/convert.rs:18-76"]}
{"id": "C77", "title": "predicates and owner element agree with the collections", "statement": "has_child_nodes and has_attributes hold exactly when child_nodes and attributes are not empty; the owner element of an attribute is an element whose attributes contain it.", "quantifier": "every reachable state", "why_tests_cant": "All histories of attribute calls.", "anchors": ["src/level2/trait_impls.rs:116-135", "src/level2/trait_impls.rs:1062-1064", "src/level2/trait_impls.rs:1101-1103", "src/level2/trait_impls.rs:487-560"]}
{"id": "C78", "title": "codes and messages of errors and node types", "statement": "The error codes and node type codes are those of the DOM recommendation, without gaps or repetitions, and no two errors have the same message.", "quantifier": "every error and node type", "why_tests_cant": "A test names some of the codes; distinctness is about all pairs.", "anchors": ["src/shared/error.rs:22-135", "src/level2/traits.rs:1851-1878"]}
{"id": "C79", "title": "SpaceHandling round trip", "statement": "FromStr of the text form of a SpaceHandling is that SpaceHandling, and nothing else reads as it.", "quantifier": "every value and every string", "why_tests_cant": "All strings.", "anchors": ["src/shared/text.rs:11-15", "src/shared/text.rs:432-470"]}
{"id": "C80", "title": "setting a prefix keeps names well formed", "statement": "set_prefix changes only the prefix, and the changed name is the one that parsing its text form in the same namespace gives.", "quantifier": "every name and prefix", "why_tests_cant": "All names and prefixes.", "anchors": ["src/shared/name.rs:377-380"]}
{"id": "C81", "title": "mapping laws", "statement": "insert_mapping maps exactly the given prefix of the given element to the uri, remove_mapping unmaps it, every other mapping stays; with the option off or on other nodes nothing changes.", "quantifier": "every reachable state, element, prefix and uri", "why_tests_cant": "All maps and states.", "anchors": ["src/level2/ext/namespaced.rs:208-246"]}
{"id": "C82", "title": "data of processing instructions", "statement": "The data of a processing instruction is what was set last, its length is the number of bytes, unsetting leaves none, nothing else changes.", "quantifier": "every state, node and string", "why_tests_cant": "All strings and states.", "anchors": ["src/level2/traits.rs:1750-1793"]}
{"id": "C83", "title": "text form of the options", "statement": "The text form of the processing options lists exactly the flags that are set, lowest bit first, and two option sets have the same text form exactly when the flags agree.", "quantifier": "every option byte", "why_tests_cant": "All pairs of option bytes.", "anchors": ["src/level2/ext/options.rs:68-86"]}
{"id": "C84", "title": "document element", "statement": "document_element is the element among the children of the document.", "quantifier": "every reachable state and document", "why_tests_cant": "All histories.", "anchors": ["src/level2/trait_impls.rs:236-238"]}
{"id": "C85", "title": "character references read back", "statement": "The decimal and hexadecimal references that to_entity and to_entity_hex write for a character read back as that character.", "quantifier": "every character", "why_tests_cant": "More than a million characters.", "anchors": ["src/shared/text.rs:204-262"]}
{"id": "C86", "title": "reserved names", "statement": "for_namespace makes the name that declares the prefix (and panics only for the empty prefix), for_xml_id an id name; is_namespace_attribute and is_id_attribute accept exactly the reserved names.", "quantifier": "every name and prefix", "why_tests_cant": "All names.", "anchors": ["src/shared/name.rs:302-351", "src/level2/ext/namespaced.rs:56-83"]}
{"id": "C87", "title": "calls that undo each other", "statement": "Removing a node just inserted, inserting a removed node before its former next sibling, and replacing a replacement by the original all restore every list and link of the heap.", "quantifier": "every reachable state, parent, child and position", "why_tests_cant": "All states and positions; the whole heap is compared, not the nodes a test looks at.", "anchors": ["src/level2/trait_impls.rs:917-1012 insert_before", "src/level2/trait_impls.rs:1014-1032 replace_child", "src/level2/trait_impls.rs:1033-1057 remove_child"]}
{"id": "C88", "title": "normalize undoes split", "statement": "Splitting a text of a normal node and normalizing its parent gives back the texts and other children it had; two normal lists with the same content have the same texts.", "quantifier": "every reachable state, text and offset", "why_tests_cant": "All texts, offsets and states.", "anchors": ["src/level2/trait_impls.rs:1072-1096 normalize", "src/level2/trait_impls.rs:1125-1165 split"]}
{"id": "C89", "title": "set_value and value", "statement": "value reads what set_value wrote last, unset_value leaves no value, and no other node changes.", "quantifier": "every reachable state, attribute and string", "why_tests_cant": "All strings and states.", "anchors": ["src/level2/trait_impls.rs:80-115 value, set_value, unset_value"]}
{"id": "C90", "title": "normalize keeps the text form", "statement": "normalize keeps the text form of every node other than the texts it joins.", "quantifier": "every reachable state, normalized node and displayed node", "why_tests_cant": "All trees; a test displays a few.", "anchors": ["src/level2/trait_impls.rs:1072-1096 normalize", "src/shared/display.rs:11-183"]}
{"id": "C91", "title": "clone has the text form of the original", "statement": "A deep clone has the text form of the original when maps are iterated in the same order.", "quantifier": "every reachable state and tree", "why_tests_cant": "All trees.", "anchors": ["src/level2/node_impl.rs:308-366 clone_node", "src/shared/display.rs:11-183"]}
{"id": "C92", "title": "read then write", "statement": "The document read from the events of a well-formed document is written as its declaration and its content, and what is written reads back as the same content.", "quantifier": "every well-formed document and its events", "why_tests_cant": "All documents.", "anchors": ["src/parser/mod.rs:1-423", "src/shared/display.rs:11-183"]}
{"id": "C93", "title": "outcome of the tree editing calls", "statement": "insert_before, append_child and replace_child fail with HierarchyRequest exactly when the type does not fit, a document would get a second element, or the new child is the parent or one of its ancestors; with NotFound exactly when the reference is not a child; with WrongDocument exactly for a node of another document; they succeed otherwise.", "quantifier": "every reachable state and all arguments", "why_tests_cant": "Every combination of types, positions and documents.", "anchors": ["src/level2/trait_impls.rs:917-1012 insert_before", "src/level2/trait_impls.rs:1014-1031 replace_child", "src/level2/trait_impls.rs:1212-1310 check_same_document, is_child_allowed"]}
{"id": "C94", "title": "outcome of the attribute node calls", "statement": "set_attribute_node and remove_attribute_node return exactly the errors the DOM asks for: InvalidState for wrong types, WrongDocument, InUseAttribute for an attribute of another element, NotFound for an attribute the element does not have.", "quantifier": "every reachable state, element and attribute", "why_tests_cant": "Every combination of owners and documents.", "anchors": ["src/level2/trait_impls.rs:486-565 set_attribute_node", "src/level2/trait_impls.rs:567-586 remove_attribute_node"]}
{"id": "C95", "title": "members of the tag name query", "statement": "get_elements_by_tag_name returns the matching elements among the descendants, every one of them and each once.", "quantifier": "every reachable state, element and pattern", "why_tests_cant": "All trees and histories.", "anchors": ["src/level2/trait_impls.rs:588-606"]}
{"id": "C96", "title": "the way up and the way down", "statement": "A node is in the sub-tree of another exactly when parent_node leads from the one to the other, and every node has at most one root.", "quantifier": "every reachable state and pair of nodes", "why_tests_cant": "All histories and all pairs of nodes.", "anchors": ["src/level2/trait_impls.rs:812-824 parent_node", "src/level2/trait_impls.rs:1033-1056 remove_child", "src/level2/node_impl.rs:308-366 clone_node"]}
{"id": "C97", "title": "histories do not depend on hash order", "statement": "The same calls lead to the same state whatever the iteration order of the hash maps is at each call.", "quantifier": "every history and every choice of iteration orders", "why_tests_cant": "All iteration orders at every call.", "anchors": ["src/level2/trait_impls.rs:452-457 remove_attribute", "src/level2/trait_impls.rs:459-484 get_attribute_node", "src/level2/trait_impls.rs:636-672"]}
{"id": "C98", "title": "set_data and data", "statement": "data returns what set_data stored, and setting what data returned changes nothing.", "quantifier": "every state, node and string", "why_tests_cant": "All strings.", "anchors": ["src/level2/traits.rs:157-179", "src/shared/text.rs:187-203 escape"]}
{"id": "C99", "title": "normalize_mappings", "statement": "normalize_mappings does not panic and leaves the mappings of the element usable.", "quantifier": "every reachable state and element", "why_tests_cant": "All states.", "anchors": ["src/level2/ext/namespaced.rs:248-254"]}
{"id": "C100", "title": "names from bytes", "statement": "A name made from bytes is the name made from the string the bytes encode; bytes that are not UTF-8 are refused with InvalidCharacter.", "quantifier": "every byte array", "why_tests_cant": "All byte arrays.", "anchors": ["src/shared/name.rs:105-117"]}
{"id": "C101", "title": "binary form of the options", "statement": "The binary form of the options has eight digits denoting the byte, after 0b in the alternate form, and different options have different forms.", "quantifier": "every option byte", "why_tests_cant": "All pairs of bytes.", "anchors": ["src/level2/ext/options.rs:90-98"]}
{"id": "C102", "title": "content with comments, CDATA and processing instructions is read back", "statement": "The text form of an element whose comments, CDATA sections, processing instructions, texts and attributes XML has a form for is read by an XML reader as the same tree, adjacent texts joined.", "quantifier": "every reachable state and element", "why_tests_cant": "All trees and strings.", "anchors": ["src/shared/display.rs:11-71 fmt_element, fmt_attribute, fmt_text, fmt_cdata, fmt_processing_instruction, fmt_comment"]}
{"id": "C103", "title": "documents are read back", "statement": "The text form of a document is read by an XML reader as the same declaration, document type and content.", "quantifier": "every reachable state and document", "why_tests_cant": "All documents.", "anchors": ["src/shared/display.rs:72-84 fmt_document", "src/shared/display.rs:85-109 fmt_document_type", "src/level2/ext/decl.rs Display for XmlDecl"]}
{"id": "C104", "title": "declarations are well formed", "statement": "The text form of a document type, entity or notation is the declaration of XML 1.0 [28], [71], [82] with its name, ids and value.", "quantifier": "every reachable state and node", "why_tests_cant": "All ids and values, present or not.", "anchors": ["src/shared/display.rs:85-109 fmt_document_type", "src/shared/display.rs:122-138 fmt_entity", "src/shared/display.rs:153-164 fmt_notation"]}
{"id": "C105", "title": "write then read", "statement": "A document that is written and read again by the crate is the same document.", "quantifier": "every reachable state and document", "why_tests_cant": "All documents.", "anchors": ["src/shared/display.rs:11-183", "src/parser/mod.rs:1-423"]}
{"id": "C106", "title": "the borrow discipline changes nothing", "statement": "Running every call with the RefCell guards that the source takes, for as long as it keeps them, leaves the same states, call by call and history by history, as the calls without guards.", "quantifier": "every reachable state, every call, every history including the parser", "why_tests_cant": "A run only meets the borrow conflicts of its own inputs; the claim is that the guards of all calls nest without an unforeseen conflict in every state.", "anchors": ["src/shared/rc_cell.rs:65-71 borrow, borrow_mut", "src/level2/trait_impls.rs:100-1400", "src/parser/mod.rs:121-404"]}
{"id": "C107", "title": "no already-borrowed panic", "statement": "No call panics because a node it needs is already borrowed by the same call.", "quantifier": "every reachable state and call on live nodes", "why_tests_cant": "RefCell conflicts depend on which handles coincide; tests try few coincidences.", "anchors": ["src/shared/rc_cell.rs:65-71 borrow, borrow_mut", "src/level2/trait_impls.rs:917-1012 insert_before", "src/level2/trait_impls.rs:486-586 set_attribute_node, remove_attribute_node", "src/parser/mod.rs:121-404"]}
{"id": "C108", "title": "readers can overlap", "statement": "While any number of shared borrows are alive, every reading call gives its value, changes nothing and never panics over a borrow.", "quantifier": "every state, every set of shared guards, every reading call", "why_tests_cant": "All sets of live guards.", "anchors": ["src/shared/rc_cell.rs:65-67 borrow", "src/level2/trait_impls.rs:60-915", "src/level2/ext/trait_impls.rs resolve_namespace, resolve_prefix"]}
{"id": "C109", "title": "the reader on any stream of events", "statement": "Every stream of events, well formed or not, has a meaning given without the code: a document with a declaration and content, an error, or a panic; the reader does exactly that, and a document it returns has at its top only comments, processing instructions and at most one element.", "quantifier": "every heap and every finite stream of events", "why_tests_cant": "Broken streams are not enumerable; tests try a handful.", "anchors": ["src/parser/mod.rs:121-404", "src/shared/name.rs:126-217", "src/level2/trait_impls.rs:80-115 value", "src/shared/text.rs:55-185 normalize_attribute_value"]}
