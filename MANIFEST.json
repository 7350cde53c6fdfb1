{
 "claims": [
  {
   "property": "C01",
   "status": "partial",
   "theorems": [
    "XmlDom.Props.C01_full_false",
    "XmlDom.Props.C01_insert_partial",
    "XmlDom.Props.C01_insert_last",
    "XmlDom.Props.C01_insert_before_itself",
    "XmlDom.Props.C01_earlier_sibling",
    "XmlDom.Props.C01_unlinked"
   ],
   "note": "Refuted as stated: moving an earlier sibling lands behind the reference (C01_full_false). The partial theorem covers every other insertion; C01_earlier_sibling gives the exact result in the missing case, C01_unlinked the result for a node without parent link to the receiver."
  },
  {
   "property": "C02",
   "status": "proved",
   "theorems": [
    "XmlDom.Props.C02_append_child",
    "XmlDom.Props.C02_insert_before"
   ],
   "note": "Effect and frame of append_child and insert_before; OnlyLinks says every other observation of every node is unchanged."
  },
  {
   "property": "C03",
   "status": "proved",
   "theorems": [
    "XmlDom.Props.C03_not_a_child",
    "XmlDom.Props.C03_remove_child",
    "XmlDom.Props.C03_remove_child_cases"
   ],
   "note": "Exact effect and frame of remove_child, and the exact NotFound condition."
  },
  {
   "property": "C04",
   "status": "partial",
   "theorems": [
    "XmlDom.Props.C04_full_false",
    "XmlDom.Props.C04_replace_partial",
    "XmlDom.Props.C04_replace_itself",
    "XmlDom.Props.C04_earlier_sibling",
    "XmlDom.Props.C04_unlinked"
   ],
   "note": "Refuted as stated: replacing a child by an earlier sibling misplaces it unless the old child is last. The partial theorem covers all other replacements; replacing a child by itself, by an earlier sibling and replacing a child without parent link are separate, each with the exact result."
  },
  {
   "property": "C05",
   "status": "proved",
   "theorems": [
    "XmlDom.Props.C05_insert_before",
    "XmlDom.Props.C05_append_child",
    "XmlDom.Props.C05_remove_child"
   ],
   "note": "All three calls are atomic on error, in every heap."
  },
  {
   "property": "C06",
   "status": "partial",
   "theorems": [
    "XmlDom.Props.C06_full_false",
    "XmlDom.Props.C06_replace_partial"
   ],
   "note": "Refuted as stated: the old child is removed before the insertion is tried. The partial theorem says exactly what a failing replace_child leaves behind."
  },
  {
   "property": "C07",
   "status": "partial",
   "theorems": [
    "XmlDom.Props.C07_full_false",
    "XmlDom.Props.C07_clone_false",
    "XmlDom.Props.C07_unset_false",
    "XmlDom.Props.C07_links_partial",
    "XmlDom.Props.C07_down_partial"
   ],
   "note": "Refuted three ways: the text child of a new attribute has no parent link, the children of a deep clone have none, and unset_value on a non-attribute leaves stale links. Partial: holds for every history of tidy calls (Spec.TidyCall) and every parent that is not an attribute; C07_down_partial: the direction from parent link to child list holds with deep clones too, as long as values are set and unset on attributes only."
  },
  {
   "property": "C08",
   "status": "partial",
   "theorems": [
    "XmlDom.Props.C08_full_false",
    "XmlDom.Props.C08_twice_false",
    "XmlDom.Props.C08_once_partial"
   ],
   "note": "Refuted: a child of a deep clone can be inserted a second time. Partial: holds for every history of tidy calls, attributes included."
  },
  {
   "property": "C09",
   "status": "partial",
   "theorems": [
    "XmlDom.Props.C09_full_false",
    "XmlDom.Props.C09_self_false",
    "XmlDom.Props.C09_acyclic_partial",
    "XmlDom.Props.C09_own_child",
    "XmlDom.Props.C09_never_own_child"
   ],
   "note": "Refuted: there is no ancestor check. Partial: acyclic in every history in which no node is inserted into one of its descendants; a node never becomes its own child in any state."
  },
  {
   "property": "C10",
   "status": "proved",
   "theorems": [
    "XmlDom.Props.C10_child_types"
   ],
   "note": "Invariant of all histories, against the DOM Level 2 table as an independent definition."
  },
  {
   "property": "C11",
   "status": "proved",
   "theorems": [
    "XmlDom.Props.C11_one_element",
    "XmlDom.Props.C11_unique"
   ],
   "note": "Invariant of all histories; also in the index form."
  },
  {
   "property": "C12",
   "status": "partial",
   "theorems": [
    "XmlDom.Props.C12_full_false",
    "XmlDom.Props.C12_insert_refused",
    "XmlDom.Props.C12_append_refused",
    "XmlDom.Props.C12_attribute_refused",
    "XmlDom.Props.C12_same_document",
    "XmlDom.Props.C12_document_partial"
   ],
   "note": "Refuted: children of a deep-cloned document belong to the original. Partial: refusal of foreign nodes by insert_before, append_child, set_attribute_node in every state; same owner under every non-document parent in all histories; children of documents in histories without deep clones of documents."
  },
  {
   "property": "C13",
   "status": "proved",
   "theorems": [
    "XmlDom.Props.C13_siblings",
    "XmlDom.Props.C13_siblings_by_index",
    "XmlDom.Props.C13_inverse",
    "XmlDom.Props.C13_first_last",
    "XmlDom.Props.C13_attribute"
   ],
   "note": "Neighbours in the child list, by split and by index; next and previous are inverse; ends of the list; attributes."
  },
  {
   "property": "C14",
   "status": "proved",
   "theorems": [
    "XmlDom.Props.C14_insert_before",
    "XmlDom.Props.C14_append_child",
    "XmlDom.Props.C14_remove_child",
    "XmlDom.Props.C14_replace_child",
    "XmlDom.Props.C14_insert_into_itself",
    "XmlDom.Props.C14_insert_into_itself_refused",
    "XmlDom.Props.C14_dropped_document",
    "XmlDom.Props.C14_dropped_document_root"
   ],
   "note": "The calls return when owner documents are alive and the node is not inserted into itself; exact panic and detaching for self-insertion; a dropped document panics."
  },
  {
   "property": "C15",
   "status": "proved",
   "theorems": [
    "XmlDom.Props.C15_owner_fixed"
   ],
   "note": "For every reachable state and every continuation, exactly until the document is dropped."
  },
  {
   "property": "C16",
   "status": "proved",
   "theorems": [
    "XmlDom.Props.C16_substring_range",
    "XmlDom.Props.C16_substring_past_end",
    "XmlDom.Props.C16_substring_zero",
    "XmlDom.Props.C16_substring_only",
    "XmlDom.Props.C16_node"
   ],
   "note": "Exact result of substring_data for a range inside the data, past the end, and an empty range; C16_substring_only says nothing else is ever returned."
  },
  {
   "property": "C17",
   "status": "proved",
   "theorems": [
    "XmlDom.Props.C17_replace_range",
    "XmlDom.Props.C17_replace_past_end",
    "XmlDom.Props.C17_replace_none",
    "XmlDom.Props.C17_replace_only",
    "XmlDom.Props.C17_node",
    "XmlDom.Props.C17_node_failed"
   ],
   "note": "Exact result of replace_data; C17_replace_only is the converse. It includes the release-profile wrap-around on a node without data, found while proving."
  },
  {
   "property": "C18",
   "status": "proved",
   "theorems": [
    "XmlDom.Props.C18_insert",
    "XmlDom.Props.C18_delete",
    "XmlDom.Props.C18_delete_past_end",
    "XmlDom.Props.C18_append",
    "XmlDom.Props.C18_delete_insert",
    "XmlDom.Props.C18_substring_insert",
    "XmlDom.Props.C18_node_append",
    "XmlDom.Props.C18_node_insert",
    "XmlDom.Props.C18_node_delete"
   ],
   "note": "insert, delete and append are the obvious splices; delete undoes insert; substring reads back an insert."
  },
  {
   "property": "C19",
   "status": "partial",
   "theorems": [
    "XmlDom.Props.C19_full_false",
    "XmlDom.Props.C19_index_size_partial"
   ],
   "note": "The documented threshold (offset greater than length) is refuted by C19_full_false: offset = length is refused too. The partial theorem gives the exact threshold of every call."
  },
  {
   "property": "C20",
   "status": "proved",
   "theorems": [
    "XmlDom.Props.C20_replace_panics_iff",
    "XmlDom.Props.C20_substring_panics_iff",
    "XmlDom.Props.C20_insert_delete_panics_iff",
    "XmlDom.Props.C20_none_returns",
    "XmlDom.Props.C20_overflow"
   ],
   "note": "Exact panic conditions for all five calls, with and without data, and for overflow of offset + count in both build profiles."
  },
  {
   "property": "C21",
   "status": "partial",
   "theorems": [
    "XmlDom.Props.C21_full_false",
    "XmlDom.Props.C21_length",
    "XmlDom.Props.C21_accepts_partial",
    "XmlDom.Props.C21_excess"
   ],
   "note": "Refuted: length() counts escaped bytes. Partial: exact value of length(), acceptance of every boundary offset when nothing is escaped, and refusal of all excess offsets."
  },
  {
   "property": "C22",
   "status": "partial",
   "theorems": [
    "XmlDom.Props.C22_split",
    "XmlDom.Props.C22_full_false",
    "XmlDom.Props.C22_returns_partial",
    "XmlDom.Props.C22_refused"
   ],
   "note": "Every split that returns does what Spec says (Splits), attached or free. Refuted: splits at offsets between the data length and the escaped length are refused. Partial: returns for all other boundary offsets; exact refusals."
  },
  {
   "property": "C23",
   "status": "partial",
   "theorems": [
    "XmlDom.Props.C23_full_false",
    "XmlDom.Props.C23_unchanged_partial",
    "XmlDom.Props.C23_comment",
    "XmlDom.Props.C23_orphan"
   ],
   "note": "Refuted: split on a comment cuts the data and then fails, and so does split with the document gone. Partial: all other calls in every heap, split on Text and CDATA with a live document."
  },
  {
   "property": "C24",
   "status": "proved",
   "theorems": [
    "XmlDom.Props.C24_normalize",
    "XmlDom.Props.C24_sequences",
    "XmlDom.Props.C24_tidy"
   ],
   "note": "Normal form, content (texts and other nodes in order) preserved, frame (only text children touched), links preserved; consistent links hold in all tidy histories."
  },
  {
   "property": "C25",
   "status": "proved",
   "theorems": [
    "XmlDom.Props.C25_idempotent",
    "XmlDom.Props.C25_fixed"
   ],
   "note": "Second call is the identity on the whole heap; a call is the identity exactly on normal child lists."
  },
  {
   "property": "C26",
   "status": "partial",
   "theorems": [
    "XmlDom.Props.C26_full_false",
    "XmlDom.Props.C26_direct_partial",
    "XmlDom.Props.C26_exact"
   ],
   "note": "Refuted: normalize does not descend. Partial: direct children are normal; C26_exact: the whole sub-tree is normal afterwards exactly if everything below the node was normal before."
  },
  {
   "property": "C27",
   "status": "partial",
   "theorems": [
    "XmlDom.Props.C27_full_false",
    "XmlDom.Props.C27_only_qnames",
    "XmlDom.Props.C27_accepts_partial",
    "XmlDom.Props.C27_panics_iff",
    "XmlDom.Props.C27_verdict"
   ],
   "note": "Full claim refuted: a name whose first character needs several UTF-8 bytes makes the check panic. Everything accepted is a qualified name; every qualified name with single-byte first characters is accepted; exact panic condition. C27_verdict gives the verdict (accepted, refused with which error, panic) for every string."
  },
  {
   "property": "C28",
   "status": "proved",
   "theorems": [
    "XmlDom.Props.C28_display_fromStr",
    "XmlDom.Props.C28_fromStr_display",
    "XmlDom.Props.C28_injective"
   ],
   "note": "Display and parsing are inverse on every name that parsing or construction accepts, and Display is injective on names without a namespace."
  },
  {
   "property": "C29",
   "status": "proved",
   "theorems": [
    "XmlDom.Props.C29_new_ns_ok",
    "XmlDom.Props.C29_namespace_error",
    "XmlDom.Props.C29_empty_namespace"
   ],
   "note": "Exact acceptance and Namespace-error conditions of namespaced name creation, with reserved URIs as constants of the statement."
  },
  {
   "property": "C30",
   "status": "partial",
   "theorems": [
    "XmlDom.Props.C30_full_false",
    "XmlDom.Props.C30_syntax_partial",
    "XmlDom.Props.C30_other_error"
   ],
   "note": "Refuted as stated: ':1' is reported as InvalidCharacter although the prefix is empty. The partial theorem gives the exact error of every malformed name."
  },
  {
   "property": "C31",
   "status": "proved",
   "theorems": [
    "XmlDom.Props.C31_names",
    "XmlDom.Props.C31_fixed_names"
   ],
   "note": "Invariant of all histories, against the XML productions; also the fixed names of the other types."
  },
  {
   "property": "C32",
   "status": "proved",
   "theorems": [
    "XmlDom.Props.C32_escape",
    "XmlDom.Props.C32_data",
    "XmlDom.Props.C32_attribute_value"
   ],
   "note": "No markup characters survive escaping; stated for escape, text data and attribute values."
  },
  {
   "property": "C33",
   "status": "proved",
   "theorems": [
    "XmlDom.Props.C33_decode",
    "XmlDom.Props.C33_injective",
    "XmlDom.Props.C33_append",
    "XmlDom.Props.C33_identity"
   ],
   "note": "The escaped text decodes (relation Spec.Decodes) to the original and to nothing else."
  },
  {
   "property": "C34",
   "status": "proved",
   "theorems": [
    "XmlDom.Props.C34_spec",
    "XmlDom.Props.C34_clean",
    "XmlDom.Props.C34_idempotent",
    "XmlDom.Props.C34_no_growth",
    "XmlDom.Props.C34_keeps_text"
   ],
   "note": "End-of-line normalisation equals the XML 1.1 relation Spec.EolNorm; output is clean, idempotent, never longer, other characters keep their order."
  },
  {
   "property": "C35",
   "status": "partial",
   "theorems": [
    "XmlDom.Props.C35_full_false",
    "XmlDom.Props.C35_full_false_percent",
    "XmlDom.Props.C35_normalize_partial",
    "XmlDom.Props.C35_trim"
   ],
   "note": "Refuted: inner spaces of non-CDATA values are not collapsed and a percent sign is read as a reference. The partial theorem covers every value built from characters and valid character references; trimming is characterised exactly."
  },
  {
   "property": "C36",
   "status": "partial",
   "theorems": [
    "XmlDom.Props.C36_children",
    "XmlDom.Props.C36_exact",
    "XmlDom.Props.C36_full_false",
    "XmlDom.Props.C36_read_partial",
    "XmlDom.Props.C36_entity_reference_panics"
   ],
   "note": "Refuted: an entity reference in a value panics. The partial theorem gives the class of values that always read; C36_entity_reference_panics gives the failing class. C36_exact gives the value or the panic for every text."
  },
  {
   "property": "C37",
   "status": "partial",
   "theorems": [
    "XmlDom.Props.C37_full_false",
    "XmlDom.Props.C37_set_get_partial",
    "XmlDom.Props.C37_ns_partial"
   ],
   "note": "Refuted: with an attribute of the same qualified name in a namespace some iteration order reads the other one. Partial: no attribute of that qualified name is in a namespace; the namespace variants for names without prefix."
  },
  {
   "property": "C38",
   "status": "partial",
   "theorems": [
    "XmlDom.Props.C38_full_false",
    "XmlDom.Props.C38_other_elements",
    "XmlDom.Props.C38_other_names_partial"
   ],
   "note": "Refuted: when two attributes share a qualified name, adding a third can flip the iteration order. Partial: attributes of other elements are never touched; other names of the same element when at most one attribute has the name that is read."
  },
  {
   "property": "C39",
   "status": "partial",
   "theorems": [
    "XmlDom.Props.C39_full_false",
    "XmlDom.Props.C39_remove_partial",
    "XmlDom.Props.C39_removes_one"
   ],
   "note": "Refuted: of two attributes that share a qualified name one stays. Partial: at most one has the name; in general exactly one of them goes."
  },
  {
   "property": "C40",
   "status": "partial",
   "theorems": [
    "XmlDom.Props.C40_has_attribute",
    "XmlDom.Props.C40_ns_full_false",
    "XmlDom.Props.C40_ns_partial"
   ],
   "note": "has_attribute for all states and names. Refuted for the namespace variants with a prefixed local name; partial: local names without a colon."
  },
  {
   "property": "C41",
   "status": "partial",
   "theorems": [
    "XmlDom.Props.C41_full_false",
    "XmlDom.Props.C41_failed_set_partial"
   ],
   "note": "Refuted: a duplicate id is refused after the attribute was put in. Partial: every other failing call keeps all attributes of all elements."
  },
  {
   "property": "C42",
   "status": "partial",
   "theorems": [
    "XmlDom.Props.C42_full_false",
    "XmlDom.Props.C42_entries_partial",
    "XmlDom.Props.C42_owner_partial"
   ],
   "note": "Refuted for owner_element: an attribute node can be set on two elements. Partial: everything else in all histories; owner_element in histories that do not share attribute nodes."
  },
  {
   "property": "C43",
   "status": "partial",
   "theorems": [
    "XmlDom.Props.C43_full_false",
    "XmlDom.Props.C43_ns_full_false",
    "XmlDom.Props.C43_lookup_partial",
    "XmlDom.Props.C43_iff"
   ],
   "note": "Refuted for both variants. Partial: at most one attribute has the name; C43_iff shows the condition is exact."
  },
  {
   "property": "C44",
   "status": "proved",
   "theorems": [
    "XmlDom.Props.C44_id_stays"
   ],
   "note": "For every reachable state and every continuation."
  },
  {
   "property": "C45",
   "status": "partial",
   "theorems": [
    "XmlDom.Props.C45_full_false",
    "XmlDom.Props.C45_document_false",
    "XmlDom.Props.C45_element_partial",
    "XmlDom.Props.C45_document_partial",
    "XmlDom.Props.C45_origin_partial"
   ],
   "note": "Refuted: ids stay registered after the attribute is removed, and a cloned document keeps the id map of the original. Partial: the result is a live element in all histories, and belongs to the document in histories that do not clone documents; there, every id found was registered by an earlier call that set an attribute of the element and left it with an id attribute of this value, or the document was read from a text with a tag that has the name of the element and an xml:id of this value."
  },
  {
   "property": "C46",
   "status": "proved",
   "theorems": [
    "XmlDom.Props.C46_set_attribute_node",
    "XmlDom.Props.C46_set_attribute"
   ],
   "note": "Both directions (refused and nothing rebound, or registered), for set_attribute_node and set_attribute, for elements whose owner is a Document node."
  },
  {
   "property": "C47",
   "status": "partial",
   "theorems": [
    "XmlDom.Props.C47_full_false",
    "XmlDom.Props.C47_nearest_partial",
    "XmlDom.Props.C47_terminates",
    "XmlDom.Props.C47_own_mapping",
    "XmlDom.Props.C47_exact"
   ],
   "note": "Refuted: the walk panics when a parent was dropped. Partial: no node of the chain has lost its parent; finite chains on acyclic parent links. C47_exact: every outcome with its condition, the panic included."
  },
  {
   "property": "C48",
   "status": "proved",
   "theorems": [
    "XmlDom.Props.C48_get_prefix",
    "XmlDom.Props.C48_contains_mapped",
    "XmlDom.Props.C48_resolve_prefix",
    "XmlDom.Props.C48_exact"
   ],
   "note": "For every iteration order; the prefix found belongs to the nearest inclusive ancestor. A walk that panics (dropped parent) gives no answer."
  },
  {
   "property": "C49",
   "status": "partial",
   "theorems": [
    "XmlDom.Props.C49_full_false",
    "XmlDom.Props.C49_ns_full_false",
    "XmlDom.Props.C49_default_partial",
    "XmlDom.Props.C49_default_plain_partial",
    "XmlDom.Props.C49_prefixed"
   ],
   "note": "Refuted: set_attribute records nothing, and set_attribute_ns of xmlns:p maps the prefix xmlns. Partial: default prefix through set_attribute_ns; what the prefixed form does instead is proved as well."
  },
  {
   "property": "C50",
   "status": "proved",
   "theorems": [
    "XmlDom.Props.C50_queries",
    "XmlDom.Props.C50_declarations"
   ],
   "note": "All six queries and the three ways to set an attribute, in every state."
  },
  {
   "property": "C51",
   "status": "proved",
   "theorems": [
    "XmlDom.Props.C51_elements",
    "XmlDom.Props.C51_terminates"
   ],
   "note": "All finite sub-trees; in states without cycles the walk always ends."
  },
  {
   "property": "C52",
   "status": "partial",
   "theorems": [
    "XmlDom.Props.C52_full_false",
    "XmlDom.Props.C52_exact",
    "XmlDom.Props.C52_elements_partial",
    "XmlDom.Props.C52_no_namespace"
   ],
   "note": "Refuted: an element in the namespace * matches every pattern. Partial: no element of the sub-tree is in the namespace *; elements without namespace match only the wildcard. C52_exact: the result without that condition."
  },
  {
   "property": "C53",
   "status": "partial",
   "theorems": [
    "XmlDom.Props.C53_full_false",
    "XmlDom.Props.C53_document_partial",
    "XmlDom.Props.C53_exact"
   ],
   "note": "Refuted: the query starts at the first child of the document, of whatever type. Partial: the first child is the document element, or there is none. C53_exact: what both queries of a document return in every case."
  },
  {
   "property": "C54",
   "status": "proved",
   "theorems": [
    "XmlDom.Props.C54_shallow"
   ],
   "note": "Type, name, value, owner and attributes of the clone; no parent, no children; nothing refers to it; no existing node changes."
  },
  {
   "property": "C55",
   "status": "proved",
   "theorems": [
    "XmlDom.Props.C55_copies",
    "XmlDom.Props.C55_terminates"
   ],
   "note": "Shape, types, names, values, owners, attributes and order; all copies new and distinct; nothing else changes; always ends in states without cycles."
  },
  {
   "property": "C56",
   "status": "partial",
   "theorems": [
    "XmlDom.Props.C56_full_false",
    "XmlDom.Props.C56_attributes_shared",
    "XmlDom.Props.C56_independent_partial"
   ],
   "note": "Refuted twice: children of a clone have no parent link, and attribute nodes are shared with the original. Partial: every history that edits only the clone and later nodes leaves all older nodes alone, except for ids recorded in documents."
  },
  {
   "property": "C57",
   "status": "partial",
   "theorems": [
    "XmlDom.Props.C57_display",
    "XmlDom.Props.C57_full_false",
    "XmlDom.Props.C57_terminates_partial",
    "XmlDom.Props.C57_finite",
    "XmlDom.Props.C57_outcome",
    "XmlDom.Props.C57_exact"
   ],
   "note": "The text of every tree that the display call finishes on is the text of an independent description of that tree. Refuted: an entity reference in an attribute value panics. Partial: it ends in states without cycles and readable attribute values. C57_exact: there it is written exactly if no attribute shown has a value that panics; C57_outcome: one direction of this in every state."
  },
  {
   "property": "C58",
   "status": "proved",
   "theorems": [
    "XmlDom.Props.C58_no_markup"
   ],
   "note": "For every reachable element: the markup characters of the text are exactly those of the tags and of the unescaped kinds of content."
  },
  {
   "property": "C59",
   "status": "partial",
   "theorems": [
    "XmlDom.Props.C59_full_false",
    "XmlDom.Props.C59_round_trip_partial"
   ],
   "note": "Refuted: a carriage return is read back as a line feed. Partial: printed trees of elements and text with XML characters, no CR in text and no TAB, LF, CR in attribute values, read by a reference XML 1.0 reader, give the same tree with adjacent text merged."
  },
  {
   "property": "C60",
   "status": "proved",
   "theorems": [
    "XmlDom.Props.C60_new_encoding",
    "XmlDom.Props.C60_new_no_encoding",
    "XmlDom.Props.C60_default",
    "XmlDom.Props.C60_display",
    "XmlDom.Props.C60_display_injective",
    "XmlDom.Props.C60_version"
   ],
   "note": "Construction, acceptance of encoding names, exact Display text and its injectivity."
  },
  {
   "property": "C61",
   "status": "proved",
   "theorems": [
    "XmlDom.Props.C61_setters",
    "XmlDom.Props.C61_new",
    "XmlDom.Props.C61_idempotent",
    "XmlDom.Props.C61_commute",
    "XmlDom.Props.C61_combine",
    "XmlDom.Props.C61_hasNone"
   ],
   "note": "All 256 option values, by a complete table."
  },
  {
   "property": "C62",
   "status": "partial",
   "theorems": [
    "XmlDom.Props.C62_full_false",
    "XmlDom.Props.C62_builds_partial"
   ],
   "note": "Refuted: a tab after a processing instruction target panics. Partial: name parts start inside ASCII, PI target followed by a space and data trimmed, xml:id values distinct NCNames; any depth and length, with declaration, prolog, epilog."
  },
  {
   "property": "C63",
   "status": "proved",
   "theorems": [
    "XmlDom.Props.C63_document",
    "XmlDom.Props.C63_others_unchanged"
   ],
   "note": "Every event stream, well formed or not; nothing that existed before changes even when the read fails."
  },
  {
   "property": "C64",
   "status": "partial",
   "theorems": [
    "XmlDom.Props.C64_full_false",
    "XmlDom.Props.C64_top_partial",
    "XmlDom.Props.C64_inside_swallowed",
    "XmlDom.Props.C64_exact"
   ],
   "note": "Refuted: errors inside the root element are ignored (also proved for every well-formed root content followed by any stray event or by the end). Partial: errors and misplaced events at the top of the document are reported. C64_exact: exactly when an error is reported, for every stream."
  },
  {
   "property": "C65",
   "status": "partial",
   "theorems": [
    "XmlDom.Props.C65_full_false",
    "XmlDom.Props.C65_returns_partial",
    "XmlDom.Props.C65_bad_name_panics",
    "XmlDom.Props.C65_exact"
   ],
   "note": "Refuted: a bad element name panics (proved for every root name that is not a QName). Partial: for every stream of calm events the reader returns; calm leaves out the kinds of events that can trigger an unwrap, a bad slice or the encoding panic. C65_exact: exactly when the reader panics, for every stream."
  },
  {
   "property": "C66",
   "status": "proved",
   "theorems": [
    "XmlDom.Props.C66_ok",
    "XmlDom.Props.C66_outcome",
    "XmlDom.Props.C66_untouched"
   ],
   "note": "Full description of the new document and its root, exact success and error conditions, and no existing node changes whatever the outcome."
  },
  {
   "property": "C67",
   "status": "proved",
   "theorems": [
    "XmlDom.Props.C67_element",
    "XmlDom.Props.C67_element_ns",
    "XmlDom.Props.C67_text",
    "XmlDom.Props.C67_cdata",
    "XmlDom.Props.C67_comment",
    "XmlDom.Props.C67_fragment",
    "XmlDom.Props.C67_entity_reference",
    "XmlDom.Props.C67_processing_instruction",
    "XmlDom.Props.C67_attribute",
    "XmlDom.Props.C67_attribute_with",
    "XmlDom.Props.C67_failure",
    "XmlDom.Props.C67_accepts"
   ],
   "note": "One theorem per create call (Spec.Made: new, alone, owned, no parent, no children, everything else untouched), failure leaves the heap equal, acceptance depends on the name only."
  },
  {
   "property": "C68",
   "status": "proved",
   "theorems": [
    "XmlDom.Props.C68_type_and_name"
   ],
   "note": "For every reachable state and every continuation."
  },
  {
   "property": "C69",
   "status": "proved",
   "theorems": [
    "XmlDom.Props.C69_set",
    "XmlDom.Props.C69_unset",
    "XmlDom.Props.C69_independent"
   ],
   "note": "Effect and frame of set_node_value and unset_node_value, and the escaped data() of Text and Comment."
  },
  {
   "property": "C70",
   "status": "proved",
   "theorems": [
    "XmlDom.Props.C70_no_dangling",
    "XmlDom.Props.C70_dropped",
    "XmlDom.Props.C70_gone"
   ],
   "note": "All reading calls in all histories, exact effect of a drop on parent_node and owner_document, and nothing comes back."
  },
  {
   "property": "C71",
   "status": "proved",
   "theorems": [
    "XmlDom.Props.C71_is_supported",
    "XmlDom.Props.C71_has_feature"
   ],
   "note": "Exact table of features and versions."
  },
  {
   "property": "C72",
   "status": "partial",
   "theorems": [
    "XmlDom.Props.C72_full_false",
    "XmlDom.Props.C72_classes_partial",
    "XmlDom.Props.C72_nmtoken",
    "XmlDom.Props.C72_name",
    "XmlDom.Props.C72_nmtokens",
    "XmlDom.Props.C72_names",
    "XmlDom.Props.C72_restricted"
   ],
   "note": "Refuted for the upper end of the Char ranges; every other class is proved to be exactly the production."
  },
  {
   "property": "C73",
   "status": "proved",
   "theorems": [
    "XmlDom.Props.C73_footprint",
    "XmlDom.Props.C73_alive"
   ],
   "note": "For every call in every reachable state; the footprint is an explicit set per call."
  },
  {
   "property": "C74",
   "status": "proved",
   "theorems": [
    "XmlDom.Props.C74_element",
    "XmlDom.Props.C74_element_ns",
    "XmlDom.Props.C74_attribute",
    "XmlDom.Props.C74_target"
   ],
   "note": "For every name accepted, in every later history."
  },
  {
   "property": "C75",
   "status": "proved",
   "theorems": [
    "XmlDom.Props.C75_document_type",
    "XmlDom.Props.C75_notation",
    "XmlDom.Props.C75_entity",
    "XmlDom.Props.C75_elsewhere",
    "XmlDom.Props.C75_never_resolved"
   ],
   "note": "For every later history; also proved that no call ever puts an entity or notation into a document type."
  },
  {
   "property": "C76",
   "status": "proved",
   "theorems": [
    "XmlDom.Props.C76_accepts",
    "XmlDom.Props.C76_as",
    "XmlDom.Props.C76_exactly_one",
    "XmlDom.Props.C76_stays",
    "XmlDom.Props.C76_calls"
   ],
   "note": "Exact for all fifteen conversions, and stable in all histories."
  },
  {
   "property": "C77",
   "status": "partial",
   "theorems": [
    "XmlDom.Props.C77_children",
    "XmlDom.Props.C77_attributes",
    "XmlDom.Props.C77_full_false",
    "XmlDom.Props.C77_owner_partial"
   ],
   "note": "Refuted for the owner element after remove_attribute and friends, which do not clear it; proved: both predicates, the owner is always an element, and set_attribute_node makes the two agree."
  },
  {
   "property": "C78",
   "status": "proved",
   "theorems": [
    "XmlDom.Props.C78_errors",
    "XmlDom.Props.C78_node_types"
   ],
   "note": "Complete for both enumerations."
  },
  {
   "property": "C79",
   "status": "partial",
   "theorems": [
    "XmlDom.Props.C79_full_false",
    "XmlDom.Props.C79_value_partial"
   ],
   "note": "Refuted: Display writes the whole attribute, FromStr reads its value. Proved: the value inside the text form is the only string that reads back."
  },
  {
   "property": "C80",
   "status": "partial",
   "theorems": [
    "XmlDom.Props.C80_full_false",
    "XmlDom.Props.C80_set_prefix_partial",
    "XmlDom.Props.C80_only_prefix",
    "XmlDom.Props.C80_exact"
   ],
   "note": "Refuted: set_prefix checks nothing. Proved for prefixes that are NCNames starting in ASCII and not reserved; the frame is proved without condition. C80_exact: these prefixes are exactly the ones."
  },
  {
   "property": "C81",
   "status": "proved",
   "theorems": [
    "XmlDom.Props.C81_insert",
    "XmlDom.Props.C81_remove",
    "XmlDom.Props.C81_no_effect"
   ],
   "note": "Exact effect on all mappings of all nodes; effect with the option off or on other nodes."
  },
  {
   "property": "C82",
   "status": "proved",
   "theorems": [
    "XmlDom.Props.C82_data"
   ],
   "note": "For all nodes and strings."
  },
  {
   "property": "C83",
   "status": "proved",
   "theorems": [
    "XmlDom.Props.C83_display",
    "XmlDom.Props.C83_injective"
   ],
   "note": "For all option bytes."
  },
  {
   "property": "C84",
   "status": "partial",
   "theorems": [
    "XmlDom.Props.C84_full_false",
    "XmlDom.Props.C84_first_partial",
    "XmlDom.Props.C84_at_most_one"
   ],
   "note": "Refuted: the first child is taken whatever it is. Proved when the first child is an element, and uniqueness of the element child in all reachable states."
  },
  {
   "property": "C85",
   "status": "partial",
   "theorems": [
    "XmlDom.Props.C85_full_false",
    "XmlDom.Props.C85_bmp_partial",
    "XmlDom.Props.C85_exact"
   ],
   "note": "Refuted above U+FFFF: the number is cut to 16 bits. Proved for every other character. C85_exact: what is read back, or the panic, for every character."
  },
  {
   "property": "C86",
   "status": "proved",
   "theorems": [
    "XmlDom.Props.C86_for_namespace",
    "XmlDom.Props.C86_injective",
    "XmlDom.Props.C86_classes",
    "XmlDom.Props.C86_fixed_names",
    "XmlDom.Props.C86_prefix_kinds"
   ],
   "note": "For all names and prefixes."
  },
  {
   "property": "C87",
   "status": "proved",
   "theorems": [
    "XmlDom.Props.C87_insert_remove",
    "XmlDom.Props.C87_remove_insert",
    "XmlDom.Props.C87_replace_replace"
   ],
   "note": "For every reachable state, given that the lists and links around the nodes involved agree (which other calls can break, see C01)."
  },
  {
   "property": "C88",
   "status": "proved",
   "theorems": [
    "XmlDom.Props.C88_unique",
    "XmlDom.Props.C88_split_normalize"
   ],
   "note": "The parent is consistent and normal, the data shorter than 2^64."
  },
  {
   "property": "C89",
   "status": "partial",
   "theorems": [
    "XmlDom.Props.C89_exact",
    "XmlDom.Props.C89_full_false",
    "XmlDom.Props.C89_set_value_partial",
    "XmlDom.Props.C89_last_counts",
    "XmlDom.Props.C89_unset"
   ],
   "note": "Refuted: value normalizes and escapes what was set. Proved: what is read is the normalized and escaped form of what was set, equal to it for plain text; the last value set counts; unset_value leaves none; no other node changes. C89_exact: exactly which values are read as they were set."
  },
  {
   "property": "C90",
   "status": "proved",
   "theorems": [
    "XmlDom.Props.C90_display",
    "XmlDom.Props.C90_tidy"
   ],
   "note": "The links at the normalized node agree, its texts have no other parent, doc types are document types; only the last condition remains in histories of tidy calls."
  },
  {
   "property": "C91",
   "status": "proved",
   "theorems": [
    "XmlDom.Props.C91_display",
    "XmlDom.Props.C91_shallow"
   ],
   "note": "For environments whose map order does not depend on the node (hash maps with different seeds may order a clone differently)."
  },
  {
   "property": "C92",
   "status": "partial",
   "theorems": [
    "XmlDom.Props.C92_document_partial",
    "XmlDom.Props.C92_full_false",
    "XmlDom.Props.C92_written_partial",
    "XmlDom.Props.C92_read_back_partial"
   ],
   "note": "Refuted: some documents cannot be read (C62). Proved under the conditions of C62 when attribute values normalize; the read back through the reference reader for whole documents with comments, CDATA and processing instructions."
  },
  {
   "property": "C93",
   "status": "partial",
   "theorems": [
    "XmlDom.Props.C93_full_false",
    "XmlDom.Props.C93_insert_partial",
    "XmlDom.Props.C93_replace_partial",
    "XmlDom.Props.C93_insert_exact",
    "XmlDom.Props.C93_replace_exact"
   ],
   "note": "Refuted: a node can be put below its own descendant, and a document refuses to move its own element. Proved: the exact conditions of every outcome of insert_before and replace_child for nodes with agreeing links, and for nodes of any reachable state whatever their links."
  },
  {
   "property": "C94",
   "status": "partial",
   "theorems": [
    "XmlDom.Props.C94_full_false",
    "XmlDom.Props.C94_set_partial",
    "XmlDom.Props.C94_set_ns_partial",
    "XmlDom.Props.C94_remove_partial",
    "XmlDom.Props.C94_set_exact",
    "XmlDom.Props.C94_set_named_exact"
   ],
   "note": "Refuted: InUseAttribute and NotFound are never returned. Proved: one table of every outcome of set_attribute_node, set_attribute_node_ns, set_attribute and set_attribute_ns in every reachable state; removing an element from itself panics."
  },
  {
   "property": "C95",
   "status": "partial",
   "theorems": [
    "XmlDom.Props.C95_full_false",
    "XmlDom.Props.C95_members_partial",
    "XmlDom.Props.C95_once_partial",
    "XmlDom.Props.C95_twice"
   ],
   "note": "Refuted: the element itself is returned, and after a deep clone a node can be returned twice. Proved: membership in acyclic states without entity reference children, and no repetition after tidy histories."
  },
  {
   "property": "C96",
   "status": "partial",
   "theorems": [
    "XmlDom.Props.C96_full_false",
    "XmlDom.Props.C96_up_down_partial",
    "XmlDom.Props.C96_one_root"
   ],
   "note": "Refuted: children of a deep clone have no parent. Proved for tidy histories; the uniqueness of the root always holds."
  },
  {
   "property": "C97",
   "status": "partial",
   "theorems": [
    "XmlDom.Props.C97_full_false",
    "XmlDom.Props.C97_call_partial",
    "XmlDom.Props.C97_history_partial"
   ],
   "note": "Refuted: remove_attribute picks one of two attributes of the same text form by hash order. Proved for histories where each remove_attribute finds at most one."
  },
  {
   "property": "C98",
   "status": "partial",
   "theorems": [
    "XmlDom.Props.C98_full_false",
    "XmlDom.Props.C98_data_partial",
    "XmlDom.Props.C98_copies",
    "XmlDom.Props.C98_unset"
   ],
   "note": "Refuted: data escapes what was stored, so copying data escapes once more each time. Proved: the exact condition, and the effect of any number of copies."
  },
  {
   "property": "C99",
   "status": "partial",
   "theorems": [
    "XmlDom.Props.C99_full_false",
    "XmlDom.Props.C99_normalize_partial"
   ],
   "note": "Refuted: unimplemented when the option is on. Proved: it panics exactly then and never changes anything."
  },
  {
   "property": "C100",
   "status": "proved",
   "theorems": [
    "XmlDom.Props.C100_encoded",
    "XmlDom.Props.C100_invalid",
    "XmlDom.Props.C100_accepts"
   ],
   "note": "Proved for all byte arrays; the standard decoder is taken to be the UTF-8 decoder of Lean."
  },
  {
   "property": "C101",
   "status": "proved",
   "theorems": [
    "XmlDom.Props.C101_binary",
    "XmlDom.Props.C101_injective"
   ],
   "note": "Proved for all 256 option bytes (the whole type)."
  },
  {
   "property": "C102",
   "status": "partial",
   "theorems": [
    "XmlDom.Props.C102_full_false",
    "XmlDom.Props.C102_content_partial",
    "XmlDom.Props.C102_same"
   ],
   "note": "Refuted: a CDATA section gets a space on either side, a comment is escaped. Proved: what exactly is read for every such tree, and that it is the same tree when no leaf is of these kinds."
  },
  {
   "property": "C103",
   "status": "partial",
   "theorems": [
    "XmlDom.Props.C103_full_false",
    "XmlDom.Props.C103_document_partial",
    "XmlDom.Props.C103_same",
    "XmlDom.Props.C103_public"
   ],
   "note": "Refuted: a document type with a public id is not written as XML. Proved: without public id, with what exactly is read for comments, CDATA and processing instructions; and that a public id always makes the text unreadable."
  },
  {
   "property": "C104",
   "status": "partial",
   "theorems": [
    "XmlDom.Props.C104_full_false",
    "XmlDom.Props.C104_document_type",
    "XmlDom.Props.C104_entity",
    "XmlDom.Props.C104_notation"
   ],
   "note": "Refuted: a notation without ids, an entity with only a public id and a document type with a public id are not written as declarations. Proved: for each kind exactly when the text is a declaration, and that it then says the same."
  },
  {
   "property": "C105",
   "status": "partial",
   "theorems": [
    "XmlDom.Props.C105_reread_partial",
    "XmlDom.Props.C105_same",
    "XmlDom.Props.C105_full_false"
   ],
   "note": "Refuted: CDATA sections grow. Proved: documents without document type whose names start inside ASCII come back, up to what C102 says about leaves. The step from text to events is that of the reference reader; quick-xml is not modelled."
  },
  {
   "property": "C106",
   "status": "proved",
   "theorems": [
    "XmlDom.Props.C106_call",
    "XmlDom.Props.C106_history",
    "XmlDom.Props.C106_outcomes"
   ],
   "note": "A second model of all calls, statement by statement with every guard and its extent, refines to the first: same heap after every call and history, and for most calls the same outcome. The only differing outcome is the kind of one panic (C107_id). The parser is included; Display and the iteration of maps are not guarded."
  },
  {
   "property": "C107",
   "status": "partial",
   "theorems": [
    "XmlDom.Props.C107_full_false",
    "XmlDom.Props.C107_partial",
    "XmlDom.Props.C107_self",
    "XmlDom.Props.C107_id"
   ],
   "note": "Refuted: a node appended to itself, an element removed from its own attributes, and an attribute named id whose value has a reference. Proved: every other call in every reachable state, the parser included; the exact condition for a node appended to itself."
  },
  {
   "property": "C108",
   "status": "proved",
   "theorems": [
    "XmlDom.Props.C108_node",
    "XmlDom.Props.C108_element",
    "XmlDom.Props.C108_document",
    "XmlDom.Props.C108_exclusive",
    "XmlDom.Props.C108_readers"
   ],
   "note": "For any list of shared guards. C108_exclusive shows that the hypothesis is needed."
  },
  {
   "property": "C109",
   "status": "proved",
   "theorems": [
    "XmlDom.Props.C109_reader",
    "XmlDom.Props.C109_outcome",
    "XmlDom.Props.C109_shape"
   ],
   "note": "Meaning of a stream given by inductive relations over the events (Spec/Stream), total and matching the reader for every stream, broken or not; the returned heap is described by IsDocument. C109_shape: at the top only comments, processing instructions and at most one element, whatever the stream."
  }
 ]
}