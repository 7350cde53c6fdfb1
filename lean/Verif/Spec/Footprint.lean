import Verif.Model.Ops

/-!
# Which nodes a call may change
-/

namespace XmlDom
namespace Spec

/-- The existing nodes that a call may change in any way. Everything else is only read. -/
def MayChange (h : Heap) : Op → NodeId → Prop
  | .insertBefore s n _, m => m = s ∨ m = n ∨ (h.get n).parent = some m
  | .appendChild s n, m => m = s ∨ m = n ∨ (h.get n).parent = some m
  | .replaceChild s n o, m => m = s ∨ m = n ∨ m = o ∨ (h.get n).parent = some m
  | .removeChild s o, m => m = s ∨ m = o
  | .normalize n, m => m = n ∨ m ∈ childNodes h n ∨
      ∃ c p, c ∈ childNodes h n ∧ (h.get c).parent = some p ∧ m ∈ childNodes h p
  | .setNodeValue n _, m => m = n
  | .unsetNodeValue n, m => m = n
  | .appendData n _, m => m = n
  | .insertData n _ _, m => m = n
  | .deleteData n _ _, m => m = n
  | .replaceData n _ _ _, m => m = n
  | .split n _, m => m = n ∨ (h.get n).parent = some m
  | .setValue a _, m => m = a
  | .unsetValue a, m => m = a
  | .setAttribute n _ _, m => m = n
  | .setAttributeNs n _ _ _, m => m = n
  | .setAttributeNode n a, m => m = n ∨ m = a
  | .removeAttribute n _, m => m = n
  | .removeAttributeNs n _ _, m => m = n
  | .removeAttributeNode n a, m => m = n ∨ m = a
  | .setXmlDeclaration d _, m => m = d
  | _, _ => False

/-- The documents whose id map a call may change. -/
def MayRecord (h : Heap) : Op → NodeId → Prop
  | .setAttribute n _ _, d => (h.get n).owner = some d
  | .setAttributeNs n _ _ _, d => (h.get n).owner = some d
  | .setAttributeNode _ a, d => (h.get a).owner = some d
  | _, _ => False

/-- The two nodes differ in the id map of a document and in nothing else. -/
def IdsOnly (x y : Node) : Prop :=
  ∃ d ids, x.ext = .document d ∧ y = { x with ext := .document { d with idMap := ids } }

/-- The arguments of a call that it edits. A created node only refers to its document, a
clone is only read from, and the reference child of `insert_before` is only looked up. -/
def edited : Op → List NodeId
  | .createDocument _ _ _ _ | .createDocumentType _ _ _
  | .createElement _ _ | .createElementNs _ _ _ | .createAttribute _ _
  | .createAttributeWith _ _ _ | .createAttributeNs _ _ _ | .createCdataSection _ _
  | .createDocumentFragment _ | .createEntityReference _ _ | .createComment _ _
  | .createProcessingInstruction _ _ _ | .createTextNode _ _ | .createNotation _ _ _ _
  | .createEntity _ _ _ _ | .createInternalEntity _ _ _ | .cloneNode _ _ _ | .readXml _ => []
  | .insertBefore s n _ => [s, n]
  | op => op.args

end Spec
end XmlDom
