import Verif.Model.Clone

/-!
# Vocabulary for calls that make new nodes
-/

namespace XmlDom
namespace Spec

/-- Every node of `h` is there in `h'` exactly as it was, every field of it. -/
structure Untouched (h h' : Heap) : Prop where
  next : h.next ≤ h'.next
  get : ∀ m, m < h.next → h'.get m = h.get m
  live : ∀ m, m < h.next → h'.live m = h.live m

/-- No other live node leads to `n` by any reading call. -/
structure Alone (h : Heap) (n : NodeId) : Prop where
  child : ∀ m, h.live m = true → m ≠ n → n ∉ childNodes h m
  parent : ∀ m, h.live m = true → m ≠ n → parentNode h m ≠ some n
  owner : ∀ m, h.live m = true → m ≠ n → ownerDocument h m ≠ some n
  attr : ∀ m, h.live m = true → m ≠ n → ∀ k, (k, n) ∉ attributes h m
  ownerElement : ∀ m, h.live m = true → m ≠ n → ownerElement h m ≠ some n
  docType : ∀ m, h.live m = true → m ≠ n → docType h m ≠ some n
  id : ∀ m, h.live m = true → m ≠ n → ∀ s, getElementById h m s ≠ some n

/-- The call that led from `h` to `h'` made exactly one node, `n`, for the document `doc`,
and did nothing else. -/
structure Made (h h' : Heap) (doc n : NodeId) : Prop where
  unused : h.live n = false
  live : h'.live n = true
  parent : parentNode h' n = none
  children : childNodes h' n = []
  owner : ownerDocument h' n = some doc
  noAttributes : attributes h' n = []
  alone : Alone h' n
  others : Untouched h h'
  one : h'.next = h.next + 1 ∧ n = h.next

end Spec
end XmlDom
