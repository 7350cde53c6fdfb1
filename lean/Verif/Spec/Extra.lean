import Verif.Basic

/-!
# Vocabulary for the remaining calls
-/

namespace XmlDom
namespace Spec

/-- The number that binary digits denote, highest digit first. -/
def binaryValue (s : Str) : Nat := s.foldl (fun v c => 2 * v + if c = '1' then 1 else 0) 0

/-- `f` done `k` times. -/
def times {α : Type} (f : α → α) : Nat → α → α
  | 0, x => x
  | k + 1, x => times f k (f x)

end Spec
end XmlDom
