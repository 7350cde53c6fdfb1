import Verif.Basic

/-!
# The character productions of the XML recommendations, as tables of ranges

Copied from the recommendations, not from the code:
XML 1.0 (5th edition) [2] Char, [3] S, [4] NameStartChar, [4a] NameChar, [5] Name,
[6] Names, [7] Nmtoken, [8] Nmtokens, [81] EncName; XML 1.1 [2] Char, [2a] RestrictedChar.
-/

namespace XmlDom
namespace Spec

/-- The character is in one of the ranges (bounds included). -/
def InRanges (t : List (Nat × Nat)) (c : Char) : Prop :=
  ∃ r ∈ t, r.1 ≤ c.toNat ∧ c.toNat ≤ r.2

/-- XML 1.0 [2] Char -/
def Char10 : Char → Prop :=
  InRanges [(0x9, 0x9), (0xA, 0xA), (0xD, 0xD), (0x20, 0xD7FF), (0xE000, 0xFFFD),
    (0x10000, 0x10FFFF)]

/-- XML 1.1 [2] Char -/
def Char11 : Char → Prop :=
  InRanges [(0x1, 0xD7FF), (0xE000, 0xFFFD), (0x10000, 0x10FFFF)]

/-- XML 1.1 [2a] RestrictedChar -/
def RestrictedChar : Char → Prop :=
  InRanges [(0x1, 0x8), (0xB, 0xC), (0xE, 0x1F), (0x7F, 0x84), (0x86, 0x9F)]

/-- [3] S, one character of it -/
def Space : Char → Prop := InRanges [(0x20, 0x20), (0x9, 0x9), (0xD, 0xD), (0xA, 0xA)]

/-- The ranges of [4] NameStartChar without the colon -/
def nameStartRanges : List (Nat × Nat) :=
  [(0x41, 0x5A), (0x5F, 0x5F), (0x61, 0x7A), (0xC0, 0xD6), (0xD8, 0xF6), (0xF8, 0x2FF),
    (0x370, 0x37D), (0x37F, 0x1FFF), (0x200C, 0x200D), (0x2070, 0x218F), (0x2C00, 0x2FEF),
    (0x3001, 0xD7FF), (0xF900, 0xFDCF), (0xFDF0, 0xFFFD), (0x10000, 0xEFFFF)]

/-- [4] NameStartChar (with `:`, U+003A) -/
def NameStartChar : Char → Prop := InRanges ((0x3A, 0x3A) :: nameStartRanges)

/-- The ranges that [4a] NameChar adds -/
def nameExtraRanges : List (Nat × Nat) :=
  [(0x2D, 0x2D), (0x2E, 0x2E), (0x30, 0x39), (0xB7, 0xB7), (0x300, 0x36F), (0x203F, 0x2040)]

/-- [4a] NameChar -/
def NameChar (c : Char) : Prop := NameStartChar c ∨ InRanges nameExtraRanges c

/-- [5] Name -/
def IsName (s : Str) : Prop := ∃ c cs, s = c :: cs ∧ NameStartChar c ∧ ∀ d ∈ cs, NameChar d

/-- [7] Nmtoken -/
def IsNmtoken (s : Str) : Prop := s ≠ [] ∧ ∀ d ∈ s, NameChar d

/-- Strings in the class `P` with single spaces (U+0020) between them: [6] Names is
`Separated IsName`, [8] Nmtokens is `Separated IsNmtoken`. -/
inductive Separated (P : Str → Prop) : Str → Prop
  | one {p : Str} (hp : P p) : Separated P p
  | cons {p s : Str} (hp : P p) (hs : Separated P s) : Separated P (p ++ ' ' :: s)

/-- The characters of the predefined entities, XML 1.0 4.6: `<`, `>`, `&`, `'` and `"`. -/
def Predefined : Char → Prop :=
  InRanges [(0x22, 0x22), (0x26, 0x27), (0x3C, 0x3C), (0x3E, 0x3E)]

/-- Namespaces in XML [4] NCName: a Name without colon. -/
def IsNcName (s : Str) : Prop := IsName s ∧ ':' ∉ s

/-- The string starts with a character that takes one byte, that is, an ASCII character. -/
def AsciiStart (s : Str) : Prop := ∃ c cs, s = c :: cs ∧ c.toNat < 128

/-- [81] EncName ::= [A-Za-z] ([A-Za-z0-9._] | '-')* -/
def IsEncName (s : Str) : Prop :=
  ∃ c cs, s = c :: cs ∧ InRanges [(0x41, 0x5A), (0x61, 0x7A)] c ∧
    ∀ d ∈ cs, InRanges [(0x41, 0x5A), (0x61, 0x7A), (0x30, 0x39), (0x2E, 0x2E), (0x5F, 0x5F),
      (0x2D, 0x2D)] d

/-- Namespaces in XML [7] QName: `local` or `prefix:local`. -/
def IsQName (s : Str) : Prop :=
  IsNcName s ∨ ∃ p l, s = p ++ ':' :: l ∧ IsNcName p ∧ IsNcName l

/-- A name part that starts with a NameStartChar outside ASCII. -/
def WideStart (s : Str) : Prop := ∃ c cs, s = c :: cs ∧ NameStartChar c ∧ 128 ≤ c.toNat

instance (t : List (Nat × Nat)) (c : Char) : Decidable (InRanges t c) := by
  unfold InRanges; infer_instance

end Spec
end XmlDom
