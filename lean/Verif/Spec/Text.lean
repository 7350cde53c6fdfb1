import Verif.Basic

/-!
# Text processing rules of XML, as relations

Each relation says how a string is read, constructor by constructor; none of them uses a
function of the model.
-/

namespace XmlDom
namespace Spec

/-- The number a string of digits stands for, most significant digit first. -/
def digitsValue (radix : Nat) (val : Char → Nat) (ds : Str) : Nat :=
  ds.foldl (fun acc d => acc * radix + val d) 0

/-- One decimal digit. -/
def IsDec (c : Char) : Prop := 48 ≤ c.toNat ∧ c.toNat ≤ 57
/-- Its value. -/
def decVal (c : Char) : Nat := c.toNat - 48

/-- One hexadecimal digit. -/
def IsHex (c : Char) : Prop :=
  (48 ≤ c.toNat ∧ c.toNat ≤ 57) ∨ (97 ≤ c.toNat ∧ c.toNat ≤ 102) ∨
    (65 ≤ c.toNat ∧ c.toNat ≤ 70)
/-- Its value. -/
def hexVal (c : Char) : Nat :=
  if c.toNat ≤ 57 then c.toNat - 48 else if 97 ≤ c.toNat then c.toNat - 87 else c.toNat - 55

instance (c : Char) : Decidable (IsDec c) := by unfold IsDec; infer_instance
instance (c : Char) : Decidable (IsHex c) := by unfold IsHex; infer_instance

/-- `&#ds;` is a decimal character reference to `c`. -/
def DecRef (ds : Str) (c : Char) : Prop :=
  ds ≠ [] ∧ (∀ d ∈ ds, IsDec d) ∧ digitsValue 10 decVal ds = c.toNat

/-- `&#xds;` is a hexadecimal character reference to `c`. -/
def HexRef (ds : Str) (c : Char) : Prop :=
  ds ≠ [] ∧ (∀ d ∈ ds, IsHex d) ∧ digitsValue 16 hexVal ds = c.toNat

/-- `Decodes t s`: reading `t` as character data with decimal character references and no
other markup gives `s`. -/
inductive Decodes : Str → Str → Prop
  | nil : Decodes [] []
  | ref (ds : Str) (c : Char) (t s : Str) (h : DecRef ds c) (ht : Decodes t s) :
      Decodes ('&' :: '#' :: (ds ++ ';' :: t)) (c :: s)
  | lit (c : Char) (t s : Str) (h : c ≠ '&') (ht : Decodes t s) : Decodes (c :: t) (c :: s)

/-- XML 1.1 section 2.11: `EolNorm s t` when `t` is `s` with every line break form turned
into one line feed. -/
inductive EolNorm : Str → Str → Prop
  | nil : EolNorm [] []
  | crlf (s t : Str) (h : EolNorm s t) : EolNorm ('\r' :: '\n' :: s) ('\n' :: t)
  | crnel (s t : Str) (h : EolNorm s t) : EolNorm ('\r' :: '\u0085' :: s) ('\n' :: t)
  | nel (s t : Str) (h : EolNorm s t) : EolNorm ('\u0085' :: s) ('\n' :: t)
  | ls (s t : Str) (h : EolNorm s t) : EolNorm ('\u2028' :: s) ('\n' :: t)
  | cr (s t : Str) (h : EolNorm s t) (h1 : s.head? ≠ some '\n') (h2 : s.head? ≠ some '\u0085') :
      EolNorm ('\r' :: s) ('\n' :: t)
  | other (c : Char) (s t : Str) (h : EolNorm s t) (h1 : c ≠ '\r') (h2 : c ≠ '\u0085')
      (h3 : c ≠ '\u2028') : EolNorm (c :: s) (c :: t)

/-- XML 1.1 section 3.3.3 for a value without general entity references, on text whose
line ends are normalized: character references give their character, white space gives a
space, every other character itself. -/
inductive AttrNorm : Str → Str → Prop
  | nil : AttrNorm [] []
  | dec (ds : Str) (c : Char) (t s : Str) (h : DecRef ds c) (ht : AttrNorm t s) :
      AttrNorm ('&' :: '#' :: (ds ++ ';' :: t)) (c :: s)
  | hex (ds : Str) (c : Char) (t s : Str) (h : HexRef ds c) (ht : AttrNorm t s) :
      AttrNorm ('&' :: '#' :: 'x' :: (ds ++ ';' :: t)) (c :: s)
  | space (c : Char) (t s : Str) (h : c = ' ' ∨ c = '\t' ∨ c = '\n' ∨ c = '\r')
      (ht : AttrNorm t s) : AttrNorm (c :: t) (' ' :: s)
  | other (c : Char) (t s : Str)
      (h : c ≠ '&' ∧ c ≠ ' ' ∧ c ≠ '\t' ∧ c ≠ '\n' ∧ c ≠ '\r')
      (ht : AttrNorm t s) : AttrNorm (c :: t) (c :: s)

/-- The further step of section 3.3.3 for types other than CDATA: no leading or trailing
space, and runs of spaces collapsed to one. The flag says whether the last character
written was a space or nothing was written yet. -/
def collapse : Bool → Str → Str
  | _, [] => []
  | true, c :: cs => if c = ' ' then collapse true cs else c :: collapse false cs
  | false, c :: cs =>
    if c = ' ' then
      match collapse true cs with
      | [] => []
      | r => ' ' :: r
    else c :: collapse false cs

end Spec
end XmlDom
