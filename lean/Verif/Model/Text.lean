import Verif.Model.Syntax

/-!
# Model of `/repo/src/shared/text.rs`
-/

namespace XmlDom

/-- The Unicode classes `\pL` and `\d` of the `regex` crate and `char::is_whitespace`.
They are a parameter of the model; `Uni.Ascii` below is all that is assumed about them. -/
structure Uni where
  letter : Char → Bool
  digit : Char → Bool
  white : Char → Bool

/-- On ASCII the classes are the ASCII letters, the ASCII digits, and the space together
with the controls TAB to CR. -/
structure Uni.Ascii (u : Uni) : Prop where
  letter : ∀ c : Char, c.toNat < 128 → u.letter c = (isAsciiUpper c || isAsciiLower c)
  digit : ∀ c : Char, c.toNat < 128 → u.digit c = isAsciiDigit c
  white : ∀ c : Char, c.toNat < 128 →
    u.white c = decide (c = ' ' ∨ (9 ≤ c.toNat ∧ c.toNat ≤ 13))

/-! ## Escaping -/

/-- `to_entity`, `/repo/src/shared/text.rs` 204-209. `c as u16` truncates. -/
def toEntity (c : Char) : Str :=
  Syn.numberedEntityrefStart ++ Nat.toDigits 10 (c.toNat % 65536) ++ Syn.entityrefEnd

/-- `escape`, `/repo/src/shared/text.rs` 187-202. The loop over `chars` is a
structural recursion. -/
def escape : Str → Str
  | [] => []
  | c :: cs =>
    (if c = '&' then toEntity '&'
     else if c = '\'' then toEntity '\''
     else if c = '>' then toEntity '>'
     else if c = '<' then toEntity '<'
     else if c = '"' then toEntity '"'
     else [c]) ++ escape cs

/-! ## End of line handling -/

/-- `normalize_end_of_lines`, `/repo/src/shared/text.rs` 143-153. The regular expression
`\u{0D}[\u{0A}\u{85}]?|\u{85}|\u{2028}` replaced by LF from left to right; the greedy
`?` takes the second character when it can. -/
def normalizeEol : Str → Str
  | [] => []
  | c :: cs =>
    if c = '\r' then
      match cs with
      | [] => ['\n']
      | d :: ds =>
        if d = '\n' ∨ d = '\u0085' then '\n' :: normalizeEol ds
        else '\n' :: normalizeEol (d :: ds)
    else if c = '\u0085' ∨ c = '\u2028' then '\n' :: normalizeEol cs
    else c :: normalizeEol cs

/-! ## Character references -/

/-- The value of a digit in the given radix, `char::to_digit` for radix 10 and 16. -/
def digitVal (radix : Nat) (c : Char) : Option Nat :=
  let v :=
    if '0' ≤ c ∧ c ≤ '9' then some (c.toNat - 48)
    else if 'a' ≤ c ∧ c ≤ 'f' then some (c.toNat - 87)
    else if 'A' ≤ c ∧ c ≤ 'F' then some (c.toNat - 55)
    else none
  match v with
  | some n => if n < radix then some n else none
  | none => none

/-- Accumulate digits. -/
def parseDigits (radix : Nat) : Nat → Str → Option Nat
  | acc, [] => some acc
  | acc, c :: cs =>
    match digitVal radix c with
    | some d => parseDigits radix (acc * radix + d) cs
    | none => none

/-- `u32::from_str_radix` and `str::parse::<u32>` as used at
`/repo/src/shared/text.rs` 225 and 228: empty input, a non-digit or a value above
`u32::MAX` is an error. Simplification: a leading `+`, which the Rust functions allow,
is rejected; the regular expression in front never lets one through. -/
def parseU32 (radix : Nat) (s : Str) : Option Nat :=
  if s = [] then none
  else match parseDigits radix 0 s with
    | some n => if n < 4294967296 then some n else none
    | none => none

/-- `char::try_from(u32)`, used at `/repo/src/shared/text.rs` 230. -/
def charTryFrom (n : Nat) : Option Char :=
  if n.isValidChar then some (Char.ofNat n) else none

/-- `char_from_entity`, `/repo/src/shared/text.rs` 219-232. The byte slice
`entity[2..3]` panics when the character there is not one byte wide. -/
def charFromEntity (entity : Str) : Outcome Str :=
  match entity with
  | '&' :: '#' :: rest =>
    if rest.getLast? = some ';' then
      match rest with
      | 'x' :: hex =>
        match parseU32 16 hex.dropLast with
        | none => .panic .unwrap
        | some n => match charTryFrom n with
          | none => .panic .unwrap
          | some c => .ok [c]
      | [] => .panic .slice
      | d :: _ =>
        if d.utf8Size = 1 then
          match parseU32 10 rest.dropLast with
          | none => .panic .unwrap
          | some n => match charTryFrom n with
            | none => .panic .unwrap
            | some c => .ok [c]
        else .panic .slice
    else .panic .explicit
  | _ => .panic .explicit

/-! ## Attribute value normalization -/

/-- The class `[\pL\.\d_\-]` of the expression at `/repo/src/shared/text.rs` 76. -/
def entityNameClass (u : Uni) (c : Char) : Bool :=
  u.letter c || c = '.' || u.digit c || c = '_' || c = '-'

/-- The alternative `[&%][\pL_][\pL\.\d_\-]*;` anchored at the start of the string,
`/repo/src/shared/text.rs` 76. Result: the matched text and what follows. `;` is not in
the class (for the real Unicode tables), so greedy matching is a plain span. -/
def matchEntity (u : Uni) (s : Str) : Option (Str × Str) :=
  match s with
  | a :: b :: cs =>
    if (a = '&' ∨ a = '%') ∧ (u.letter b = true ∨ b = '_') then
      match cs.dropWhile (entityNameClass u) with
      | ';' :: rest => some (a :: b :: cs.takeWhile (entityNameClass u) ++ [';'], rest)
      | _ => none
    else none
  | _ => none

/-- The alternative `&#\d+;`, `/repo/src/shared/text.rs` 76. -/
def matchDec (u : Uni) (s : Str) : Option (Str × Str) :=
  match s with
  | '&' :: '#' :: cs =>
    if cs.takeWhile u.digit = [] then none
    else match cs.dropWhile u.digit with
      | ';' :: rest => some ('&' :: '#' :: cs.takeWhile u.digit ++ [';'], rest)
      | _ => none
  | _ => none

/-- The class `[0-9a-fA-F]`, `/repo/src/shared/text.rs` 76. -/
def isHexDigit (c : Char) : Bool :=
  decide (('0' ≤ c ∧ c ≤ '9') ∨ ('a' ≤ c ∧ c ≤ 'f') ∨ ('A' ≤ c ∧ c ≤ 'F'))

/-- The alternative `&#x[0-9a-fA-F]+;`, `/repo/src/shared/text.rs` 76. -/
def matchHex (s : Str) : Option (Str × Str) :=
  match s with
  | '&' :: '#' :: 'x' :: cs =>
    if cs.takeWhile isHexDigit = [] then none
    else match cs.dropWhile isHexDigit with
      | ';' :: rest => some ('&' :: '#' :: 'x' :: cs.takeWhile isHexDigit ++ [';'], rest)
      | _ => none
  | _ => none

/-- The loop over `captures_iter` at `/repo/src/shared/text.rs` 81-112: at each
position try the alternatives in order; on a match append the replacement and go on
after it, otherwise copy one character. `ent` is what happens to an entity reference.
Simplification: the guard `last_end < value.len()` at line 110 is dropped, because the
text after the last match is empty whenever the guard is false (the end-of-line
normalized text is never longer than the original, lemma `byteLen_normalizeEol_le`).
The fuel is the number of characters left; it never runs out. -/
def scanAttr (u : Uni) (ent : Str → Outcome Str) : Nat → Str → Outcome Str
  | 0, _ => .diverge
  | _ + 1, [] => .ok []
  | n + 1, c :: cs =>
    match matchEntity u (c :: cs) with
    | some (m, rest) =>
      (ent m).bind fun r => (scanAttr u ent n rest).map fun t => r ++ t
    | none =>
      match matchDec u (c :: cs) with
      | some (m, rest) =>
        (charFromEntity m).bind fun r => (scanAttr u ent n rest).map fun t => r ++ t
      | none =>
        match matchHex (c :: cs) with
        | some (m, rest) =>
          (charFromEntity m).bind fun r => (scanAttr u ent n rest).map fun t => r ++ t
        | none =>
          if c = '\t' ∨ c = '\n' ∨ c = '\r' then
            (scanAttr u ent n cs).map fun t => ' ' :: t
          else
            (scanAttr u ent n cs).map fun t => c :: t

/-- `str::trim_matches(' ')`, used at `/repo/src/shared/text.rs` 118. -/
def trimSpaces (s : Str) : Str :=
  ((s.dropWhile fun c => decide (c = ' ')).reverse.dropWhile fun c => decide (c = ' ')).reverse

/-- `normalize_attribute_value`, `/repo/src/shared/text.rs` 64-120. `resolve` is the
`EntityResolver`. The recursion into replacement texts is bounded by fuel; running out
means the real function recurses forever (an entity that refers to itself). -/
def normalizeAttrValue (u : Uni) (resolve : Str → Outcome (Option Str)) (isCdata : Bool) :
    Nat → Str → Outcome Str
  | 0, _ => .diverge
  | depth + 1, value =>
    let step1 := normalizeEol value
    let step3 :=
      if step1 = [] then .ok []
      else scanAttr u
        (fun m => (resolve m).bind fun r =>
          match r with
          | none => .panic .explicit
          | some replacement => normalizeAttrValue u resolve isCdata depth replacement)
        (step1.length + 1) step1
    step3.map fun s => if isCdata then s else trimSpaces s

/-! ## Character classes -/

/-- `is_xml_10_char`, `/repo/src/shared/text.rs` 265-272 (upper bound `\u{10FFF}` as in
the source). -/
def isXml10Char (c : Char) : Bool :=
  decide (c = '\u0009') || decide (c = '\u000A') || decide (c = '\u000D')
  || decide (' ' ≤ c ∧ c.toNat ≤ 0xD7FF)
  || decide (0xE000 ≤ c.toNat ∧ c.toNat ≤ 0xFFFD)
  || decide (0x10000 ≤ c.toNat ∧ c.toNat ≤ 0x10FFF)

/-- `is_xml_10_restricted_char`, `/repo/src/shared/text.rs` 275-281. -/
def isXml10RestrictedChar (c : Char) : Bool :=
  decide (c = '&') || decide (c = '\'') || decide (c = '>') || decide (c = '<')
  || decide (c = '"')

/-- `is_xml_11_char`, `/repo/src/shared/text.rs` 292-300. -/
def isXml11Char (c : Char) : Bool :=
  decide (0x1 ≤ c.toNat ∧ c.toNat ≤ 0xD7FF)
  || decide (0xE000 ≤ c.toNat ∧ c.toNat ≤ 0xFFFD)
  || decide (0x10000 ≤ c.toNat ∧ c.toNat ≤ 0x10FFF)

/-- `is_xml_11_restricted_char`, `/repo/src/shared/text.rs` 310-320. -/
def isXml11RestrictedChar (c : Char) : Bool :=
  decide (0x01 ≤ c.toNat ∧ c.toNat ≤ 0x08)
  || decide (0x0B ≤ c.toNat ∧ c.toNat ≤ 0x0C)
  || decide (0x0E ≤ c.toNat ∧ c.toNat ≤ 0x1F)
  || decide (0x7F ≤ c.toNat ∧ c.toNat ≤ 0x84)
  || decide (0x86 ≤ c.toNat ∧ c.toNat ≤ 0x9F)

/-- `is_xml_space`, `/repo/src/shared/text.rs` 337-339. -/
def isXmlSpace (c : Char) : Bool :=
  decide (c = '\u0009') || decide (c = '\u000A') || decide (c = '\u000D') || decide (c = ' ')

/-- `is_xml_name_start_char`, `/repo/src/shared/text.rs` 350-367. -/
def isXmlNameStartChar (c : Char) : Bool :=
  decide (c = ':')
  || isAsciiUpper c
  || decide (c = '_')
  || isAsciiLower c
  || decide (0xC0 ≤ c.toNat ∧ c.toNat ≤ 0xD6)
  || decide (0xD8 ≤ c.toNat ∧ c.toNat ≤ 0xF6)
  || decide (0x0F8 ≤ c.toNat ∧ c.toNat ≤ 0x2FF)
  || decide (0x370 ≤ c.toNat ∧ c.toNat ≤ 0x37D)
  || decide (0x037F ≤ c.toNat ∧ c.toNat ≤ 0x1FFF)
  || decide (0x200C ≤ c.toNat ∧ c.toNat ≤ 0x200D)
  || decide (0x2070 ≤ c.toNat ∧ c.toNat ≤ 0x218F)
  || decide (0x2C00 ≤ c.toNat ∧ c.toNat ≤ 0x2FEF)
  || decide (0x3001 ≤ c.toNat ∧ c.toNat ≤ 0xD7FF)
  || decide (0xF900 ≤ c.toNat ∧ c.toNat ≤ 0xFDCF)
  || decide (0xFDF0 ≤ c.toNat ∧ c.toNat ≤ 0xFFFD)
  || decide (0x10000 ≤ c.toNat ∧ c.toNat ≤ 0xEFFFF)

/-- `is_xml_name_char`, `/repo/src/shared/text.rs` 375-383. -/
def isXmlNameChar (c : Char) : Bool :=
  isXmlNameStartChar c
  || decide (c = '-')
  || decide (c = '.')
  || isAsciiDigit c
  || decide (c = '\u00B7')
  || decide (0x0300 ≤ c.toNat ∧ c.toNat ≤ 0x036F)
  || decide (0x203F ≤ c.toNat ∧ c.toNat ≤ 0x2040)

/-- `is_xml_name`, `/repo/src/shared/text.rs` 390-393. The byte slice `s[1..]` panics
when the first character takes more than one byte; it is only evaluated when the first
character is a name start character. -/
def isXmlName (s : Str) : Outcome Bool :=
  match s with
  | [] => .ok false
  | c :: _ =>
    if isXmlNameStartChar c then
      match splitAtByte 1 s with
      | none => .panic .slice
      | some (_, rest) => .ok (rest.all isXmlNameChar)
    else .ok false

/-- `is_xml_names`, `/repo/src/shared/text.rs` 401-404. `Iterator::all` stops at the
first `false`. -/
def isXmlNames (s : Str) : Outcome Bool :=
  let rec go : List Str → Outcome Bool
    | [] => .ok true
    | p :: ps => (isXmlName p).bind fun b => if b then go ps else .ok false
  if s = [] then .ok false else go (splitOn ' ' s)

/-- `is_xml_nmtoken`, `/repo/src/shared/text.rs` 412-415. -/
def isXmlNmtoken (s : Str) : Bool :=
  decide (s ≠ []) && s.all isXmlNameChar

/-- `is_xml_nmtokens`, `/repo/src/shared/text.rs` 423-426. -/
def isXmlNmtokens (s : Str) : Bool :=
  decide (s ≠ []) && (splitOn ' ' s).all isXmlNmtoken

/-! ## `xml:space` -/

/-- `SpaceHandling`, `/repo/src/shared/text.rs` 10-15. -/
inductive SpaceHandling
  | default
  | preserve
  deriving DecidableEq, Repr

/-- `Display for SpaceHandling`, `/repo/src/shared/text.rs` 432-446. -/
def SpaceHandling.display : SpaceHandling → Str
  | .default => c! "xml:space=\"default\""
  | .preserve => c! "xml:space=\"preserve\""

/-- `FromStr for SpaceHandling`, `/repo/src/shared/text.rs` 450-462 (the error carries
no information). -/
def SpaceHandling.fromStr (s : Str) : Option SpaceHandling :=
  if s = c! "default" then some .default
  else if s = c! "preserve" then some .preserve
  else none

end XmlDom
