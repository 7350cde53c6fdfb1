import Verif.Spec.Serial
import Verif.Spec.Text

/-!
# A reference reader

Written from XML 1.0: [1] document, [2] Char, [3] S, [10] AttValue, [11] SystemLiteral,
[12] PubidLiteral, [14] CharData, [15] Comment, [16] PI, [17] PITarget, [18]-[21] CDATA
sections, [22] prolog, [23]-[27] XMLDecl and Misc, [28] doctypedecl without internal subset,
[32] SDDecl, [39] element, [40] STag, [41] Attribute, [42] ETag, [43] content,
[44] EmptyElemTag, [66] CharRef, [75] ExternalID, [80] EncodingDecl, the predefined entities
of section 4.6, end of line handling of section 2.11 and attribute value normalization of
section 3.3.3. References to other entities and internal subsets are rejected. Nothing of the
model is used, except that the result is an `Xml`.
-/

namespace XmlDom
namespace Spec
namespace Reader

instance (c : Char) : Decidable (Char10 c) := by unfold Char10; infer_instance
instance (c : Char) : Decidable (Space c) := by unfold Space; infer_instance
instance (c : Char) : Decidable (NameStartChar c) := by unfold NameStartChar; infer_instance
instance (c : Char) : Decidable (NameChar c) := by unfold NameChar; infer_instance

/-- Section 2.11: CR LF and CR become LF. -/
def endOfLine : Str → Str
  | [] => []
  | c :: cs =>
    if c = '\r' then
      match cs with
      | [] => ['\n']
      | d :: ds => if d = '\n' then '\n' :: endOfLine ds else '\n' :: endOfLine (d :: ds)
    else c :: endOfLine cs

/-- Leave out leading white space. -/
def skip (s : Str) : Str := s.dropWhile fun c => decide (Space c)

/-- [17]: the targets that are spelled `xml` in any case. -/
def reserved (t : Str) : Bool :=
  t ∈ [c! "xml", c! "xmL", c! "xMl", c! "xML", c! "Xml", c! "XmL", c! "XMl", c! "XML"]

/-- A Name and what follows it. -/
def name : Str → Option (Str × Str)
  | [] => none
  | c :: cs =>
    if NameStartChar c then
      some (c :: cs.takeWhile (fun d => decide (NameChar d)),
        cs.dropWhile fun d => decide (NameChar d))
    else none

/-- The character of a number, if it is one that XML allows. -/
def charOf (n : Nat) : Option Char :=
  if n.isValidChar ∧ Char10 (Char.ofNat n) then some (Char.ofNat n) else none

/-- What the text between `&` and `;` stands for. -/
def reference (s : Str) : Option Char :=
  match s with
  | '#' :: 'x' :: ds =>
    if ds ≠ [] ∧ ∀ d ∈ ds, IsHex d then charOf (digitsValue 16 hexVal ds) else none
  | '#' :: ds => if ds ≠ [] ∧ ∀ d ∈ ds, IsDec d then charOf (digitsValue 10 decVal ds) else none
  | _ =>
    if s = c! "lt" then some '<'
    else if s = c! "gt" then some '>'
    else if s = c! "amp" then some '&'
    else if s = c! "apos" then some '\''
    else if s = c! "quot" then some '"'
    else none

/-- Replace the references; in an attribute value a literal white space character becomes a
space. The number bounds the number of steps. -/
def decode (attr : Bool) : Nat → Str → Option Str
  | _, [] => some []
  | 0, _ :: _ => none
  | k + 1, c :: s =>
    if c = '&' then
      match s.dropWhile fun d => decide (d ≠ ';') with
      | [] => none
      | _ :: rest =>
        (reference (s.takeWhile fun d => decide (d ≠ ';'))).bind fun x =>
          (decode attr k rest).map fun t => x :: t
    else (decode attr k s).map fun t => (if attr = true ∧ Space c then ' ' else c) :: t

/-- The attributes of a start tag, whether it is an empty element tag, and what follows. -/
def attributes : Nat → Str → Option (List (Str × Str) × Bool × Str)
  | 0, _ => none
  | k + 1, s =>
    match skip s with
    | '>' :: r => some ([], false, r)
    | '/' :: '>' :: r => some ([], true, r)
    | t =>
      if t.length = s.length then none
      else (name t).bind fun nt =>
        match skip nt.2 with
        | '=' :: t2 =>
          match skip t2 with
          | q :: t3 =>
            if q = '"' ∨ q = '\'' then
              match t3.dropWhile fun d => decide (d ≠ q) with
              | [] => none
              | _ :: t4 =>
                let raw := t3.takeWhile fun d => decide (d ≠ q)
                if '<' ∈ raw then none
                else (decode true raw.length raw).bind fun v =>
                  (attributes k t4).map fun r => ((nt.1, v) :: r.1, r.2)
            else none
          | [] => none
        | _ => none

/-- An end tag with this name, and what follows it. -/
def endTag (n : Str) (s : Str) : Option Str :=
  match s with
  | '<' :: '/' :: t =>
    (name t).bind fun nt =>
      match skip nt.2 with
      | '>' :: r => if nt.1 = n then some r else none
      | _ => none
  | _ => none

/-- The text in front of the first place where `p` starts, and what follows `p` there. -/
def cut (p : Str) : Str → Option (Str × Str)
  | [] => none
  | c :: s =>
    if p.isPrefixOf (c :: s) then some ([], (c :: s).drop p.length)
    else (cut p s).map fun r => (c :: r.1, r.2)

/-- A comment after `<!--`: the first two dashes end it. -/
def comment (s : Str) : Option (Str × Str) :=
  (cut (c! "--") s).bind fun r =>
    match r.2 with
    | '>' :: t => some (r.1, t)
    | _ => none

/-- A processing instruction after `<?`: the target, then white space and the data. -/
def instruction (s : Str) : Option (Str × Option Str × Str) :=
  (name s).bind fun nt =>
    if reserved nt.1 then none
    else (cut (c! "?>") nt.2).bind fun r =>
      match r.1 with
      | [] => some (nt.1, none, r.2)
      | c :: d =>
        if Space c then some (nt.1, if skip d = [] then none else some (skip d), r.2) else none

/-- The content of an element: everything up to an end tag or the end. -/
def content : Nat → Str → Option (Xml × Str)
  | 0, _ => none
  | _ + 1, [] => some (.nil, [])
  | k + 1, c :: s =>
    if c = '<' then
      if s.head? = some '/' then some (.nil, c :: s)
      else if (c! "!--").isPrefixOf s then
        (comment (s.drop 3)).bind fun r =>
        (content k r.2).map fun q => (.leaf (.comment r.1) q.1, q.2)
      else if (c! "![CDATA[").isPrefixOf s then
        (cut (c! "]]>") (s.drop 8)).bind fun r =>
        (content k r.2).map fun q => (.leaf (.cdata r.1) q.1, q.2)
      else if s.head? = some '?' then
        (instruction (s.drop 1)).bind fun r =>
        (content k r.2.2).map fun q => (.leaf (.pi r.1 r.2.1) q.1, q.2)
      else
        (name s).bind fun nt =>
        (attributes (nt.2.length + 1) nt.2).bind fun at' =>
        if (at'.1.map (·.1)).Nodup then
          if at'.2.1 then
            (content k at'.2.2).map fun r => (.element nt.1 at'.1 .nil r.1, r.2)
          else
            (content k at'.2.2).bind fun kids =>
            (endTag nt.1 kids.2).bind fun t =>
            (content k t).map fun r => (.element nt.1 at'.1 kids.1 r.1, r.2)
        else none
    else
      let raw := (c :: s).takeWhile fun d => decide (d ≠ '<')
      if (c! "]]>") <:+: raw then none
      else
        (decode false raw.length raw).bind fun t =>
        (content k ((c :: s).dropWhile fun d => decide (d ≠ '<'))).map fun r =>
          (.leaf (.text t) r.1, r.2)

/-- Read one element. -/
def read (s : Str) : Option Xml :=
  if ∀ c ∈ s, Char10 c then
    match content ((endOfLine s).length + 1) (endOfLine s) with
    | some (.element n as kids .nil, []) => some (.element n as kids .nil)
    | _ => none
  else none

end Reader

/-- Characters that XML 1.0 allows, without the one that end of line handling changes. -/
def Clean (s : Str) : Prop := ∀ c ∈ s, Char10 c ∧ c ≠ '\r'

/-- XML has a form for these data: [15] for comments, [20] for CDATA sections, [16] for
processing instructions. -/
def Leaf.Writable : Leaf → Prop
  | .text s => Clean s
  | .comment s => Clean s ∧ ¬ (c! "--") <:+: s ∧ s.getLast? ≠ some '-'
  | .cdata s => Clean s ∧ ¬ (c! "]]>") <:+: s
  | .pi _ (some d) => Clean d ∧ ¬ (c! "?>") <:+: d
  | _ => True

/-- What the text form of a leaf stands for: the data of a comment is escaped although
nothing is unescaped there, the data of a CDATA section is put between two spaces, and white
space in front of the data of a processing instruction belongs to the markup. -/
def Leaf.asRead : Leaf → Leaf
  | .comment s => .comment (esc s)
  | .cdata s => .cdata (' ' :: (s ++ [' ']))
  | .pi t (some d) => .pi t (if Reader.skip d = [] then none else some (Reader.skip d))
  | l => l

namespace Xml

/-- Join adjacent texts and leave out empty ones. -/
def merge : Xml → Xml
  | .nil => .nil
  | .leaf (.text []) rest => merge rest
  | .leaf .blank rest => merge rest
  | .leaf (.text s) rest =>
    match merge rest with
    | .leaf (.text t) r => .leaf (.text (s ++ t)) r
    | r => .leaf (.text s) r
  | .leaf l rest => .leaf l (merge rest)
  | .element n as kids rest => .element n as (merge kids) (merge rest)
  | .docType n p s sub decls rest => .docType n p s sub (merge decls) (merge rest)
  | .document d dtd kids rest => .document d (merge dtd) (merge kids) (merge rest)
  | .fragment n kids rest => .fragment n (merge kids) (merge rest)

/-- Elements, attributes and text only. -/
def Plain : Xml → Prop
  | .nil => True
  | .leaf l rest => ((∃ s, l = .text s) ∨ l = .blank) ∧ Plain rest
  | .element _ _ kids rest => Plain kids ∧ Plain rest
  | _ => False

/-- Elements, attributes, text, comments, CDATA sections and processing instructions only. -/
def Simple : Xml → Prop
  | .nil => True
  | .leaf l rest =>
    (match l with
      | .blank => True
      | .text _ => True
      | .comment _ => True
      | .cdata _ => True
      | .pi _ _ => True
      | _ => False) ∧ Simple rest
  | .element _ _ kids rest => Simple kids ∧ Simple rest
  | _ => False

/-- The leaves are changed by `f`. -/
def mapLeaves (f : Leaf → Leaf) : Xml → Xml
  | .nil => .nil
  | .leaf l rest => .leaf (f l) (mapLeaves f rest)
  | .element n as kids rest => .element n as (mapLeaves f kids) (mapLeaves f rest)
  | .docType n p s sub decls rest => .docType n p s sub (mapLeaves f decls) (mapLeaves f rest)
  | .document d dtd kids rest =>
    .document d (mapLeaves f dtd) (mapLeaves f kids) (mapLeaves f rest)
  | .fragment n kids rest => .fragment n (mapLeaves f kids) (mapLeaves f rest)

/-- The leaves satisfy `p`. -/
def Leaves (p : Leaf → Prop) : Xml → Prop
  | .nil => True
  | .leaf l rest => p l ∧ Leaves p rest
  | .element _ _ kids rest => Leaves p kids ∧ Leaves p rest
  | .docType _ _ _ _ decls rest => Leaves p decls ∧ Leaves p rest
  | .document _ dtd kids rest => Leaves p dtd ∧ Leaves p kids ∧ Leaves p rest
  | .fragment _ kids rest => Leaves p kids ∧ Leaves p rest

/-- The texts satisfy `p`. -/
def Texts (p : Str → Prop) : Xml → Prop
  | .nil => True
  | .leaf l rest => (∀ s, l = .text s → p s) ∧ Texts p rest
  | .element _ _ kids rest => Texts p kids ∧ Texts p rest
  | .docType _ _ _ _ decls rest => Texts p decls ∧ Texts p rest
  | .document _ dtd kids rest => Texts p dtd ∧ Texts p kids ∧ Texts p rest
  | .fragment _ kids rest => Texts p kids ∧ Texts p rest

/-- The attribute lists satisfy `p`. -/
def AttrLists (p : List (Str × Str) → Prop) : Xml → Prop
  | .nil => True
  | .leaf _ rest => AttrLists p rest
  | .element _ as kids rest => p as ∧ AttrLists p kids ∧ AttrLists p rest
  | .docType _ _ _ _ decls rest => AttrLists p decls ∧ AttrLists p rest
  | .document _ dtd kids rest => AttrLists p dtd ∧ AttrLists p kids ∧ AttrLists p rest
  | .fragment _ kids rest => AttrLists p kids ∧ AttrLists p rest

/-- The element and attribute names, processing instruction targets and names of entity
references are qualified names. -/
def NamesOk : Xml → Prop
  | .nil => True
  | .leaf l rest =>
    (match l with
      | .pi t _ => IsQName t
      | .entityRef n => IsQName n
      | _ => True) ∧ NamesOk rest
  | .element n as kids rest =>
    IsQName n ∧ (∀ a ∈ as, IsQName a.1) ∧ NamesOk kids ∧ NamesOk rest
  | .docType _ _ _ _ _ rest => NamesOk rest
  | .document _ _ kids rest => NamesOk kids ∧ NamesOk rest
  | .fragment _ kids rest => NamesOk kids ∧ NamesOk rest

/-- What can be in an element: no document type, document, fragment, attribute, entity or
notation. -/
def Content : Xml → Prop
  | .nil => True
  | .leaf l rest =>
    (match l with
      | .attribute _ _ => False
      | .entity _ _ _ _ _ => False
      | .notation _ _ _ => False
      | _ => True) ∧ Content rest
  | .element _ _ kids rest => Content kids ∧ Content rest
  | _ => False

/-- The tags, comments, CDATA sections and processing instructions, where an element counts
for two tags. -/
def tags : Xml → Nat
  | .nil => 0
  | .leaf l rest =>
    (match l with
      | .comment _ => 1
      | .cdata _ => 1
      | .pi _ _ => 1
      | _ => 0) + tags rest
  | .element _ _ kids rest => 2 + tags kids + tags rest
  | .docType _ _ _ _ decls rest => 1 + tags decls + tags rest
  | .document _ dtd kids rest => tags dtd + tags kids + tags rest
  | .fragment _ kids rest => 1 + tags kids + tags rest

/-- How often `c` is in the data of CDATA sections and processing instructions. -/
def foreign (c : Char) : Xml → Nat
  | .nil => 0
  | .leaf l rest =>
    (match l with
      | .cdata s => s.count c
      | .pi _ (some d) => d.count c
      | _ => 0) + foreign c rest
  | .element _ _ kids rest => foreign c kids + foreign c rest
  | .docType _ _ _ _ decls rest => foreign c decls + foreign c rest
  | .document _ dtd kids rest => foreign c dtd + foreign c kids + foreign c rest
  | .fragment _ kids rest => foreign c kids + foreign c rest

end Xml
end Spec
end XmlDom
