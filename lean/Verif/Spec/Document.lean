import Verif.Spec.Reader

/-!
# The reference reader for whole documents

XML 1.0: [1] document, [22] prolog, [23] XMLDecl, [24] VersionInfo, [26] VersionNum, [27] Misc,
[28] doctypedecl without internal subset, [11] SystemLiteral, [12] PubidLiteral, [32] SDDecl,
[75] ExternalID, [80] EncodingDecl, [81] EncName.
-/

namespace XmlDom
namespace Spec
namespace Reader

/-- A string in quotes of either kind, and what follows it. -/
def inQuotes (s : Str) : Option (Str × Str) :=
  match s with
  | [] => none
  | q :: t =>
    if q = '"' ∨ q = '\'' then
      match t.dropWhile fun d => decide (d ≠ q) with
      | [] => none
      | _ :: r => some (t.takeWhile fun d => decide (d ≠ q), r)
    else none

/-- White space, which there must be. -/
def space (s : Str) : Option Str := if skip s = s then none else some (skip s)

/-- These characters, and what follows them. -/
def word (w s : Str) : Option Str := if w.isPrefixOf s then some (s.drop w.length) else none

/-- White space, the key, an equals sign and a quoted string. -/
def pseudo (key : Str) (s : Str) : Option (Str × Str) :=
  (space s).bind fun s1 => (word key s1).bind fun s2 => (word ['='] (skip s2)).bind fun s3 =>
    inQuotes (skip s3)

/-- [81] EncName -/
def isEncName : Str → Bool
  | [] => false
  | c :: cs =>
    decide (InRanges [(0x41, 0x5A), (0x61, 0x7A)] c) &&
      cs.all fun d => decide (InRanges [(0x41, 0x5A), (0x61, 0x7A), (0x30, 0x39), (0x2E, 0x2E),
        (0x5F, 0x5F), (0x2D, 0x2D)] d)

/-- [80] EncodingDecl, which may be missing. -/
def encoding (s : Str) : Option (Option Str × Str) :=
  match pseudo (c! "encoding") s with
  | none => some (none, s)
  | some r => if isEncName r.1 then some (some r.1, r.2) else none

/-- [32] SDDecl, which may be missing. -/
def standalone (s : Str) : Option (Option Bool × Str) :=
  match pseudo (c! "standalone") s with
  | none => some (none, s)
  | some r =>
    if r.1 = c! "yes" then some (some true, r.2)
    else if r.1 = c! "no" then some (some false, r.2)
    else none

/-- [24] VersionInfo: the versions 1.0 and 1.1. -/
def version (s : Str) : Option (XmlVersion × Str) :=
  (pseudo (c! "version") s).bind fun r =>
    if r.1 = c! "1.0" then some (.v10, r.2)
    else if r.1 = c! "1.1" then some (.v11, r.2)
    else none

/-- [23] XMLDecl, after `<?xml`. -/
def declaration (s : Str) : Option (XmlDecl × Str) :=
  (version s).bind fun v => (encoding v.2).bind fun en => (standalone en.2).bind fun sa =>
    (word (c! "?>") (skip sa.2)).map fun r => (⟨v.1, en.1, sa.1⟩, r)

/-- [13] PubidChar -/
def PubidChar (c : Char) : Prop :=
  InRanges [(0x20, 0x20), (0xD, 0xD), (0xA, 0xA), (0x61, 0x7A), (0x41, 0x5A), (0x30, 0x39)] c ∨
    c ∈ (c! "-'()+,./:=?;!*#@$_%")

instance (c : Char) : Decidable (PubidChar c) := by unfold PubidChar; infer_instance

/-- White space and [75] ExternalID, which may be missing: the public and system id. -/
def external (s : Str) : Option ((Option Str × Option Str) × Str) :=
  match space s with
  | none => some ((none, none), s)
  | some t =>
    match word (c! "SYSTEM") t with
    | some t1 => (space t1).bind fun t2 => (inQuotes t2).map fun r => ((none, some r.1), r.2)
    | none =>
      match word (c! "PUBLIC") t with
      | some t1 =>
        (space t1).bind fun t2 => (inQuotes t2).bind fun p =>
          if ∀ c ∈ p.1, PubidChar c then
            (space p.2).bind fun t3 => (inQuotes t3).map fun r => ((some p.1, some r.1), r.2)
          else none
      | none => some ((none, none), s)

/-- [28] doctypedecl without internal subset, after `<!DOCTYPE`: the name and the ids. -/
def docType (s : Str) : Option ((Str × Option Str × Option Str) × Str) :=
  (space s).bind fun s1 => (name s1).bind fun n => (external n.2).bind fun x =>
    (word ['>'] (skip x.2)).map fun r => ((n.1, x.1.1, x.1.2), r)

/-- [68] EntityRef, [66] CharRef and [69] PEReference without the delimiters; `pe` is for the
last one. -/
def isReference (pe : Bool) (s : Str) : Bool :=
  match s with
  | '#' :: 'x' :: ds => !pe && decide (ds ≠ [] ∧ ∀ d ∈ ds, IsHex d)
  | '#' :: ds => !pe && decide (ds ≠ [] ∧ ∀ d ∈ ds, IsDec d)
  | _ =>
    match name s with
    | some (_, []) => true
    | _ => false

/-- [9] EntityValue: every `&` and `%` starts a reference. -/
def entityValue : Nat → Str → Bool
  | _, [] => true
  | 0, _ :: _ => false
  | k + 1, c :: s =>
    if c = '&' ∨ c = '%' then
      match s.dropWhile fun d => decide (d ≠ ';') with
      | [] => false
      | _ :: rest =>
        isReference (decide (c = '%')) (s.takeWhile fun d => decide (d ≠ ';')) && entityValue k rest
    else entityValue k s

/-- What a declaration of an entity says: the value, or the ids and the notation. -/
inductive EntityDef
  | value (v : Str)
  | ids (p s n : Option Str)
  deriving DecidableEq

/-- [76] NDataDecl, which may be missing. -/
def nData (s : Str) : Option (Option Str × Str) :=
  match (space s).bind (word (c! "NDATA")) with
  | none => some (none, s)
  | some t => (space t).bind fun t1 => (name t1).map fun n => (some n.1, n.2)

/-- White space and [73] EntityDef. -/
def entityDef (s : Str) : Option (EntityDef × Str) :=
  (space s).bind fun t =>
    match inQuotes t with
    | some v => if entityValue v.1.length v.1 then some (.value v.1, v.2) else none
    | none =>
      (external s).bind fun x =>
        if x.1.2 = none then none
        else (nData x.2).map fun d => (.ids x.1.1 x.1.2 d.1, d.2)

/-- [71] GEDecl, after `<!ENTITY`. -/
def entityDecl (s : Str) : Option ((Str × EntityDef) × Str) :=
  (space s).bind fun s1 => (name s1).bind fun n => (entityDef n.2).bind fun d =>
    (word ['>'] (skip d.2)).map fun r => ((n.1, d.1), r)

/-- White space and [83] PublicID. -/
def publicOnly (s : Str) : Option (Str × Str) :=
  (space s).bind fun t => (word (c! "PUBLIC") t).bind fun t1 => (space t1).bind fun t2 =>
    (inQuotes t2).bind fun p => if ∀ c ∈ p.1, PubidChar c then some p else none

/-- White space and the ids of a notation. -/
def notationIds (s : Str) : Option ((Option Str × Option Str) × Str) :=
  match external s with
  | some x => if x.1.2 = none then none else some x
  | none => (publicOnly s).map fun (p : Str × Str) => ((some p.1, none), p.2)

/-- [82] NotationDecl, after `<!NOTATION`. -/
def notationDecl (s : Str) : Option ((Str × Option Str × Option Str) × Str) :=
  (space s).bind fun s1 => (name s1).bind fun n => (notationIds n.2).bind fun d =>
    (word ['>'] (skip d.2)).map fun r => ((n.1, d.1.1, d.1.2), r)

/-- What is outside of elements: [27] Misc, elements and document type declarations. -/
def outer : Nat → Str → Option Xml
  | 0, _ => none
  | k + 1, s =>
    match skip s with
    | [] => some .nil
    | c :: t =>
      if c = '<' then
        if (c! "!--").isPrefixOf t then
          (comment (t.drop 3)).bind fun r => (outer k r.2).map fun q => .leaf (.comment r.1) q
        else if t.head? = some '?' then
          (instruction (t.drop 1)).bind fun r =>
          (outer k r.2.2).map fun q => .leaf (.pi r.1 r.2.1) q
        else if (c! "!DOCTYPE").isPrefixOf t then
          (docType (t.drop 8)).bind fun r =>
          (outer k r.2).map fun q => .docType r.1.1 r.1.2.1 r.1.2.2 none .nil q
        else
          (name t).bind fun nt =>
          (attributes (nt.2.length + 1) nt.2).bind fun at' =>
          if (at'.1.map (·.1)).Nodup then
            if at'.2.1 then (outer k at'.2.2).map fun r => .element nt.1 at'.1 .nil r
            else
              (content (at'.2.2.length + 1) at'.2.2).bind fun kids =>
              (endTag nt.1 kids.2).bind fun t1 =>
              (outer k t1).map fun r => .element nt.1 at'.1 kids.1 r
          else none
      else none

/-- One element, and at most one document type in front of it. The first number counts the
elements so far, the second one the document types. -/
def shape : Nat → Nat → Xml → Bool
  | e, _, .nil => e == 1
  | e, d, .leaf _ rest => shape e d rest
  | e, d, .element _ _ _ rest => e == 0 && shape (e + 1) d rest
  | e, d, .docType _ _ _ _ _ rest => e == 0 && d == 0 && shape e (d + 1) rest
  | _, _, _ => false

/-- The declaration at the start of a document, if there is one, and what follows. -/
def start (s : Str) : Option (Option XmlDecl × Str) :=
  match word (c! "<?xml") s with
  | some t =>
    if (space t).isSome then
      (declaration t).map fun (r : XmlDecl × Str) => (some r.1, r.2)
    else some (none, s)
  | none => some (none, s)

/-- Read a document: its declaration, if there is one, and what is outside of elements. -/
def document (s : Str) : Option (Option XmlDecl × Xml) :=
  if ∀ c ∈ s, Char10 c then
    (start (endOfLine s)).bind fun r =>
    (outer (r.2.length + 1) r.2).bind fun x => if shape 0 0 x then some (r.1, x) else none
  else none

end Reader

namespace Xml

/-- Two lists of trees, one after the other. -/
def append : Xml → Xml → Xml
  | .nil, y => y
  | .leaf l rest, y => .leaf l (append rest y)
  | .element n as kids rest, y => .element n as kids (append rest y)
  | .docType n p s sub decls rest, y => .docType n p s sub decls (append rest y)
  | .document d dtd kids rest, y => .document d dtd kids (append rest y)
  | .fragment n kids rest, y => .fragment n kids (append rest y)

end Xml

end Spec
end XmlDom
