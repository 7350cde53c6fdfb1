import Verif.Spec.Parse

/-!
# What the reader makes of any stream of events

The streams of `Spec.Parse` are those of documents. Here every stream has a meaning: the
document that is built, the answer, or a panic. The relations follow the events one after the
other and use no function of the model.
-/

namespace XmlDom
namespace Spec

/-! ## Names -/

/-- What a check says. -/
inductive Verdict
  | accept
  | refuse (er : DomError)
  | crash
  deriving DecidableEq

/-- A name or a part of one. A part that starts with a name start character outside ASCII
makes the check panic. -/
inductive PartSays : Str → Verdict → Prop
  | empty : PartSays [] (.refuse .syntax)
  | name {s : Str} (hn : IsName s) (ha : AsciiStart s) : PartSays s .accept
  | wide {s : Str} (hw : WideStart s) : PartSays s .crash
  | other {s : Str} (hs : s ≠ []) (hn : ¬ IsName s) (hw : ¬ WideStart s) :
      PartSays s (.refuse .invalidCharacter)

/-- A qualified name: the local part is checked first. -/
inductive NameSays : Str → Verdict → Prop
  | empty : NameSays [] (.refuse .syntax)
  | colons {p q r : Str} (hp : ':' ∉ p) (hq : ':' ∉ q) :
      NameSays (p ++ ':' :: (q ++ ':' :: r)) (.refuse .syntax)
  | single {s : Str} {v : Verdict} (hs : s ≠ []) (hc : ':' ∉ s) (h : PartSays s v) : NameSays s v
  | local {p l : Str} {v : Verdict} (hp : ':' ∉ p) (hl : ':' ∉ l) (hv : v ≠ .accept)
      (h : PartSays l v) : NameSays (p ++ ':' :: l) v
  | pair {p l : Str} {v : Verdict} (hp : ':' ∉ p) (hl : ':' ∉ l) (h : PartSays l .accept)
      (h' : PartSays p v) : NameSays (p ++ ':' :: l) v

/-! ## Attribute values -/

/-- A character of the name of an entity reference after its first. -/
def RefChar (u : Uni) (c : Char) : Prop :=
  u.letter c = true ∨ u.digit c = true ∨ c = '.' ∨ c = '_' ∨ c = '-'

/-- Something that looks like a reference starts here: an entity reference with `&` or `%`,
or a decimal or hexadecimal character reference. -/
inductive RefStart (u : Uni) : Str → Prop
  | entity {a b : Char} {cs t : Str} (ha : a = '&' ∨ a = '%') (hb : u.letter b = true ∨ b = '_')
      (hcs : ∀ c ∈ cs, RefChar u c) : RefStart u (a :: b :: (cs ++ ';' :: t))
  | dec {ds t : Str} (hne : ds ≠ []) (hd : ∀ d ∈ ds, u.digit d = true) :
      RefStart u ('&' :: '#' :: (ds ++ ';' :: t))
  | hex {ds t : Str} (hne : ds ≠ []) (hd : ∀ d ∈ ds, IsHex d) :
      RefStart u ('&' :: '#' :: 'x' :: (ds ++ ';' :: t))

/-- How a value whose line ends are normalized is read. Nothing comes out when the first
reference that is no reference to a character is reached. -/
inductive ValueText (u : Uni) : Str → Option Str → Prop
  | nil : ValueText u [] (some [])
  | entity {a b : Char} {cs t : Str} (ha : a = '&' ∨ a = '%') (hb : u.letter b = true ∨ b = '_')
      (hcs : ∀ c ∈ cs, RefChar u c) : ValueText u (a :: b :: (cs ++ ';' :: t)) none
  | dec {ds t : Str} {c : Char} {r : Option Str} (h : DecRef ds c) (ht : ValueText u t r) :
      ValueText u ('&' :: '#' :: (ds ++ ';' :: t)) (r.map (c :: ·))
  | badDec {ds t : Str} (hne : ds ≠ []) (hd : ∀ d ∈ ds, u.digit d = true)
      (hn : ∀ c, ¬ DecRef ds c) : ValueText u ('&' :: '#' :: (ds ++ ';' :: t)) none
  | hex {ds t : Str} {c : Char} {r : Option Str} (h : HexRef ds c) (ht : ValueText u t r) :
      ValueText u ('&' :: '#' :: 'x' :: (ds ++ ';' :: t)) (r.map (c :: ·))
  | badHex {ds t : Str} (hne : ds ≠ []) (hd : ∀ d ∈ ds, IsHex d) (hn : ∀ c, ¬ HexRef ds c) :
      ValueText u ('&' :: '#' :: 'x' :: (ds ++ ';' :: t)) none
  | space {c : Char} {t : Str} {r : Option Str} (hc : c = '\t' ∨ c = '\n' ∨ c = '\r')
      (ht : ValueText u t r) : ValueText u (c :: t) (r.map (' ' :: ·))
  | other {c : Char} {t : Str} {r : Option Str} (hc : ¬ (c = '\t' ∨ c = '\n' ∨ c = '\r'))
      (hn : ¬ RefStart u (c :: t)) (ht : ValueText u t r) : ValueText u (c :: t) (r.map (c :: ·))

/-- The value of an attribute whose text is `v`: line ends normalized, references replaced,
spaces at the ends left out, and escaped again; or no value, but a panic. -/
inductive ValueSays (u : Uni) (v : Str) : Option Str → Prop
  | value {m r w : Str} (he : EolNorm v m) (hm : ValueText u m (some r)) (ht : Trimmed r w) :
      ValueSays u v (some (esc w))
  | crash {m : Str} (he : EolNorm v m) (hm : ValueText u m none) : ValueSays u v none

/-- A text that is read as it is: an escaped text without spaces at its ends, without white
space other than spaces, and with nothing in it that looks like a reference with a percent
sign. -/
def ReadsBack (u : Uni) (v : Str) : Prop :=
  ∃ w, v = esc w ∧ w.head? ≠ some ' ' ∧ w.getLast? ≠ some ' ' ∧
    (∀ c ∈ w, c ∉ ['\t', '\n', '\r', '\u0085', '\u2028']) ∧
    ∀ a b, v = a ++ '%' :: b → ¬ RefStart u ('%' :: b)

/-! ## Processing instructions and declarations -/

/-- `w` is `r` without the white space at its ends. -/
def Stripped (u : Uni) (r w : Str) : Prop :=
  ∃ a b, r = a ++ w ++ b ∧ (∀ c ∈ a, u.white c = true) ∧ (∀ c ∈ b, u.white c = true) ∧
    ∀ c, w.head? = some c ∨ w.getLast? = some c → u.white c = false

/-- The text of a processing instruction is split at the first space. -/
inductive PiSplit (u : Uni) : Str → Str → Option Str → Prop
  | bare {s : Str} (hs : ' ' ∉ s) : PiSplit u s s none
  | blank {t r : Str} (ht : ' ' ∉ t) (hr : Stripped u r []) : PiSplit u (t ++ ' ' :: r) t none
  | data {t r w : Str} (ht : ' ' ∉ t) (hr : Stripped u r w) (hw : w ≠ []) :
      PiSplit u (t ++ ' ' :: r) t (some w)

/-- The version of a declaration without its quotes. -/
inductive Unquoted : Str → Option Str → Prop
  | plain {s : Str} (h1 : s.head? ≠ some '"') (h2 : s.head? ≠ some '\'') : Unquoted s (some s)
  | double {s : Str} : Unquoted ('"' :: (s ++ ['"'])) (some s)
  | single {s : Str} : Unquoted ('\'' :: (s ++ ['\''])) (some s)
  | unclosed {s : Str} {q : Char} (hq : q = '"' ∨ q = '\'') (hs : s.getLast? ≠ some q)
      (hne : s ≠ []) : Unquoted (q :: s) none

/-- What a declaration says: the declaration; an error for a version with one quote; or a panic
for a missing version, a version that is a lone quote or unknown, an encoding or standalone that
could not be decoded, and an encoding that is no name of one. -/
inductive DeclSays (en sa : Option (Option Str)) : Option Str → Option XmlDecl → Verdict → Prop
  | none : DeclSays en sa none none .crash
  | lone {q : Char} (hq : q = '"' ∨ q = '\'') : DeclSays en sa (some [q]) none .crash
  | unclosed {v : Str} (hv : Unquoted v none) : DeclSays en sa (some v) none (.refuse .syntax)
  | undecodable {v w : Str} (hv : Unquoted v (some w)) (h : en = some none ∨ sa = some none) :
      DeclSays en sa (some v) none .crash
  | unknown {v w : Str} (hv : Unquoted v (some w)) (h1 : ∀ x, w ≠ versionText x) :
      DeclSays en sa (some v) none .crash
  | badEncoding {v w y : Str} (hv : Unquoted v (some w)) (he : en = some (some y))
      (hy : ¬ IsEncName y) : DeclSays en sa (some v) none .crash
  | good {v : Str} {d : XmlDecl} (hv : Unquoted v (some (versionText d.version)))
      (he : en = d.encoding.map some) (hy : ∀ y, d.encoding = some y → IsEncName y)
      (hs : (sa = none ∧ d.standalone = none) ∨
        ∃ s, sa = some (some s) ∧ d.standalone = some (decide (s = c! "yes"))) :
      DeclSays en sa (some v) (some d) .accept

/-! ## Start tags -/

/-- An attribute replaces the one with the same name. -/
def put (k v : Str) (as : List (Str × Str)) : List (Str × Str) :=
  (k, v) :: as.filter fun a => decide (a.1 ≠ k)

/-- The attributes of a start tag: what is on the element and which ids are known before and
after. The first attribute that cannot be used ends the reading; an id that is taken is on the
element all the same. -/
inductive Attrs (u : Uni) : List Str → List (Str × Str) → List AttrEvent →
    List (Str × Str) → List Str → Verdict → Prop
  | done {ids : List Str} {as : List (Str × Str)} : Attrs u ids as [] as ids .accept
  | bad {ids : List Str} {as : List (Str × Str)} {rest : List AttrEvent} :
      Attrs u ids as (.bad :: rest) as ids .crash
  | undecodable {ids : List Str} {as : List (Str × Str)} {rest : List AttrEvent} :
      Attrs u ids as (.undecodable :: rest) as ids (.refuse .syntax)
  | name {ids : List Str} {as : List (Str × Str)} {rest : List AttrEvent} {k v : Str} {o : Verdict}
      (hk : NameSays k o) (ho : o ≠ .accept) : Attrs u ids as (.good k v :: rest) as ids o
  | plain {ids ids' : List Str} {as as' : List (Str × Str)} {rest : List AttrEvent} {k v : Str}
      {o : Verdict} (hk : NameSays k .accept) (hx : k ≠ c! "xml:id")
      (hr : Attrs u ids (put k v as) rest as' ids' o) :
      Attrs u ids as (.good k v :: rest) as' ids' o
  | badId {ids : List Str} {as : List (Str × Str)} {rest : List AttrEvent} {v : Str}
      (hv : ValueSays u v none) :
      Attrs u ids as (.good (c! "xml:id") v :: rest) as ids .crash
  | taken {ids : List Str} {as : List (Str × Str)} {rest : List AttrEvent} {v w : Str}
      (hv : ValueSays u v (some w)) (hw : w ∈ ids) :
      Attrs u ids as (.good (c! "xml:id") v :: rest) (put (c! "xml:id") v as) ids (.refuse .syntax)
  | id {ids ids' : List Str} {as as' : List (Str × Str)} {rest : List AttrEvent} {v w : Str}
      {o : Verdict} (hv : ValueSays u v (some w)) (hw : w ∉ ids)
      (hr : Attrs u (w :: ids) (put (c! "xml:id") v as) rest as' ids' o) :
      Attrs u ids as (.good (c! "xml:id") v :: rest) as' ids' o

/-- There is a tag with this name whose attribute `xml:id` has this value. -/
def TagWithId (u : Uni) (evs : List Event) (name id : Str) : Prop :=
  ∃ attrs v, (.start (some name) attrs ∈ evs ∨ .empty (some name) attrs ∈ evs) ∧
    .good (c! "xml:id") v ∈ attrs ∧ ValueSays u v (some id)

/-- A node without content: the event and the leaf it stands for, if it can be made. -/
inductive LeafEvent (u : Uni) : Event → Leaf → Prop
  | text {s : Str} : LeafEvent u (.text (some s)) (.text s)
  | cdata {s : Str} : LeafEvent u (.cdata (some s)) (.cdata s)
  | comment {s : Str} : LeafEvent u (.comment (some s)) (.comment s)
  | pi {s t : Str} {d : Option Str} (hs : PiSplit u s t d) (ht : NameSays t .accept)
      (hr : Unreserved t) : LeafEvent u (.pi (some s)) (.pi t d)

/-- A processing instruction that makes the reader panic: the target is no name or reserved. -/
def BadPi (u : Uni) (s : Str) : Prop :=
  ∃ t d, PiSplit u s t d ∧ (¬ Unreserved t ∨ ∃ o, NameSays t o ∧ o ≠ .accept)

/-- An event that ends the reading of content with an error: what could not be decoded, a
declaration, an event of another kind, an error or the end. -/
inductive Breaks : Event → Prop
  | text : Breaks (.text none)
  | cdata : Breaks (.cdata none)
  | comment : Breaks (.comment none)
  | pi : Breaks (.pi none)
  | start {as : List AttrEvent} : Breaks (.start none as)
  | empty {as : List AttrEvent} : Breaks (.empty none as)
  | decl {v : Option Str} {en sa : Option (Option Str)} : Breaks (.decl v en sa)
  | other : Breaks .other
  | eof : Breaks .eof
  | readError : Breaks .readError

/-- The content of an element from here to its end tag: the ids known before, the events, the
nodes that are made, the events and ids that are left, and how it ends: with the end tag, an
error or a panic. An error in an element is an error of the elements around it, and the nodes
made so far stay. -/
inductive Content (u : Uni) : List Str → List Event → Xml → List Event → List Str → Verdict → Prop
  | close {ids : List Str} {rest : List Event} :
      Content u ids (.close :: rest) .nil rest ids .accept
  | nil {ids : List Str} : Content u ids [] .nil [] ids (.refuse .syntax)
  | breaks {ids : List Str} {ev : Event} {rest : List Event} (hb : Breaks ev) :
      Content u ids (ev :: rest) .nil rest ids (.refuse .syntax)
  | leaf {ids ids' : List Str} {ev : Event} {evs rest : List Event} {l : Leaf} {x : Xml} {o : Verdict}
      (hl : LeafEvent u ev l) (hr : Content u ids evs x rest ids' o) :
      Content u ids (ev :: evs) (.leaf l x) rest ids' o
  | badPi {ids : List Str} {s : Str} {rest : List Event} (hs : BadPi u s) :
      Content u ids (.pi (some s) :: rest) .nil rest ids .crash
  | badName {ids : List Str} {n : Str} {as : List AttrEvent} {rest : List Event} {ev : Event}
      {o : Verdict} (he : ev = .start (some n) as ∨ ev = .empty (some n) as) (hn : NameSays n o)
      (ho : o ≠ .accept) : Content u ids (ev :: rest) .nil rest ids .crash
  | badAttrs {ids ids' : List Str} {n : Str} {as : List AttrEvent} {as' : List (Str × Str)}
      {rest : List Event} {ev : Event} {o : Verdict}
      (he : ev = .start (some n) as ∨ ev = .empty (some n) as) (hn : NameSays n .accept)
      (ha : Attrs u ids [] as as' ids' o) (ho : o ≠ .accept) :
      Content u ids (ev :: rest) (.element n as' .nil .nil) rest ids' o
  | empty {ids ids1 ids2 : List Str} {n : Str} {as : List AttrEvent} {as' : List (Str × Str)}
      {evs rest : List Event} {x : Xml} {o : Verdict} (hn : NameSays n .accept)
      (ha : Attrs u ids [] as as' ids1 .accept) (hr : Content u ids1 evs x rest ids2 o) :
      Content u ids (.empty (some n) as :: evs) (.element n as' .nil x) rest ids2 o
  | broken {ids ids1 ids2 : List Str} {n : Str} {as : List AttrEvent} {as' : List (Str × Str)}
      {evs rest : List Event} {k : Xml} {o : Verdict} (hn : NameSays n .accept)
      (ha : Attrs u ids [] as as' ids1 .accept) (hk : Content u ids1 evs k rest ids2 o)
      (ho : o ≠ .accept) :
      Content u ids (.start (some n) as :: evs) (.element n as' k .nil) rest ids2 o
  | element {ids ids1 ids2 ids3 : List Str} {n : Str} {as : List AttrEvent}
      {as' : List (Str × Str)} {evs evs2 rest : List Event} {k x : Xml} {o : Verdict}
      (hn : NameSays n .accept) (ha : Attrs u ids [] as as' ids1 .accept)
      (hk : Content u ids1 evs k evs2 ids2 .accept) (hr : Content u ids2 evs2 x rest ids3 o) :
      Content u ids (.start (some n) as :: evs) (.element n as' k x) rest ids3 o

/-- An event that ends the reading of a document with an error: besides what cannot be
decoded, text. The end of the stream is no error, and neither is an end tag. -/
inductive Stops : Event → Prop
  | text {t : Option Str} : Stops (.text t)
  | cdata {t : Option Str} : Stops (.cdata t)
  | comment : Stops (.comment none)
  | pi : Stops (.pi none)
  | start {as : List AttrEvent} : Stops (.start none as)
  | empty {as : List AttrEvent} : Stops (.empty none as)
  | other : Stops .other
  | readError : Stops .readError

/-- The rest of a document: the declaration so far, whether it has an element, the ids, the
events, the nodes that are made, the declaration in the end, and the answer. An error in the
content of the element is forgotten and the reading goes on behind it. -/
inductive Whole (u : Uni) : Option XmlDecl → Bool → List Str → List Event → Xml → Option XmlDecl →
    Verdict → Prop
  | nil {dc : Option XmlDecl} {b : Bool} {ids : List Str} : Whole u dc b ids [] .nil dc .accept
  | eof {dc : Option XmlDecl} {b : Bool} {ids : List Str} {rest : List Event} :
      Whole u dc b ids (.eof :: rest) .nil dc .accept
  | stops {dc : Option XmlDecl} {b : Bool} {ids : List Str} {ev : Event} {rest : List Event}
      (hs : Stops ev) : Whole u dc b ids (ev :: rest) .nil dc (.refuse .syntax)
  | close {dc dc' : Option XmlDecl} {b : Bool} {ids : List Str} {evs : List Event} {x : Xml}
      {o : Verdict} (hr : Whole u dc b ids evs x dc' o) : Whole u dc b ids (.close :: evs) x dc' o
  | decl {dc' : Option XmlDecl} {d : XmlDecl} {b : Bool} {ids : List Str} {v : Option Str}
      {en sa : Option (Option Str)} {evs : List Event} {x : Xml} {o : Verdict}
      (hd : DeclSays en sa v (some d) .accept) (hr : Whole u (some d) b ids evs x dc' o) :
      Whole u none b ids (.decl v en sa :: evs) x dc' o
  | badDecl {b : Bool} {ids : List Str} {v : Option Str} {en sa : Option (Option Str)}
      {rest : List Event} {o : Verdict} (hd : DeclSays en sa v none o) :
      Whole u none b ids (.decl v en sa :: rest) .nil none o
  | secondDecl {d : XmlDecl} {b : Bool} {ids : List Str} {v : Option Str}
      {en sa : Option (Option Str)} {rest : List Event} :
      Whole u (some d) b ids (.decl v en sa :: rest) .nil (some d) (.refuse .syntax)
  | leaf {dc dc' : Option XmlDecl} {b : Bool} {ids : List Str} {ev : Event} {evs : List Event}
      {l : Leaf} {x : Xml} {o : Verdict} (hl : LeafEvent u ev l) (hs : ¬ Stops ev)
      (hr : Whole u dc b ids evs x dc' o) : Whole u dc b ids (ev :: evs) (.leaf l x) dc' o
  | badPi {dc : Option XmlDecl} {b : Bool} {ids : List Str} {s : Str} {rest : List Event}
      (hs : BadPi u s) : Whole u dc b ids (.pi (some s) :: rest) .nil dc .crash
  | badName {dc : Option XmlDecl} {b : Bool} {ids : List Str} {n : Str} {as : List AttrEvent}
      {rest : List Event} {ev : Event} {o : Verdict}
      (he : ev = .start (some n) as ∨ ev = .empty (some n) as) (hn : NameSays n o)
      (ho : o ≠ .accept) : Whole u dc b ids (ev :: rest) .nil dc .crash
  | second {dc : Option XmlDecl} {ids : List Str} {n : Str} {as : List AttrEvent}
      {rest : List Event} {ev : Event} (he : ev = .start (some n) as ∨ ev = .empty (some n) as)
      (hn : NameSays n .accept) : Whole u dc true ids (ev :: rest) .nil dc (.refuse .hierarchyRequest)
  | badAttrs {dc : Option XmlDecl} {ids ids' : List Str} {n : Str} {as : List AttrEvent}
      {as' : List (Str × Str)} {rest : List Event} {ev : Event} {o : Verdict}
      (he : ev = .start (some n) as ∨ ev = .empty (some n) as) (hn : NameSays n .accept)
      (ha : Attrs u ids [] as as' ids' o) (ho : o ≠ .accept) :
      Whole u dc false ids (ev :: rest) (.element n as' .nil .nil) dc o
  | empty {dc dc' : Option XmlDecl} {ids ids1 : List Str} {n : Str} {as : List AttrEvent}
      {as' : List (Str × Str)} {evs : List Event} {x : Xml} {o : Verdict} (hn : NameSays n .accept)
      (ha : Attrs u ids [] as as' ids1 .accept) (hr : Whole u dc true ids1 evs x dc' o) :
      Whole u dc false ids (.empty (some n) as :: evs) (.element n as' .nil x) dc' o
  | crashed {dc : Option XmlDecl} {ids ids1 ids2 : List Str} {n : Str} {as : List AttrEvent}
      {as' : List (Str × Str)} {evs rest : List Event} {k : Xml} (hn : NameSays n .accept)
      (ha : Attrs u ids [] as as' ids1 .accept) (hk : Content u ids1 evs k rest ids2 .crash) :
      Whole u dc false ids (.start (some n) as :: evs) (.element n as' k .nil) dc .crash
  | element {dc dc' : Option XmlDecl} {ids ids1 ids2 : List Str} {n : Str} {as : List AttrEvent}
      {as' : List (Str × Str)} {evs evs2 : List Event} {k x : Xml} {o o' : Verdict}
      (hn : NameSays n .accept) (ha : Attrs u ids [] as as' ids1 .accept)
      (hk : Content u ids1 evs k evs2 ids2 o') (ho : o' ≠ .crash)
      (hr : Whole u dc true ids2 evs2 x dc' o) :
      Whole u dc false ids (.start (some n) as :: evs) (.element n as' k x) dc' o

/-- What a stream of events means: a document with this content and declaration, and whether it
is returned. -/
def Means (u : Uni) (evs : List Event) (x : Xml) (dc : Option XmlDecl) (o : Verdict) : Prop :=
  Whole u none false [] evs x dc o

end Spec
end XmlDom
