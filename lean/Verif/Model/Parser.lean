import Verif.Model.Display

/-!
# Model of `/repo/src/parser/mod.rs`

The `quick-xml` reader is a parameter: a parse is a list of events. A part of an event
that the Rust code decodes or unescapes fallibly is an `Option`, with `none` for failure.
Simplification: which error a failing parse returns is not modelled; `.err .syntax`
stands for `Error::Malformed`, reader errors and decoding errors alike.
-/

namespace XmlDom

/-- One item of the attribute iterator, `/repo/src/parser/mod.rs` 260-266. -/
inductive AttrEvent
  /-- the iterator yields an error -/
  | bad
  /-- the value or the key does not decode -/
  | undecodable
  /-- a decoded key and an unescaped value -/
  | good (key value : Str)
  deriving DecidableEq, Repr

/-- `quick_xml::events::Event` as far as the code distinguishes it,
`/repo/src/parser/mod.rs` 126-183 and 204-237. -/
inductive Event
  /-- an XML declaration; the inner `none` is an item the reader cannot deliver -/
  | decl (version : Option Str) (encoding standalone : Option (Option Str))
  | start (name : Option Str) (attrs : List AttrEvent)
  | empty (name : Option Str) (attrs : List AttrEvent)
  | close
  | text (t : Option Str)
  | cdata (t : Option Str)
  | comment (t : Option Str)
  | pi (t : Option Str)
  /-- any other event: document type or general reference -/
  | other
  | eof
  /-- the reader reports an error -/
  | readError
  deriving DecidableEq, Repr

/-- The attribute loop of `handle_start`, `/repo/src/parser/mod.rs` 260-266. -/
def handleAttributes (e : Env) (doc el : NodeId) : List AttrEvent → Heap → Result NodeId
  | [], h => (.ok el, h)
  | .bad :: _, h => (.panic .unwrap, h)
  | .undecodable :: _, h => (.err .syntax, h)
  | .good k v :: as, h =>
    match createAttributeWith h doc k v with
    | (.ok a, h1) =>
      match setAttributeNode e h1 el a with
      | (.ok _, h2) => handleAttributes e doc el as h2
      | r => r
    | r => r

/-- `handle_start`, `/repo/src/parser/mod.rs` 243-269. -/
def handleStart (e : Env) (doc parent : NodeId) (name : Option Str) (attrs : List AttrEvent)
    (h : Heap) : Result NodeId :=
  match name with
  | none => (.err .syntax, h)
  | some nm =>
    match createElement h doc nm with
    | (.ok el, h1) =>
      match appendChild h1 parent el with
      | (.ok el', h2) => handleAttributes e doc el' attrs h2
      | r => r
    | (.err _, h1) => (.panic .unwrap, h1)
    | r => r

/-- `handle_comment`, `/repo/src/parser/mod.rs` 284-297. -/
def handleComment (doc parent : NodeId) (t : Option Str) (h : Heap) : Result NodeId :=
  match t with
  | none => (.err .syntax, h)
  | some s =>
    match createComment h doc s with
    | (.ok n, h1) => appendChild h1 parent n
    | r => r

/-- `handle_text`, `/repo/src/parser/mod.rs` 299-312. -/
def handleText (doc parent : NodeId) (t : Option Str) (h : Heap) : Result NodeId :=
  match t with
  | none => (.err .syntax, h)
  | some s =>
    match createTextNode h doc s with
    | (.ok n, h1) => appendChild h1 parent n
    | r => r

/-- `handle_cdata`, `/repo/src/parser/mod.rs` 314-328. -/
def handleCdata (doc parent : NodeId) (t : Option Str) (h : Heap) : Result NodeId :=
  match t with
  | none => (.err .syntax, h)
  | some s =>
    match createCdataSection h doc s with
    | (.ok n, h1) => appendChild h1 parent n
    | r => r

/-- `str::trim`, used at `/repo/src/parser/mod.rs` 342. -/
def trimWhite (u : Uni) (s : Str) : Str :=
  ((s.dropWhile u.white).reverse.dropWhile u.white).reverse

/-- Splitting a processing instruction, `/repo/src/parser/mod.rs` 337-350. -/
def splitPi (u : Uni) (s : Str) : Str × Option Str :=
  match s.dropWhile (fun c => decide (c ≠ ' ')) with
  | [] => (s, none)
  | _ :: rest =>
    let data := trimWhite u rest
    (s.takeWhile (fun c => decide (c ≠ ' ')), if data = [] then none else some data)

/-- `handle_pi`, `/repo/src/parser/mod.rs` 330-364. -/
def handlePi (e : Env) (doc parent : NodeId) (t : Option Str) (h : Heap) : Result NodeId :=
  match t with
  | none => (.err .syntax, h)
  | some s =>
    match createProcessingInstruction h doc (splitPi e.uni s).1 (splitPi e.uni s).2 with
    | (.ok n, h1) => appendChild h1 parent n
    | (.err _, h1) => (.panic .unwrap, h1)
    | r => r

/-- `unquote`, `/repo/src/parser/mod.rs` 406-416. A lone quote makes the slice
`s[1..0]`, which panics. -/
def unquote (s : Str) : Outcome Str :=
  let strip (s : Str) : Outcome Str :=
    match s with
    | [] => .panic .slice
    | [_] => .panic .slice
    | _ :: rest => .ok rest.dropLast
  if s.head? = some '"' ∧ s.getLast? = some '"' then strip s
  else if s.head? = some '\'' ∧ s.getLast? = some '\'' then strip s
  else if s.head? = some '"' ∨ s.head? = some '\'' then .err .syntax
  else .ok s

/-- `make_decl`, `/repo/src/parser/mod.rs` 378-404. -/
def makeDecl (version : Option Str) (encoding standalone : Option (Option Str)) :
    Outcome (Str × Option Str × Option Bool) :=
  match version with
  | none => .panic .unwrap
  | some v =>
    (unquote v).bind fun v =>
      match encoding, standalone with
      | some none, _ => .panic .unwrap
      | _, some none => .panic .unwrap
      | none, none => .ok (v, none, none)
      | none, some (some s) => .ok (v, none, some (decide (s = Syn.standaloneYes)))
      | some (some x), none => .ok (v, some x, none)
      | some (some x), some (some s) =>
        .ok (v, some x, some (decide (s = Syn.standaloneYes)))

/-- The `Decl` arm of `document`, `/repo/src/parser/mod.rs` 128-145. -/
def handleDecl (doc : NodeId) (version : Option Str) (encoding standalone : Option (Option Str))
    (h : Heap) : Result Unit :=
  match (h.get doc).ext with
  | .document x =>
    if x.xmlDecl.isSome then (.err .syntax, h)
    else
      match (makeDecl version encoding standalone).bind fun d =>
          match XmlVersion.fromStr d.1 with
          | none => .panic .unwrap
          | some v => XmlDecl.new v d.2.1 d.2.2 with
      | .ok d =>
        (.ok (), h.set doc { h.get doc with ext := .document { x with xmlDecl := some d } })
      | .err er => (.err er, h)
      | .panic k => (.panic k, h)
      | .diverge => (.diverge, h)
  | _ => (.ok (), h)

/-- Result of a parsing loop: outcome, events not yet read, heap. -/
structure ParseResult where
  out : Outcome NodeId
  rest : List Event
  heap : Heap

/-- `element`, `/repo/src/parser/mod.rs` 198-239. The fuel is the number of events left
plus one and never runs out. A reader that has reached the end keeps reporting `Eof`, so
an empty event list behaves like one. -/
def parseElement (e : Env) (doc : NodeId) : Nat → NodeId → List Event → Heap → ParseResult
  | 0, _, evs, h => ⟨.diverge, evs, h⟩
  | fuel + 1, parent, evs, h =>
    let go (r : Result NodeId) (rest : List Event) : ParseResult :=
      match r with
      | (.ok _, h1) => parseElement e doc fuel parent rest h1
      | (o, h1) => ⟨o, rest, h1⟩
    match evs with
    | [] => ⟨.err .syntax, [], h⟩
    | .start name attrs :: rest =>
      match handleStart e doc parent name attrs h with
      | (.ok el, h1) =>
        match parseElement e doc fuel el rest h1 with
        | ⟨.ok _, rest2, h2⟩ => parseElement e doc fuel parent rest2 h2
        | r => r
      | (o, h1) => ⟨o, rest, h1⟩
    | .empty name attrs :: rest => go (handleStart e doc parent name attrs h) rest
    | .close :: rest => ⟨.ok parent, rest, h⟩
    | .comment t :: rest => go (handleComment doc parent t h) rest
    | .pi t :: rest => go (handlePi e doc parent t h) rest
    | .text t :: rest => go (handleText doc parent t h) rest
    | .cdata t :: rest => go (handleCdata doc parent t h) rest
    | .decl _ _ _ :: rest => ⟨.err .syntax, rest, h⟩
    | .other :: rest => ⟨.err .syntax, rest, h⟩
    | .eof :: rest => ⟨.err .syntax, rest, h⟩
    | .readError :: rest => ⟨.err .syntax, rest, h⟩

/-- The loop of `document`, `/repo/src/parser/mod.rs` 125-184. The result of `element`
is discarded unless it is a panic. -/
def parseLoop (e : Env) (doc : NodeId) : Nat → List Event → Heap → Result NodeId
  | 0, _, h => (.diverge, h)
  | fuel + 1, evs, h =>
    let go (r : Result NodeId) (rest : List Event) : Result NodeId :=
      match r with
      | (.ok _, h1) => parseLoop e doc fuel rest h1
      | r => r
    match evs with
    | [] => (.ok doc, h)
    | .decl v enc sa :: rest =>
      match handleDecl doc v enc sa h with
      | (.ok _, h1) => parseLoop e doc fuel rest h1
      | (.err er, h1) => (.err er, h1)
      | (.panic k, h1) => (.panic k, h1)
      | (.diverge, h1) => (.diverge, h1)
    | .start name attrs :: rest =>
      match handleStart e doc doc name attrs h with
      | (.ok el, h1) =>
        match parseElement e doc (rest.length + 1) el rest h1 with
        | ⟨.ok _, rest2, h2⟩ => parseLoop e doc fuel rest2 h2
        | ⟨.err _, rest2, h2⟩ => parseLoop e doc fuel rest2 h2
        | ⟨.panic k, _, h2⟩ => (.panic k, h2)
        | ⟨.diverge, _, h2⟩ => (.diverge, h2)
      | r => r
    | .empty name attrs :: rest => go (handleStart e doc doc name attrs h) rest
    | .close :: rest => parseLoop e doc fuel rest h
    | .comment t :: rest => go (handleComment doc doc t h) rest
    | .pi t :: rest => go (handlePi e doc doc t h) rest
    | .eof :: _ => (.ok doc, h)
    | .text _ :: _ => (.err .syntax, h)
    | .cdata _ :: _ => (.err .syntax, h)
    | .other :: _ => (.err .syntax, h)
    | .readError :: _ => (.err .syntax, h)

/-- `document`, `/repo/src/parser/mod.rs` 121-185, behind `read_xml` and
`read_reader`. -/
def readXml (e : Env) (h : Heap) (evs : List Event) : Result NodeId :=
  match createDocument h none none none with
  | (.ok doc, h1) => parseLoop e doc (evs.length + 1) evs h1
  | (.err _, h1) => (.panic .unwrap, h1)
  | r => r

end XmlDom
