import Verif.Model.Clone

/-!
# Model of `/repo/src/shared/display.rs`

The formatting functions return the text they write.
-/

namespace XmlDom

/-- Format a list of nodes one after the other (the `for` loops over children,
attributes, entities and notations). -/
def fmtList (g : NodeId → Outcome Str) : List NodeId → Outcome Str
  | [] => .ok []
  | c :: cs => (g c).bind fun a => (fmtList g cs).map fun b => a ++ b

/-- `fmt_attribute`, `/repo/src/shared/display.rs` 29-36. -/
def fmtAttribute (e : Env) (h : Heap) (n : NodeId) : Outcome Str :=
  (attrValue e.uni h n).map fun v =>
    (h.get n).name.display ++ c! "=\"" ++ v.getD [] ++ c! "\""

/-- `fmt_text`, `/repo/src/shared/display.rs` 38-43. -/
def fmtText (h : Heap) (n : NodeId) : Str :=
  match charData h n with
  | none => []
  | some d => d

/-- `fmt_cdata`, `/repo/src/shared/display.rs` 45-50. -/
def fmtCdata (h : Heap) (n : NodeId) : Str :=
  match charData h n with
  | none => []
  | some d => Syn.cdataStart ++ c! " " ++ d ++ c! " " ++ Syn.cdataEnd

/-- `fmt_processing_instruction`, `/repo/src/shared/display.rs` 52-60. -/
def fmtProcessingInstruction (h : Heap) (n : NodeId) : Str :=
  match (h.get n).value with
  | none => Syn.piStart ++ (h.get n).name.display ++ Syn.piEnd
  | some d => Syn.piStart ++ (h.get n).name.display ++ c! " " ++ d ++ Syn.piEnd

/-- `fmt_comment`, `/repo/src/shared/display.rs` 62-70. -/
def fmtComment (h : Heap) (n : NodeId) : Str :=
  match charData h n with
  | none => []
  | some d => Syn.commentStart ++ d ++ Syn.commentEnd

/-- `fmt_entity`, `/repo/src/shared/display.rs` 122-138. -/
def fmtEntity (h : Heap) (n : NodeId) : Str :=
  let ids : Option Str × Option Str × Option Str := match (h.get n).ext with
    | .entity p s nn => (p, s, nn)
    | _ => (none, none, none)
  Syn.entityStart ++ c! " " ++ (h.get n).name.display ++
    (match ids.1, ids.2.1 with
      | none, none => c! " \"" ++ ((h.get n).value.getD []) ++ c! "\""
      | some p, none => c! " " ++ Syn.doctypePublic ++ c! " \"" ++ p ++ c! "\""
      | some p, some s =>
        c! " " ++ Syn.doctypePublic ++ c! " \"" ++ p ++ c! "\"" ++ c! " \"" ++ s ++ c! "\""
      | none, some s => c! " " ++ Syn.doctypeSystem ++ c! " \"" ++ s ++ c! "\"") ++
    (match ids.2.2 with
      | none => []
      | some nn => c! " " ++ nn) ++
    Syn.entityEnd

/-- `fmt_entity_reference`, `/repo/src/shared/display.rs` 140-151. -/
def fmtEntityReference (h : Heap) (n : NodeId) : Str :=
  Syn.entityrefStart ++ (h.get n).name.display ++ Syn.entityrefEnd

/-- `fmt_notation`, `/repo/src/shared/display.rs` 153-164. -/
def fmtNotation (h : Heap) (n : NodeId) : Str :=
  let ids : Option Str × Option Str := match (h.get n).ext with
    | .notation p s => (p, s)
    | _ => (none, none)
  Syn.notationStart ++ c! " " ++ (h.get n).name.display ++
    (match ids.1, ids.2 with
      | none, none => []
      | some p, none => c! " " ++ Syn.doctypePublic ++ c! " \"" ++ p ++ c! "\""
      | some p, some s =>
        c! " " ++ Syn.doctypePublic ++ c! " \"" ++ p ++ c! "\"" ++ c! " \"" ++ s ++ c! "\""
      | none, some s => c! " " ++ Syn.doctypeSystem ++ c! " \"" ++ s ++ c! "\"") ++
    Syn.notationEnd

/-- `fmt_element`, `/repo/src/shared/display.rs` 11-27; `g` formats a node. The
attributes come in map iteration order. -/
def fmtElement (e : Env) (g : NodeId → Outcome Str) (h : Heap) (n : NodeId) : Outcome Str :=
  (fmtList (fun a => (g a).map fun s => ' ' :: s)
      ((e.attrOrder n (attributes h n)).map (·.2))).bind fun attrs =>
    (fmtList g (h.get n).children).map fun body =>
      Syn.elementStartStart ++ (h.get n).name.display ++ attrs ++ Syn.elementStartEnd ++ body ++
        Syn.elementEndStart ++ (h.get n).name.display ++ Syn.elementEndEnd

/-- `fmt_document`, `/repo/src/shared/display.rs` 72-83. -/
def fmtDocument (g : NodeId → Outcome Str) (h : Heap) (n : NodeId) : Outcome Str :=
  let decl := match xmlDeclaration h n with
    | none => []
    | some d => d.display
  (match docType h n with
    | none => Outcome.ok []
    | some t => g t).bind fun dt =>
    (fmtList g (h.get n).children).map fun body => decl ++ dt ++ body

/-- `fmt_document_type`, `/repo/src/shared/display.rs` 85-109. -/
def fmtDocumentType (e : Env) (g : NodeId → Outcome Str) (h : Heap) (n : NodeId) : Outcome Str :=
  let x : DocTypeExt := match (h.get n).ext with
    | .documentType x => x
    | _ => { entities := [], notations := [], publicId := none, systemId := none,
             internalSubset := none }
  let head := Syn.doctypeStart ++ c! " " ++ (h.get n).name.display ++
    (match x.publicId with
      | none => []
      | some i => c! " " ++ Syn.doctypePublic ++ c! " \"" ++ i ++ c! "\"") ++
    (match x.systemId with
      | none => []
      | some i => c! " " ++ Syn.doctypeSystem ++ c! " \"" ++ i ++ c! "\"")
  if 0 < x.entities.length + x.notations.length ∨ x.internalSubset.isSome then
    (fmtList g ((e.attrOrder n x.entities).map (·.2))).bind fun es =>
      (fmtList g ((e.attrOrder n x.notations).map (·.2))).map fun ns =>
        head ++ Syn.doctypeEntityStart ++ es ++ ns ++ x.internalSubset.getD [] ++
          Syn.doctypeEntityEnd ++ Syn.doctypeEnd
  else .ok (head ++ Syn.doctypeEnd)

/-- `fmt_document_fragment`, `/repo/src/shared/display.rs` 111-120. -/
def fmtDocumentFragment (g : NodeId → Outcome Str) (h : Heap) (n : NodeId) : Outcome Str :=
  (fmtList g (h.get n).children).map fun body =>
    Syn.cdataStart ++ (h.get n).name.display ++ c! " " ++ body ++ Syn.cdataEnd

/-- `fmt_node`, `/repo/src/shared/display.rs` 166-183, and `Display for RefNode`,
`/repo/src/level2/trait_impls.rs` 1170-1174. Running out of fuel means a reference
cycle. -/
def fmtNode (e : Env) (h : Heap) : Nat → NodeId → Outcome Str
  | 0, _ => .diverge
  | fuel + 1, n =>
    match (h.get n).ntype with
    | .element => fmtElement e (fmtNode e h fuel) h n
    | .attribute => fmtAttribute e h n
    | .text => .ok (fmtText h n)
    | .cdata => .ok (fmtCdata h n)
    | .processingInstruction => .ok (fmtProcessingInstruction h n)
    | .comment => .ok (fmtComment h n)
    | .document => fmtDocument (fmtNode e h fuel) h n
    | .documentType => fmtDocumentType e (fmtNode e h fuel) h n
    | .documentFragment => fmtDocumentFragment (fmtNode e h fuel) h n
    | .entity => .ok (fmtEntity h n)
    | .entityReference => .ok (fmtEntityReference h n)
    | .notationNode => .ok (fmtNotation h n)

end XmlDom
