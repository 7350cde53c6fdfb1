import Verif.Lemmas.ParseCalm
import Verif.Lemmas.Footprint
import Verif.Lemmas.Witness

/-!
# C62 to C65: the reader
-/

namespace XmlDom
namespace Props
open Spec

/-! ## C62 -/

/-- C62: the events of a well-formed document are read into that document. -/
def C62_full : Prop :=
  ∀ (e : Env) (h : Heap) (decl : Option XmlDecl) (x : Xml) (evs : List Event), e.Ok →
    WellFormed x → DocumentEvents PiText decl x evs →
    ∃ d h', readXml e h evs = (.ok d, h') ∧ IsDocument e h' d decl x

/-- The document `<?a	b?><r/>`, with a tab. -/
def tabDoc : Xml := .leaf (.pi (c! "a") (some (c! "b"))) (.element (c! "r") [] .nil .nil)

theorem qname {s : Str} {n : Name} (h : Name.fromStr s = .ok n) : IsQName s :=
  (C27_only_qnames s n h).1

theorem ncname {s : Str} (h : Name.fromStr s = .ok ⟨none, none, s⟩) : IsNcName s := by
  rcases fromStr_ok h with ⟨_, h1, _⟩ | ⟨p, l, _, h2, _⟩
  · exact h1
  · cases h2

theorem tabDoc_wellFormed : WellFormed tabDoc := by
  refine ⟨⟨Or.inr ⟨_, _, rfl⟩, trivial⟩, rfl, ⟨?_, ?_, ?_, trivial, trivial⟩,
    ⟨by simp, trivial, trivial⟩⟩
  · intro t d ht
    cases ht
    exact ⟨ncname (by decide), fun a b c h => by cases h⟩
  · exact qname (n := ⟨none, none, c! "r"⟩) (by decide)
  · intro a ha; cases ha

/-- C62 does not hold: white space other than a space after the target of a processing
instruction makes the reader panic. -/
theorem C62_full_false : ¬ C62_full := by
  intro hf
  have hev : DocumentEvents PiText none tabDoc [.pi (some (c! "a\tb")), .empty (some (c! "r")) []] := by
    refine ⟨[], _, [], .none, .pi (d := some (c! "b")) ?_ (.empty (as := []) .nil), Or.inl rfl, rfl⟩
    exact PiText.data (t := c! "a") (w := []) (d := []) (c := '\t') (x := 'b') (by decide)
      (by decide) (by simp) (by decide)
  obtain ⟨d, h', h1, _⟩ := hf plainEnv Heap.empty none tabDoc _ plainEnv_ok tabDoc_wellFormed hev
  have h2 := congrArg (fun r => (r.1 : Outcome NodeId)) h1
  have h3 : (readXml plainEnv Heap.empty [.pi (some (c! "a\tb")), .empty (some (c! "r")) []]).1.Panics :=
    by decide
  rw [h1] at h3
  exact h3

/-- C62 (partial: name parts start inside ASCII, the target of a processing instruction is
followed by a space and its data is trimmed, and the values of `xml:id` attributes are
distinct names): the events of a well-formed document are read into that document. -/
theorem C62_builds_partial (e : Env) (h : Heap) (decl : Option XmlDecl) (x : Xml)
    (evs : List Event) (he : e.Ok) (hx : WellFormed x) (ha : x.Named AsciiParts AsciiStart)
    (hn : x.ids.Nodup) (hid : ∀ v ∈ x.ids, IsNcName v)
    (hev : DocumentEvents (PiTame e.uni) decl x evs) :
    ∃ h', readXml e h evs = (.ok h.next, h') ∧ IsDocument e h' h.next decl x := by
  obtain ⟨ds, es, tail, h1, h2, h3, rfl⟩ := hev
  obtain ⟨h', f, l, e1, t⟩ := prefix_read he.uni h h1 h2 ⟨hx.names.fit ha, hx.attrs⟩ hx.outer
    (Nat.le_of_eq hx.root) hn hid tail
  refine ⟨h', ?_, t.doc⟩
  rw [e1]
  cases f with
  | zero => exact absurd l (Nat.not_lt_zero _)
  | succ f => rcases h3 with rfl | ⟨t, rfl⟩ <;> simp only [parseLoop]

/-- A document with a declaration, a comment and a root with an id, text, a processing
instruction and an empty element. -/
def sampleDoc : Xml :=
  .leaf (.comment (c! "c")) (.element (c! "a:r") [(c! "xml:id", c! "k"), (c! "b", c! "1 < 2")]
    (.leaf (.text (c! "t")) (.leaf (.pi (c! "p") (some (c! "q"))) (.element (c! "e") [] .nil .nil))) .nil)

/-- Its declaration. -/
def sampleDecl : XmlDecl := ⟨.v10, some (c! "UTF-8"), some true⟩

/-- Its events. -/
def sampleEvents : List Event :=
  [.decl (some (c! "1.0")) (some (some (c! "UTF-8"))) (some (some (c! "yes"))),
    .comment (some (c! "c")),
    .start (some (c! "a:r")) [.good (c! "xml:id") (c! "k"), .good (c! "b") (c! "1 < 2")],
    .text (some (c! "t")), .pi (some (c! "p q")), .empty (some (c! "e")) [], .close, .eof]

theorem sampleDoc_wellFormed : WellFormed sampleDoc := by
  refine ⟨⟨Or.inl ⟨_, rfl⟩, trivial⟩, rfl, ⟨?_, ?_, ?_, ⟨?_, ?_, ?_, ?_, trivial, trivial⟩, trivial⟩,
    ⟨by decide, ⟨by decide, trivial, trivial⟩, trivial⟩⟩
  · intro t d ht; cases ht
  · exact qname (n := ⟨none, some (c! "a"), c! "r"⟩) (by decide)
  · intro a ha
    simp only [List.mem_cons, List.not_mem_nil, or_false] at ha
    rcases ha with rfl | rfl
    · exact qname (n := ⟨none, some (c! "xml"), c! "id"⟩) (by decide)
    · exact qname (n := ⟨none, none, c! "b"⟩) (by decide)
  · intro t d ht; cases ht
  · intro t d ht
    cases ht
    exact ⟨ncname (by decide), fun a b c h => by cases h⟩
  · exact qname (n := ⟨none, none, c! "e"⟩) (by decide)
  · intro a ha; cases ha

theorem asciiStart_cons {c : Char} {cs : Str} (h : c.toNat < 128) : AsciiStart (c :: cs) :=
  ⟨c, cs, rfl, h⟩

theorem sampleDoc_ascii : sampleDoc.Named AsciiParts AsciiStart := by
  refine ⟨?_, ?_, ?_, ⟨?_, ?_, ?_, ?_, trivial, trivial⟩, trivial⟩
  · intro t d ht; cases ht
  · exact Or.inr ⟨c! "a", c! "r", rfl, asciiStart_cons (by decide), asciiStart_cons (by decide)⟩
  · intro a ha
    simp only [List.mem_cons, List.not_mem_nil, or_false] at ha
    rcases ha with rfl | rfl
    · exact Or.inr ⟨c! "xml", c! "id", rfl, asciiStart_cons (by decide), asciiStart_cons (by decide)⟩
    · exact Or.inl ⟨asciiStart_cons (by decide), by decide⟩
  · intro t d ht; cases ht
  · intro t d ht
    cases ht
    exact asciiStart_cons (by decide)
  · exact Or.inl ⟨asciiStart_cons (by decide), by decide⟩
  · intro a ha; cases ha

theorem sample_pi : PiTame asciiUni (c! "p q") (c! "p") (some (c! "q")) := by
  refine ⟨PiText.data (t := c! "p") (w := []) (d := []) (c := ' ') (x := 'q') (by decide)
    (by decide) (by simp) (by decide), ?_, ?_⟩
  · intro c r h; cases h; rfl
  · intro d hd c hc
    cases hd
    rcases hc with hc | hc <;> cases hc <;> decide

theorem utf8_encName : IsEncName (c! "UTF-8") := by
  rcases isEncoding_iff (c! "UTF-8") with ⟨_, h⟩ | ⟨h, _⟩
  · exact h
  · exact absurd h (by decide)

theorem sampleEvents_of : DocumentEvents (PiTame asciiUni) (some sampleDecl) sampleDoc sampleEvents := by
  have hk : Events (PiTame asciiUni)
      (.leaf (.text (c! "t")) (.leaf (.pi (c! "p") (some (c! "q"))) (.element (c! "e") [] .nil .nil)))
      [.text (some (c! "t")), .pi (some (c! "p q")), .empty (some (c! "e")) []] :=
    .text (.pi sample_pi (.empty (as := []) .nil))
  have hr := Events.comment (s := c! "c") (Events.element (n := c! "a:r")
    (as := [(c! "xml:id", c! "k"), (c! "b", c! "1 < 2")]) hk .nil)
  refine ⟨_, _, [.eof], .some (d := sampleDecl) ?_, hr, Or.inr ⟨[], rfl⟩, rfl⟩
  intro x hx
  cases hx
  exact utf8_encName

example (h : Heap) : ∃ h', readXml plainEnv h sampleEvents = (.ok h.next, h') ∧
    IsDocument plainEnv h' h.next (some sampleDecl) sampleDoc :=
  C62_builds_partial plainEnv h _ _ _ plainEnv_ok sampleDoc_wellFormed sampleDoc_ascii (by decide)
    (by
      intro v hv
      have : v = c! "k" := by simpa [sampleDoc, Xml.ids] using hv
      subst this
      exact ncname (by decide)) sampleEvents_of

/-! ## C63 -/

theorem parseLoop_doc {e : Env} {d : NodeId} : ∀ (fuel : Nat) (evs : List Event) (h : Heap)
    (n : NodeId), (parseLoop e d fuel evs h).1 = .ok n → n = d := by
  intro fuel
  induction fuel with
  | zero => intro _ _ _ hn; cases hn
  | succ f ih =>
    intro evs h n hn
    have go : ∀ (r : Result NodeId) (rest : List Event), (match r with
          | (.ok _, h1) => parseLoop e d f rest h1
          | r => r).1 = .ok n → n = d := by
      intro r rest hr
      obtain ⟨o, h1⟩ := r
      cases o with
      | ok _ => exact ih rest h1 n hr
      | err _ => cases hr
      | panic _ => cases hr
      | diverge => cases hr
    cases evs with
    | nil => cases hn; rfl
    | cons ev rest =>
      cases ev with
      | decl v en sa =>
        simp only [parseLoop] at hn
        generalize handleDecl d v en sa h = q at hn
        obtain ⟨o, h1⟩ := q
        cases o with
        | ok _ => exact ih _ _ _ hn
        | err _ => cases hn
        | panic _ => cases hn
        | diverge => cases hn
      | start nm as =>
        simp only [parseLoop] at hn
        generalize handleStart e d d nm as h = q at hn
        obtain ⟨o, h1⟩ := q
        cases o with
        | ok el =>
          simp only at hn
          generalize parseElement e d (rest.length + 1) el rest h1 = r at hn
          obtain ⟨o2, rest2, h2⟩ := r
          cases o2 with
          | ok _ => exact ih _ _ _ hn
          | err _ => exact ih _ _ _ hn
          | panic _ => cases hn
          | diverge => cases hn
        | err _ => cases hn
        | panic _ => cases hn
        | diverge => cases hn
      | empty nm as => exact go _ _ hn
      | close => exact ih _ _ _ hn
      | text t => cases hn
      | cdata t => cases hn
      | comment t => exact go _ _ hn
      | pi t => exact go _ _ hn
      | other => cases hn
      | eof => cases hn; rfl
      | readError => cases hn

/-- A document stays a document without parent. -/
theorem _root_.XmlDom.Step.topDoc {l : Label} {h h' : Heap} (hs : Step l h h') {d : NodeId}
    (hd : d < h.next ∧ (h.get d).ntype = .document ∧ (h.get d).parent = none) :
    d < h'.next ∧ (h'.get d).ntype = .document ∧ (h'.get d).parent = none := by
  obtain ⟨h1, h2, h3⟩ := hd
  refine ⟨Nat.lt_of_lt_of_le h1 hs.grow.1, ?_⟩
  have key : ∀ (m : NodeId) (x : Node), x.ntype = (h.get m).ntype →
      (m = d → x.parent = none) → ((h.set m x).get d).ntype = .document ∧
      ((h.set m x).get d).parent = none := by
    intro m x e1 e2
    rw [Heap.get_set]
    split
    · rename_i he; subst he; exact ⟨e1.trans h2, e2 rfl⟩
    · exact ⟨h2, h3⟩
  cases hs with
  | alloc => rw [Heap.get_alloc, if_neg (Nat.ne_of_lt h1)]; exact ⟨h2, h3⟩
  | allocAttr => rw [(newAttribute_old h _ _ _ h1).1]; exact ⟨h2, h3⟩
  | clone => rw [Heap.get_alloc, if_neg (Nat.ne_of_lt h1)]; exact ⟨h2, h3⟩
  | unlink =>
    rw [get_unlink]
    refine ⟨h2, ?_⟩
    simp only
    split
    · rfl
    · exact h3
  | @link _ p c pos hp hc hne hallow _ hsame _ _ =>
    rw [get_link _ _ hne]
    refine ⟨h2, ?_⟩
    simp only
    split
    · rename_i he
      subst he
      rw [h2] at hallow
      exact absurd hallow (by cases (h.get p).ntype <;> decide)
    · exact h3
  | dealloc => exact ⟨h2, h3⟩
  | value => exact key _ _ rfl fun he => by rw [he]; exact h3
  | clear => exact key _ _ rfl fun he => by rw [he]; exact h3
  | attrOwner => exact key _ _ rfl fun he => by rw [he]; exact h3
  | attrPut => exact key _ _ rfl fun he => by rw [he]; exact h3
  | nsPut => exact key _ _ rfl fun he => by rw [he]; exact h3
  | attrDel => exact key _ _ rfl fun he => by rw [he]; exact h3
  | orphan => exact key _ _ rfl fun _ => rfl
  | idPut => exact key _ _ rfl fun he => by rw [he]; exact h3
  | decl => exact key _ _ rfl fun he => by rw [he]; exact h3

/-- C63: for every event stream, what the reader returns is a new document without parent. -/
theorem C63_document (e : Env) (h h' : Heap) (evs : List Event) (d : NodeId)
    (hr : readXml e h evs = (.ok d, h')) :
    d = h.next ∧ h'.live d = true ∧ nodeType h' d = .document ∧ parentNode h' d = none := by
  have o := opened_new h
  have he : readXml e h evs = parseLoop e h.next (evs.length + 1) evs
    (h.alloc (Node.newDocument none Options.new.setAddNamespaces)).2 := rfl
  rw [he] at hr
  generalize (h.alloc (Node.newDocument none Options.new.setAddNamespaces)).2 = h0 at hr o
  have hd : d = h.next := parseLoop_doc _ _ _ _ (by rw [hr])
  subst hd
  have st : Steps BasicL h0 h' := by
    have := parseLoop_steps (e := e) (evs.length + 1) evs h0 o.ctx.dlive
    rw [hr] at this
    exact this
  have top := st.inv (fun h1 => h.next < h1.next ∧ (h1.get h.next).ntype = .document ∧
    (h1.get h.next).parent = none) (fun _ _ _ hI _ hs => hs.topDoc hI)
    ⟨o.ctx.dlt, o.ctx.dtype, o.parent⟩
  refine ⟨rfl, st.basic_live o.ctx.dlive, top.2.1, ?_⟩
  unfold parentNode
  rw [top.2.2]
  split <;> rfl

/-- C63: for every event stream and whatever the reader returns, no node that existed before
is changed. -/
theorem C63_others_unchanged (e : Env) (h : Heap) (evs : List Event) (m : NodeId)
    (hm : m < h.next) : (readXml e h evs).2.get m = h.get m ∧
      (readXml e h evs).2.live m = h.live m := by
  have o : Only (fun m => h.next ≤ m) (fun m => h.next ≤ m) h (readXml e h evs).2 :=
    only_readXml (fun _ hm => hm) (fun _ hm => hm) evs
  refine ⟨?_, o.live m hm⟩
  rcases o.get m hm (Nat.not_le_of_lt hm) with h1 | ⟨h1, _⟩
  · exact h1
  · exact absurd h1 (Nat.not_le_of_lt hm)

example : ∃ h', readXml plainEnv Heap.empty sampleEvents = (.ok 0, h') :=
  (C62_builds_partial plainEnv Heap.empty _ _ _ plainEnv_ok sampleDoc_wellFormed sampleDoc_ascii
    (by decide) (by
      intro v hv
      have : v = c! "k" := by simpa [sampleDoc, Xml.ids] using hv
      subst this
      exact ncname (by decide)) sampleEvents_of).imp fun _ h => h.1

/-! ## C64 -/

/-- C64: a stream with an error, an unexpected event or an open element is refused. -/
def C64_full : Prop :=
  ∀ (e : Env) (h : Heap) (evs : List Event), e.Ok → Faulty 0 evs →
    ∃ er, (readXml e h evs).1 = .err er

/-- C64 does not hold: an error of the underlying reader inside the root is ignored. -/
theorem C64_full_false : ¬ C64_full := by
  intro hf
  obtain ⟨er, h⟩ := hf plainEnv Heap.empty [.start (some (c! "r")) [], .readError] plainEnv_ok
    (Or.inr (Or.inr trivial))
  have : (readXml plainEnv Heap.empty [.start (some (c! "r")) [], .readError]).1 = .ok 0 := by decide
  rw [this] at h
  cases h

/-- C64 (partial: at the top of the document only, after the declaration and any well-formed
content): an event that cannot be there is reported, whatever follows. -/
theorem C64_top_partial (e : Env) (h : Heap) (decl : Option XmlDecl) (x : Xml)
    (ds es rest : List Event) (ev : Event) (he : e.Ok) (hds : DeclEvents decl ds)
    (hes : Events (PiTame e.uni) x es) (ho : x.Outer) (hr : x.roots ≤ 1)
    (hq : x.Named IsQName fun t => IsNcName t ∧ Unreserved t) (ha : x.Named AsciiParts AsciiStart)
    (has : x.AttrLists fun as => (as.map (·.1)).Nodup) (hn : x.ids.Nodup)
    (hid : ∀ v ∈ x.ids, IsNcName v) (hev : Misplaced decl x.roots ev) :
    ∃ er, (readXml e h (ds ++ (es ++ ev :: rest))).1 = .err er := by
  obtain ⟨h', f, l, e1, t⟩ := prefix_read he.uni h hds hes ⟨hq.fit ha, has⟩ ho hr hn hid (ev :: rest)
  rw [e1]
  cases f with
  | zero => exact absurd l (Nat.not_lt_zero _)
  | succ f =>
    cases hev with
    | readError => exact ⟨_, rfl⟩
    | other => exact ⟨_, rfl⟩
    | text => exact ⟨_, rfl⟩
    | cdata => exact ⟨_, rfl⟩
    | comment => exact ⟨_, rfl⟩
    | pi => exact ⟨_, rfl⟩
    | start => exact ⟨_, rfl⟩
    | empty => exact ⟨_, rfl⟩
    | second n as h1 h2 h3 =>
      obtain ⟨h2, e2⟩ := start_second (e := e) t.ctx (goodName h2 h3) as (t.rooted h1)
      exact ⟨.hierarchyRequest, by simp only [parseLoop, e2]⟩
    | secondEmpty n as h1 h2 h3 =>
      obtain ⟨h2, e2⟩ := start_second (e := e) t.ctx (goodName h2 h3) as (t.rooted h1)
      exact ⟨.hierarchyRequest, by simp only [parseLoop, e2]⟩
    | decl v en sa hd =>
      obtain ⟨y, y1, _⟩ := t.ctx.dext
      have hy : y.xmlDecl = decl := by
        have := t.doc.decl
        unfold xmlDeclaration at this
        rw [y1] at this
        exact this
      have : handleDecl h.next v en sa h' = (.err .syntax, h') := by
        unfold handleDecl
        rw [y1]
        simp only
        rw [if_pos (by rw [hy]; exact hd)]
      exact ⟨.syntax, by simp only [parseLoop, this]⟩

example (h : Heap) : ∃ er, (readXml plainEnv h
    ([] ++ ([.empty (some (c! "r")) []] ++ .start (some (c! "s")) [] :: [.close]))).1 = .err er :=
  C64_top_partial plainEnv h none (.element (c! "r") [] .nil .nil) [] _ _ _ plainEnv_ok .none
    (.empty (as := []) .nil) trivial (by decide)
    ⟨qname (n := ⟨none, none, c! "r"⟩) (by decide), by simp, trivial, trivial⟩
    ⟨Or.inl ⟨asciiStart_cons (by decide), by decide⟩, by simp, trivial, trivial⟩
    ⟨by simp, trivial, trivial⟩ (by decide) (by simp [Xml.ids])
    (.second _ _ rfl (qname (n := ⟨none, none, c! "s"⟩) (by decide))
      (Or.inl ⟨asciiStart_cons (by decide), by decide⟩))

theorem parseLoop_closes {e : Env} {d : NodeId} (k : Nat) : ∀ (f : Nat) (h : Heap), k < f →
    parseLoop e d f (List.replicate k .close) h = (.ok d, h) := by
  induction k with
  | zero =>
    intro f h hf
    cases f with
    | zero => exact absurd hf (Nat.not_lt_zero _)
    | succ f => rfl
  | succ k ih =>
    intro f h hf
    cases f with
    | zero => exact absurd hf (Nat.not_lt_zero _)
    | succ f =>
      simp only [List.replicate_succ, parseLoop]
      exact ih f h (Nat.lt_of_succ_lt_succ hf)

/-- C64, how it fails: inside the root element no error is reported. A stream that ends
there is accepted, and so is one with an error or an unexpected event there. -/
theorem C64_inside_swallowed (e : Env) (h : Heap) (n : Str) (as : List (Str × Str)) (x : Xml)
    (es tail : List Event) (k : Nat) (he : e.Ok) (hes : Events (PiTame e.uni) x es)
    (hq : (Xml.element n as x .nil).Named IsQName fun t => IsNcName t ∧ Unreserved t)
    (ha : (Xml.element n as x .nil).Named AsciiParts AsciiStart)
    (has : (Xml.element n as x .nil).AttrLists fun as => (as.map (·.1)).Nodup)
    (hn : (Xml.element n as x .nil).ids.Nodup)
    (hid : ∀ v ∈ (Xml.element n as x .nil).ids, IsNcName v)
    (ht : tail = [] ∨ ∃ ev, Stray ev ∧ tail = ev :: List.replicate k .close) :
    (readXml e h (.start (some n) (as.map fun a => .good a.1 a.2) :: (es ++ tail))).1 =
      .ok h.next := by
  obtain ⟨h1, f1, l1, e1, o⟩ := doc_open e h DeclEvents.none
    (.start (some n) (as.map fun a => .good a.1 a.2) :: (es ++ tail))
  rw [List.nil_append] at e1
  rw [e1]
  have fresh : FreshIds h1 h.next (.element n as x .nil) :=
    ⟨hn, fun v hv => ⟨hid v hv, by rw [o.ids]; simp⟩⟩
  obtain ⟨fr1, fr2, _⟩ := fresh.element
  obtain ⟨m1, m2, m3, _⟩ := hq.fit ha
  obtain ⟨h2, e2, s⟩ := start_read he.uni o.ctx m1
    (fun _ m hm => by rw [o.children] at hm; cases hm) m2 has.1 fr1
  have hne : h1.next ≠ h.next := (Nat.ne_of_lt o.ctx.dlt).symm
  obtain ⟨h3, f3, ns, l3, e3, r⟩ := content_read he.uni hes ((es ++ tail).length + 1) tail h2 h1.next
    s.ctx hne (Nat.lt_succ_self _) ⟨m3, has.2.1⟩ (fr2 h2 s.ids)
  cases f1 with
  | zero => exact absurd l1 (Nat.not_lt_zero _)
  | succ f1 =>
    cases f3 with
    | zero => exact absurd l3 (Nat.not_lt_zero _)
    | succ f3 =>
      have l1' : (es ++ tail).length < f1 := Nat.lt_of_succ_lt_succ l1
      simp only [parseLoop, e2, e3]
      rcases ht with rfl | ⟨ev, hev, rfl⟩
      · simp only [parseElement]
        have := parseLoop_closes (e := e) (d := h.next) 0 f1 h3
          (Nat.lt_of_le_of_lt (Nat.zero_le _) l1')
        rw [show (List.replicate 0 Event.close) = [] from rfl] at this
        rw [this]
      · have l1'' : k < f1 := by
          simp only [List.length_append, List.length_cons, List.length_replicate] at l1'
          omega
        have := parseLoop_closes (e := e) (d := h.next) k f1 h3 l1''
        cases hev <;>
          simp only [parseElement, handleText, handleCdata, handleComment, handlePi, handleStart, this]

example (h : Heap) : (readXml plainEnv h (.start (some (c! "r")) [] :: ([.text (some (c! "t"))] ++
    (.readError :: List.replicate 1 .close)))).1 = .ok h.next :=
  C64_inside_swallowed plainEnv h (c! "r") [] (.leaf (.text (c! "t")) .nil) _ _ 1 plainEnv_ok
    (.text .nil) ⟨qname (n := ⟨none, none, c! "r"⟩) (by decide), by simp, ⟨by simp, trivial⟩, trivial⟩
    ⟨Or.inl ⟨asciiStart_cons (by decide), by decide⟩, by simp, ⟨by simp, trivial⟩, trivial⟩
    ⟨by simp, trivial, trivial⟩ (by decide) (by simp [Xml.ids])
    (Or.inr ⟨_, .readError, rfl⟩)

/-! ## C65 -/

/-- C65: the reader returns for every stream. -/
def C65_full : Prop :=
  ∀ (e : Env) (h : Heap) (evs : List Event), e.Ok → (readXml e h evs).1.Returns

/-- C65 does not hold: an element whose name is not a name makes the reader panic. -/
theorem C65_full_false : ¬ C65_full := by
  intro hf
  have := hf plainEnv Heap.empty [.start (some (c! "1")) []] plainEnv_ok
  exact absurd this (by decide)

/-- C65 (partial: for streams of calm events): the reader returns a document or an error. -/
theorem C65_returns_partial (e : Env) (h : Heap) (evs : List Event) (he : e.Ok)
    (hc : ∀ ev ∈ evs, Calm e.uni ev) : (readXml e h evs).1.Returns :=
  loop_calm he.uni _ evs _ (opened_new h).ctx (Nat.lt_succ_self _) hc

example (h : Heap) : (readXml plainEnv h [.start (some (c! "r")) [.good (c! "1") []], .other,
    .pi (some (c! "p q")), .eof]).1.Returns := by
  refine C65_returns_partial plainEnv h _ plainEnv_ok ?_
  intro ev hev
  simp only [List.mem_cons, List.not_mem_nil, or_false] at hev
  rcases hev with rfl | rfl | rfl | rfl
  · refine .start (qname (n := ⟨none, none, c! "r"⟩) (by decide))
      (Or.inl ⟨asciiStart_cons (by decide), by decide⟩) ?_
    intro a ha
    simp only [List.mem_cons, List.not_mem_nil, or_false] at ha
    subst ha
    have hw : ¬ WideStart (c! "1") := by
      rintro ⟨c, cs, h1, _, h2⟩
      cases h1
      exact absurd h2 (by decide)
    refine .good ⟨hw, ?_⟩ (fun hk => by cases hk)
    intro p l h1
    have hm : ':' ∈ c! "1" := by rw [h1]; simp
    exact absurd hm (by decide)
  · exact .other
  · exact .pi sample_pi (qname (n := ⟨none, none, c! "p"⟩) (by decide))
      (Or.inl ⟨asciiStart_cons (by decide), by decide⟩) (fun a b c h => by cases h)
  · exact .eof

/-- C65, how it fails: a root whose name is no qualified name always makes the reader
panic. -/
theorem C65_bad_name_panics (e : Env) (h : Heap) (n : Str) (as : List AttrEvent)
    (rest : List Event) (hn : ¬ IsQName n) :
    (readXml e h (.start (some n) as :: rest)).1.Panics ∧
      (readXml e h (.empty (some n) as :: rest)).1.Panics := by
  have hs : ∀ h1 d, ∃ k h2, handleStart e d d (some n) as h1 = (.panic k, h2) := by
    intro h1 d
    unfold handleStart createElement createNamed
    simp only
    cases hx : Name.fromStr n with
    | ok nm => exact absurd (qname hx) hn
    | err er => exact ⟨_, _, rfl⟩
    | panic k => exact ⟨_, _, rfl⟩
    | diverge => exact absurd hx (fromStr_ne_diverge n)
  have hr : ∀ evs, readXml e h evs = parseLoop e h.next (evs.length + 1) evs
    (h.alloc (Node.newDocument none Options.new.setAddNamespaces)).2 := fun _ => rfl
  rw [hr, hr]
  obtain ⟨k, h2, h3⟩ := hs (h.alloc (Node.newDocument none Options.new.setAddNamespaces)).2 h.next
  simp only [parseLoop, h3]
  exact ⟨trivial, trivial⟩

example : ¬ IsQName (c! "1") := by
  rintro (⟨⟨c, cs, h1, h2, _⟩, _⟩ | ⟨p, l, h1, _⟩)
  · cases h1
    exact absurd h2 (by decide)
  · have hm : ':' ∈ c! "1" := by rw [h1]; simp
    exact absurd hm (by decide)

end Props
end XmlDom
