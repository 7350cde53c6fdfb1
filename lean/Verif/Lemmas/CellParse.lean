import Verif.Lemmas.CellAttr
import Verif.Lemmas.Invariants

/-!
# The parser with its guards

`Near b` relates the outcome of a call with guards to the outcome without: both return, both
report the same error, or both panic; with `b` also the kind of the panic is the same.
-/

namespace XmlDom.Cell
open XmlDom

/-- Related outcomes. -/
inductive Near (b : Bool) {α : Type} : Outcome α → Outcome α → Prop
  | ok (a : α) : Near b (.ok a) (.ok a)
  | err (e : DomError) : Near b (.err e) (.err e)
  | panic (k k' : PanicKind) (hk : b = true → k = k') : Near b (.panic k) (.panic k')
  | diverge : Near b .diverge .diverge

theorem Near.refl (b : Bool) {α : Type} (o : Outcome α) : Near b o o := by
  cases o with
  | ok a => exact .ok a
  | err e => exact .err e
  | panic k => exact .panic k k fun _ => rfl
  | diverge => exact .diverge

theorem Near.eq {α : Type} {o o' : Outcome α} (n : Near true o o') : o = o' := by
  cases n with
  | panic k k' hk => rw [hk rfl]
  | _ => rfl

theorem Near.blur {b : Bool} {α : Type} {o o' : Outcome α} (n : Near b o o') :
    o.blur = o'.blur := by
  cases n <;> rfl

theorem near_blur {α : Type} {o o' : Outcome α} (h : o.blur = o'.blur) : Near false o o' := by
  cases o <;> cases o' <;> simp [Outcome.blur] at h <;> subst_vars
  · exact .ok _
  · exact .err _
  · exact .panic _ _ nofun
  · exact .diverge

/-- Related results: the same heap and related outcomes. -/
def NearR (b : Bool) {α : Type} (p q : Result α) : Prop := p.2 = q.2 ∧ Near b p.1 q.1

theorem NearR.refl (b : Bool) {α : Type} (p : Result α) : NearR b p p := ⟨rfl, .refl _ _⟩

theorem NearR.of_eq {b : Bool} {α : Type} {p q : Result α} (h : p = q) : NearR b p q :=
  h ▸ .refl _ _

theorem NearR.eq {α : Type} {p q : Result α} (n : NearR true p q) : p = q :=
  Prod.ext n.2.eq n.1

/-- Related results of `element`. -/
def NearP (b : Bool) (p q : ParseResult) : Prop :=
  p.rest = q.rest ∧ p.heap = q.heap ∧ Near b p.out q.out

/-- An attribute whose value is not looked up while the document is borrowed. -/
def Tame : AttrEvent → Prop
  | .good k v => ∀ nm, Name.fromStr k = .ok nm → nm.isIdAttribute true = true →
    ∀ c ∈ v, c ≠ '&' ∧ c ≠ '%'
  | _ => True

/-- An event with such attributes only. -/
def TameEvent : Event → Prop
  | .start _ as => ∀ a ∈ as, Tame a
  | .empty _ as => ∀ a ∈ as, Tame a
  | _ => True

theorem createAttributeWith_ok {h h1 : Heap} {d a : NodeId} {k v : Str}
    (hc : createAttributeWith h d k v = (.ok a, h1)) :
    ∃ nm, Name.fromStr k = .ok nm ∧ h.newAttribute d nm (some v) = (a, h1) := by
  unfold createAttributeWith createAttr at hc
  cases hk : Name.fromStr k with
  | ok nm =>
    rw [hk] at hc
    cases hc
    exact ⟨nm, rfl, rfl⟩
  | err e => rw [hk] at hc; cases hc
  | panic e => rw [hk] at hc; cases hc
  | diverge => rw [hk] at hc; cases hc

theorem handleAttributes_near (b : Bool) (e : Env) (doc el : NodeId) (as : List AttrEvent)
    (ht : b = true → ∀ a ∈ as, Tame a) :
    ∀ h, NearR b (handleAttributes e doc el as [] h) (XmlDom.handleAttributes e doc el as h) := by
  induction as with
  | nil => intro h; exact .refl _ _
  | cons x as ih =>
    intro h
    have ih := ih fun hb a ha => ht hb a (List.mem_cons_of_mem _ ha)
    cases x with
    | bad => exact .refl _ _
    | undecodable => exact .refl _ _
    | good k v =>
      have hx := fun hb => ht hb _ List.mem_cons_self
      rw [handleAttributes, bind_run]
      unfold XmlDom.handleAttributes
      simp only [still]
      cases hc : createAttributeWith h doc k v with
      | mk o h1 =>
        cases o with
        | ok a =>
          obtain ⟨nm, hk, hn⟩ := createAttributeWith_ok hc
          have p1 := newAttribute_plain h doc nm v
          have p2 := newAttribute_name h doc nm v
          rw [hn] at p1 p2
          simp only
          have key : NearR b (setAttributeNode e el a [] h1) (XmlDom.setAttributeNode e h1 el a) := by
            cases b with
            | true =>
              refine .of_eq (setAttributeNode_exact e h1 (fun _ => p1) ?_)
              rintro ⟨q1, c, q2, q3⟩
              rw [p2.1] at q1
              rw [p2.2] at q2
              exact q3.elim (hx rfl nm hk q1 c q2).1 (hx rfl nm hk q1 c q2).2
            | false =>
              obtain ⟨q1, q2⟩ := setAttributeNode_run e (n := el) h1 fun _ => p1
              refine ⟨q1, near_blur ?_⟩
              rw [← q2]
              cases (setAttributeNode e el a [] h1).1 <;> rfl
          rw [bind_run]
          generalize setAttributeNode e el a [] h1 = p at key ⊢
          generalize XmlDom.setAttributeNode e h1 el a = q at key ⊢
          rcases p with ⟨p, g1⟩
          rcases q with ⟨q, g2⟩
          obtain ⟨k1, k2⟩ := key
          change g1 = g2 at k1
          change Near b p q at k2
          subst k1
          cases k2 with
          | ok _ => exact ih _
          | err x => exact ⟨rfl, .err x⟩
          | panic x y hxy => exact ⟨rfl, .panic x y hxy⟩
          | diverge => exact ⟨rfl, .diverge⟩
        | err x => exact .refl _ _
        | panic x => exact .refl _ _
        | diverge => exact .refl _ _

theorem checkDocument {α : Type} {doc : NodeId} {h : Heap} (hd : (h.get doc).ntype = .document)
    (p : Prog α) : (unwrapOk (asType .document doc) >>= fun _ => p) [] h = p [] h := by
  rw [bind_run]
  unfold unwrapOk
  rw [asType_run (by simp), if_pos hd]

theorem handleStart_near (b : Bool) (e : Env) {doc : NodeId} (parent : NodeId) (nm : Option Str)
    {as : List AttrEvent} (ht : b = true → ∀ a ∈ as, Tame a) {h : Heap}
    (hd : (h.get doc).ntype = .document) :
    NearR b (handleStart e doc parent nm as [] h) (XmlDom.handleStart e doc parent nm as h) := by
  unfold handleStart
  rw [checkDocument hd]
  unfold XmlDom.handleStart
  cases nm with
  | none => exact .refl _ _
  | some nm =>
    simp only
    rw [bind_run]
    unfold unwrapOk
    simp only [still]
    generalize createElement h doc nm = r
    rcases r with ⟨o, h1⟩
    cases o with
    | ok el =>
      simp only
      rw [bind_run, appendChild_run]
      generalize XmlDom.appendChild h1 parent el = r
      rcases r with ⟨o, h2⟩
      cases o with
      | ok el2 => exact handleAttributes_near b e doc el2 as ht h2
      | err x => exact .refl _ _
      | panic x => exact .refl _ _
      | diverge => exact .refl _ _
    | err x => exact .refl _ _
    | panic x => exact .refl _ _
    | diverge => exact .refl _ _

theorem handleData_run {doc : NodeId} (parent : NodeId) (create : Str → Heap → Result NodeId)
    (t : Option Str) {h : Heap} (hd : (h.get doc).ntype = .document) :
    handleData doc parent create t [] h = (match t with
      | none => (.err .syntax, h)
      | some s =>
        match create s h with
        | (.ok n, h1) => XmlDom.appendChild h1 parent n
        | r => r : Result NodeId) := by
  unfold handleData
  rw [checkDocument hd]
  cases t with
  | none => rfl
  | some s =>
    simp only
    rw [bind_run]
    simp only [still]
    generalize create s h = r
    rcases r with ⟨o, h1⟩
    cases o with
    | ok n => exact appendChild_run ..
    | err x => rfl
    | panic x => rfl
    | diverge => rfl

theorem handleComment_run {doc : NodeId} (parent : NodeId) (t : Option Str) {h : Heap}
    (hd : (h.get doc).ntype = .document) :
    handleData doc parent (fun s h => createComment h doc s) t [] h =
      handleComment doc parent t h := by
  rw [handleData_run parent _ t hd]
  rfl

theorem handleText_run {doc : NodeId} (parent : NodeId) (t : Option Str) {h : Heap}
    (hd : (h.get doc).ntype = .document) :
    handleData doc parent (fun s h => createTextNode h doc s) t [] h =
      handleText doc parent t h := by
  rw [handleData_run parent _ t hd]
  rfl

theorem handleCdata_run {doc : NodeId} (parent : NodeId) (t : Option Str) {h : Heap}
    (hd : (h.get doc).ntype = .document) :
    handleData doc parent (fun s h => createCdataSection h doc s) t [] h =
      handleCdata doc parent t h := by
  rw [handleData_run parent _ t hd]
  rfl

theorem handlePi_run (e : Env) {doc : NodeId} (parent : NodeId) (t : Option Str) {h : Heap}
    (hd : (h.get doc).ntype = .document) :
    handlePi e doc parent t [] h = XmlDom.handlePi e doc parent t h := by
  unfold handlePi
  rw [checkDocument hd]
  unfold XmlDom.handlePi
  cases t with
  | none => rfl
  | some s =>
    simp only
    rw [bind_run]
    unfold unwrapOk
    simp only [still]
    generalize createProcessingInstruction h doc (splitPi e.uni s).1 (splitPi e.uni s).2 = r
    rcases r with ⟨o, h1⟩
    cases o with
    | ok n => exact appendChild_run ..
    | err x => rfl
    | panic x => rfl
    | diverge => rfl

theorem handleDecl_run (doc : NodeId) (v : Option Str) (enc sa : Option (Option Str)) (h : Heap) :
    handleDecl doc v enc sa [] h = XmlDom.handleDecl doc v enc sa h := by
  rw [handleDecl, withMut_run (by simp) (by simp), bind_ok (load_run ..)]
  unfold XmlDom.handleDecl
  cases (h.get doc).ext with
  | document z =>
    simp only
    split
    · rfl
    · rw [bind_run, lift_run]
      change _ = match readDecl v enc sa with
        | .ok d => ((.ok (), h.set doc { h.get doc with
            ext := .document { z with xmlDecl := some d } }) : Result Unit)
        | .err er => (.err er, h)
        | .panic k => (.panic k, h)
        | .diverge => (.diverge, h)
      cases readDecl v enc sa with
      | ok d => simp only; rw [store_run]
      | err x => rfl
      | panic x => rfl
      | diverge => rfl
  | _ => rfl

/-! ## The loops -/

/-- What the loops rely on: the document is alive and a document. -/
structure Opened (h : Heap) (doc : NodeId) : Prop where
  inv : Inv h
  live : h.live doc = true
  type : (h.get doc).ntype = .document

theorem Opened.steps {h h' : Heap} {doc : NodeId} (o : Opened h doc) (s : Steps BasicL h h') :
    Opened h' doc :=
  ⟨s.invariant o.inv, s.basic_live o.live,
    ((s.keeps o.inv).ntype doc (o.inv.wf.fresh doc o.live)).trans o.type⟩

/-- What `element` has not read is the end of what it was given. -/
theorem parseElement_rest (e : Env) (doc : NodeId) : ∀ (fuel : Nat) (parent : NodeId)
    (evs : List Event) (h : Heap), (XmlDom.parseElement e doc fuel parent evs h).rest <:+ evs := by
  intro fuel
  induction fuel with
  | zero => intro _ evs _; exact List.suffix_refl _
  | succ fuel ih =>
    intro parent evs h
    have go : ∀ (r : Result NodeId) (ev : Event) (rest : List Event),
        ((match r with
          | (.ok _, h1) => XmlDom.parseElement e doc fuel parent rest h1
          | (o, h1) => ⟨o, rest, h1⟩) : ParseResult).rest <:+ ev :: rest := by
      rintro ⟨o, h1⟩ ev rest
      cases o with
      | ok n => exact (ih parent rest h1).trans (List.suffix_cons _ _)
      | _ => exact List.suffix_cons _ _
    unfold XmlDom.parseElement
    cases evs with
    | nil => exact List.suffix_refl _
    | cons ev rest =>
      cases ev with
      | start name attrs =>
        simp only
        generalize XmlDom.handleStart e doc parent name attrs h = r
        obtain ⟨o, h1⟩ := r
        cases o with
        | ok el =>
          have q := ih el rest h1
          simp only
          generalize XmlDom.parseElement e doc fuel el rest h1 = p at q ⊢
          obtain ⟨o2, rest2, hh2⟩ := p
          cases o2 with
          | ok _ => exact ((ih parent rest2 hh2).trans q).trans (List.suffix_cons _ _)
          | _ => exact q.trans (List.suffix_cons _ _)
        | _ => exact List.suffix_cons _ _
      | empty name attrs => exact go _ _ _
      | comment t => exact go _ _ _
      | pi t => exact go _ _ _
      | text t => exact go _ _ _
      | cdata t => exact go _ _ _
      | decl _ _ _ => exact List.suffix_cons _ _
      | close => exact List.suffix_cons _ _
      | other => exact List.suffix_cons _ _
      | eof => exact List.suffix_cons _ _
      | readError => exact List.suffix_cons _ _

theorem parseElement_near (b : Bool) (e : Env) {doc : NodeId} : ∀ (fuel : Nat) (parent : NodeId)
    (evs : List Event) (h : Heap), (b = true → ∀ ev ∈ evs, TameEvent ev) → Opened h doc →
    h.live parent = true →
    NearP b (parseElement e doc fuel parent evs h) (XmlDom.parseElement e doc fuel parent evs h) := by
  intro fuel
  induction fuel with
  | zero => intro parent evs h _ _ _; exact ⟨rfl, rfl, .refl _ _⟩
  | succ fuel ih =>
    intro parent evs h ht od hp
    have go : ∀ (r r' : Result NodeId) (rest : List Event), NearR b r r' → ReadRes h r' →
        (b = true → ∀ ev ∈ rest, TameEvent ev) → NearP b
        (match r with
          | (.ok _, h1) => parseElement e doc fuel parent rest h1
          | (o, h1) => ⟨o, rest, h1⟩)
        (match r' with
          | (.ok _, h1) => XmlDom.parseElement e doc fuel parent rest h1
          | (o, h1) => ⟨o, rest, h1⟩) := by
      rintro ⟨o, h1⟩ ⟨o', h2⟩ rest ⟨k1, k2⟩ hr ht
      change h1 = h2 at k1
      change Near b o o' at k2
      subst k1
      cases k2 with
      | ok a => exact ih parent rest h1 ht (od.steps hr.1) (hr.1.basic_live hp)
      | err x => exact ⟨rfl, rfl, .err x⟩
      | panic x y hxy => exact ⟨rfl, rfl, .panic x y hxy⟩
      | diverge => exact ⟨rfl, rfl, .diverge⟩
    unfold parseElement XmlDom.parseElement
    cases evs with
    | nil => exact ⟨rfl, rfl, .refl _ _⟩
    | cons ev rest =>
      have hrest : b = true → ∀ ev ∈ rest, TameEvent ev :=
        fun hb x hx => ht hb x (List.mem_cons_of_mem _ hx)
      have hev := fun hb => ht hb ev List.mem_cons_self
      cases ev with
      | start name attrs =>
        have hn := handleStart_near b e parent name (as := attrs) hev od.type
        have hr := handleStart_res (e := e) (nm := name) (as := attrs) od.live hp
        simp only
        generalize handleStart e doc parent name attrs [] h = r at hn ⊢
        generalize XmlDom.handleStart e doc parent name attrs h = r' at hn hr ⊢
        obtain ⟨o, h1⟩ := r
        obtain ⟨o', h2⟩ := r'
        obtain ⟨k1, k2⟩ := hn
        change h1 = h2 at k1
        change Near b o o' at k2
        subst k1
        cases k2 with
        | ok el =>
          have q1 := ih el rest h1 hrest (od.steps hr.1) (hr.2 el rfl)
          have q2 := parseElement_steps (e := e) fuel el rest h1 (hr.1.basic_live od.live)
            (hr.2 el rfl)
          have q3 := parseElement_rest e doc fuel el rest h1
          simp only
          generalize parseElement e doc fuel el rest h1 = p at q1 ⊢
          generalize XmlDom.parseElement e doc fuel el rest h1 = p' at q1 q2 q3 ⊢
          obtain ⟨o, r1, g1⟩ := p
          obtain ⟨o', r2, g2⟩ := p'
          obtain ⟨m1, m2, m3⟩ := q1
          change r1 = r2 at m1
          change g1 = g2 at m2
          change Near b o o' at m3
          subst m1 m2
          have s := hr.1.trans q2
          cases m3 with
          | ok a =>
            exact ih parent r1 g1 (fun hb x hx => hrest hb x (q3.subset hx)) (od.steps s)
              (s.basic_live hp)
          | err x => exact ⟨rfl, rfl, .err x⟩
          | panic x y hxy => exact ⟨rfl, rfl, .panic x y hxy⟩
          | diverge => exact ⟨rfl, rfl, .diverge⟩
        | err x => exact ⟨rfl, rfl, .err x⟩
        | panic x y hxy => exact ⟨rfl, rfl, .panic x y hxy⟩
        | diverge => exact ⟨rfl, rfl, .diverge⟩
      | empty name attrs =>
        exact go _ _ _ (handleStart_near b e parent name hev od.type)
          (handleStart_res od.live hp) hrest
      | comment t =>
        exact go _ _ _ (.of_eq (handleComment_run parent t od.type))
          (handleComment_res od.live hp) hrest
      | pi t =>
        exact go _ _ _ (.of_eq (handlePi_run e parent t od.type)) (handlePi_res od.live hp) hrest
      | text t =>
        exact go _ _ _ (.of_eq (handleText_run parent t od.type)) (handleText_res od.live hp) hrest
      | cdata t =>
        exact go _ _ _ (.of_eq (handleCdata_run parent t od.type))
          (handleCdata_res od.live hp) hrest
      | decl _ _ _ => exact ⟨rfl, rfl, .refl _ _⟩
      | close => exact ⟨rfl, rfl, .refl _ _⟩
      | other => exact ⟨rfl, rfl, .refl _ _⟩
      | eof => exact ⟨rfl, rfl, .refl _ _⟩
      | readError => exact ⟨rfl, rfl, .refl _ _⟩

theorem parseLoop_near (b : Bool) (e : Env) {doc : NodeId} : ∀ (fuel : Nat) (evs : List Event)
    (h : Heap), (b = true → ∀ ev ∈ evs, TameEvent ev) → Opened h doc →
    NearR b (parseLoop e doc fuel evs h) (XmlDom.parseLoop e doc fuel evs h) := by
  intro fuel
  induction fuel with
  | zero => intro evs h _ _; exact .refl _ _
  | succ fuel ih =>
    intro evs h ht od
    have go : ∀ (r r' : Result NodeId) (rest : List Event), NearR b r r' → ReadRes h r' →
        (b = true → ∀ ev ∈ rest, TameEvent ev) → NearR b
        (match r with
          | (.ok _, h1) => parseLoop e doc fuel rest h1
          | r => r)
        (match r' with
          | (.ok _, h1) => XmlDom.parseLoop e doc fuel rest h1
          | r => r) := by
      rintro ⟨o, h1⟩ ⟨o', h2⟩ rest ⟨k1, k2⟩ hr ht
      change h1 = h2 at k1
      change Near b o o' at k2
      subst k1
      cases k2 with
      | ok a => exact ih rest h1 ht (od.steps hr.1)
      | err x => exact ⟨rfl, .err x⟩
      | panic x y hxy => exact ⟨rfl, .panic x y hxy⟩
      | diverge => exact ⟨rfl, .diverge⟩
    unfold parseLoop XmlDom.parseLoop
    cases evs with
    | nil => exact .refl _ _
    | cons ev rest =>
      have hrest : b = true → ∀ ev ∈ rest, TameEvent ev :=
        fun hb x hx => ht hb x (List.mem_cons_of_mem _ hx)
      have hev := fun hb => ht hb ev List.mem_cons_self
      cases ev with
      | decl v enc sa =>
        have hr := handleDecl_steps (doc := doc) (v := v) (enc := enc) (sa := sa) (h := h)
        simp only
        rw [handleDecl_run]
        generalize XmlDom.handleDecl doc v enc sa h = r at hr ⊢
        obtain ⟨o, h1⟩ := r
        cases o with
        | ok _ => exact ih rest h1 hrest (od.steps hr)
        | err x => exact .refl _ _
        | panic x => exact .refl _ _
        | diverge => exact .refl _ _
      | start name attrs =>
        have hn := handleStart_near b e doc name (as := attrs) hev od.type
        have hr := handleStart_res (e := e) (nm := name) (as := attrs) od.live od.live
        simp only
        generalize handleStart e doc doc name attrs [] h = r at hn ⊢
        generalize XmlDom.handleStart e doc doc name attrs h = r' at hn hr ⊢
        obtain ⟨o, h1⟩ := r
        obtain ⟨o', h2⟩ := r'
        obtain ⟨k1, k2⟩ := hn
        change h1 = h2 at k1
        change Near b o o' at k2
        subst k1
        cases k2 with
        | ok el =>
          have q1 := parseElement_near b e (rest.length + 1) el rest h1 hrest (od.steps hr.1)
            (hr.2 el rfl)
          have q2 := parseElement_steps (e := e) (rest.length + 1) el rest h1
            (hr.1.basic_live od.live) (hr.2 el rfl)
          have q3 := parseElement_rest e doc (rest.length + 1) el rest h1
          simp only
          generalize parseElement e doc (rest.length + 1) el rest h1 = p at q1 ⊢
          generalize XmlDom.parseElement e doc (rest.length + 1) el rest h1 = p' at q1 q2 q3 ⊢
          obtain ⟨o, r1, g1⟩ := p
          obtain ⟨o', r2, g2⟩ := p'
          obtain ⟨m1, m2, m3⟩ := q1
          change r1 = r2 at m1
          change g1 = g2 at m2
          change Near b o o' at m3
          subst m1 m2
          have s := hr.1.trans q2
          have next := ih r1 g1 (fun hb x hx => hrest hb x (q3.subset hx)) (od.steps s)
          cases m3 with
          | ok a => exact next
          | err x => exact next
          | panic x y hxy => exact ⟨rfl, .panic x y hxy⟩
          | diverge => exact ⟨rfl, .diverge⟩
        | err x => exact ⟨rfl, .err x⟩
        | panic x y hxy => exact ⟨rfl, .panic x y hxy⟩
        | diverge => exact ⟨rfl, .diverge⟩
      | empty name attrs =>
        exact go _ _ _ (handleStart_near b e doc name hev od.type)
          (handleStart_res od.live od.live) hrest
      | comment t =>
        exact go _ _ _ (.of_eq (handleComment_run doc t od.type))
          (handleComment_res od.live od.live) hrest
      | pi t =>
        exact go _ _ _ (.of_eq (handlePi_run e doc t od.type)) (handlePi_res od.live od.live) hrest
      | close => exact ih rest h hrest od
      | text t => exact .refl _ _
      | cdata t => exact .refl _ _
      | other => exact .refl _ _
      | eof => exact .refl _ _
      | readError => exact .refl _ _

/-- Reading with its guards. -/
theorem readXml_near (b : Bool) (e : Env) {evs : List Event}
    (ht : b = true → ∀ ev ∈ evs, TameEvent ev) {h : Heap} (i : Inv h) :
    NearR b (readXml e evs [] h) (XmlDom.readXml e h evs) := by
  unfold readXml
  rw [bind_run]
  unfold unwrapOk
  rw [createDocumentWithOptions_run]
  unfold XmlDom.readXml createDocument
  have hc : XmlDom.createDocumentWithOptions h none none none Options.new.setAddNamespaces =
      (.ok h.next, (h.alloc (Node.newDocument none Options.new.setAddNamespaces)).2) := rfl
  have hs : Steps BasicL h (XmlDom.createDocumentWithOptions h none none none
      Options.new.setAddNamespaces).2 := (createDocumentWithOptions_steps fun _ ht => by cases ht).loud
  rw [hc] at hs ⊢
  refine parseLoop_near b e _ evs _ ht ⟨hs.invariant i, by simp, by simp [Node.newDocument]⟩

end XmlDom.Cell
