import Verif.Model.Cell

/-!
# Running the calls with their guards
-/

namespace XmlDom.Cell

variable {α β : Type}

/-! ## The building blocks -/

@[simp] theorem pure_run (a : α) (g : List Guard) (h : Heap) :
    (pure a : Prog α) g h = (.ok a, h) := rfl

theorem bind_run (p : Prog α) (f : α → Prog β) (g : List Guard) (h : Heap) :
    (p >>= f) g h = match p g h with
      | (.ok a, h1) => f a g h1
      | (.err e, h1) => (.err e, h1)
      | (.panic k, h1) => (.panic k, h1)
      | (.diverge, h1) => (.diverge, h1) := rfl

theorem bind_ok {p : Prog α} {f : α → Prog β} {g : List Guard} {h h1 : Heap} {a : α}
    (hp : p g h = (.ok a, h1)) : (p >>= f) g h = f a g h1 := by
  rw [bind_run, hp]

@[simp] theorem lift_run (o : Outcome α) (g : List Guard) (h : Heap) :
    lift o g h = (o, h) := rfl

@[simp] theorem fail_run (e : DomError) (g : List Guard) (h : Heap) :
    (fail e : Prog α) g h = (.err e, h) := rfl

@[simp] theorem abort_run (k : PanicKind) (g : List Guard) (h : Heap) :
    (abort k : Prog α) g h = (.panic k, h) := rfl

@[simp] theorem upgrade_run (w : Option NodeId) (g : List Guard) (h : Heap) :
    upgrade w g h = (.ok (h.upgrade w), h) := rfl

@[simp] theorem alloc_run (x : Node) (g : List Guard) (h : Heap) :
    alloc x g h = (.ok (h.alloc x).1, (h.alloc x).2) := rfl

@[simp] theorem unwrapSome_some (a : α) : unwrapSome (some a) = (pure a : Prog α) := rfl

@[simp] theorem unwrapSome_none : (unwrapSome none : Prog α) = abort .unwrap := rfl

theorem withRef_run {n : NodeId} {g : List Guard} (hn : (n, true) ∉ g) (p : Prog α)
    (h : Heap) : withRef n p g h = p ((n, false) :: g) h := if_neg hn

theorem withRef_held {n : NodeId} {g : List Guard} (hn : (n, true) ∈ g) (p : Prog α)
    (h : Heap) : withRef n p g h = (.panic .borrow, h) := if_pos hn

theorem withMut_run {n : NodeId} {g : List Guard} (h1 : (n, true) ∉ g) (h2 : (n, false) ∉ g)
    (p : Prog α) (h : Heap) : withMut n p g h = p ((n, true) :: g) h :=
  if_neg fun hm => hm.elim h1 h2

theorem withMut_held {n : NodeId} {g : List Guard} (hn : (n, true) ∈ g ∨ (n, false) ∈ g)
    (p : Prog α) (h : Heap) : withMut n p g h = (.panic .borrow, h) := if_pos hn

@[simp] theorem load_run (n : NodeId) (b : Bool) (g : List Guard) (h : Heap) :
    load n ((n, b) :: g) h = (.ok (h.get n), h) := by
  unfold load
  cases b <;> simp

@[simp] theorem store_run (n : NodeId) (x : Node) (g : List Guard) (h : Heap) :
    store n x ((n, true) :: g) h = (.ok (), h.set n x) := by
  simp [store]

theorem store_mem {n : NodeId} {g : List Guard} (hn : (n, true) ∈ g) (x : Node) (h : Heap) :
    store n x g h = (.ok (), h.set n x) := if_pos hn

theorem load_mem {n : NodeId} {g : List Guard} (hn : (n, true) ∈ g) (h : Heap) :
    load n g h = (.ok (h.get n), h) := if_pos (Or.inl hn)

theorem read_run {n : NodeId} {g : List Guard} (hn : (n, true) ∉ g) (f : Node → α)
    (h : Heap) : read n f g h = (.ok (f (h.get n)), h) := by
  rw [read, withRef_run hn, bind_run, load_run]
  rfl

theorem read_held {n : NodeId} {g : List Guard} (hn : (n, true) ∈ g) (f : Node → α)
    (h : Heap) : read n f g h = (.panic .borrow, h) := withRef_held hn _ _

/-- Only shared guards are alive. -/
def Shared (g : List Guard) : Prop := ∀ m, (m, true) ∉ g

theorem shared_nil : Shared [] := fun _ h => nomatch h

theorem Shared.cons {g : List Guard} (s : Shared g) (n : NodeId) : Shared ((n, false) :: g) := by
  intro m hm
  rcases List.mem_cons.mp hm with h | h
  · cases h
  · exact s m h

/-! ## Reading calls -/

section
variable {n : NodeId} {g : List Guard}

theorem isType_run (hn : (n, true) ∉ g) (t : NodeType) (h : Heap) :
    isType t n g h = (.ok (decide ((h.get n).ntype = t)), h) := read_run hn _ _

theorem asType_run (hn : (n, true) ∉ g) (t : NodeType) (h : Heap) :
    asType t n g h = (if (h.get n).ntype = t then .ok () else .err .invalidState, h) := by
  rw [asType, bind_ok (isType_run hn t h)]
  by_cases ht : (h.get n).ntype = t <;> simp [ht]

theorem nodeName_run (hn : (n, true) ∉ g) (h : Heap) :
    nodeName n g h = (.ok (XmlDom.nodeName h n), h) := read_run hn _ _

theorem nodeValue_run (hn : (n, true) ∉ g) (h : Heap) :
    nodeValue n g h = (.ok (XmlDom.nodeValue h n), h) := read_run hn _ _

theorem nodeType_run (hn : (n, true) ∉ g) (h : Heap) :
    nodeType n g h = (.ok (XmlDom.nodeType h n), h) := read_run hn _ _

theorem childNodes_run (hn : (n, true) ∉ g) (h : Heap) :
    childNodes n g h = (.ok (XmlDom.childNodes h n), h) := read_run hn _ _

theorem firstChild_run (hn : (n, true) ∉ g) (h : Heap) :
    firstChild n g h = (.ok (XmlDom.firstChild h n), h) := read_run hn _ _

theorem lastChild_run (hn : (n, true) ∉ g) (h : Heap) :
    lastChild n g h = (.ok (XmlDom.lastChild h n), h) := read_run hn _ _

theorem parentNode_run (hn : (n, true) ∉ g) (h : Heap) :
    parentNode n g h = (.ok (XmlDom.parentNode h n), h) := by
  rw [parentNode, bind_ok (isType_run hn _ h)]
  unfold XmlDom.parentNode
  by_cases ht : (h.get n).ntype = .attribute
  · simp [ht]
  · simp only [ht, decide_false, if_false, Bool.false_eq_true]
    rw [withRef_run hn, bind_ok (load_run ..)]
    cases hp : (h.get n).parent <;> simp [Heap.upgrade]

theorem ownerDocument_run (hn : (n, true) ∉ g) (h : Heap) :
    ownerDocument n g h = (.ok (XmlDom.ownerDocument h n), h) := by
  rw [ownerDocument, withRef_run hn, bind_ok (load_run ..)]
  unfold XmlDom.ownerDocument
  cases hp : (h.get n).owner <;> simp [Heap.upgrade]

theorem ownerElement_run (hn : (n, true) ∉ g) (h : Heap) :
    ownerElement n g h = (.ok (XmlDom.ownerElement h n), h) := by
  rw [ownerElement, withRef_run hn, bind_ok (load_run ..)]
  unfold XmlDom.ownerElement
  cases hp : (h.get n).ext <;> simp

theorem attributes_run (hn : (n, true) ∉ g) (h : Heap) :
    attributes n g h = (.ok (XmlDom.attributes h n), h) := by
  rw [attributes, bind_ok (isType_run hn _ h)]
  unfold XmlDom.attributes
  by_cases ht : (h.get n).ntype = .element
  · simp only [ht, decide_true, if_true]
    rw [read_run hn]
    rfl
  · simp [ht]

theorem hasChildNodes_run (hn : (n, true) ∉ g) (h : Heap) :
    hasChildNodes n g h = (.ok (!(h.get n).children.isEmpty), h) := by
  rw [hasChildNodes, bind_ok (childNodes_run hn h)]
  rfl

theorem hasAttributes_run (hn : (n, true) ∉ g) (h : Heap) :
    hasAttributes n g h = (.ok (XmlDom.hasAttributes h n), h) := by
  rw [hasAttributes, bind_ok (attributes_run hn h)]
  rfl

theorem previousSibling_run (s : Shared g) (h : Heap) :
    previousSibling n g h = (.ok (XmlDom.previousSibling h n), h) := by
  rw [previousSibling, bind_ok (isType_run (s n) _ h)]
  unfold XmlDom.previousSibling
  by_cases ht : (h.get n).ntype = .attribute
  · simp [ht]
  · simp only [ht, decide_false, if_false, Bool.false_eq_true]
    rw [withRef_run (s n), bind_ok (load_run ..)]
    cases hp : (h.get n).parent with
    | none => simp
    | some w =>
      simp only
      rw [bind_ok (upgrade_run ..)]
      cases hu : h.upgrade (some w) with
      | none => simp
      | some p =>
        simp only
        rw [withRef_run ((s.cons n) p), bind_ok (load_run ..)]
        cases position n (h.get p).children with
        | none => simp
        | some i => by_cases hi : i = 0 <;> simp [hi]

theorem nextSibling_run (s : Shared g) (h : Heap) :
    nextSibling n g h = (.ok (XmlDom.nextSibling h n), h) := by
  rw [nextSibling, bind_ok (isType_run (s n) _ h)]
  unfold XmlDom.nextSibling
  by_cases ht : (h.get n).ntype = .attribute
  · simp [ht]
  · simp only [ht, decide_false, if_false, Bool.false_eq_true]
    rw [withRef_run (s n), bind_ok (load_run ..)]
    cases hp : (h.get n).parent with
    | none => simp
    | some w =>
      simp only
      rw [bind_ok (upgrade_run ..)]
      cases hu : h.upgrade (some w) with
      | none => simp
      | some p =>
        simp only
        rw [withRef_run ((s.cons n) p), bind_ok (load_run ..)]
        cases position n (h.get p).children <;> simp

theorem charData_run (hn : (n, true) ∉ g) (h : Heap) :
    charData n g h = (.ok (XmlDom.charData h n), h) := by
  rw [charData, bind_ok (nodeType_run hn h), bind_ok (nodeValue_run hn h)]
  unfold XmlDom.charData XmlDom.nodeValue XmlDom.nodeType
  cases (h.get n).value with
  | none => simp
  | some v =>
    by_cases ht : (h.get n).ntype = .text ∨ (h.get n).ntype = .comment <;> simp [ht]

theorem charLength_run (hn : (n, true) ∉ g) (h : Heap) :
    charLength n g h = (.ok (XmlDom.charLength h n), h) := by
  rw [charLength, bind_ok (charData_run hn h)]
  unfold XmlDom.charLength
  cases XmlDom.charData h n <;> simp

theorem docType_run (hn : (n, true) ∉ g) (h : Heap) :
    docType n g h = (.ok (XmlDom.docType h n), h) := read_run hn _ _

theorem xmlDeclaration_run (hn : (n, true) ∉ g) (h : Heap) :
    xmlDeclaration n g h = (.ok (XmlDom.xmlDeclaration h n), h) := read_run hn _ _

theorem documentElement_run (hn : (n, true) ∉ g) (h : Heap) :
    documentElement n g h = (.ok (XmlDom.documentElement h n), h) := by
  rw [documentElement, bind_ok (childNodes_run hn h)]
  rfl

theorem getElementById_run (hn : (n, true) ∉ g) (h : Heap) (id : Str) :
    getElementById n id g h = (.ok (XmlDom.getElementById h n id), h) := by
  rw [getElementById, withRef_run hn, bind_ok (load_run ..)]
  unfold XmlDom.getElementById
  cases hp : (h.get n).ext <;> simp

end

/-! ## Editing the tree -/

section
variable {g : List Guard}

theorem isChildAllowed_run {p c : NodeId} (s : Shared g) (h : Heap) :
    isChildAllowed p c g h =
      (.ok (XmlDom.isChildAllowed (h.get p).ntype (h.get c).ntype), h) := by
  rw [isChildAllowed, withRef_run (s p), bind_ok (load_run ..), withRef_run ((s.cons p) c),
    bind_ok (load_run ..)]
  rfl

theorem unwrap_upgrade (w : NodeId) (f : NodeId → Prog α) (h : Heap) :
    (upgrade (some w) >>= fun o => unwrapSome o >>= f) g h =
      if h.live w then f w g h else (.panic .unwrap, h) := by
  rw [bind_ok (upgrade_run ..)]
  by_cases hl : h.live w <;> simp [Heap.upgrade, hl, bind_run]

theorem checkSameDocument_run {n c : NodeId} (hn : (n, true) ∉ g) (hc : (c, true) ∉ g)
    (h : Heap) :
    checkSameDocument n c g h = (XmlDom.checkSameDocument h n c, h) := by
  rw [checkSameDocument, bind_ok (nodeType_run hn h)]
  unfold XmlDom.checkSameDocument XmlDom.nodeType
  by_cases ht : (h.get n).ntype = .document
  · simp only [ht, if_true]
    rw [withRef_run hc, bind_ok (load_run ..)]
    cases (h.get c).owner with
    | none => simp
    | some w =>
      simp only
      rw [unwrap_upgrade]
      by_cases hl : h.live w <;> by_cases hd : n = w <;> simp [hl, hd]
  · simp only [ht, if_false]
    have hc' : (c, true) ∉ (n, false) :: g := by
      intro hm
      rcases List.mem_cons.mp hm with h | h
      · cases h
      · exact hc h
    rw [withRef_run hn, bind_ok (load_run ..), withRef_run hc', bind_ok (load_run ..)]
    cases (h.get n).owner with
    | none => cases (h.get c).owner <;> simp
    | some v =>
      cases (h.get c).owner with
      | none => simp
      | some w =>
        simp only
        rw [unwrap_upgrade]
        by_cases hv : h.live v
        · simp only [hv, if_true]
          rw [unwrap_upgrade]
          by_cases hl : h.live w <;> by_cases hd : v = w <;> simp [hl, hd]
        · simp [hv]

theorem removeChild_run (n c : NodeId) (h : Heap) :
    removeChild n c [] h = XmlDom.removeChild h n c := by
  rw [removeChild, bind_ok (read_run (by simp) _ _)]
  unfold XmlDom.removeChild
  cases position c (h.get n).children with
  | none => simp
  | some i =>
    simp only
    rw [bind_ok (h1 := h.set n { h.get n with children := (h.get n).children.eraseIdx i })
      (a := ())]
    · rw [withMut_run (by simp) (by simp), bind_ok (load_run ..), bind_ok (store_run ..)]
      rfl
    · rw [withMut_run (by simp) (by simp), bind_ok (load_run ..), store_run]

theorem insertOrAppend_run (p c : NodeId) (pos : Option Nat) (h : Heap) :
    insertOrAppend p c pos [] h = XmlDom.insertOrAppend h p c pos := by
  rw [insertOrAppend, withMut_run (by simp) (by simp), bind_ok (load_run ..)]
  unfold XmlDom.insertOrAppend
  cases pos with
  | none => simp
  | some i => by_cases hi : i ≤ (h.get p).children.length <;> simp [hi]

theorem insertFragment_run (p : NodeId) (pos : Option Nat) (cs : List NodeId) :
    ∀ (k : Nat) (h : Heap),
      insertFragment p pos k cs [] h = XmlDom.insertFragment h p pos k cs := by
  induction cs with
  | nil => intro k h; rfl
  | cons c cs ih =>
    intro k h
    rw [insertFragment, bind_run, insertOrAppend_run]
    unfold XmlDom.insertFragment
    rcases XmlDom.insertOrAppend h p c (pos.map (· + k)) with ⟨o, h1⟩
    cases o with
    | ok _ => simp only; exact ih _ _
    | err e => rfl
    | panic k => rfl
    | diverge => rfl

theorem anyElement_run (s : Shared g) (cs : List NodeId) (h : Heap) :
    anyElement cs g h =
      (.ok (cs.any fun c => decide ((h.get c).ntype = .element)), h) := by
  induction cs with
  | nil => rfl
  | cons c cs ih =>
    rw [anyElement, bind_ok (nodeType_run (s c) h)]
    unfold XmlDom.nodeType
    by_cases ht : (h.get c).ntype = .element
    · simp [ht]
    · simp only [ht, if_false]
      rw [ih]
      simp [ht]

theorem secondElement_run {n c : NodeId} (s : Shared g) (h : Heap) :
    secondElement n c g h = (.ok (decide ((h.get n).ntype = .document ∧
      (h.get c).ntype = .element ∧
      (h.get n).children.any (fun c => decide ((h.get c).ntype = .element)) = true)), h) := by
  rw [secondElement, bind_ok (isType_run (s n) _ h)]
  by_cases ht : (h.get n).ntype = .document
  · simp only [ht, decide_true, if_true]
    rw [bind_ok (isType_run (s c) _ h)]
    by_cases hc : (h.get c).ntype = .element
    · simp only [hc, decide_true, if_true]
      rw [bind_ok (childNodes_run (s n) h), anyElement_run s]
      simp only [XmlDom.childNodes, true_and, Bool.decide_eq_true]
    · simp [hc]
  · simp [ht]

theorem insertPosition_run {n : NodeId} (s : Shared g) (r : Option NodeId) (h : Heap) :
    insertPosition n r g h = (match XmlDom.insertPosition h n r with
      | none => .err .notFound
      | some pos => .ok pos, h) := by
  unfold insertPosition XmlDom.insertPosition
  cases r with
  | none => simp
  | some r =>
    simp only
    rw [withRef_run (s n), bind_ok (load_run ..)]
    cases position r (h.get n).children <;> simp

theorem set_set (h : Heap) (n : NodeId) (x y : Node) : (h.set n x).set n y = h.set n y := by
  unfold Heap.set
  congr 1
  funext m
  by_cases hm : m = n <;> simp [hm]

theorem get_set_same (h : Heap) (n : NodeId) (x : Node) : (h.set n x).get n = x := by
  simp [Heap.set]

theorem get_set_other {h : Heap} {n m : NodeId} (hm : m ≠ n) (x : Node) :
    (h.set n x).get m = h.get m := by
  simp [Heap.set, hm]

theorem placeChild_run (n c : NodeId) (pos : Option Nat) (h : Heap) :
    placeChild n c pos [] h = XmlDom.placeChild h n c pos := by
  unfold XmlDom.placeChild
  by_cases hnc : n = c
  · subst hnc
    rw [placeChild, bind_run, withRef_run (by simp), bind_ok (load_run ..),
      withMut_held (by simp)]
    simp
  · have hcn : ¬ c = n := fun h => hnc h.symm
    simp only [hnc, if_false]
    rw [placeChild, bind_ok (h1 := h.set c { h.get c with
        parent := some n,
        owner := if (h.get n).ntype = .document then some n else (h.get n).owner }) (a := ())]
    · generalize hh1 : h.set c { h.get c with
        parent := some n,
        owner := if (h.get n).ntype = .document then some n else (h.get n).owner } = h1
      rw [bind_ok (isType_run (by simp) _ h1)]
      by_cases hf : (h1.get c).ntype = .documentFragment
      · simp only [hf, decide_true, if_true]
        rw [bind_ok (childNodes_run (by simp) h1), bind_run, insertFragment_run]
        simp only [XmlDom.childNodes]
        rcases XmlDom.insertFragment h1 n pos 0 (h1.get c).children with ⟨o, h2⟩
        cases o <;> rfl
      · simp only [hf, decide_false, if_false, Bool.false_eq_true]
        rw [bind_run, insertOrAppend_run]
        rcases XmlDom.insertOrAppend h1 n c pos with ⟨o, h2⟩
        cases o <;> rfl
    · rw [withRef_run (by simp), bind_ok (load_run ..),
        withMut_run (by simp) (by simp [hcn]), bind_ok (load_run ..), bind_ok (store_run ..),
        bind_ok (isType_run (by simp [hnc]) _ _)]
      rw [get_set_other hnc]
      by_cases ht : (h.get n).ntype = .document
      · simp only [ht, decide_true, if_true]
        rw [bind_ok (load_run ..), store_run, set_set, get_set_same]
      · simp only [ht, decide_false, if_false, Bool.false_eq_true]
        rw [bind_ok (load_run ..), store_run, set_set, get_set_same]

theorem insertBefore_run (n c : NodeId) (r : Option NodeId) (h : Heap) :
    insertBefore n c r [] h = XmlDom.insertBefore h n c r := by
  rw [insertBefore, bind_ok (isChildAllowed_run shared_nil h)]
  unfold XmlDom.insertBefore
  cases ha : XmlDom.isChildAllowed (h.get n).ntype (h.get c).ntype with
  | false => simp
  | true =>
    simp only [if_true, Bool.true_eq_false, if_false]
    rw [bind_ok (secondElement_run shared_nil h)]
    by_cases hs : (h.get n).ntype = .document ∧ (h.get c).ntype = .element ∧
        (h.get n).children.any (fun c => decide ((h.get c).ntype = .element)) = true
    · rw [if_pos hs, if_pos (decide_eq_true hs)]; rfl
    · rw [if_neg hs, if_neg (by simpa using hs), bind_run, insertPosition_run shared_nil]
      cases XmlDom.insertPosition h n r with
      | none => rfl
      | some pos =>
        simp only
        rw [bind_run, checkSameDocument_run (by simp) (by simp)]
        cases XmlDom.checkSameDocument h n c with
        | err e => rfl
        | panic k => rfl
        | diverge => rfl
        | ok _ =>
          simp only
          rw [bind_ok (parentNode_run (by simp) h)]
          cases XmlDom.parentNode h c with
          | none => exact placeChild_run ..
          | some p =>
            simp only
            rw [bind_run, removeChild_run]
            rcases XmlDom.removeChild h p c with ⟨o, h1⟩
            cases o with
            | ok _ => exact placeChild_run ..
            | err e => rfl
            | panic k => rfl
            | diverge => rfl

theorem appendChild_run (n c : NodeId) (h : Heap) :
    appendChild n c [] h = XmlDom.appendChild h n c := insertBefore_run ..

theorem replaceChild_run (n c o : NodeId) (h : Heap) :
    replaceChild n c o [] h = XmlDom.replaceChild h n c o := by
  rw [replaceChild, bind_ok (isChildAllowed_run shared_nil h)]
  unfold XmlDom.replaceChild
  cases ha : XmlDom.isChildAllowed (h.get n).ntype (h.get c).ntype with
  | false => simp
  | true =>
    simp only [if_true, Bool.true_eq_false, if_false]
    rw [bind_ok (read_run (by simp) _ _)]
    by_cases ho : o ∈ (h.get n).children
    · simp only [ho, decide_true, if_true]
      rw [bind_ok (nextSibling_run shared_nil h), bind_run, removeChild_run]
      rcases XmlDom.removeChild h n o with ⟨q, h1⟩
      cases q with
      | ok x =>
        simp only
        rw [bind_run, insertBefore_run]
        rcases XmlDom.insertBefore h1 n c (XmlDom.nextSibling h o) with ⟨q, h2⟩
        cases q <;> rfl
      | err e => rfl
      | panic k => rfl
      | diverge => rfl
    · simp [ho]

/-! ## Values -/

theorem setNodeValue_run (n : NodeId) (v : Str) (h : Heap) :
    setNodeValue n v [] h = XmlDom.setNodeValue h n v := by
  rw [setNodeValue, withMut_run (by simp) (by simp), bind_ok (load_run ..), store_run]
  rfl

theorem unsetNodeValue_run (n : NodeId) (h : Heap) :
    unsetNodeValue n [] h = XmlDom.unsetNodeValue h n := by
  rw [unsetNodeValue, withMut_run (by simp) (by simp), bind_ok (load_run ..), store_run]
  rfl

theorem substringData_run {n : NodeId} (hn : (n, true) ∉ g) (ov : Bool) (o c : Nat) (h : Heap) :
    substringData ov n o c g h = (nodeSubstringData ov h n o c, h) := by
  rw [substringData, withRef_run hn, bind_ok (load_run ..)]
  rfl

theorem appendData_run (n : NodeId) (s : Str) (h : Heap) :
    appendData n s [] h = nodeAppendData h n s := by
  rw [appendData, withMut_run (by simp) (by simp), bind_ok (load_run ..), store_run]
  rfl

theorem storeValue_run (n : NodeId) (o : Outcome (Option Str)) (h : Heap) :
    (lift o >>= fun v => store n { h.get n with value := v }) [(n, true)] h =
      storeValue h n o := by
  rw [bind_run]
  cases o <;> simp [storeValue]

theorem insertData_run (ov : Bool) (n : NodeId) (o : Nat) (s : Str) (h : Heap) :
    insertData ov n o s [] h = nodeInsertData ov h n o s := by
  rw [insertData, withMut_run (by simp) (by simp), bind_ok (load_run ..)]
  exact storeValue_run ..

theorem deleteData_run (ov : Bool) (n : NodeId) (o c : Nat) (h : Heap) :
    deleteData ov n o c [] h = nodeDeleteData ov h n o c := by
  rw [deleteData, withMut_run (by simp) (by simp), bind_ok (load_run ..)]
  exact storeValue_run ..

theorem replaceData_run (ov : Bool) (n : NodeId) (o c : Nat) (s : Str) (h : Heap) :
    replaceData ov n o c s [] h = nodeReplaceData ov h n o c s := by
  rw [replaceData, withMut_run (by simp) (by simp), bind_ok (load_run ..)]
  exact storeValue_run ..

theorem orPanic_removeChild (n c : NodeId) (f : Unit → Prog Unit) (h : Heap) :
    (orPanic (removeChild n c) >>= f) [] h = match XmlDom.removeChild h n c with
      | (.ok _, h1) => f () [] h1
      | (_, h1) => (.panic .explicit, h1) := by
  rw [bind_run, orPanic, removeChild_run]
  unfold XmlDom.removeChild
  cases position c (h.get n).children <;> rfl

theorem normalizeLoop_run (n : NodeId) (cs : List NodeId) :
    ∀ h, normalizeLoop n cs [] h = XmlDom.normalizeLoop n cs h := by
  induction cs with
  | nil => intro h; rfl
  | cons c cs ih =>
    intro h
    rw [normalizeLoop, bind_ok (isType_run (by simp) _ h)]
    unfold XmlDom.normalizeLoop
    by_cases ht : (h.get c).ntype = .text
    · simp only [ht, decide_true, if_true]
      rw [bind_ok (charLength_run (by simp) h)]
      by_cases hl : XmlDom.charLength h c = 0
      · simp only [hl, if_true]
        rw [orPanic_removeChild]
        rcases XmlDom.removeChild h n c with ⟨o, h1⟩
        cases o with
        | ok _ => exact ih _
        | err e => rfl
        | panic k => rfl
        | diverge => rfl
      · simp only [hl, if_false]
        rw [bind_ok (previousSibling_run shared_nil h)]
        cases XmlDom.previousSibling h c with
        | none => exact ih _
        | some l =>
          simp only
          rw [bind_ok (isType_run (by simp) _ h)]
          by_cases hl2 : (h.get l).ntype = .text
          · simp only [hl2, decide_true, if_true]
            rw [bind_ok (nodeValue_run (by simp) h)]
            unfold XmlDom.nodeValue
            cases (h.get c).value with
            | none => rfl
            | some v =>
              simp only [unwrapSome_some]
              rw [bind_ok (pure_run ..), bind_ok (h1 := (nodeAppendData h l v).2) (a := ())]
              · rw [orPanic_removeChild]
                rcases XmlDom.removeChild (nodeAppendData h l v).2 n c with ⟨o, h1⟩
                cases o with
                | ok _ => exact ih _
                | err e => rfl
                | panic k => rfl
                | diverge => rfl
              · rw [orPanic, appendData_run]
                rfl
          · simp only [hl2, decide_false, if_false, Bool.false_eq_true]
            exact ih _
    · simp only [ht, decide_false, if_false, Bool.false_eq_true]
      exact ih _

theorem normalize_run (n : NodeId) (h : Heap) :
    normalize n [] h = XmlDom.normalize h n := by
  rw [normalize, bind_ok (childNodes_run (by simp) h)]
  exact normalizeLoop_run ..

theorem splitData_run (ov : Bool) (n : NodeId) (o : Nat) (h : Heap) :
    splitData ov n o [] h =
      if XmlDom.isCharacterData (h.get n).ntype = false then (.err .invalidState, h)
      else if XmlDom.charLength h n ≤ o then (.ok [], h)
      else match nodeSubstringData ov h n o (XmlDom.charLength h n - o) with
        | .err e => (.err e, h)
        | .panic k => (.panic k, h)
        | .diverge => (.diverge, h)
        | .ok newData =>
          match nodeDeleteData ov h n o (XmlDom.charLength h n - o) with
          | (.ok _, h1) => (.ok newData, h1)
          | (.err e, h1) => (.err e, h1)
          | (.panic k, h1) => (.panic k, h1)
          | (.diverge, h1) => (.diverge, h1) := by
  rw [splitData, bind_run, asCharacterData, bind_ok (read_run (by simp) _ _)]
  cases hc : isCharacterData (h.get n).ntype with
  | false => rfl
  | true =>
    simp only [if_true, Bool.true_eq_false, if_false, pure_run]
    rw [bind_ok (charLength_run (by simp) h)]
    by_cases hl : XmlDom.charLength h n ≤ o
    · simp [hl]
    · simp only [hl, if_false]
      rw [bind_run, substringData_run (by simp)]
      cases nodeSubstringData ov h n o (XmlDom.charLength h n - o) with
      | err e => rfl
      | panic k => rfl
      | diverge => rfl
      | ok s =>
        simp only
        rw [bind_run, deleteData_run]
        rcases nodeDeleteData ov h n o (XmlDom.charLength h n - o) with ⟨q, h1⟩
        cases q <;> rfl

theorem splitTail_run (n : NodeId) (s : Str) (h : Heap) :
    splitTail n s [] h = XmlDom.splitTail h n s := by
  rw [splitTail, bind_run, withMut_run (by simp) (by simp), bind_ok (load_run ..)]
  unfold XmlDom.splitTail
  have tail : ∀ x : Node, (alloc x >>= fun new => parentNode n >>= fun o => match o with
        | none => pure new
        | some p => nextSibling n >>= fun next => insertBefore p new next >>= fun _ => pure new)
        [] h = match XmlDom.parentNode (h.alloc x).2 n with
      | none => (.ok (h.alloc x).1, (h.alloc x).2)
      | some p =>
        match XmlDom.insertBefore (h.alloc x).2 p (h.alloc x).1
            (XmlDom.nextSibling (h.alloc x).2 n) with
        | (.ok _, h2) => (.ok (h.alloc x).1, h2)
        | q => q := by
    intro x
    rw [bind_ok (alloc_run ..), bind_ok (parentNode_run (by simp) _)]
    cases XmlDom.parentNode (h.alloc x).2 n with
    | none => rfl
    | some p =>
      simp only
      rw [bind_ok (nextSibling_run shared_nil _), bind_run, insertBefore_run]
      rcases XmlDom.insertBefore (h.alloc x).2 p (h.alloc x).1
        (XmlDom.nextSibling (h.alloc x).2 n) with ⟨q, h2⟩
      cases q <;> rfl
  cases (h.get n).ntype with
  | text =>
    cases (h.get n).owner with
    | none => rfl
    | some d => exact tail _
  | cdata =>
    cases (h.get n).owner with
    | none => rfl
    | some d => exact tail _
  | _ => rfl

theorem splitText_run (ov : Bool) (n : NodeId) (o : Nat) (h : Heap) :
    splitText ov n o [] h = XmlDom.splitText ov h n o := by
  rw [splitText, bind_run, splitData_run]
  unfold XmlDom.splitText
  by_cases hc : XmlDom.isCharacterData (h.get n).ntype = false
  · simp only [hc, if_true]
  · simp only [hc]
    by_cases hl : XmlDom.charLength h n ≤ o
    · simp only [hl, if_true]
      exact splitTail_run ..
    · simp only [hl, if_false]
      cases nodeSubstringData ov h n o (XmlDom.charLength h n - o) with
      | err e => rfl
      | panic k => rfl
      | diverge => rfl
      | ok s =>
        simp only
        rcases nodeDeleteData ov h n o (XmlDom.charLength h n - o) with ⟨q, h1⟩
        cases q with
        | ok _ => exact splitTail_run ..
        | err e => rfl
        | panic k => rfl
        | diverge => rfl

end

end XmlDom.Cell
