import Verif.Lemmas.CellParse
import Verif.Lemmas.Invariants
import Verif.Lemmas.Tree
import Verif.Lemmas.Witness

/-!
# Guards: the calls with their `RefCell` borrows
-/

namespace XmlDom.Props
open XmlDom

/-! ## C106: tracking the guards changes nothing -/

/-- The children of an attribute in a state that a program can reach. -/
theorem plainChildren {h : Heap} (i : Inv h) {a : NodeId} (hl : h.live a = true)
    (ha : (h.get a).ntype = .attribute) : Cell.PlainChildren h a := by
  intro c hc
  have h1 := i.allowed a hl c hc
  have h2 := i.exts c (i.wf.fresh c (i.wf.child hl hc))
  rw [ha] at h1
  generalize (h.get c).ntype = t at h1 h2 ⊢
  cases t <;> simp [isChildAllowed] at h1 <;> refine ⟨by simp, fun x hx => ?_⟩ <;>
    rw [hx] at h2 <;> simp [ExtFor] at h2

theorem leftBehind_void {α : Type} {p : Cell.Prog α} {h : Heap} {r : Result α}
    (hp : p [] h = r) : leftBehind h (Cell.void p [] h) = leftBehind h r := by
  unfold Cell.void
  rw [Cell.bind_run, hp]
  rcases r with ⟨o, h1⟩
  cases o <;> rfl

theorem leftBehind_agree {α β : Type} {h : Heap} {p : Outcome α × Heap} {q : Result β} {f : α → β}
    (ha : Cell.Agree p q f) : leftBehind h p = leftBehind h q := by
  obtain ⟨h1, h2⟩ := ha
  rcases p with ⟨o, h3⟩
  rcases q with ⟨r, h4⟩
  cases h1
  cases o <;> cases r <;> simp_all [Outcome.blur, Outcome.map, leftBehind]

theorem call_leftBehind {h : Heap} (i : Inv h) (e : Env) (op : Op)
    (ha : op.args.all h.live = true) : leftBehind h (Cell.call e op [] h) = op.apply e h := by
  cases op with
  | createDocument => exact leftBehind_void (Cell.createDocumentWithOptions_run ..)
  | insertBefore => exact leftBehind_void (Cell.insertBefore_run ..)
  | appendChild => exact leftBehind_void (Cell.appendChild_run ..)
  | replaceChild => exact leftBehind_void (Cell.replaceChild_run ..)
  | removeChild => exact leftBehind_void (Cell.removeChild_run ..)
  | cloneNode => exact leftBehind_void (Cell.cloneNode_run _ Cell.shared_nil _)
  | normalize => exact congrArg _ (Cell.normalize_run ..)
  | setNodeValue => exact congrArg _ (Cell.setNodeValue_run ..)
  | unsetNodeValue => exact congrArg _ (Cell.unsetNodeValue_run ..)
  | appendData => exact congrArg _ (Cell.appendData_run ..)
  | insertData => exact congrArg _ (Cell.insertData_run ..)
  | deleteData => exact congrArg _ (Cell.deleteData_run ..)
  | replaceData => exact congrArg _ (Cell.replaceData_run ..)
  | split => exact leftBehind_void (Cell.splitText_run ..)
  | setValue => exact congrArg _ (Cell.setValue_run ..)
  | unsetValue => exact congrArg _ (Cell.unsetValue_run ..)
  | setAttribute => exact leftBehind_agree (Cell.setAttributeNamed_run ..)
  | setAttributeNs => exact leftBehind_agree (Cell.setAttributeNamed_run ..)
  | setAttributeNode n a =>
    have hl : h.live a = true := by
      simp [Op.args] at ha; exact ha.2
    exact (leftBehind_void rfl).trans
      (leftBehind_agree (Cell.setAttributeNode_run e h fun ht => plainChildren i hl ht))
  | removeAttribute => exact congrArg _ (Cell.removeAttribute_run ..)
  | removeAttributeNs => exact congrArg _ (Cell.removeAttributeNs_run ..)
  | removeAttributeNode => exact leftBehind_void (Cell.removeAttributeNode_run ..)
  | setXmlDeclaration => exact congrArg _ (Cell.setXmlDeclaration_run ..)
  | readXml evs =>
    have hn := Cell.readXml_near false e (evs := evs) nofun i
    refine (leftBehind_void rfl).trans (leftBehind_agree ⟨hn.1, ?_⟩ (f := id))
    rw [← hn.2.blur]
    cases (Cell.readXml e evs [] h).1 <;> rfl
  | drop => rfl
  | _ => exact leftBehind_void rfl

/-- One call: with its guards it leaves the heap that it leaves without them. -/
theorem C106_call {h : Heap} (hr : Reachable h) (e : Env) (op : Op) :
    Cell.exec e op h = exec e op h := by
  unfold Cell.exec exec
  split
  · rename_i ha
    exact call_leftBehind hr.invariant e op ha
  · rfl

/-- Whole histories: with their guards they reach the states that they reach without. -/
theorem C106_history (ops : List (Env × Op)) : ∀ {h : Heap}, Reachable h →
    (∀ x ∈ ops, x.1.Ok) → Cell.run ops h = run ops h := by
  induction ops with
  | nil => intros; rfl
  | cons x ops ih =>
    intro h hr hok
    show Cell.run ops (Cell.exec x.1 x.2 h) = run ops (exec x.1 x.2 h)
    rw [C106_call hr]
    refine ih ?_ fun y hy => hok y (List.mem_cons_of_mem _ hy)
    exact hr.run (ops := [x]) fun y hy => by
      rw [List.mem_singleton.mp hy]
      exact hok x List.mem_cons_self

example : Reachable (after [mkDoc]) ∧ ∀ x ∈ [(plainEnv, mkDoc), (plainEnv, Op.appendChild 1 1)],
    x.1.Ok :=
  ⟨reachable_after _, by simp [plainEnv_ok]⟩

/-- The calls that give a value give the same value with their guards. -/
theorem C106_outcomes (h : Heap) (e : Env) (n c o : NodeId) (r : Option NodeId) (s : Str)
    (i j : Nat) (deep : Bool) :
    Cell.insertBefore n c r [] h = insertBefore h n c r ∧
    Cell.appendChild n c [] h = appendChild h n c ∧
    Cell.replaceChild n c o [] h = replaceChild h n c o ∧
    Cell.removeChild n c [] h = removeChild h n c ∧
    Cell.cloneNode i n deep [] h = cloneNode i h n deep ∧
    Cell.normalize n [] h = normalize h n ∧
    Cell.splitText e.overflowChecks n i [] h = splitText e.overflowChecks h n i ∧
    Cell.replaceData e.overflowChecks n i j s [] h = nodeReplaceData e.overflowChecks h n i j s ∧
    Cell.setValue n s [] h = setValue h n s ∧
    Cell.removeAttributeNode n c [] h = removeAttributeNode h n c :=
  ⟨Cell.insertBefore_run .., Cell.appendChild_run .., Cell.replaceChild_run ..,
    Cell.removeChild_run .., Cell.cloneNode_run _ Cell.shared_nil _, Cell.normalize_run ..,
    Cell.splitText_run .., Cell.replaceData_run .., Cell.setValue_run ..,
    Cell.removeAttributeNode_run ..⟩

/-! ## C107: conflicts between guards -/

/-- The statement asked for: no call of a program stops because a node is already
borrowed. -/
def C107_full : Prop :=
  ∀ (e : Env) (op : Op) (h : Heap), e.Ok → Reachable h → op.args.all h.live = true →
    (Cell.call e op [] h).1 ≠ .panic .borrow

/-- It is false: appending an element to itself. -/
theorem C107_full_false : ¬ C107_full := fun hf =>
  hf plainEnv (.appendChild 1 1) (after [mkDoc]) plainEnv_ok
    (reachable_after _) (by decide) (by decide)


/-- The call does not stop over a guard. -/
def Calm {α : Type} (o : Outcome α) : Prop := o ≠ .panic .borrow

theorem calm_ok {α : Type} (a : α) : Calm (.ok a) := nofun

theorem calm_err {α : Type} (e : DomError) : Calm (.err e : Outcome α) := nofun

theorem Calm.bind {α β : Type} {o : Outcome α} {f : α → Outcome β} (ho : Calm o)
    (hf : ∀ a, Calm (f a)) : Calm (o.bind f) := by
  cases o with
  | ok a => exact hf a
  | err e => nofun
  | panic k => intro hk; cases hk; exact ho rfl
  | diverge => nofun

theorem Calm.map {α β : Type} {o : Outcome α} (f : α → β) (ho : Calm o) : Calm (o.map f) := by
  cases o with
  | ok a => nofun
  | err e => nofun
  | panic k => intro hk; cases hk; exact ho rfl
  | diverge => nofun

theorem calm_void {α : Type} {p : Cell.Prog α} {h : Heap} (hp : Calm (p [] h).1) :
    Calm (Cell.void p [] h).1 := by
  unfold Cell.void
  rw [Cell.bind_run]
  generalize p [] h = q at hp ⊢
  rcases q with ⟨o, h1⟩
  cases o with
  | ok a => nofun
  | err e => nofun
  | panic k => intro hk; cases hk; exact hp rfl
  | diverge => nofun

/-! ### Tree editing -/

theorem calm_checkSameDocument (h : Heap) (n c : NodeId) : Calm (checkSameDocument h n c) := by
  unfold checkSameDocument
  repeat' split
  all_goals nofun

theorem calm_removeChild (h : Heap) (n c : NodeId) : Calm (removeChild h n c).1 := by
  unfold removeChild
  split <;> nofun

/-- `insert_before` stops over a guard exactly when the new child is the node itself and all
checks pass. -/
theorem calm_insertBefore {h : Heap} {n c : NodeId} {r : Option NodeId} (hne : n ≠ c) :
    Calm (insertBefore h n c r).1 := by
  rw [insertBefore_eq]
  have hc := calm_checkSameDocument h n c
  split
  · nofun
  · split
    · nofun
    · split
      · nofun
      · split
        · nofun
        · rename_i k hk; intro hb; cases hb; exact hc hk
        · nofun
        · split
          · nofun
          · split
            · nofun
            · nofun

theorem calm_replaceChild {h : Heap} {n c o : NodeId} (hne : n ≠ c) :
    Calm (replaceChild h n c o).1 := by
  unfold replaceChild
  split
  · nofun
  · split
    · simp only
      have h1 := calm_removeChild h n o
      generalize removeChild h n o = q at h1 ⊢
      rcases q with ⟨q, k⟩
      cases q with
      | ok a =>
        simp only
        have h2 := calm_insertBefore (h := k) (r := nextSibling h o) hne
        generalize insertBefore k n c (nextSibling h o) = q at h2 ⊢
        rcases q with ⟨q, k⟩
        cases q with
        | ok a => nofun
        | _ => exact h2
      | _ => exact h1
    · nofun

/-! ### Text -/

theorem calm_addUsize (ov : Bool) (a b : Nat) : Calm (addUsize ov a b) := by
  unfold addUsize
  repeat' split
  all_goals nofun

theorem calm_replaceData (ov : Bool) (v : Option Str) (i j : Nat) (s : Str) :
    Calm (replaceData ov v i j s) := by
  unfold replaceData
  split
  · refine (calm_addUsize _ _ _).bind fun a => ?_
    split <;> nofun
  · split
    · nofun
    · refine (calm_addUsize _ _ _).bind fun a => ?_
      repeat' split
      all_goals nofun

theorem calm_insertData (ov : Bool) (v : Option Str) (i : Nat) (s : Str) :
    Calm (insertData ov v i s) := by
  unfold insertData
  split
  · nofun
  · exact calm_replaceData _ _ _ _ _

theorem calm_deleteData (ov : Bool) (v : Option Str) (i j : Nat) :
    Calm (deleteData ov v i j) := by
  unfold deleteData
  refine (calm_addUsize _ _ _).bind fun a => ?_
  split
  · nofun
  · exact calm_replaceData _ _ _ _ _

theorem calm_substringData (ov : Bool) (v : Option Str) (i j : Nat) :
    Calm (substringData ov v i j) := by
  unfold substringData
  refine (calm_addUsize _ _ _).bind fun a => ?_
  repeat' split
  all_goals nofun

theorem calm_storeValue {h : Heap} {n : NodeId} {o : Outcome (Option Str)} (ho : Calm o) :
    Calm (storeValue h n o).1 := by
  unfold storeValue
  cases o with
  | ok v => nofun
  | err e => nofun
  | panic k => intro hk; cases hk; exact ho rfl
  | diverge => nofun

theorem calm_normalizeLoop (n : NodeId) (cs : List NodeId) :
    ∀ h, Calm (normalizeLoop n cs h).1 := by
  induction cs with
  | nil => intro h; nofun
  | cons c cs ih =>
    intro h
    have rm : ∀ h : Heap, Calm (match removeChild h n c with
        | (.ok _, h1) => normalizeLoop n cs h1
        | (_, h1) => (.panic .explicit, h1)).1 := by
      intro h
      split
      · exact ih _
      · nofun
    unfold normalizeLoop
    split
    · split
      · exact rm h
      · split
        · exact ih _
        · split
          · split
            · nofun
            · exact rm _
          · exact ih _
    · exact ih _

theorem calm_splitTail {h : Heap} (w : WF h) {n : NodeId} (hl : h.live n = true) (s : Str) :
    Calm (splitTail h n s).1 := by
  have key : ∀ x : Node, Calm (match parentNode (h.alloc x).2 n with
      | none => (.ok (h.alloc x).1, (h.alloc x).2)
      | some p =>
        match insertBefore (h.alloc x).2 p (h.alloc x).1 (nextSibling (h.alloc x).2 n) with
        | (.ok _, h2) => (.ok (h.alloc x).1, h2)
        | q => q : Result NodeId).1 := by
    intro x
    have hn : n ≠ h.next := Nat.ne_of_lt (w.fresh n hl)
    split
    · nofun
    · rename_i p hp
      have hpn : p < h.next := by
        have : (h.get n).parent = some p := by
          unfold parentNode at hp
          split at hp
          · cases hp
          · rw [Heap.get_alloc, if_neg hn] at hp
            unfold Heap.upgrade at hp
            split at hp
            · rename_i w hw
              split at hp
              · cases hp; exact hw
              · cases hp
            · cases hp
        exact w.weak n hl p (by simp [weakRefs, this])
      have h1 := calm_insertBefore (h := (h.alloc x).2) (n := p) (c := (h.alloc x).1)
        (r := nextSibling (h.alloc x).2 n) (Nat.ne_of_lt hpn)
      generalize insertBefore (h.alloc x).2 p (h.alloc x).1 (nextSibling (h.alloc x).2 n) = q
        at h1 ⊢
      rcases q with ⟨q, k⟩
      cases q with
      | ok a => nofun
      | _ => exact h1
  unfold splitTail
  simp only
  split
  · split
    · nofun
    · exact key _
  · split
    · nofun
    · exact key _
  · nofun

theorem calm_splitText {h : Heap} (w : WF h) {n : NodeId} (hl : h.live n = true) (ov : Bool)
    (i : Nat) : Calm (splitText ov h n i).1 := by
  unfold splitText
  split
  · nofun
  · simp only
    split
    · exact calm_splitTail w hl _
    · have h1 := calm_substringData ov (h.get n).value i (charLength h n - i)
      unfold nodeSubstringData nodeDeleteData
      have h2 := calm_deleteData ov (h.get n).value i (charLength h n - i)
      generalize substringData ov (h.get n).value i (charLength h n - i) = q at h1 ⊢
      cases q with
      | ok s =>
        simp only
        generalize deleteData ov (h.get n).value i (charLength h n - i) = q at h2 ⊢
        cases q with
        | ok v =>
          simp only [storeValue]
          refine calm_splitTail (w.set ?_ ?_) hl _
          · intro _ m hm
            exact w.strong n hl m hm
          · intro _ m hm
            exact w.weak n hl m hm
        | err e => nofun
        | panic k => intro hk; cases hk; exact h2 rfl
        | diverge => nofun
      | err e => nofun
      | panic k => intro hk; cases hk; exact h1 rfl
      | diverge => nofun

/-! ### Copies, documents, values -/

theorem calm_cloneNode (fuel : Nat) : ∀ (h : Heap) (n : NodeId) (deep : Bool),
    Calm (cloneNode fuel h n deep).1 := by
  induction fuel with
  | zero => intros; nofun
  | succ fuel ih =>
    intro h n deep
    have hl : ∀ (cs : List NodeId) (h : Heap),
        Calm (cloneList (fun h c => cloneNode fuel h c true) h cs).1 := by
      intro cs
      induction cs with
      | nil => intro h; nofun
      | cons c cs ihc =>
        intro h
        unfold cloneList
        have h1 := ih h c true
        generalize cloneNode fuel h c true = q at h1 ⊢
        rcases q with ⟨q, k⟩
        cases q with
        | ok a =>
          simp only
          have h2 := ihc k
          generalize cloneList (fun h c => cloneNode fuel h c true) k cs = q at h2 ⊢
          rcases q with ⟨q, k⟩
          cases q with
          | ok a => nofun
          | _ => exact h2
        | err e => nofun
        | panic k => intro hk; cases hk; exact h1 rfl
        | diverge => nofun
    unfold cloneNode
    simp only
    split
    · have h1 := hl (h.get n).children h
      generalize cloneList (fun h c => cloneNode fuel h c true) h (h.get n).children = q at h1 ⊢
      rcases q with ⟨q, k⟩
      cases q with
      | ok a => nofun
      | err e => nofun
      | panic k => intro hk; cases hk; exact h1 rfl
      | diverge => nofun
    · nofun

theorem calm_checkPart (s : Str) : Calm (Name.checkPart s) := by
  unfold Name.checkPart
  split
  · nofun
  · refine Calm.bind ?_ fun b => ?_
    · unfold isXmlName
      repeat' split
      all_goals nofun
    · split <;> nofun

theorem calm_new (a : Str) (b c : Option Str) : Calm (Name.new a b c) := by
  unfold Name.new
  repeat' split
  all_goals nofun

theorem calm_fromStr (s : Str) : Calm (Name.fromStr s) := by
  unfold Name.fromStr
  split
  · nofun
  · split
    · exact (calm_checkPart _).bind fun _ => calm_new _ _ _
    · exact (calm_checkPart _).bind fun _ => (calm_checkPart _).bind fun _ => calm_new _ _ _
    · nofun

theorem calm_newNs (u s : Str) : Calm (Name.newNs u s) := by
  unfold Name.newNs
  refine (calm_fromStr s).bind fun n => ?_
  refine Calm.bind ?_ fun n => nofun
  unfold Name.checkNamespaceUri
  repeat' split
  all_goals nofun

theorem calm_createDocument (h : Heap) (uri q : Option Str) (t : Option NodeId) (o : Options) :
    Calm (createDocumentWithOptions h uri q t o).1 := by
  have key : ∀ nm : Outcome Name, Calm nm →
      Calm (match createNamed (h.alloc (Node.newDocument t o)).2 nm
          (Node.newElement (h.alloc (Node.newDocument t o)).1) with
        | (.ok el, h1) =>
          match appendChild h1 (h.alloc (Node.newDocument t o)).1 el with
          | (.ok _, h2) => (.ok (h.alloc (Node.newDocument t o)).1, h2)
          | x => x
        | x => x : Result NodeId).1 := by
    intro nm hn
    unfold createNamed
    cases nm with
    | ok nm =>
      simp only
      have h1 := calm_insertBefore (h := ((h.alloc (Node.newDocument t o)).2.alloc
        (Node.newElement (h.alloc (Node.newDocument t o)).1 nm)).2)
        (n := (h.alloc (Node.newDocument t o)).1) (c := ((h.alloc (Node.newDocument t o)).2.alloc
        (Node.newElement (h.alloc (Node.newDocument t o)).1 nm)).1) (r := none)
        (Nat.ne_of_lt (Nat.lt_succ_self _))
      unfold appendChild
      generalize insertBefore _ _ _ _ = q at h1 ⊢
      rcases q with ⟨q, k⟩
      cases q with
      | ok a => nofun
      | _ => exact h1
    | err e => nofun
    | panic k => intro hk; cases hk; exact hn rfl
    | diverge => nofun
  unfold createDocumentWithOptions
  simp only
  split
  · exact key _ (calm_newNs _ _)
  · exact key _ (calm_fromStr _)
  · nofun
  · nofun

theorem calm_charFromEntity (s : Str) : Calm (charFromEntity s) := by
  unfold charFromEntity
  repeat' split
  all_goals nofun

theorem calm_scanAttr {u : Uni} {ent : Str → Outcome Str} (he : ∀ m, Calm (ent m)) :
    ∀ n s, Calm (scanAttr u ent n s) := by
  intro n
  induction n with
  | zero => intro s; nofun
  | succ n ih =>
    intro s
    cases s with
    | nil => nofun
    | cons c cs =>
      unfold scanAttr
      split
      · exact (he _).bind fun r => (ih _).map _
      · split
        · exact (calm_charFromEntity _).bind fun r => (ih _).map _
        · split
          · exact (calm_charFromEntity _).bind fun r => (ih _).map _
          · split
            · exact (ih cs).map _
            · exact (ih cs).map _

theorem calm_resolveEntity (h : Heap) (n : NodeId) (s : Str) : Calm (resolveEntity h n s) := by
  unfold resolveEntity
  refine Calm.bind ?_ fun t => ?_
  · unfold resolverDocType
    simp only
    repeat' split
    all_goals nofun
  · have := calm_fromStr s
    generalize Name.fromStr s = q at this ⊢
    cases q with
    | panic k =>
      cases t with
      | none => nofun
      | some t =>
        simp only
        split
        · intro hk; cases hk; exact this rfl
        · nofun
    | _ =>
      simp only
      repeat' split
      all_goals nofun

theorem calm_normalizeAttrValue {u : Uni} {r : Str → Outcome (Option Str)} (b : Bool)
    (hr : ∀ m, Calm (r m)) : ∀ d v, Calm (normalizeAttrValue u r b d v) := by
  intro d
  induction d with
  | zero => intro v; nofun
  | succ d ih =>
    intro v
    unfold normalizeAttrValue
    simp only
    refine Calm.map _ ?_
    split
    · nofun
    · refine calm_scanAttr (fun m => (hr m).bind fun o => ?_) _ _
      split
      · nofun
      · exact ih _

theorem calm_attrValue (u : Uni) (h : Heap) (a : NodeId) : Calm (attrValue u h a) := by
  unfold attrValue
  split
  · nofun
  · exact (calm_normalizeAttrValue false (fun m => calm_resolveEntity h a m) 1 _).map _

theorem calm_setValue {h : Heap} (w : WF h) {a : NodeId} (hl : h.live a = true) (v : Str) :
    Calm (setValue h a v).1 := by
  unfold setValue
  simp only
  generalize hk : (unsetValue h a).2 = k
  have hn : k.next = h.next := by subst hk; rfl
  split
  · nofun
  · rename_i d hd
    split
    · have h1 := calm_insertBefore (h := (k.alloc (Node.newText d v)).2) (n := a)
        (c := (k.alloc (Node.newText d v)).1) (r := none) (by
          rw [Heap.alloc_fst, hn]
          exact Nat.ne_of_lt (w.fresh a hl))
      unfold appendChild
      generalize insertBefore _ _ _ _ = q at h1 ⊢
      rcases q with ⟨q, k⟩
      cases q with
      | ok a => nofun
      | err e => nofun
      | panic k => intro hk; cases hk; exact h1 rfl
      | diverge => nofun
    · nofun

theorem calm_getAttributeNode (e : Env) (h : Heap) (n : NodeId) (k : Str) :
    Calm (getAttributeNode e h n k) := by
  unfold getAttributeNode
  have := calm_fromStr k
  split
  · generalize Name.fromStr k = q at this ⊢
    cases q with
    | panic k => intro hk; cases hk; exact this rfl
    | _ =>
      simp only
      repeat' split
      all_goals nofun
  · nofun

theorem calm_getAttributeNodeNs (e : Env) (h : Heap) (n : NodeId) (u l : Str) :
    Calm (getAttributeNodeNs e h n u l) := by
  unfold getAttributeNodeNs
  have := calm_newNs u l
  split
  · generalize Name.newNs u l = q at this ⊢
    cases q with
    | panic k => intro hk; cases hk; exact this rfl
    | _ =>
      simp only
      repeat' split
      all_goals nofun
  · nofun

theorem calm_removeFound {h : Heap} {n : NodeId} {o : Outcome (Option NodeId)} (ho : Calm o)
    (hne : ∀ a, o = .ok (some a) → (h.get n).ntype = .element → a ≠ n) :
    Calm (removeFound h n o).1 := by
  unfold removeFound
  cases o with
  | ok r =>
    cases r with
    | none => nofun
    | some a =>
      simp only [Result.void]
      refine Calm.map _ ?_
      unfold removeAttributeNode
      split
      · rename_i ht
        split
        · rw [if_neg (hne a rfl ht)]; nofun
        · nofun
      · nofun
  | err e => nofun
  | panic k => intro hk; cases hk; exact ho rfl
  | diverge => nofun

theorem calm_insertMapping (h : Heap) (n : NodeId) (p : Option Str) (u : Str) :
    Calm (insertMapping h n p u).1 := by
  unfold insertMapping
  repeat' split
  all_goals nofun

theorem calm_recordNamespace (u : Uni) (h : Heap) (n a : NodeId) (nm : Name) :
    Calm (recordNamespace u h n a nm).1 := by
  unfold recordNamespace
  split
  · have := calm_attrValue u h a
    generalize attrValue u h a = q at this ⊢
    cases q with
    | ok v =>
      cases v with
      | none => nofun
      | some s => exact calm_insertMapping _ _ _ _
    | err e => nofun
    | panic k => intro hk; cases hk; exact this rfl
    | diverge => nofun
  · nofun

theorem calm_recordId {u : Uni} {h : Heap} {n a : NodeId} {nm : Name}
    (hd : ∀ d, (h.get a).owner = some d → d ≠ n) : Calm (recordId u h n a nm).1 := by
  unfold recordId
  split
  · nofun
  · rename_i d ho
    have hdn : d ≠ n := by
      apply hd
      unfold ownerDocument Heap.upgrade at ho
      split at ho
      · rename_i w hw
        split at ho
        · cases ho; exact hw
        · cases ho
      · cases ho
    rw [if_neg hdn]
    simp only
    have := calm_attrValue u h a
    generalize attrValue u h a = q at this ⊢
    cases q with
    | panic k =>
      cases (h.get d).ext with
      | document z =>
        simp only
        split
        · intro hk; cases hk; exact this rfl
        · nofun
      | _ => simp only [ite_self]; nofun
    | ok v =>
      cases (h.get d).ext with
      | document z =>
        cases v with
        | none => simp only; split <;> nofun
        | some w =>
          simp only
          split
          · split <;> nofun
          · nofun
      | _ => simp only [ite_self]; nofun
    | err x =>
      cases (h.get d).ext with
      | document z => simp only; split <;> nofun
      | _ => simp only [ite_self]; nofun
    | diverge =>
      cases (h.get d).ext with
      | document z => simp only; split <;> nofun
      | _ => simp only [ite_self]; nofun

/-- `set_attribute_node` without guards never reports a conflict when the owner of the
element is not the element. -/
theorem calm_setAttributeNode {e : Env} {h : Heap} {n a : NodeId}
    (hd : ∀ d, (h.get n).owner = some d → d ≠ n) : Calm (setAttributeNode e h n a).1 := by
  unfold setAttributeNode
  split
  · rename_i ht
    have hna : a ≠ n := by
      intro e; subst e; rw [ht.1] at ht; cases ht.2
    have hc := calm_checkSameDocument h n a
    have hown : checkSameDocument h n a = .ok () → ∀ d, (h.get a).owner = some d → d ≠ n := by
      intro hs d hda
      unfold checkSameDocument at hs
      rw [if_neg (by rw [ht.1]; nofun), hda] at hs
      cases hn : (h.get n).owner with
      | none => rw [hn] at hs; cases hs
      | some b =>
        rw [hn] at hs
        simp only at hs
        split at hs
        · split at hs
          · split at hs
            · rename_i hbd; subst hbd; exact hd b hn
            · cases hs
          · cases hs
        · cases hs
    generalize checkSameDocument h n a = q at hc hown ⊢
    cases q with
    | ok u =>
      simp only
      split
      · have h1 := calm_recordNamespace e.uni
          (h.set a { h.get a with ext := .attribute (some n) }) n a
          ((h.set a { h.get a with ext := .attribute (some n) }).get a).name
        have h2 := recordNamespace_owner (u := e.uni)
          (h := h.set a { h.get a with ext := .attribute (some n) }) (n := n) (a := a) (m := a)
          (nm := ((h.set a { h.get a with ext := .attribute (some n) }).get a).name)
        generalize recordNamespace _ _ _ _ _ = q at h1 h2 ⊢
        rcases q with ⟨q, k⟩
        cases q with
        | ok u =>
          simp only
          unfold storeAttribute
          split
          · refine calm_recordId ?_
            intro d hda
            rw [Heap.get_set_ne _ _ hna] at hda
            refine hown rfl d ?_
            rw [← hda]
            refine Eq.trans ?_ h2.symm
            simp
          · nofun
        | err e => nofun
        | panic k => intro hk; cases hk; exact h1 rfl
        | diverge => nofun
      · nofun
    | err e => nofun
    | panic k => intro hk; cases hk; exact hc rfl
    | diverge => nofun
  · nofun

theorem calm_setAttributeNamed {e : Env} {h : Heap} {n : NodeId} (hn : n < h.next)
    {o : Outcome Name} {v : Str} (ho : Calm o) (hd : ∀ d, (h.get n).owner = some d → d ≠ n) :
    Calm (setAttributeNamed e h n o v).1 := by
  unfold setAttributeNamed
  cases o with
  | ok nm =>
    simp only
    split
    · nofun
    · refine Calm.map _ (calm_setAttributeNode ?_)
      rw [(newAttribute_old h _ _ _ hn).1]
      exact hd
  | err e => nofun
  | panic k => intro hk; cases hk; exact ho rfl
  | diverge => nofun

/-- The owner of each node was created before the node. -/
def Older (h : Heap) : Prop := ∀ n, n < h.next → ∀ d, (h.get n).owner = some d → d < n

theorem Older.steps {P : Heap → Label → Prop} {h h' : Heap} (s : Steps P h h') (i : Inv h)
    (o : Older h) : Older h' := by
  refine (s.inv (fun h => Inv h ∧ Older h) ?_ ⟨i, o⟩).2
  rintro h l h' ⟨i, ho⟩ - hs
  refine ⟨hs.inv i, ?_⟩
  intro n hn d hd
  rcases hs.newNode hn with h1 | h1
  · rw [(hs.ident i.wf i.ownerNone h1).2.2] at hd
    exact ho n h1 d hd
  · cases h1 with
    | fresh hx hn hg =>
      rw [hg] at hd
      rcases hx.owner with ⟨d', h1, h2, _⟩ | ⟨h1, _⟩
      · rw [h1] at hd; cases hd; rw [hn]; exact h2.lt i.wf
      · rw [h1] at hd; cases hd
    | attrText hdk hn hg =>
      rw [hg] at hd
      cases hd; rw [hn]; exact hdk.lt i.wf
    | attr hdk _ hn hg _ =>
      rw [hg] at hd
      cases hd; rw [hn]; exact Nat.lt_succ_of_lt (hdk.lt i.wf)
    | @copy m cs hm _ _ hn hg =>
      rw [hg] at hd
      have hm' := i.wf.fresh m hm
      rw [hn]
      exact Nat.lt_trans (ho m hm' d hd) hm'

theorem owner_older {h : Heap} (hr : Reachable h) : Older h :=
  (hr.inv (I := fun h => Inv h ∧ Older h)
    ⟨Inv.empty, fun _ hn => absurd hn (Nat.not_lt_zero _)⟩ fun _ op _ he hi =>
      ⟨(exec_steps he op hi.1.wf).invariant hi.1, hi.2.steps (exec_steps he op hi.1.wf) hi.1⟩).2

/-! ### Creating and reading -/

theorem calm_createNamed {h : Heap} {o : Outcome Name} {mk : Name → Node} (ho : Calm o) :
    Calm (createNamed h o mk).1 := by
  unfold createNamed
  cases o with
  | ok v => nofun
  | err e => nofun
  | panic k => intro hk; cases hk; exact ho rfl
  | diverge => nofun

theorem calm_createAttr {h : Heap} {d : NodeId} {o : Outcome Name} {v : Option Str} (ho : Calm o) :
    Calm (createAttr h d o v).1 := by
  unfold createAttr
  cases o with
  | ok v => nofun
  | err e => nofun
  | panic k => intro hk; cases hk; exact ho rfl
  | diverge => nofun

theorem calm_createPi (h : Heap) (d : NodeId) (t : Str) (x : Option Str) :
    Calm (createProcessingInstruction h d t x).1 := by
  unfold createProcessingInstruction
  split
  · nofun
  · exact calm_createNamed (calm_fromStr _)

theorem createNamed_new {h : Heap} {o : Outcome Name} {mk : Name → Node} {n : NodeId}
    (hn : (createNamed h o mk).1 = .ok n) : n = h.next := by
  unfold createNamed at hn
  cases o with
  | ok v => cases hn; rfl
  | err e => cases hn
  | panic k => cases hn
  | diverge => cases hn

/-- A document under construction. -/
structure Growing (h : Heap) (doc : NodeId) : Prop where
  opened : Cell.Opened h doc
  older : Older h

theorem Growing.steps {h h' : Heap} {doc : NodeId} (g : Growing h doc) (s : Steps BasicL h h') :
    Growing h' doc := ⟨g.opened.steps s, g.older.steps s g.opened.inv⟩

theorem calm_handleAttributes {e : Env} {doc el : NodeId} : ∀ (as : List AttrEvent) (h : Heap),
    Growing h doc → h.live el = true → Calm (handleAttributes e doc el as h).1 := by
  intro as
  induction as with
  | nil => intro h _ _; nofun
  | cons a as ih =>
    intro h g hel
    cases a with
    | bad => nofun
    | undecodable => nofun
    | good k v =>
      unfold handleAttributes
      have hc : Calm (createAttributeWith h doc k v).1 := calm_createAttr (calm_fromStr _)
      have h1 : Steps BasicL h (createAttributeWith h doc k v).2 :=
        (createAttr_steps g.opened.live fun nm hnm => nameOk_fromStr hnm).loud
      cases hcr : createAttributeWith h doc k v with
      | mk o hh =>
        rw [hcr] at h1 hc
        cases o with
        | err _ => nofun
        | panic k => intro hk; cases hk; exact hc rfl
        | diverge => nofun
        | ok a =>
          obtain ⟨nm, _, hn⟩ := Cell.createAttributeWith_ok hcr
          have hl := newAttribute_live h doc nm (some v)
          have hx := newAttribute_ext h doc nm (some v)
          rw [hn] at hl hx
          simp only at h1 hl hx ⊢
          have g1 := g.steps h1
          have hel1 := h1.basic_live hel
          have h2 := setAttributeNode_steps (e := e) (fun _ _ => MapL.basic) hx (fun _ => trivial)
            hel1 hl
          have hs : Calm (setAttributeNode e hh el a).1 := calm_setAttributeNode fun d hd =>
            Nat.ne_of_lt (g1.older el (g1.opened.inv.wf.fresh el hel1) d hd)
          generalize setAttributeNode e hh el a = r2 at h2 hs ⊢
          obtain ⟨o2, hh2⟩ := r2
          cases o2 with
          | err _ => nofun
          | panic k => intro hk; cases hk; exact hs rfl
          | diverge => nofun
          | ok _ => exact ih hh2 (g1.steps h2) (h2.basic_live hel1)

theorem calm_handleStart {e : Env} {doc parent : NodeId} {nm : Option Str} {as : List AttrEvent}
    {h : Heap} (g : Growing h doc) (hp : h.live parent = true) :
    Calm (handleStart e doc parent nm as h).1 := by
  unfold handleStart
  cases nm with
  | none => nofun
  | some nm =>
    have hc : Calm (createElement h doc nm).1 := calm_createNamed (calm_fromStr _)
    have h0 : ∀ n, (createElement h doc nm).1 = .ok n → n = h.next := fun _ => createNamed_new
    have h1 := createElement_steps (t := nm) g.opened.live
    have h1l : ∀ n, (createElement h doc nm).1 = .ok n → Leaf (createElement h doc nm).2 n :=
      fun n hn => createNamed_live (fun _ => rfl) (Prod.ext hn rfl)
    simp only
    generalize createElement h doc nm = r at hc h0 h1 h1l ⊢
    obtain ⟨o, hh⟩ := r
    cases o with
    | err _ => nofun
    | panic k => intro hk; cases hk; exact hc rfl
    | diverge => nofun
    | ok el =>
      have h2 := (createAppend_quiet hp h1 h1l rfl).res
      have hs : Calm (appendChild hh parent el).1 := by
        refine calm_insertBefore ?_
        rw [h0 el rfl]
        exact Nat.ne_of_lt (g.opened.inv.wf.fresh parent hp)
      simp only
      generalize appendChild hh parent el = r2 at h2 hs ⊢
      obtain ⟨o2, hh2⟩ := r2
      cases o2 with
      | err _ => nofun
      | panic k => intro hk; cases hk; exact hs rfl
      | diverge => nofun
      | ok el' => exact calm_handleAttributes as hh2 (g.steps h2.1) (h2.2 el' rfl)

theorem calm_handlePi {e : Env} {doc parent : NodeId} {t : Option Str} {h : Heap}
    (hp : parent < h.next) : Calm (handlePi e doc parent t h).1 := by
  unfold handlePi
  cases t with
  | none => nofun
  | some s =>
    have hc := calm_createPi h doc (splitPi e.uni s).1 (splitPi e.uni s).2
    have h0 : ∀ n, (createProcessingInstruction h doc (splitPi e.uni s).1
        (splitPi e.uni s).2).1 = .ok n → n = h.next := by
      intro n hn
      unfold createProcessingInstruction at hn
      split at hn
      · cases hn
      · exact createNamed_new hn
    simp only
    generalize createProcessingInstruction h doc (splitPi e.uni s).1 (splitPi e.uni s).2 = r
      at hc h0 ⊢
    obtain ⟨o, hh⟩ := r
    cases o with
    | err _ => nofun
    | panic k => intro hk; cases hk; exact hc rfl
    | diverge => nofun
    | ok n =>
      refine calm_insertBefore ?_
      rw [h0 n rfl]
      exact Nat.ne_of_lt hp

theorem calm_unquote (s : Str) : Calm (unquote s) := by
  unfold unquote
  simp only
  repeat' split
  all_goals nofun

theorem calm_handleDecl (doc : NodeId) (v : Option Str) (enc sa : Option (Option Str)) (h : Heap) :
    Calm (handleDecl doc v enc sa h).1 := by
  rw [← Cell.handleDecl_run]
  have hd : Calm (Cell.readDecl v enc sa) := by
    refine Calm.bind ?_ ?_
    · unfold makeDecl
      split
      · nofun
      · refine (calm_unquote _).bind fun a => ?_
        split <;> nofun
    · intro d
      split
      · nofun
      · unfold XmlDecl.new
        split
        · nofun
        · refine Calm.bind ?_ fun b => ?_
          · unfold isEncoding
            repeat' split
            all_goals nofun
          · split <;> nofun
  rw [Cell.handleDecl, Cell.withMut_run (by simp) (by simp), Cell.bind_ok (Cell.load_run ..)]
  cases (h.get doc).ext with
  | document z =>
    simp only
    split
    · nofun
    · rw [Cell.bind_run, Cell.lift_run]
      generalize Cell.readDecl v enc sa = o at hd ⊢
      cases o with
      | ok d => simp only; rw [Cell.store_run]; nofun
      | err x => nofun
      | panic k => intro hk; cases hk; exact hd rfl
      | diverge => nofun
  | _ => nofun

theorem calm_parseElement {e : Env} {doc : NodeId} : ∀ (fuel : Nat) (parent : NodeId)
    (evs : List Event) (h : Heap), Growing h doc → h.live parent = true →
    Calm (parseElement e doc fuel parent evs h).out := by
  intro fuel
  induction fuel with
  | zero => intro _ _ _ _ _; nofun
  | succ fuel ih =>
    intro parent evs h g hp
    have hpn := g.opened.inv.wf.fresh parent hp
    have go : ∀ (r : Result NodeId) (rest : List Event), ReadRes h r → Calm r.1 →
        Calm ((match r with
          | (.ok _, h1) => parseElement e doc fuel parent rest h1
          | (o, h1) => ⟨o, rest, h1⟩) : ParseResult).out := by
      rintro ⟨o, h1⟩ rest hr hc
      cases o with
      | ok n => exact ih parent rest h1 (g.steps hr.1) (hr.1.basic_live hp)
      | err _ => nofun
      | panic k => exact hc
      | diverge => nofun
    have data : ∀ (t : Option Str) (x : Str → Node), Calm (match t with
        | none => (.err .syntax, h)
        | some s => appendChild (h.alloc (x s)).2 parent (h.alloc (x s)).1 : Result NodeId).1 := by
      intro t x
      cases t with
      | none => nofun
      | some s => exact calm_insertBefore (Nat.ne_of_lt hpn)
    unfold parseElement
    cases evs with
    | nil => nofun
    | cons ev rest =>
      cases ev with
      | start name attrs =>
        have hr := handleStart_res (e := e) (nm := name) (as := attrs) g.opened.live hp
        have hc := calm_handleStart (e := e) (nm := name) (as := attrs) g hp
        simp only
        generalize handleStart e doc parent name attrs h = r at hr hc ⊢
        obtain ⟨o, h1⟩ := r
        cases o with
        | err _ => nofun
        | panic k => exact hc
        | diverge => nofun
        | ok el =>
          have hl := hr.2 el rfl
          have h2 := parseElement_steps (e := e) fuel el rest h1 (hr.1.basic_live g.opened.live) hl
          have h2c := ih el rest h1 (g.steps hr.1) hl
          simp only
          generalize parseElement e doc fuel el rest h1 = q at h2 h2c ⊢
          obtain ⟨o2, rest2, hh2⟩ := q
          have h3 := hr.1.trans h2
          cases o2 with
          | err _ => nofun
          | panic k => exact h2c
          | diverge => nofun
          | ok _ => exact ih parent rest2 hh2 (g.steps h3) (h3.basic_live hp)
      | empty name attrs =>
        exact go _ _ (handleStart_res g.opened.live hp) (calm_handleStart g hp)
      | comment t =>
        exact go _ _ (handleComment_res g.opened.live hp) (data t fun s => Node.newComment doc s)
      | pi t => exact go _ _ (handlePi_res g.opened.live hp) (calm_handlePi hpn)
      | text t =>
        exact go _ _ (handleText_res g.opened.live hp) (data t fun s => Node.newText doc s)
      | cdata t =>
        exact go _ _ (handleCdata_res g.opened.live hp) (data t fun s => Node.newCdata doc s)
      | decl _ _ _ => nofun
      | close => nofun
      | other => nofun
      | eof => nofun
      | readError => nofun

theorem calm_parseLoop {e : Env} {doc : NodeId} : ∀ (fuel : Nat) (evs : List Event) (h : Heap),
    Growing h doc → Calm (parseLoop e doc fuel evs h).1 := by
  intro fuel
  induction fuel with
  | zero => intro _ _ _; nofun
  | succ fuel ih =>
    intro evs h g
    have hpn := g.opened.inv.wf.fresh doc g.opened.live
    have hp := g.opened.live
    have go : ∀ (r : Result NodeId) (rest : List Event), ReadRes h r → Calm r.1 →
        Calm ((match r with
          | (.ok _, h1) => parseLoop e doc fuel rest h1
          | r => r) : Result NodeId).1 := by
      rintro ⟨o, h1⟩ rest hr hc
      cases o with
      | ok n => exact ih rest h1 (g.steps hr.1)
      | err _ => nofun
      | panic k => exact hc
      | diverge => nofun
    unfold parseLoop
    cases evs with
    | nil => nofun
    | cons ev rest =>
      cases ev with
      | decl v enc sa =>
        have hr := handleDecl_steps (doc := doc) (v := v) (enc := enc) (sa := sa) (h := h)
        have hc := calm_handleDecl doc v enc sa h
        simp only
        generalize handleDecl doc v enc sa h = r at hr hc ⊢
        obtain ⟨o, h1⟩ := r
        cases o with
        | ok _ => exact ih rest h1 (g.steps hr)
        | err _ => nofun
        | panic k => intro hk; cases hk; exact hc rfl
        | diverge => nofun
      | start name attrs =>
        have hr := handleStart_res (e := e) (nm := name) (as := attrs) hp hp
        have hc := calm_handleStart (e := e) (nm := name) (as := attrs) g hp
        simp only
        generalize handleStart e doc doc name attrs h = r at hr hc ⊢
        obtain ⟨o, h1⟩ := r
        cases o with
        | err _ => nofun
        | panic k => exact hc
        | diverge => nofun
        | ok el =>
          have hl := hr.2 el rfl
          have h2 := parseElement_steps (e := e) (rest.length + 1) el rest h1
            (hr.1.basic_live hp) hl
          have h2c := calm_parseElement (e := e) (rest.length + 1) el rest h1 (g.steps hr.1) hl
          simp only
          generalize parseElement e doc (rest.length + 1) el rest h1 = q at h2 h2c ⊢
          obtain ⟨o2, rest2, hh2⟩ := q
          have h3 := hr.1.trans h2
          cases o2 with
          | err _ => exact ih rest2 hh2 (g.steps h3)
          | panic k => intro hk; cases hk; exact h2c rfl
          | diverge => nofun
          | ok _ => exact ih rest2 hh2 (g.steps h3)
      | empty name attrs => exact go _ _ (handleStart_res hp hp) (calm_handleStart g hp)
      | comment t =>
        refine go _ _ (handleComment_res hp hp) ?_
        cases t with
        | none => nofun
        | some s => exact calm_insertBefore (Nat.ne_of_lt hpn)
      | pi t => exact go _ _ (handlePi_res hp hp) (calm_handlePi hpn)
      | close => exact ih rest h g
      | text t => nofun
      | cdata t => nofun
      | other => nofun
      | eof => nofun
      | readError => nofun

theorem calm_readXml {e : Env} {evs : List Event} {h : Heap} (i : Inv h) (o : Older h) :
    Calm (readXml e h evs).1 := by
  unfold readXml
  have h1 : Steps BasicL h (createDocument h none none none).2 :=
    (createDocumentWithOptions_steps fun _ ht => by cases ht).loud
  have hc : createDocument h none none none =
      (.ok h.next, (h.alloc (Node.newDocument none Options.new.setAddNamespaces)).2) := rfl
  rw [hc] at h1 ⊢
  exact calm_parseLoop _ _ _ ⟨⟨h1.invariant i, by simp, by simp [Node.newDocument]⟩,
    o.steps h1 i⟩

/-- The calls that can stop over a guard: a node inserted into itself, an element removed
from its own attributes, and an attribute that may be recorded as an id while its text has
a character that can start a reference. -/
def Conflicting (h : Heap) : Op → Prop
  | .insertBefore s n _ | .appendChild s n | .replaceChild s n _ => s = n
  | .removeAttributeNode n a => n = a
  | .setAttribute _ k v => (∃ nm, Name.fromStr k = .ok nm ∧ nm.localName = c! "id") ∧
    ∃ c ∈ v, c = '&' ∨ c = '%'
  | .setAttributeNs _ u k v => (∃ nm, Name.newNs u k = .ok nm ∧ nm.localName = c! "id") ∧
    ∃ c ∈ v, c = '&' ∨ c = '%'
  | .setAttributeNode _ a => (h.get a).name.localName = c! "id" ∧ ∃ t ∈ (h.get a).children,
    ∃ v, (h.get t).value = some v ∧ ∃ c ∈ v, c = '&' ∨ c = '%'
  | .readXml evs => ∃ n as, (.start n as ∈ evs ∨ .empty n as ∈ evs) ∧ ∃ k v, .good k v ∈ as ∧
    (∃ nm, Name.fromStr k = .ok nm ∧ nm.localName = c! "id") ∧ ∃ c ∈ v, c = '&' ∨ c = '%'
  | _ => False

theorem isId_local {nm : Name} : nm.isIdAttribute true = true ↔ nm.localName = c! "id" := by
  unfold Name.isIdAttribute
  rw [if_pos rfl]
  exact decide_eq_true_iff

theorem mem_attrRaw {h : Heap} {a : NodeId} {c : Char} (hc : c ∈ attrRaw h a) :
    ∃ t ∈ (h.get a).children, ∃ v, (h.get t).value = some v ∧ c ∈ v := by
  unfold attrRaw at hc
  obtain ⟨t, ht, hc⟩ := List.mem_flatMap.mp hc
  refine ⟨t, ht, ?_⟩
  unfold attrChildText at hc
  cases hv : (h.get t).value with
  | none =>
    rw [hv] at hc
    simp at hc
  | some v =>
    rw [hv] at hc
    refine ⟨v, rfl, ?_⟩
    split at hc
    · exact hc
    · split at hc
      · exact hc
      · cases hc

/-- Every other call of every history goes through without a conflict. Missing from the full
statement: the calls in `Conflicting`, for which it is false. -/
theorem C107_partial {e : Env} (he : e.Ok) {op : Op} {h : Heap} (hr : Reachable h)
    (ha : op.args.all h.live = true) (hn : ¬ Conflicting h op) :
    (Cell.call e op [] h).1 ≠ .panic .borrow := by
  have i := hr.invariant
  have old := owner_older hr
  have own : ∀ n, h.live n = true → ∀ d, (h.get n).owner = some d → d ≠ n := fun n hl d hd =>
    Nat.ne_of_lt (old n (i.wf.fresh n hl) d hd)
  cases op with
  | createDocument =>
    refine calm_void ?_
    rw [Cell.createDocumentWithOptions_run]
    exact calm_createDocument _ _ _ _ _
  | insertBefore s n r =>
    refine calm_void ?_
    rw [Cell.insertBefore_run]
    exact calm_insertBefore hn
  | appendChild s n =>
    refine calm_void ?_
    rw [Cell.appendChild_run]
    exact calm_insertBefore hn
  | replaceChild s n o =>
    refine calm_void ?_
    rw [Cell.replaceChild_run]
    exact calm_replaceChild hn
  | removeChild =>
    refine calm_void ?_
    rw [Cell.removeChild_run]
    exact calm_removeChild _ _ _
  | cloneNode =>
    refine calm_void ?_
    rw [Cell.cloneNode_run _ Cell.shared_nil]
    exact calm_cloneNode _ _ _ _
  | normalize n =>
    show (Cell.normalize n [] h).1 ≠ _
    rw [Cell.normalize_run]
    exact calm_normalizeLoop _ _ _
  | setNodeValue n v =>
    show (Cell.setNodeValue n v [] h).1 ≠ _
    rw [Cell.setNodeValue_run]; nofun
  | unsetNodeValue n =>
    show (Cell.unsetNodeValue n [] h).1 ≠ _
    rw [Cell.unsetNodeValue_run]; nofun
  | appendData n s =>
    show (Cell.appendData n s [] h).1 ≠ _
    rw [Cell.appendData_run]; nofun
  | insertData n o s =>
    show (Cell.insertData e.overflowChecks n o s [] h).1 ≠ _
    rw [Cell.insertData_run]
    exact calm_storeValue (calm_insertData _ _ _ _)
  | deleteData n o c =>
    show (Cell.deleteData e.overflowChecks n o c [] h).1 ≠ _
    rw [Cell.deleteData_run]
    exact calm_storeValue (calm_deleteData _ _ _ _)
  | replaceData n o c s =>
    show (Cell.replaceData e.overflowChecks n o c s [] h).1 ≠ _
    rw [Cell.replaceData_run]
    exact calm_storeValue (calm_replaceData _ _ _ _ _)
  | split n o =>
    refine calm_void ?_
    rw [Cell.splitText_run]
    exact calm_splitText i.wf (by simpa [Op.args] using ha) _ _
  | setValue a v =>
    show (Cell.setValue a v [] h).1 ≠ _
    rw [Cell.setValue_run]
    exact calm_setValue i.wf (by simpa [Op.args] using ha) _
  | unsetValue a =>
    show (Cell.unsetValue a [] h).1 ≠ _
    rw [Cell.unsetValue_run]; nofun
  | setAttribute n k v =>
    have hl : h.live n = true := by simpa [Op.args] using ha
    show (Cell.setAttributeNamed e n (Name.fromStr k) v [] h).1 ≠ _
    rw [Cell.setAttributeNamed_exact]
    · exact calm_setAttributeNamed (i.wf.fresh n hl) (calm_fromStr k) (own n hl)
    · intro nm hnm hid c hc
      refine ⟨fun hh => hn ⟨⟨nm, hnm, isId_local.mp hid⟩, c, hc, Or.inl hh⟩,
        fun hh => hn ⟨⟨nm, hnm, isId_local.mp hid⟩, c, hc, Or.inr hh⟩⟩
  | setAttributeNs n u k v =>
    have hl : h.live n = true := by simpa [Op.args] using ha
    show (Cell.setAttributeNamed e n (Name.newNs u k) v [] h).1 ≠ _
    rw [Cell.setAttributeNamed_exact]
    · exact calm_setAttributeNamed (i.wf.fresh n hl) (calm_newNs u k) (own n hl)
    · intro nm hnm hid c hc
      refine ⟨fun hh => hn ⟨⟨nm, hnm, isId_local.mp hid⟩, c, hc, Or.inl hh⟩,
        fun hh => hn ⟨⟨nm, hnm, isId_local.mp hid⟩, c, hc, Or.inr hh⟩⟩
  | setAttributeNode n a =>
    have hl : h.live n = true ∧ h.live a = true := by simpa [Op.args] using ha
    refine calm_void ?_
    rw [Cell.setAttributeNode_exact e h (fun ht => plainChildren i hl.2 ht)]
    · exact calm_setAttributeNode (own n hl.1)
    · rintro ⟨h1, c, hc, h2⟩
      obtain ⟨t, ht, v, hv, hcv⟩ := mem_attrRaw hc
      exact hn ⟨isId_local.mp h1, t, ht, v, hv, c, hcv, h2⟩
  | removeAttribute n k =>
    have hl : h.live n = true := by simpa [Op.args] using ha
    show (Cell.removeAttribute e n k [] h).1 ≠ _
    rw [Cell.removeAttribute_run]
    refine calm_removeFound (calm_getAttributeNode _ _ _ _) ?_
    intro a hf ht he'
    subst he'
    obtain ⟨attrs, nss, k', hx, hm⟩ := getAttributeNode_mem he hf
    have := ((i.attrKeys _ attrs nss hl hx).2.2 k' _ hm).1
    rw [ht] at this; cases this
  | removeAttributeNs n u l =>
    have hl : h.live n = true := by simpa [Op.args] using ha
    show (Cell.removeAttributeNs e n u l [] h).1 ≠ _
    rw [Cell.removeAttributeNs_run]
    refine calm_removeFound (calm_getAttributeNodeNs _ _ _ _ _) ?_
    intro a hf ht he'
    subst he'
    obtain ⟨attrs, nss, k', hx, hm⟩ := getAttributeNodeNs_mem he hf
    have := ((i.attrKeys _ attrs nss hl hx).2.2 k' _ hm).1
    rw [ht] at this; cases this
  | removeAttributeNode n a =>
    refine calm_void ?_
    rw [Cell.removeAttributeNode_run]
    unfold removeAttributeNode
    split
    · split
      · rw [if_neg fun hh => hn hh.symm]; nofun
      · nofun
    · nofun
  | setXmlDeclaration d x =>
    show (Cell.setXmlDeclaration d x [] h).1 ≠ _
    rw [Cell.setXmlDeclaration_run]
    unfold setXmlDeclaration
    split <;> nofun
  | readXml evs =>
    have ht : ∀ ev ∈ evs, Cell.TameEvent ev := by
      have attr : ∀ n as, (.start n as ∈ evs ∨ .empty n as ∈ evs) → ∀ a ∈ as, Cell.Tame a := by
        intro n as hev a ha
        cases a with
        | good k v =>
          intro nm hnm hid c hc
          exact ⟨fun hh => hn ⟨n, as, hev, k, v, ha, ⟨nm, hnm, isId_local.mp hid⟩, c, hc, Or.inl hh⟩,
            fun hh => hn ⟨n, as, hev, k, v, ha, ⟨nm, hnm, isId_local.mp hid⟩, c, hc, Or.inr hh⟩⟩
        | _ => trivial
      intro ev hev
      cases ev with
      | start n as => exact attr n as (Or.inl hev)
      | empty n as => exact attr n as (Or.inr hev)
      | _ => trivial
    refine calm_void ?_
    rw [(Cell.readXml_near true e (fun _ => ht) i).eq]
    exact calm_readXml i old
  | drop => nofun
  | createDocumentType => exact calm_void (calm_createNamed (calm_fromStr _))
  | createElement => exact calm_void (calm_createNamed (calm_fromStr _))
  | createElementNs => exact calm_void (calm_createNamed (calm_newNs _ _))
  | createAttribute => exact calm_void (calm_createAttr (calm_fromStr _))
  | createAttributeWith => exact calm_void (calm_createAttr (calm_fromStr _))
  | createAttributeNs => exact calm_void (calm_createAttr (calm_newNs _ _))
  | createEntityReference => exact calm_void (calm_createNamed (calm_fromStr _))
  | createNotation => exact calm_void (calm_createNamed (calm_fromStr _))
  | createEntity => exact calm_void (calm_createNamed (calm_fromStr _))
  | createInternalEntity => exact calm_void (calm_createNamed (calm_fromStr _))
  | createProcessingInstruction => exact calm_void (calm_createPi _ _ _ _)
  | createCdataSection => exact calm_void nofun
  | createDocumentFragment => exact calm_void nofun
  | createComment => exact calm_void nofun
  | createTextNode => exact calm_void nofun

example : ¬ Conflicting (after [mkDoc, .createElement 0 (c! "a")]) (.appendChild 1 2) ∧
    (Op.appendChild 1 2).args.all (after [mkDoc, .createElement 0 (c! "a")]).live = true :=
  ⟨(by intro h; cases h), (by decide)⟩

/-- A node put into itself: when its kind may hold its own kind and the other checks pass, the
call stops over the guard; otherwise it does not. -/
theorem C107_self {h : Heap} (hr : Reachable h) {n : NodeId} (hl : h.live n = true) :
    (Cell.appendChild n n [] h).1 = .panic .borrow ↔
      ((h.get n).ntype = .element ∨ (h.get n).ntype = .entityReference) ∧
        (∃ d, (h.get n).owner = some d ∧ h.live d = true) ∧
        ∀ p, parentNode h n = some p → n ∈ (h.get p).children := by
  have i := hr.invariant
  rw [Cell.appendChild_run]
  show (insertBefore h n n none).1 = _ ↔ _
  rw [insertBefore_eq]
  have ha : isChildAllowed (h.get n).ntype (h.get n).ntype = true ↔
      ((h.get n).ntype = .element ∨ (h.get n).ntype = .entityReference) := by
    cases (h.get n).ntype <;> simp [isChildAllowed]
  by_cases h1 : isChildAllowed (h.get n).ntype (h.get n).ntype = true
  · have h2 := ha.mp h1
    have h3 : (h.get n).ntype ≠ .document := by rcases h2 with h2 | h2 <;> rw [h2] <;> nofun
    rw [if_neg (by simp [h1]), if_neg (by simp [h3])]
    simp only [insertPosition, h2, true_and]
    cases ho : (h.get n).owner with
    | none =>
      rcases i.ownerNone n (i.wf.fresh n hl) ho with h4 | h4
      · exact absurd h4 h3
      · rw [h4] at h2; simp at h2
    | some d =>
      by_cases hd : h.live d = true
      · have hc : checkSameDocument h n n = .ok () := by
          unfold checkSameDocument
          rw [if_neg h3, ho]
          simp [hd]
        rw [hc]
        simp only [if_true]
        cases hp : parentNode h n with
        | none => simp [hd]
        | some p =>
          by_cases hm : n ∈ (h.get p).children <;> simp [hm, hd]
      · have hc : checkSameDocument h n n = .panic .unwrap := by
          unfold checkSameDocument
          rw [if_neg h3, ho]
          simp [hd]
        rw [hc]
        simp [hd]
  · rw [if_pos (by simpa using h1)]
    simp [mt ha.mpr h1]

example : (after [mkDoc]).live 1 = true ∧ ((after [mkDoc]).get 1).ntype = .element ∧
    ((after [mkDoc]).get 1).owner = some 0 ∧ (after [mkDoc]).live 0 = true := by decide

/-- An attribute named `id` whose value has a reference: the document is borrowed exclusively
while the value is computed, and looking the entity up borrows it again. -/
theorem C107_id :
    (Cell.call plainEnv (.setAttribute 1 (c! "xml:id") (c! "&a;")) []
        (after [mkDoc])).1 = .panic .borrow ∧
      (Cell.call plainEnv (.readXml [.empty (some (c! "a")) [.good (c! "xml:id") (c! "&a;")]]) []
        (after [])).1 = .panic .borrow := by decide

/-! ## C108: reading while others read -/

/-- While only shared guards are alive, the calls of `Node` and `CharacterData` that read give
their value and change nothing. -/
theorem C108_node {g : List Cell.Guard} (s : Cell.Shared g) (h : Heap) (n : NodeId) (ov : Bool)
    (i j : Nat) :
    Cell.nodeName n g h = (.ok (h.get n).name, h) ∧
    Cell.nodeValue n g h = (.ok (h.get n).value, h) ∧
    Cell.nodeType n g h = (.ok (h.get n).ntype, h) ∧
    Cell.childNodes n g h = (.ok (h.get n).children, h) ∧
    Cell.firstChild n g h = (.ok (h.get n).children.head?, h) ∧
    Cell.lastChild n g h = (.ok (h.get n).children.getLast?, h) ∧
    Cell.hasChildNodes n g h = (.ok (!(h.get n).children.isEmpty), h) ∧
    Cell.parentNode n g h = (.ok (parentNode h n), h) ∧
    Cell.ownerDocument n g h = (.ok (ownerDocument h n), h) ∧
    Cell.previousSibling n g h = (.ok (previousSibling h n), h) ∧
    Cell.nextSibling n g h = (.ok (nextSibling h n), h) ∧
    Cell.attributes n g h = (.ok (attributes h n), h) ∧
    Cell.hasAttributes n g h = (.ok (hasAttributes h n), h) ∧
    Cell.charData n g h = (.ok (charData h n), h) ∧
    Cell.charLength n g h = (.ok (charLength h n), h) ∧
    Cell.substringData ov n i j g h = (nodeSubstringData ov h n i j, h) :=
  ⟨Cell.nodeName_run (s n) h, Cell.nodeValue_run (s n) h, Cell.nodeType_run (s n) h,
    Cell.childNodes_run (s n) h, Cell.firstChild_run (s n) h, Cell.lastChild_run (s n) h,
    Cell.hasChildNodes_run (s n) h, Cell.parentNode_run (s n) h, Cell.ownerDocument_run (s n) h,
    Cell.previousSibling_run s h, Cell.nextSibling_run s h, Cell.attributes_run (s n) h,
    Cell.hasAttributes_run (s n) h, Cell.charData_run (s n) h, Cell.charLength_run (s n) h,
    Cell.substringData_run (s n) ov i j h⟩

/-- The same for the calls of `Element`, `Attribute` and the name-space extension. -/
theorem C108_element {g : List Cell.Guard} (s : Cell.Shared g) (h : Heap) (e : Env) (n : NodeId)
    (k u l : Str) (p : Option Str) (fuel : Nat) (m : Name → Bool) :
    Cell.getAttribute e n k g h = (getAttribute e h n k, h) ∧
    Cell.getAttributeNs e n u l g h = (getAttributeNs e h n u l, h) ∧
    Cell.getAttributeNode e n k g h = (getAttributeNode e h n k, h) ∧
    Cell.getAttributeNodeNs e n u l g h = (getAttributeNodeNs e h n u l, h) ∧
    Cell.hasAttribute e n k g h = (hasAttribute e h n k, h) ∧
    Cell.hasAttributeNs e n u l g h = (hasAttributeNs e h n u l, h) ∧
    Cell.attrValue e.uni n g h = (attrValue e.uni h n, h) ∧
    Cell.ownerElement n g h = (.ok (ownerElement h n), h) ∧
    Cell.resolveNamespace fuel n p g h = (resolveNamespace h fuel n p, h) ∧
    Cell.resolvePrefix e fuel n u g h = (resolvePrefix e h fuel n u, h) ∧
    Cell.collect m fuel n g h = (collect m h fuel n, h) :=
  ⟨Cell.getAttribute_run s e k h, Cell.getAttributeNs_run s e u l h,
    Cell.getAttributeNode_run s e k h, Cell.getAttributeNodeNs_run s e u l h,
    Cell.hasAttribute_run s e k h, Cell.hasAttributeNs_run s e u l h, Cell.attrValue_run e.uni s h,
    Cell.ownerElement_run (s n) h, Cell.resolveNamespace_run p h fuel s,
    Cell.resolvePrefix_run e u h fuel s, Cell.collect_run m h fuel s⟩

/-- The same for the calls of `Document`. -/
theorem C108_document {g : List Cell.Guard} (s : Cell.Shared g) (h : Heap) (n : NodeId) (k : Str)
    (m : Name → Bool) (fuel : Nat) :
    Cell.docType n g h = (.ok (docType h n), h) ∧
    Cell.xmlDeclaration n g h = (.ok (xmlDeclaration h n), h) ∧
    Cell.documentElement n g h = (.ok (documentElement h n), h) ∧
    Cell.getElementById n k g h = (.ok (getElementById h n k), h) ∧
    Cell.docCollect m fuel n g h = (match documentElement h n with
      | some root => collect m h fuel root
      | none => .ok [], h) :=
  ⟨Cell.docType_run (s n) h, Cell.xmlDeclaration_run (s n) h, Cell.documentElement_run (s n) h,
    Cell.getElementById_run (s n) h k, Cell.docCollect_run s m h fuel⟩

/-- The hypothesis is needed: a reader stops when the node is borrowed exclusively. -/
theorem C108_exclusive {g : List Cell.Guard} {n : NodeId} (hn : (n, true) ∈ g) (h : Heap) :
    Cell.nodeName n g h = (.panic .borrow, h) ∧ Cell.nodeValue n g h = (.panic .borrow, h) ∧
      Cell.nodeType n g h = (.panic .borrow, h) ∧ Cell.childNodes n g h = (.panic .borrow, h) :=
  ⟨Cell.read_held hn _ h, Cell.read_held hn _ h, Cell.read_held hn _ h, Cell.read_held hn _ h⟩

/-- The readers never stop over a guard, whatever shared guards are alive. -/
theorem C108_readers {g : List Cell.Guard} (s : Cell.Shared g) {h : Heap} (e : Env) (n : NodeId)
    (k u l : Str) (i j : Nat) :
    (Cell.getAttribute e n k g h).1 ≠ .panic .borrow ∧
    (Cell.getAttributeNs e n u l g h).1 ≠ .panic .borrow ∧
    (Cell.attrValue e.uni n g h).1 ≠ .panic .borrow ∧
    (Cell.substringData e.overflowChecks n i j g h).1 ≠ .panic .borrow := by
  have value : ∀ o : Outcome (Option NodeId), Calm o → Calm (attributeNodeValue e h o) := by
    intro o ho
    refine ho.bind fun a => ?_
    cases a with
    | none => nofun
    | some a =>
      simp only
      split
      · exact calm_attrValue e.uni h a
      · nofun
  rw [Cell.getAttribute_run s, Cell.getAttributeNs_run s, Cell.attrValue_run e.uni s,
    Cell.substringData_run (s n)]
  exact ⟨value _ (calm_getAttributeNode e h n k), value _ (calm_getAttributeNodeNs e h n u l),
    calm_attrValue e.uni h n, calm_substringData _ _ _ _⟩

example : Cell.Shared [(0, false), (1, false), (1, false)] := by
  intro m hm; simp at hm

end XmlDom.Props
