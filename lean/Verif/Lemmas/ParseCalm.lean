import Verif.Lemmas.ParseDoc

/-!
# The reader on events without traps
-/

namespace XmlDom
open Spec Props

/-- The document and the elements below it stay usable. -/
def Usable (h h' : Heap) (d : NodeId) : Prop := ∀ p, Ctx h d p → Ctx h' d p

theorem Usable.refl (h : Heap) (d : NodeId) : Usable h h d := fun _ c => c

theorem Usable.trans {a b c : Heap} {d : NodeId} (x : Usable a b d) (y : Usable b c d) :
    Usable a c d := fun p hp => y p (x p hp)

/-- A step of the reader: it returns, and the heap stays usable. -/
structure Fine (h : Heap) (d : NodeId) (r : Result NodeId) : Prop where
  returns : r.1.Returns
  keeps : Usable h r.2 d

theorem Fine.err {h : Heap} {d : NodeId} (er : DomError) : Fine h d (.err er, h) :=
  ⟨trivial, .refl _ _⟩

theorem Fine.after {h h1 : Heap} {d : NodeId} {r : Result NodeId} (k : Usable h h1 d)
    (f : Fine h1 d r) : Fine h d r := ⟨f.returns, k.trans f.keeps⟩

theorem usable_alloc (h : Heap) (d : NodeId) (x : Node) : Usable h (h.alloc x).2 d := by
  intro p c
  have hp : p ≠ h.next := Nat.ne_of_lt c.plt
  have hd : d ≠ h.next := Nat.ne_of_lt c.dlt
  have gp : (h.alloc x).2.get p = h.get p := by simp [hp]
  have gd : (h.alloc x).2.get d = h.get d := by simp [hd]
  refine ⟨Nat.lt_succ_of_lt c.dlt, by simp [c.dlive], by rw [gd]; exact c.dtype,
    by rw [gd]; exact c.dext, Nat.lt_succ_of_lt c.plt, by simp [c.plive], by rw [gp]; exact c.where_⟩

/-! ## Attributes -/

theorem AttrAdded.usable {h h' : Heap} {d el : NodeId} {nm : Name} {v : Str}
    (a : AttrAdded h h' d el nm v) (hne : el ≠ d) : Usable h h' d := by
  intro p c
  have lt : ∀ {m : NodeId}, m < h.next → m < h'.next := fun {m} hm => by
    rw [a.next]; exact Nat.lt_of_lt_of_le hm (Nat.le_add_right _ _)
  have lv : ∀ {m : NodeId}, m < h.next → h'.live m = h.live m := fun {m} hm => by
    rw [a.live, if_neg (Nat.ne_of_lt (Nat.lt_succ_of_lt hm)), if_neg (Nat.ne_of_lt hm)]
  have gd := a.others d c.dlt hne.symm
  refine ⟨lt c.dlt, by rw [lv c.dlt]; exact c.dlive, by rw [gd]; exact c.dtype,
    by rw [gd]; exact c.dext, lt c.plt, by rw [lv c.plt]; exact c.plive, ?_⟩
  rcases c.where_ with h1 | ⟨h1, h2, h3, h4⟩
  · exact Or.inl h1
  · refine Or.inr ⟨h1, ?_⟩
    by_cases hp : p = el
    · subst hp
      obtain ⟨attrs, nss, _, h6⟩ := a.elem
      rw [h6]
      exact ⟨h2, h3, _, _, rfl⟩
    · rw [a.others p c.plt hp]
      exact ⟨h2, h3, h4⟩

theorem usable_idPut {h : Heap} {d : NodeId} {x : DocExt} (hx : (h.get d).ext = .document x)
    (y : DocExt) (hy : y.options = x.options) :
    Usable h (h.set d { h.get d with ext := .document y }) d := by
  intro p c
  obtain ⟨z, z1, z2⟩ := c.dext
  rw [hx] at z1
  cases z1
  refine ⟨c.dlt, c.dlive, by simp [c.dtype], ⟨y, by simp, by rw [hy]; exact z2⟩, c.plt, c.plive, ?_⟩
  rcases c.where_ with h1 | ⟨h1, h2⟩
  · exact Or.inl h1
  · exact Or.inr ⟨h1, by simpa [h1] using h2⟩

theorem narrow_ok {k : Str} (hk : NarrowParts k) :
    (∃ nm, Name.fromStr k = .ok nm) ∨ ∃ er, Name.fromStr k = .err er := by
  rcases fromStr_cases k with ⟨_, h'⟩ | ⟨_, _, _, _, _, _, h'⟩ | ⟨_, _, h'⟩ | ⟨p, l, hs, hp, hl, h'⟩
  · exact Or.inr ⟨_, h'⟩
  · exact Or.inr ⟨_, h'⟩
  · rcases h' with ⟨_, _, h'⟩ | ⟨h', _⟩ | ⟨_, _, h'⟩
    · exact Or.inl ⟨_, h'⟩
    · exact absurd h' hk.1
    · exact Or.inr ⟨_, h'⟩
  · rcases h' with ⟨_, h'⟩ | ⟨h', _⟩ | ⟨_, _, _, h'⟩ | ⟨_, _, h'⟩
    · exact Or.inr ⟨_, h'⟩
    · exact absurd h' (hk.2 p l hs).2
    · exact Or.inr ⟨_, h'⟩
    · rcases h' with ⟨_, h'⟩ | ⟨_, _, h'⟩ | ⟨h', _⟩ | ⟨_, _, _, h'⟩
      · exact Or.inr ⟨_, h'⟩
      · exact Or.inl ⟨_, h'⟩
      · exact absurd h' (hk.2 p l hs).1
      · exact Or.inr ⟨_, h'⟩

theorem fromStr_ne_diverge (k : Str) : Name.fromStr k ≠ .diverge := by
  intro hd
  rcases fromStr_cases k with ⟨_, h'⟩ | ⟨_, _, _, _, _, _, h'⟩ | ⟨_, _, h'⟩ | ⟨p, l, hs, hp, hl, h'⟩
  · rw [hd] at h'; cases h'
  · rw [hd] at h'; cases h'
  · rw [hd] at h'
    rcases h' with ⟨_, _, h'⟩ | ⟨_, h'⟩ | ⟨_, _, h'⟩ <;> cases h'
  · rw [hd] at h'
    rcases h' with ⟨_, h'⟩ | ⟨_, h'⟩ | ⟨_, _, _, h'⟩ | ⟨_, _, h'⟩
    · cases h'
    · cases h'
    · cases h'
    · rcases h' with ⟨_, h'⟩ | ⟨_, _, h'⟩ | ⟨_, h'⟩ | ⟨_, _, _, h'⟩ <;> cases h'

theorem attrs_calm {e : Env} (hu : e.uni.Ascii) {d el : NodeId} (hne : el ≠ d) :
    ∀ (as : List AttrEvent) (h : Heap), Ctx h d el → (∀ a ∈ as, CalmAttr a) →
      Fine h d (handleAttributes e d el as h) ∧
      ∀ n, (handleAttributes e d el as h).1 = .ok n → n = el := by
  intro as
  induction as with
  | nil => intro h c _; exact ⟨⟨trivial, .refl _ _⟩, fun n hn => by cases hn; rfl⟩
  | cons a as ih =>
    intro h c hc
    have hrest : ∀ a ∈ as, CalmAttr a := fun a ha => hc a (by simp [ha])
    cases hc a (by simp) with
    | undecodable => exact ⟨.err _, fun n hn => by cases hn⟩
    | @good k v hk hv =>
      rcases narrow_ok hk with ⟨nm, hnm⟩ | ⟨er, her⟩
      · obtain ⟨h1, h3, e1, a3, e3⟩ := attr_new (e := e) (v := v) c hne hnm
        have u3 := a3.usable hne
        have c3 := u3 _ c
        have ho : (h3.get (h.next + 1)).owner = some d := by rw [a3.attr]; rfl
        obtain ⟨r1, r2⟩ := recordId_new (u := e.uni) c3 hne hnm ho
        have next : ∀ h4, Usable h h4 d → setAttributeNode e h1 el (h.next + 1) = (.ok (h.next + 1), h4) →
            Fine h d (handleAttributes e d el (.good k v :: as) h) ∧
              ∀ n, (handleAttributes e d el (.good k v :: as) h).1 = .ok n → n = el := by
          intro h4 u4 e4
          obtain ⟨f, g⟩ := ih h4 (u4 _ c) hrest
          simp only [handleAttributes, e1, e4]
          exact ⟨f.after u4, g⟩
        by_cases hid : k = c! "xml:id"
        · obtain ⟨r, hr⟩ := hv hid
          have hkids : (h3.get (h.next + 1)).children ≠ [] := by rw [a3.attr]; simp [attrNode]
          have hraw : attrRaw h3 (h.next + 1) = v := by
            unfold attrRaw
            rw [a3.attr]
            simp [attrNode, a3.text, Node.newText, attrChildText]
          obtain ⟨w, _, hw⟩ := attrValue_normalizes hu hkids hraw hr
          obtain ⟨q1, q2⟩ := r2 hid _ hw
          by_cases hm : escape w ∈ idsOf h3 d
          · have := q1 hm
            simp only [handleAttributes, e1, e3, this]
            exact ⟨⟨trivial, u3⟩, fun n hn => by cases hn⟩
          · obtain ⟨x, hx, q3⟩ := q2 hm
            exact next _ (u3.trans (usable_idPut hx { x with idMap := mapInsert (escape w) el x.idMap } rfl))
              (e3.trans q3)
        · exact next h3 u3 (e3.trans (r1 hid))
      · have : createAttributeWith h d k v = (.err er, h) := by
          unfold createAttributeWith createAttr
          rw [her]
        simp only [handleAttributes, this]
        exact ⟨.err _, fun n hn => by cases hn⟩

/-! ## Nodes -/

theorem append_calm {h : Heap} {d p : NodeId} (c : Ctx h d p) {x : Node} (hp : x.parent = none)
    (ho : x.owner = some d) (ha : isChildAllowed (h.get p).ntype x.ntype = true) :
    Fine h d (appendChild (h.alloc x).2 p h.next) ∧
      ∀ n, (appendChild (h.alloc x).2 p h.next).1 = .ok n → n = h.next ∧
        ∃ h', appendChild (h.alloc x).2 p h.next = (.ok n, h') ∧ Added h h' p x := by
  by_cases hr : p = d → x.ntype = .element → ∀ m ∈ (h.get d).children,
      ((h.alloc x).2.get m).ntype ≠ .element
  · obtain ⟨h', e1, a⟩ := append_new c hp ho ha hr
    refine ⟨?_, ?_⟩
    · rw [e1]
      exact ⟨trivial, fun q cq => cq.grow (a.grow c).1⟩
    · intro n hn
      rw [e1] at hn
      cases hn
      exact ⟨rfl, h', e1, a⟩
  · have : appendChild (h.alloc x).2 p h.next = (.err .hierarchyRequest, (h.alloc x).2) := by
      have : ∃ _ : p = d, x.ntype = .element ∧ ∃ m ∈ (h.get d).children,
          ((h.alloc x).2.get m).ntype = .element := by
        apply Classical.byContradiction
        intro hn
        apply hr
        intro h1 h2 m hm h3
        exact hn ⟨h1, h2, m, hm, h3⟩
      obtain ⟨rfl, h2, m, hm, h3⟩ := this
      have hpn : p ≠ h.next := Nat.ne_of_lt c.plt
      have gp : (h.alloc x).2.get p = h.get p := by simp [hpn]
      have gn : (h.alloc x).2.get h.next = x := by simp
      unfold appendChild
      rw [insertBefore_eq, gp, gn, c.dtype, h2, if_neg (by decide), if_pos]
      exact ⟨rfl, rfl, List.any_eq_true.mpr ⟨m, hm, decide_eq_true h3⟩⟩
    rw [this]
    exact ⟨⟨trivial, usable_alloc h d x⟩, fun n hn => by cases hn⟩

theorem start_calm {e : Env} (hu : e.uni.Ascii) {h : Heap} {d p : NodeId} (c : Ctx h d p) {n : Str}
    (hn : GoodName n) {as : List AttrEvent} (has : ∀ a ∈ as, CalmAttr a) :
    Fine h d (handleStart e d p (some n) as h) ∧
      ∀ m, (handleStart e d p (some n) as h).1 = .ok m →
        m ≠ d ∧ Ctx (handleStart e d p (some n) as h).2 d m := by
  obtain ⟨nm, hnm⟩ := hn
  have hc : createElement h d n = (.ok h.next, (h.alloc (Node.newElement d nm)).2) := by
    unfold createElement createNamed
    rw [hnm]; rfl
  have hallow : isChildAllowed (h.get p).ntype (Node.newElement d nm).ntype = true := by
    rcases c.where_ with h1 | ⟨_, h2, _⟩
    · subst h1; rw [c.dtype]; rfl
    · rw [h2]; rfl
  obtain ⟨f, g⟩ := append_calm (x := Node.newElement d nm) c rfl rfl hallow
  unfold handleStart
  simp only [hc]
  generalize appendChild (h.alloc (Node.newElement d nm)).2 p h.next = q at f g
  obtain ⟨o, h1⟩ := q
  cases o with
  | ok m =>
    obtain ⟨rfl, h', e1, a⟩ := g m rfl
    cases e1
    have hne : h.next ≠ d := (Nat.ne_of_lt c.dlt).symm
    have c1 := a.ctx c rfl rfl ⟨_, _, rfl⟩
    obtain ⟨f2, g2⟩ := attrs_calm (e := e) hu hne as h1 c1 has
    simp only
    refine ⟨f2.after f.keeps, fun m hm => ?_⟩
    cases g2 m hm
    exact ⟨hne, f2.keeps _ c1⟩
  | err er => exact ⟨f, fun m hm => by cases hm⟩
  | panic k => exact f.returns.elim
  | diverge => exact f.returns.elim

theorem allow_of {h : Heap} {d p : NodeId} (c : Ctx h d p) (t : NodeType)
    (ht : t = .comment ∨ t = .processingInstruction ∨ (p ≠ d ∧ (t = .text ∨ t = .cdata))) :
    isChildAllowed (h.get p).ntype t = true := by
  rcases c.where_ with h1 | ⟨_, h2, _⟩
  · subst h1
    rw [c.dtype]
    rcases ht with rfl | rfl | ⟨h3, _⟩
    · rfl
    · rfl
    · exact absurd rfl h3
  · rw [h2]
    rcases ht with rfl | rfl | ⟨_, rfl | rfl⟩ <;> rfl

theorem comment_calm {h : Heap} {d p : NodeId} (c : Ctx h d p) (t : Option Str) :
    Fine h d (handleComment d p t h) := by
  cases t with
  | none => exact .err _
  | some s => exact (append_calm (x := Node.newComment d s) c rfl rfl (allow_of c _ (Or.inl rfl))).1

theorem text_calm {h : Heap} {d p : NodeId} (c : Ctx h d p) (hne : p ≠ d) (t : Option Str) :
    Fine h d (handleText d p t h) := by
  cases t with
  | none => exact .err _
  | some s =>
    exact (append_calm (x := Node.newText d s) c rfl rfl
      (allow_of c _ (Or.inr (Or.inr ⟨hne, Or.inl rfl⟩)))).1

theorem cdata_calm {h : Heap} {d p : NodeId} (c : Ctx h d p) (hne : p ≠ d) (t : Option Str) :
    Fine h d (handleCdata d p t h) := by
  cases t with
  | none => exact .err _
  | some s =>
    exact (append_calm (x := Node.newCdata d s) c rfl rfl
      (allow_of c _ (Or.inr (Or.inr ⟨hne, Or.inr rfl⟩)))).1

theorem pi_calm {e : Env} (hu : e.uni.Ascii) {h : Heap} {d p : NodeId} (c : Ctx h d p) {s t : Str}
    {dat : Option Str} (hs : PiTame e.uni s t dat) (ht : GoodTarget t) :
    Fine h d (handlePi e d p (some s) h) := by
  obtain ⟨⟨nm, hnm⟩, hres⟩ := ht
  have hc : createProcessingInstruction h d t dat =
      (.ok h.next, (h.alloc (Node.newProcessingInstruction d nm dat)).2) := by
    unfold createProcessingInstruction createNamed
    rw [if_neg (unreserved_map hres), hnm]; rfl
  unfold handlePi
  simp only [splitPi_tame hu hs, hc]
  exact (append_calm (x := Node.newProcessingInstruction d nm dat) c rfl rfl
    (allow_of c _ (Or.inr (Or.inl rfl)))).1

/-! ## The loops -/

/-- What is known of a loop over the content of an element. -/
structure CalmLoop (u : Uni) (h : Heap) (d : NodeId) (evs : List Event) (r : ParseResult) :
    Prop where
  returns : r.out.Returns
  keeps : Usable h r.heap d
  shorter : r.rest.length ≤ evs.length
  calm : ∀ ev ∈ r.rest, Calm u ev

theorem element_calm {e : Env} (hu : e.uni.Ascii) {d : NodeId} :
    ∀ (fuel : Nat) (p : NodeId) (evs : List Event) (h : Heap), Ctx h d p → p ≠ d →
      evs.length < fuel → (∀ ev ∈ evs, Calm e.uni ev) →
      CalmLoop e.uni h d evs (parseElement e d fuel p evs h) := by
  intro fuel
  induction fuel with
  | zero => intro _ _ _ _ _ hf; exact absurd hf (Nat.not_lt_zero _)
  | succ f ih =>
    intro p evs h c hne hf hc
    cases evs with
    | nil => exact ⟨trivial, .refl _ _, Nat.le_refl _, by simp [parseElement]⟩
    | cons ev rest =>
      have hf' : rest.length < f := Nat.lt_of_succ_lt_succ hf
      have hrest : ∀ ev ∈ rest, Calm e.uni ev := fun x hx => hc x (by simp [hx])
      have le : rest.length ≤ (ev :: rest).length := Nat.le_succ _
      have stop : ∀ (o : Outcome NodeId) h1, o.Returns → Usable h h1 d →
          CalmLoop e.uni h d (ev :: rest) ⟨o, rest, h1⟩ :=
        fun o h1 ho hk => ⟨ho, hk, le, hrest⟩
      have go : ∀ (r : Result NodeId), Fine h d r → CalmLoop e.uni h d (ev :: rest)
          (match r with
            | (.ok _, h1) => parseElement e d f p rest h1
            | (o, h1) => ⟨o, rest, h1⟩) := by
        intro r hr
        obtain ⟨o, h1⟩ := r
        cases o with
        | ok n =>
          have := ih p rest h1 (hr.keeps _ c) hne hf' hrest
          exact ⟨this.returns, hr.keeps.trans this.keeps, Nat.le_trans this.shorter le, this.calm⟩
        | err er => exact stop _ _ trivial hr.keeps
        | panic k => exact hr.returns.elim
        | diverge => exact hr.returns.elim
      have hev := hc ev (by simp)
      cases hev with
      | decl => exact stop _ _ trivial (.refl _ _)
      | @start n as hq ha has =>
        obtain ⟨fs, gs⟩ := start_calm hu c (goodName hq ha) has
        simp only [parseElement]
        generalize handleStart e d p (some n) as h = q at fs gs
        obtain ⟨o, h1⟩ := q
        cases o with
        | ok el =>
          obtain ⟨hel, c1⟩ := gs el rfl
          have k1 := ih el rest h1 c1 hel hf' hrest
          simp only
          generalize parseElement e d f el rest h1 = r at k1
          obtain ⟨o2, rest2, h2⟩ := r
          cases o2 with
          | ok _ =>
            have k2 := ih p rest2 h2 (k1.keeps _ (fs.keeps _ c)) hne
              (Nat.lt_of_le_of_lt k1.shorter hf') k1.calm
            exact ⟨k2.returns, fs.keeps.trans (k1.keeps.trans k2.keeps),
              Nat.le_trans k2.shorter (Nat.le_trans k1.shorter le), k2.calm⟩
          | err er => exact ⟨trivial, fs.keeps.trans k1.keeps, Nat.le_trans k1.shorter le, k1.calm⟩
          | panic k => exact k1.returns.elim
          | diverge => exact k1.returns.elim
        | err er => exact stop _ _ trivial fs.keeps
        | panic k => exact fs.returns.elim
        | diverge => exact fs.returns.elim
      | noStart => exact stop _ _ trivial (.refl _ _)
      | empty hq ha has => exact go _ (start_calm hu c (goodName hq ha) has).1
      | noEmpty => exact stop _ _ trivial (.refl _ _)
      | close => exact stop _ _ trivial (.refl _ _)
      | @text t => exact go _ (text_calm c hne t)
      | @cdata t => exact go _ (cdata_calm c hne t)
      | @comment t => exact go _ (comment_calm c t)
      | pi hp hq ha hun => exact go _ (pi_calm hu c hp ⟨goodName hq ha, hun⟩)
      | noPi => exact stop _ _ trivial (.refl _ _)
      | other => exact stop _ _ trivial (.refl _ _)
      | eof => exact stop _ _ trivial (.refl _ _)
      | readError => exact stop _ _ trivial (.refl _ _)

theorem decl_calm {h : Heap} {d : NodeId} (c : Ctx h d d) {v : XmlVersion}
    {en sa : Option (Option Str)} (he : ∀ x, en = some x → ∃ y, x = some y ∧ IsEncName y)
    (hs : sa ≠ some none) :
    (handleDecl d (some (versionText v)) en sa h).1.Returns ∧
      Usable h (handleDecl d (some (versionText v)) en sa h).2 d := by
  obtain ⟨x, hx, _⟩ := c.dext
  have hv : unquote (versionText v) = .ok (versionText v) := by cases v <;> rfl
  have hv2 : XmlVersion.fromStr (versionText v) = some v := by cases v <;> rfl
  have hnew : ∀ (en' : Option Str) sa', (∀ y, en' = some y → IsEncName y) →
      XmlDecl.new v en' sa' = .ok ⟨v, en', sa'⟩ := fun en' sa' hy => decl_new (d := ⟨v, en', sa'⟩) hy
  have hm : ∃ en' sa', makeDecl (some (versionText v)) en sa = .ok (versionText v, en', sa') ∧
      ∀ y, en' = some y → IsEncName y := by
    unfold makeDecl
    simp only [hv, Outcome.bind]
    cases en with
    | none =>
      cases sa with
      | none => exact ⟨_, _, rfl, fun y hy => by cases hy⟩
      | some s =>
        cases s with
        | none => exact absurd rfl hs
        | some s => exact ⟨_, _, rfl, fun y hy => by cases hy⟩
    | some y =>
      obtain ⟨z, rfl, hz⟩ := he y rfl
      cases sa with
      | none => exact ⟨_, _, rfl, fun y hy => by cases hy; exact hz⟩
      | some s =>
        cases s with
        | none => exact absurd rfl hs
        | some s => exact ⟨_, _, rfl, fun y hy => by cases hy; exact hz⟩
  obtain ⟨en', sa', m1, m2⟩ := hm
  unfold handleDecl
  rw [hx]
  simp only [m1, Outcome.bind, hv2, hnew en' sa' m2]
  split
  · exact ⟨trivial, .refl _ _⟩
  · exact ⟨trivial, usable_idPut hx _ rfl⟩

theorem loop_calm {e : Env} (hu : e.uni.Ascii) {d : NodeId} :
    ∀ (fuel : Nat) (evs : List Event) (h : Heap), Ctx h d d → evs.length < fuel →
      (∀ ev ∈ evs, Calm e.uni ev) → (parseLoop e d fuel evs h).1.Returns := by
  intro fuel
  induction fuel with
  | zero => intro _ _ _ hf; exact absurd hf (Nat.not_lt_zero _)
  | succ f ih =>
    intro evs h c hf hc
    cases evs with
    | nil => exact trivial
    | cons ev rest =>
      have hf' : rest.length < f := Nat.lt_of_succ_lt_succ hf
      have hrest : ∀ ev ∈ rest, Calm e.uni ev := fun x hx => hc x (by simp [hx])
      have go : ∀ (r : Result NodeId), Fine h d r → (match r with
            | (.ok _, h1) => parseLoop e d f rest h1
            | r => r).1.Returns := by
        intro r hr
        obtain ⟨o, h1⟩ := r
        cases o with
        | ok n => exact ih rest h1 (hr.keeps _ c) hf' hrest
        | err er => exact trivial
        | panic k => exact hr.returns.elim
        | diverge => exact hr.returns.elim
      have hev := hc ev (by simp)
      cases hev with
      | @decl v en sa he hs =>
        obtain ⟨r1, r2⟩ := decl_calm (v := v) c he hs
        simp only [parseLoop]
        generalize handleDecl d (some (versionText v)) en sa h = q at r1 r2
        obtain ⟨o, h1⟩ := q
        cases o with
        | ok _ => exact ih rest h1 (r2 _ c) hf' hrest
        | err er => exact trivial
        | panic k => exact r1.elim
        | diverge => exact r1.elim
      | @start n as hq ha has =>
        obtain ⟨fs, gs⟩ := start_calm hu c (goodName hq ha) has
        simp only [parseLoop]
        generalize handleStart e d d (some n) as h = q at fs gs
        obtain ⟨o, h1⟩ := q
        cases o with
        | ok el =>
          obtain ⟨hel, c1⟩ := gs el rfl
          have k1 := element_calm hu (rest.length + 1) el rest h1 c1 hel (Nat.lt_succ_self _) hrest
          simp only
          generalize parseElement e d (rest.length + 1) el rest h1 = r at k1
          obtain ⟨o2, rest2, h2⟩ := r
          have k2 := ih rest2 h2 (k1.keeps _ (fs.keeps _ c))
            (Nat.lt_of_le_of_lt k1.shorter hf') k1.calm
          cases o2 with
          | ok _ => exact k2
          | err er => exact k2
          | panic k => exact k1.returns.elim
          | diverge => exact k1.returns.elim
        | err er => exact trivial
        | panic k => exact fs.returns.elim
        | diverge => exact fs.returns.elim
      | noStart => exact trivial
      | empty hq ha has => exact go _ (start_calm hu c (goodName hq ha) has).1
      | noEmpty => exact trivial
      | close => exact ih rest h c hf' hrest
      | @text t => exact trivial
      | @cdata t => exact trivial
      | @comment t => exact go _ (comment_calm c t)
      | pi hp hq ha hun => exact go _ (pi_calm hu c hp ⟨goodName hq ha, hun⟩)
      | noPi => exact trivial
      | other => exact trivial
      | eof => exact trivial
      | readError => exact trivial

end XmlDom
