import Verif.Lemmas.ParseTree

/-!
# The reader on the events of a tree
-/

namespace XmlDom
open Spec Props

/-! ## Content -/

/-- The nodes other than `p` and `d` stay what they are. -/
structure Kept (h h' : Heap) (d p : NodeId) : Prop where
  next : h.next ≤ h'.next
  live : ∀ m, m < h.next → h'.live m = h.live m
  others : ∀ m, m < h.next → m ≠ p → m ≠ d → h'.get m = h.get m

theorem Grow.toKept {h h' : Heap} {d p : NodeId} (g : Grow h h' d p) : Kept h h' d p :=
  ⟨g.next, g.live, g.others⟩

theorem Kept.trans {a b c : Heap} {d p : NodeId} (x : Kept a b d p) (y : Kept b c d p) :
    Kept a c d p :=
  ⟨Nat.le_trans x.next y.next,
    fun m hm => (y.live m (Nat.lt_of_lt_of_le hm x.next)).trans (x.live m hm),
    fun m hm h1 h2 => (y.others m (Nat.lt_of_lt_of_le hm x.next) h1 h2).trans (x.others m hm h1 h2)⟩

theorem Kept.kept {h h' : Heap} {d p lo : NodeId} (g : Kept h h' d p) (hd : d < lo) (hp : p < lo) :
    ∀ m, lo ≤ m → m < h.next → h'.get m = h.get m ∧ h'.live m = h.live m := fun m h1 h2 =>
  ⟨g.others m h2 (Nat.ne_of_lt (Nat.lt_of_lt_of_le hp h1)).symm
    (Nat.ne_of_lt (Nat.lt_of_lt_of_le hd h1)).symm, g.live m h2⟩

/-- A leaf and what was added behind it. -/
theorem Built.afterLeaf {h h1 h2 : Heap} {d p : NodeId} {ns : List NodeId} {l : Spec.Leaf}
    {rest : Xml} (c : Ctx h d p) (a : LeafAdded h h1 d p l) (k : Kept h1 h2 d p)
    (r : Built h2 d h1.next p ns rest) : Built h2 d h.next p (h.next :: ns) (.leaf l rest) := by
  have hlt : h.next < h1.next := by rw [a.next]; exact Nat.lt_succ_self _
  have e := (k.kept c.dlt c.plt h.next (Nat.le_refl _) hlt).1
  exact .leaf (Nat.le_refl _) (Nat.lt_of_lt_of_le hlt k.next) (by rw [e]; exact a.leaf)
    (by rw [e]; exact a.parent) (by rw [e]; exact a.owner) (by rw [e]; exact a.children)
    (r.keep a.grow.next (Nat.le_refl _) fun _ _ _ => ⟨rfl, rfl⟩)

/-- The content was added to `p`, whatever the ids. -/
structure Grown (h h' : Heap) (d p : NodeId) (ns : List NodeId) (x : Xml) : Prop where
  grow : Grow h h' d p
  kids : (h'.get p).children = (h.get p).children ++ ns
  built : Built h' d h.next p ns x

theorem Grown.nil {h : Heap} {d p : NodeId} (c : Ctx h d p) : Grown h h d p [] .nil :=
  ⟨Grow.refl c, by simp, .nil⟩

theorem Grown.leaf {h h1 h2 : Heap} {d p : NodeId} {ns : List NodeId} {l : Spec.Leaf}
    {rest : Xml} (c : Ctx h d p) (a : LeafAdded h h1 d p l) (r : Grown h1 h2 d p ns rest) :
    Grown h h2 d p (h.next :: ns) (.leaf l rest) :=
  ⟨a.grow.trans r.grow, by rw [r.kids, a.kids, List.append_assoc]; rfl,
    r.built.afterLeaf c a r.grow.toKept⟩

/-- An element, its content and what was added behind it. -/
theorem Built.afterElement {h h1 h2 h3 : Heap} {d p : NodeId} {ks ns : List NodeId} {n : Str}
    {as : List (Str × Str)} {kids rest : Xml} (c : Ctx h d p) (s : Begun h h1 d p n as)
    (k : Grown h1 h2 d h.next ks kids) (q : Kept h2 h3 d p) (r : Built h3 d h2.next p ns rest) :
    Built h3 d h.next p (h.next :: ns) (.element n as kids rest) := by
  have hlt1 := s.ctx.plt
  have hlt2 : h.next < h2.next := Nat.lt_of_lt_of_le hlt1 k.grow.next
  have hlt3 : h.next < h3.next := Nat.lt_of_lt_of_le hlt2 q.next
  have hne : h.next ≠ d := (Nat.ne_of_lt c.dlt).symm
  have e3 := (q.kept c.dlt c.plt h.next (Nat.le_refl _) hlt2)
  have e2 := k.grow.par hne
  have hkids : (h3.get h.next).children = ks := by
    rw [e3.1, k.kids, s.children, List.nil_append]
  have lv : h3.live h.next = true := by
    rw [e3.2, k.grow.live _ hlt1]; exact s.ctx.plive
  obtain ⟨attrs, nss, a1, a2, a3⟩ := s.attrs
  have hb : ∀ m, h.next < m → m < h1.next → h3.get m = h1.get m := by
    intro m m1 m2
    have hm : h.next ≤ m := Nat.le_of_lt m1
    rw [(q.kept c.dlt c.plt m hm (Nat.lt_of_lt_of_le m2 k.grow.next)).1]
    exact k.grow.others m m2 (Nat.ne_of_lt m1).symm
      (Nat.ne_of_lt (Nat.lt_trans c.dlt m1)).symm
  have hat : AttrsBuilt h3 d h.next h.next as attrs := by
    intro a ha
    obtain ⟨q', b, t, y1, y2, y3, y4, y5, y6, y7, y8⟩ := a3 a ha
    have n13 : h1.next ≤ h3.next := Nat.le_trans k.grow.next q.next
    have ty : ∀ m, h.next ≤ m → (h1.get m).ntype ≠ .element → h.next < m := by
      intro m m1 m2
      rcases Nat.lt_or_eq_of_le m1 with h4 | h4
      · exact h4
      · subst h4; exact absurd s.ntype m2
    have tb : h.next < b := ty b y5 (by rw [y7]; simp [attrNode])
    have tt : h.next < t := ty t y3 (by rw [y8]; simp [Node.newText])
    exact ⟨q', b, t, y1, y2, y3, Nat.lt_of_lt_of_le y4 n13, y5, Nat.lt_of_lt_of_le y6 n13,
      (hb b tb y6).trans y7, (hb t tt y4).trans y8⟩
  refine .element (Nat.le_refl _) hlt3 lv ?_ ?_ ?_ ?_ ⟨attrs, nss, ?_, a2, hat⟩ ?_
    (r.keep (Nat.le_of_lt hlt2) (Nat.le_refl _) fun _ _ _ => ⟨rfl, rfl⟩)
  · rw [e3.1, e2]; exact s.ntype
  · rw [e3.1, e2]; exact s.name
  · rw [e3.1, e2]; exact s.parent
  · rw [e3.1, e2]; exact s.owner
  · rw [e3.1, e2]; exact a1
  · rw [hkids]
    exact k.built.keep (Nat.le_of_lt hlt1) q.next
      (q.kept (Nat.lt_trans c.dlt hlt1) (Nat.lt_trans c.plt hlt1))

theorem Grown.element {h h1 h2 h3 : Heap} {d p : NodeId} {ks ns : List NodeId} {n : Str}
    {as : List (Str × Str)} {kids rest : Xml} (c : Ctx h d p) (s : Begun h h1 d p n as)
    (k : Grown h1 h2 d h.next ks kids) (r : Grown h2 h3 d p ns rest) :
    Grown h h3 d p (h.next :: ns) (.element n as kids rest) := by
  obtain ⟨g, hk⟩ := s.grow.below k.grow c.dlt c.plt (Nat.le_refl _)
  exact ⟨g.trans r.grow, by rw [r.kids, hk, s.kids, List.append_assoc]; rfl,
    r.built.afterElement c s k r.grow.toKept⟩

/-- The content was added to `p`. -/
structure ContentRead (h h' : Heap) (d p : NodeId) (ns : List NodeId) (x : Xml) : Prop
    extends Grown h h' d p ns x where
  ids : ∀ s, s ∈ idsOf h' d ↔ s ∈ idsOf h d ∨ s ∈ x.ids

theorem ContentRead.nil {h : Heap} {d p : NodeId} (c : Ctx h d p) :
    ContentRead h h d p [] .nil :=
  ⟨.nil c, fun s => by simp [Xml.ids]⟩

theorem ContentRead.leaf {h h1 h2 : Heap} {d p : NodeId} {ns : List NodeId} {l : Spec.Leaf}
    {rest : Xml} (c : Ctx h d p) (a : LeafAdded h h1 d p l) (r : ContentRead h1 h2 d p ns rest) :
    ContentRead h h2 d p (h.next :: ns) (.leaf l rest) :=
  ⟨.leaf c a r.toGrown, fun s => by rw [r.ids, a.ids]; rfl⟩

theorem ContentRead.element {h h1 h2 h3 : Heap} {d p : NodeId} {ks ns : List NodeId} {n : Str}
    {as : List (Str × Str)} {kids rest : Xml} (c : Ctx h d p) (s : Started h h1 d p n as)
    (k : ContentRead h1 h2 d h.next ks kids) (r : ContentRead h2 h3 d p ns rest) :
    ContentRead h h3 d p (h.next :: ns) (.element n as kids rest) := by
  refine ⟨.element c s.toBegun k.toGrown r.toGrown, ?_⟩
  intro v
  rw [r.ids, k.ids, s.ids]
  show _ ↔ _ ∨ v ∈ idVals as ++ (kids.ids ++ rest.ids)
  simp only [List.mem_append, or_assoc]

/-- The ids are names, distinct and new. -/
def FreshIds (h : Heap) (d : NodeId) (x : Xml) : Prop :=
  x.ids.Nodup ∧ ∀ v ∈ x.ids, IsNcName v ∧ v ∉ idsOf h d

/-- What the reader needs of the tree. -/
structure Fit (x : Xml) : Prop where
  names : x.Named GoodName GoodTarget
  attrs : x.AttrLists fun as => (as.map (·.1)).Nodup

theorem Fit.rest_leaf {l : Spec.Leaf} {rest : Xml} (f : Fit (.leaf l rest)) : Fit rest :=
  ⟨f.names.2, f.attrs⟩

theorem FreshIds.element {h : Heap} {d : NodeId} {n : Str} {as : List (Str × Str)}
    {kids rest : Xml} (f : FreshIds h d (.element n as kids rest)) :
    (∀ v ∈ idVals as, IsNcName v ∧ v ∉ idsOf h d) ∧
    (∀ h1, (∀ s, s ∈ idsOf h1 d ↔ s ∈ idsOf h d ∨ s ∈ idVals as) → FreshIds h1 d kids) ∧
    (∀ h1 h2, (∀ s, s ∈ idsOf h1 d ↔ s ∈ idsOf h d ∨ s ∈ idVals as) →
      (∀ s, s ∈ idsOf h2 d ↔ s ∈ idsOf h1 d ∨ s ∈ kids.ids) → FreshIds h2 d rest) := by
  obtain ⟨f1, f2⟩ := f
  have hs : Xml.ids (.element n as kids rest) = idVals as ++ (kids.ids ++ rest.ids) := rfl
  rw [hs] at f1 f2
  rw [List.nodup_append] at f1
  obtain ⟨_, n2, n3⟩ := f1
  rw [List.nodup_append] at n2
  obtain ⟨n4, n5, n6⟩ := n2
  refine ⟨fun v hv => f2 v (by simp [hv]), ?_, ?_⟩
  · intro h1 e1
    refine ⟨n4, fun v hv => ⟨(f2 v (by simp [hv])).1, ?_⟩⟩
    rw [e1]
    rintro (h3 | h3)
    · exact (f2 v (by simp [hv])).2 h3
    · exact n3 v h3 v (by simp [hv]) rfl
  · intro h1 h2 e1 e2
    refine ⟨n5, fun v hv => ⟨(f2 v (by simp [hv])).1, ?_⟩⟩
    rw [e2, e1]
    rintro ((h3 | h3) | h3)
    · exact (f2 v (by simp [hv])).2 h3
    · exact n3 v h3 v (by simp [hv]) rfl
    · exact n6 v h3 v hv rfl

theorem FreshIds.same {h h1 : Heap} {d : NodeId} {x : Xml} (f : FreshIds h d x)
    (hi : idsOf h1 d = idsOf h d) : FreshIds h1 d x := by
  unfold FreshIds at f ⊢
  rw [hi]; exact f

/-- Inside an element. -/
theorem content_read {e : Env} (hu : e.uni.Ascii) {d : NodeId} {x : Xml} {evs : List Event}
    (hev : Events (PiTame e.uni) x evs) : ∀ (fuel : Nat) (tail : List Event) (h : Heap) (p : NodeId),
    Ctx h d p → p ≠ d → (evs ++ tail).length < fuel → Fit x → FreshIds h d x →
    ∃ h' fuel' ns, tail.length < fuel' ∧
      parseElement e d fuel p (evs ++ tail) h = parseElement e d fuel' p tail h' ∧
      ContentRead h h' d p ns x := by
  have leafCase : ∀ {l : Spec.Leaf} {rest : Xml} {ev : Event} {evs : List Event},
      (∀ (fuel : Nat) (tail : List Event) (h : Heap) (p : NodeId),
        Ctx h d p → p ≠ d → (evs ++ tail).length < fuel → Fit rest → FreshIds h d rest →
        ∃ h' fuel' ns, tail.length < fuel' ∧
          parseElement e d fuel p (evs ++ tail) h = parseElement e d fuel' p tail h' ∧
          ContentRead h h' d p ns rest) →
      ∀ (fuel : Nat) (tail : List Event) (h : Heap) (p : NodeId),
        (Fit (.leaf l rest) → ∃ h1, (∀ f, parseElement e d (f + 1) p (ev :: (evs ++ tail)) h =
          parseElement e d f p (evs ++ tail) h1) ∧ LeafAdded h h1 d p l) →
        Ctx h d p → p ≠ d → (ev :: evs ++ tail).length < fuel → Fit (.leaf l rest) →
        FreshIds h d (.leaf l rest) → ∃ h' fuel' ns, tail.length < fuel' ∧
          parseElement e d fuel p (ev :: evs ++ tail) h = parseElement e d fuel' p tail h' ∧
          ContentRead h h' d p ns (.leaf l rest) := by
    intro l rest ev evs ih fuel tail h p hstep c hne hf fit fresh
    obtain ⟨h1, s1, a⟩ := hstep fit
    cases fuel with
    | zero => exact absurd hf (Nat.not_lt_zero _)
    | succ f =>
      have hf' : (evs ++ tail).length < f := Nat.lt_of_succ_lt_succ hf
      obtain ⟨h2, f2, ns, q1, q2, q3⟩ := ih f tail h1 p (c.grow a.grow) hne hf' fit.rest_leaf
        (FreshIds.same (x := rest) fresh a.ids)
      exact ⟨h2, f2, h.next :: ns, q1, (s1 f).trans q2, q3.leaf c a⟩
  induction hev with
  | nil =>
    intro fuel tail h p c _ hf _ _
    exact ⟨h, fuel, [], hf, rfl, .nil c⟩
  | @text s rest evs _ ih =>
    intro fuel tail h p c hne
    refine leafCase ih fuel tail h p (fun _ => ?_) c hne
    obtain ⟨h1, e1, a⟩ := text_read c hne s
    exact ⟨h1, fun f => by simp only [parseElement, e1], a⟩
  | @cdata s rest evs _ ih =>
    intro fuel tail h p c hne
    refine leafCase ih fuel tail h p (fun _ => ?_) c hne
    obtain ⟨h1, e1, a⟩ := cdata_read c hne s
    exact ⟨h1, fun f => by simp only [parseElement, e1], a⟩
  | @comment s rest evs _ ih =>
    intro fuel tail h p c hne
    refine leafCase ih fuel tail h p (fun _ => ?_) c hne
    obtain ⟨h1, e1, a⟩ := comment_read c s
    exact ⟨h1, fun f => by simp only [parseElement, e1], a⟩
  | @pi s t dat rest evs hp _ ih =>
    intro fuel tail h p c hne
    refine leafCase ih fuel tail h p (fun fit => ?_) c hne
    obtain ⟨h1, e1, a⟩ := pi_read hu c hp (fit.names.1 t dat rfl)
    exact ⟨h1, fun f => by simp only [parseElement, e1], a⟩
  | @element n as kids rest ks evs _ _ ihk ihr =>
    intro fuel tail h p c hne hf fit fresh
    obtain ⟨f1, f2, f3⟩ := fresh.element
    obtain ⟨m1, m2, m3, m4⟩ := fit.names
    obtain ⟨t1, t2, t3⟩ := fit.attrs
    obtain ⟨h1, e1, s⟩ := start_read hu c m1 (fun hpd => absurd hpd hne) m2 t1 f1
    have hne1 : h.next ≠ d := (Nat.ne_of_lt c.dlt).symm
    cases fuel with
    | zero => exact absurd hf (Nat.not_lt_zero _)
    | succ f =>
      have hrw : Event.start (some n) (as.map fun a => .good a.1 a.2) :: (ks ++ .close :: evs) ++ tail
          = .start (some n) (as.map fun a => .good a.1 a.2) :: (ks ++ (.close :: (evs ++ tail))) := by
        simp
      rw [hrw] at hf ⊢
      have hf1 : (ks ++ (.close :: (evs ++ tail))).length < f := Nat.lt_of_succ_lt_succ hf
      have hf2 : (evs ++ tail).length < f := by
        simp only [List.length_append, List.length_cons] at hf1 ⊢; omega
      obtain ⟨h2, g2, ks', q1, q2, q3⟩ := ihk f (.close :: (evs ++ tail)) h1 h.next s.ctx hne1 hf1
        ⟨m3, t2⟩ (f2 h1 s.ids)
      obtain ⟨gb, _⟩ := s.grow.below q3.grow c.dlt c.plt (Nat.le_refl _)
      obtain ⟨h3, g3, ns, r1, r2, r3⟩ := ihr f tail h2 p (c.grow gb) hne hf2
        ⟨m4, t3⟩ (f3 h1 h2 s.ids q3.ids)
      refine ⟨h3, g3, h.next :: ns, r1, ?_, q3.element c s r3⟩
      rw [← r2]
      cases g2 with
      | zero => exact absurd q1 (Nat.not_lt_zero _)
      | succ g2 =>
        have : parseElement e d (g2 + 1) h.next (.close :: (evs ++ tail)) h2 =
          ⟨.ok h.next, evs ++ tail, h2⟩ := by simp only [parseElement]
        rw [this] at q2
        simp only [parseElement, e1, q2]
  | @empty n as rest evs _ ihr =>
    intro fuel tail h p c hne hf fit fresh
    obtain ⟨f1, f2, f3⟩ := fresh.element
    obtain ⟨m1, m2, m3, m4⟩ := fit.names
    obtain ⟨t1, t2, t3⟩ := fit.attrs
    obtain ⟨h1, e1, s⟩ := start_read hu c m1 (fun hpd => absurd hpd hne) m2 t1 f1
    cases fuel with
    | zero => exact absurd hf (Nat.not_lt_zero _)
    | succ f =>
      have hf1 : (evs ++ tail).length < f := Nat.lt_of_succ_lt_succ hf
      have hk := ContentRead.nil s.ctx
      obtain ⟨h3, g3, ns, r1, r2, r3⟩ := ihr f tail h1 p (c.grow s.grow) hne hf1
        ⟨m4, t3⟩ (f3 h1 h1 s.ids hk.ids)
      refine ⟨h3, g3, h.next :: ns, r1, ?_, hk.element c s r3⟩
      rw [← r2]
      simp only [List.cons_append, parseElement, e1]

/-! ## The top of the document -/

theorem Grow.rootless {h h' : Heap} {d n : NodeId} (g : Grow h h' d d) (hr : Rootless h d)
    (hdt : (h.get d).ntype = .document)
    (hk : (h'.get d).children = (h.get d).children ++ [n]) (hn : n < h'.next)
    (ht : (h'.get n).ntype ≠ .element) : Rootless h' d := by
  intro m hm
  rw [hk, List.mem_append] at hm
  rcases hm with hm | hm
  · obtain ⟨h1, h2⟩ := hr m hm
    refine ⟨Nat.lt_of_lt_of_le h1 g.next, ?_⟩
    by_cases hmd : m = d
    · obtain ⟨x, i, _, hx⟩ := g.doc
      rw [hmd, hx]
      show (h.get d).ntype ≠ _
      rw [hdt]; simp
    · rw [g.others m h1 hmd hmd]; exact h2
  · rw [List.mem_singleton] at hm
    subst hm
    exact ⟨hn, ht⟩

/-- At the top of the document, with an element to come only if there is none yet. -/
theorem outer_read {e : Env} (hu : e.uni.Ascii) {d : NodeId} {x : Xml} {evs : List Event}
    (hev : Events (PiTame e.uni) x evs) : ∀ (fuel : Nat) (tail : List Event) (h : Heap),
    Ctx h d d → (evs ++ tail).length < fuel → Fit x → FreshIds h d x → x.Outer →
    x.roots = 0 ∨ (x.roots = 1 ∧ Rootless h d) →
    ∃ h' fuel' ns, tail.length < fuel' ∧
      parseLoop e d fuel (evs ++ tail) h = parseLoop e d fuel' tail h' ∧
      ContentRead h h' d d ns x ∧ (x.roots = 0 → Rootless h d → Rootless h' d) := by
  have leafCase : ∀ {l : Spec.Leaf} {rest : Xml} {ev : Event} {evs : List Event},
      (∀ (fuel : Nat) (tail : List Event) (h : Heap),
        Ctx h d d → (evs ++ tail).length < fuel → Fit rest → FreshIds h d rest → rest.Outer →
        rest.roots = 0 ∨ (rest.roots = 1 ∧ Rootless h d) →
        ∃ h' fuel' ns, tail.length < fuel' ∧
          parseLoop e d fuel (evs ++ tail) h = parseLoop e d fuel' tail h' ∧
          ContentRead h h' d d ns rest ∧ (rest.roots = 0 → Rootless h d → Rootless h' d)) →
      ∀ (fuel : Nat) (tail : List Event) (h : Heap),
        (Fit (.leaf l rest) → ∃ h1, (∀ f, parseLoop e d (f + 1) (ev :: (evs ++ tail)) h =
          parseLoop e d f (evs ++ tail) h1) ∧ LeafAdded h h1 d d l) →
        Ctx h d d → (ev :: evs ++ tail).length < fuel → Fit (.leaf l rest) →
        FreshIds h d (.leaf l rest) → (Xml.leaf l rest).Outer →
        (Xml.leaf l rest).roots = 0 ∨ ((Xml.leaf l rest).roots = 1 ∧ Rootless h d) →
        ∃ h' fuel' ns, tail.length < fuel' ∧
          parseLoop e d fuel (ev :: evs ++ tail) h = parseLoop e d fuel' tail h' ∧
          ContentRead h h' d d ns (.leaf l rest) ∧
          ((Xml.leaf l rest).roots = 0 → Rootless h d → Rootless h' d) := by
    intro l rest ev evs ih fuel tail h hstep c hf fit fresh ho hr
    obtain ⟨h1, s1, a⟩ := hstep fit
    have hroot : Rootless h d → Rootless h1 d := by
      intro h2
      refine a.grow.rootless h2 c.dtype a.kids (by rw [a.next]; exact Nat.lt_succ_self _) ?_
      have := a.leaf
      intro ht
      cases l <;> simp only [LeafNode] at this
      all_goals rw [this.1] at ht; cases ht
    cases fuel with
    | zero => exact absurd hf (Nat.not_lt_zero _)
    | succ f =>
      have hf' : (evs ++ tail).length < f := Nat.lt_of_succ_lt_succ hf
      obtain ⟨h2, f2, ns, q1, q2, q3, q4⟩ := ih f tail h1 (c.grow a.grow) hf' fit.rest_leaf
        (FreshIds.same (x := rest) fresh a.ids) ho.2
        (hr.imp id fun hr => ⟨hr.1, hroot hr.2⟩)
      exact ⟨h2, f2, h.next :: ns, q1, (s1 f).trans q2, q3.leaf c a,
        fun r1 r2 => q4 r1 (hroot r2)⟩
  induction hev with
  | nil =>
    intro fuel tail h c hf _ _ _ _
    exact ⟨h, fuel, [], hf, rfl, .nil c, fun _ hr => hr⟩
  | @text s rest evs _ ih =>
    intro fuel tail h c hf fit fresh ho
    rcases ho.1 with ⟨_, h1⟩ | ⟨_, _, h1⟩ <;> cases h1
  | @cdata s rest evs _ ih =>
    intro fuel tail h c hf fit fresh ho
    rcases ho.1 with ⟨_, h1⟩ | ⟨_, _, h1⟩ <;> cases h1
  | @comment s rest evs _ ih =>
    intro fuel tail h c
    refine leafCase ih fuel tail h (fun _ => ?_) c
    obtain ⟨h1, e1, a⟩ := comment_read c s
    exact ⟨h1, fun f => by simp only [parseLoop, e1], a⟩
  | @pi s t dat rest evs hp _ ih =>
    intro fuel tail h c
    refine leafCase ih fuel tail h (fun fit => ?_) c
    obtain ⟨h1, e1, a⟩ := pi_read hu c hp (fit.names.1 t dat rfl)
    exact ⟨h1, fun f => by simp only [parseLoop, e1], a⟩
  | @element n as kids rest ks evs hk _ _ ihr =>
    intro fuel tail h c hf fit fresh ho hr
    have hr' : rest.roots = 0 ∧ Rootless h d := by
      have : (Xml.element n as kids rest).roots = rest.roots + 1 := rfl
      rw [this] at hr
      rcases hr with hr | ⟨h1, h2⟩
      · exact absurd hr (Nat.succ_ne_zero _)
      · exact ⟨Nat.succ.inj h1, h2⟩
    obtain ⟨f1, f2, f3⟩ := fresh.element
    obtain ⟨m1, m2, m3, m4⟩ := fit.names
    obtain ⟨t1, t2, t3⟩ := fit.attrs
    obtain ⟨h1, e1, s⟩ := start_read hu c m1 (fun _ => hr'.2) m2 t1 f1
    have hne1 : h.next ≠ d := (Nat.ne_of_lt c.dlt).symm
    cases fuel with
    | zero => exact absurd hf (Nat.not_lt_zero _)
    | succ f =>
      have hrw : Event.start (some n) (as.map fun a => .good a.1 a.2) :: (ks ++ .close :: evs) ++ tail
          = .start (some n) (as.map fun a => .good a.1 a.2) :: (ks ++ (.close :: (evs ++ tail))) := by
        simp
      rw [hrw] at hf ⊢
      have hf2 : (evs ++ tail).length < f := by
        simp only [List.length_append, List.length_cons] at hf ⊢; omega
      obtain ⟨h2, g2, ks', q1, q2, q3⟩ := content_read hu hk
        ((ks ++ (.close :: (evs ++ tail))).length + 1) (.close :: (evs ++ tail)) h1 h.next s.ctx hne1
        (Nat.lt_succ_self _) ⟨m3, t2⟩ (f2 h1 s.ids)
      obtain ⟨gb, _⟩ := s.grow.below q3.grow c.dlt c.plt (Nat.le_refl _)
      obtain ⟨h3, g3, ns, r1, r2, r3, _⟩ := ihr f tail h2 (c.grow gb) hf2
        ⟨m4, t3⟩ (f3 h1 h2 s.ids q3.ids) ho (Or.inl hr'.1)
      refine ⟨h3, g3, h.next :: ns, r1, ?_, q3.element c s r3,
        fun hz => absurd hz (Nat.succ_ne_zero _)⟩
      rw [← r2]
      cases g2 with
      | zero => exact absurd q1 (Nat.not_lt_zero _)
      | succ g2 =>
        have : parseElement e d (g2 + 1) h.next (.close :: (evs ++ tail)) h2 =
          ⟨.ok h.next, evs ++ tail, h2⟩ := by simp only [parseElement]
        rw [this] at q2
        simp only [parseLoop, e1, q2]
  | @empty n as rest evs _ ihr =>
    intro fuel tail h c hf fit fresh ho hr
    have hr' : rest.roots = 0 ∧ Rootless h d := by
      have : (Xml.element n as .nil rest).roots = rest.roots + 1 := rfl
      rw [this] at hr
      rcases hr with hr | ⟨h1, h2⟩
      · exact absurd hr (Nat.succ_ne_zero _)
      · exact ⟨Nat.succ.inj h1, h2⟩
    obtain ⟨f1, f2, f3⟩ := fresh.element
    obtain ⟨m1, m2, m3, m4⟩ := fit.names
    obtain ⟨t1, t2, t3⟩ := fit.attrs
    obtain ⟨h1, e1, s⟩ := start_read hu c m1 (fun _ => hr'.2) m2 t1 f1
    cases fuel with
    | zero => exact absurd hf (Nat.not_lt_zero _)
    | succ f =>
      have hf1 : (evs ++ tail).length < f := Nat.lt_of_succ_lt_succ hf
      have hk := ContentRead.nil s.ctx
      obtain ⟨h3, g3, ns, r1, r2, r3, _⟩ := ihr f tail h1 (c.grow s.grow) hf1
        ⟨m4, t3⟩ (f3 h1 h1 s.ids hk.ids) ho (Or.inl hr'.1)
      refine ⟨h3, g3, h.next :: ns, r1, ?_, hk.element c s r3,
        fun hz => absurd hz (Nat.succ_ne_zero _)⟩
      rw [← r2]
      simp only [List.cons_append, parseLoop, e1]

/-! ## The declaration -/

theorem decl_new {d : XmlDecl} (he : ∀ x, d.encoding = some x → IsEncName x) :
    XmlDecl.new d.version d.encoding d.standalone = .ok d := by
  obtain ⟨v, en, sa⟩ := d
  unfold XmlDecl.new
  cases en with
  | none => rfl
  | some x =>
    rcases isEncoding_iff x with ⟨h1, _⟩ | ⟨_, h2⟩
    · simp only [h1]; rfl
    · exact absurd (he x rfl) h2

theorem makeDecl_eq (d : XmlDecl) : makeDecl (some (versionText d.version)) (d.encoding.map some)
    (d.standalone.map fun b => some (if b then c! "yes" else c! "no")) =
    .ok (versionText d.version, d.encoding, d.standalone) := by
  obtain ⟨v, en, sa⟩ := d
  have hv : unquote (versionText v) = .ok (versionText v) := by cases v <;> rfl
  unfold makeDecl
  simp only [hv, Outcome.bind]
  cases en <;> cases sa with
  | none => rfl
  | some b => cases b <;> rfl

theorem decl_read {h : Heap} {d : NodeId} {x : DocExt} {decl : XmlDecl}
    (hx : (h.get d).ext = .document x) (hn : x.xmlDecl = none)
    (he : ∀ v, decl.encoding = some v → IsEncName v) :
    handleDecl d (some (versionText decl.version)) (decl.encoding.map some)
      (decl.standalone.map fun b => some (if b then c! "yes" else c! "no")) h =
    (.ok (), h.set d { h.get d with ext := .document { x with xmlDecl := some decl } }) := by
  have hv : XmlVersion.fromStr (versionText decl.version) = some decl.version := by
    cases decl.version <;> rfl
  unfold handleDecl
  rw [hx]
  simp only [hn, makeDecl_eq, Outcome.bind, hv, decl_new he]
  rfl

/-- The new document and its declaration. -/
structure Opened (h : Heap) (d : NodeId) (decl : Option XmlDecl) : Prop where
  ctx : Ctx h d d
  parent : (h.get d).parent = none
  children : (h.get d).children = []
  ids : idsOf h d = []
  ext : ∃ x, (h.get d).ext = .document x ∧ x.xmlDecl = decl ∧ x.docType = none

theorem opened_new (h : Heap) :
    Opened (h.alloc (Node.newDocument none Options.new.setAddNamespaces)).2 h.next none := by
  have g : (h.alloc (Node.newDocument none Options.new.setAddNamespaces)).2.get h.next =
      Node.newDocument none Options.new.setAddNamespaces := by simp
  refine ⟨⟨Nat.lt_succ_self _, by simp, by rw [g]; rfl, ⟨_, by rw [g]; rfl, by decide⟩,
    Nat.lt_succ_self _, by simp, Or.inl rfl⟩, by rw [g]; rfl, by rw [g]; rfl, ?_,
    ⟨_, by rw [g]; rfl, rfl, rfl⟩⟩
  unfold idsOf
  rw [g]; rfl

theorem doc_open (e : Env) (h : Heap) {decl : Option XmlDecl} {ds : List Event}
    (hds : DeclEvents decl ds) (tail : List Event) :
    ∃ h1 fuel, tail.length < fuel ∧
      readXml e h (ds ++ tail) = parseLoop e h.next fuel tail h1 ∧ Opened h1 h.next decl := by
  have o := opened_new h
  have hr : ∀ evs, readXml e h evs = parseLoop e h.next (evs.length + 1) evs
    (h.alloc (Node.newDocument none Options.new.setAddNamespaces)).2 := fun _ => rfl
  rw [hr]
  generalize (h.alloc (Node.newDocument none Options.new.setAddNamespaces)).2 = h0 at o
  cases hds with
  | none => exact ⟨h0, _, Nat.lt_succ_self _, rfl, o⟩
  | @some v he =>
    obtain ⟨x, x1, x2, x3⟩ := o.ext
    obtain ⟨y, y1, y2⟩ := o.ctx.dext
    rw [x1] at y1
    cases y1
    have hd := decl_read x1 x2 he
    refine ⟨h0.set h.next { h0.get h.next with ext := .document { x with xmlDecl := .some v } },
      tail.length + 1, Nat.lt_succ_self _, ?_, ?_⟩
    · show parseLoop e h.next (tail.length + 1 + 1) _ _ = _
      simp only [List.cons_append, List.nil_append, parseLoop, hd]
    · have c := o.ctx
      refine ⟨⟨c.dlt, c.dlive, by simp [c.dtype], ⟨{ x with xmlDecl := .some v }, by simp, y2⟩,
        c.plt, c.plive, Or.inl rfl⟩, by simp [o.parent], by simp [o.children], ?_,
        ⟨{ x with xmlDecl := .some v }, by simp, rfl, x3⟩⟩
      have := o.ids
      unfold idsOf at this ⊢
      rw [x1] at this
      simpa using this

/-- The document was read up to here. -/
structure TopRead (e : Env) (h : Heap) (d : NodeId) (decl : Option XmlDecl) (x : Xml) : Prop where
  ctx : Ctx h d d
  doc : IsDocument e h d decl x
  rootless : x.roots = 0 → Rootless h d
  rooted : x.roots = 1 → ∃ m ∈ (h.get d).children, m < h.next ∧ (h.get m).ntype = .element

theorem Built.rooted {h : Heap} {d lo p : NodeId} {ns : List NodeId} {x : Xml}
    (b : Built h d lo p ns x) (hr : x.roots ≠ 0) :
    ∃ m ∈ ns, m < h.next ∧ (h.get m).ntype = .element := by
  induction b with
  | nil => exact absurd rfl hr
  | leaf h1 h2 hl hp ho hc _ ih =>
    obtain ⟨m, m1, m2⟩ := ih hr
    exact ⟨m, by simp [m1], m2⟩
  | @element p n ns name as kids rest h1 h2 hv ht => exact ⟨n, by simp, h2, ht⟩

theorem prefix_read {e : Env} (hu : e.uni.Ascii) (h : Heap) {decl : Option XmlDecl}
    {ds es : List Event} {x : Xml} (hds : DeclEvents decl ds) (hes : Events (PiTame e.uni) x es)
    (fit : Fit x) (ho : x.Outer) (hr : x.roots ≤ 1) (hn : x.ids.Nodup)
    (hid : ∀ v ∈ x.ids, IsNcName v) (tail : List Event) :
    ∃ h' fuel, tail.length < fuel ∧
      readXml e h (ds ++ (es ++ tail)) = parseLoop e h.next fuel tail h' ∧
      TopRead e h' h.next decl x := by
  obtain ⟨h1, f1, l1, e1, o⟩ := doc_open e h hds (es ++ tail)
  have hrl : Rootless h1 h.next := by intro m hm; rw [o.children] at hm; cases hm
  have hr' : x.roots = 0 ∨ (x.roots = 1 ∧ Rootless h1 h.next) := by
    rcases Nat.le_one_iff_eq_zero_or_eq_one.mp hr with h0 | h0
    · exact Or.inl h0
    · exact Or.inr ⟨h0, hrl⟩
  obtain ⟨h2, f2, ns, l2, e2, r, rl⟩ := outer_read hu hes f1 tail h1 o.ctx l1 fit
    ⟨hn, fun v hv => ⟨hid v hv, by rw [o.ids]; simp⟩⟩ ho hr'
  have c2 := o.ctx.grow r.grow
  have hk : (h2.get h.next).children = ns := by rw [r.kids, o.children, List.nil_append]
  obtain ⟨y, y1, y2, y3⟩ := o.ext
  obtain ⟨z, i, z1, z2⟩ := r.grow.doc
  rw [y1] at z1
  cases z1
  have hx : (h2.get h.next).ext = .document { y with idMap := i } := by rw [z2]
  refine ⟨h2, f2, l2, e1.trans e2, c2, ⟨c2.dtype, ?_, ?_, ?_, ?_⟩, fun h0 => rl h0 hrl, ?_⟩
  · unfold parentNode
    rw [z2]
    show (if (h1.get h.next).ntype = _ then none else h2.upgrade (h1.get h.next).parent) = none
    rw [o.parent]
    split <;> rfl
  · unfold xmlDeclaration; rw [hx]; exact y2
  · unfold docType; rw [hx]; exact y3
  · unfold childNodes
    rw [hk]
    exact r.built.held c2.dlive c2.dlive
  · intro h1
    rw [hk]
    exact r.built.rooted (by rw [h1]; simp)

/-! ## A second root -/

theorem append_second {h : Heap} {d : NodeId} (c : Ctx h d d) {x : Node} (ht : x.ntype = .element)
    (hr : ∃ m ∈ (h.get d).children, m < h.next ∧ (h.get m).ntype = .element) :
    appendChild (h.alloc x).2 d h.next = (.err .hierarchyRequest, (h.alloc x).2) := by
  have hpn : d ≠ h.next := Nat.ne_of_lt c.plt
  have gp : (h.alloc x).2.get d = h.get d := by simp [hpn]
  have gn : (h.alloc x).2.get h.next = x := by simp
  obtain ⟨m, m1, m2, m3⟩ := hr
  unfold appendChild
  rw [insertBefore_eq, gp, gn, c.dtype, ht, if_neg (by decide), if_pos]
  refine ⟨rfl, rfl, List.any_eq_true.mpr ⟨m, m1, ?_⟩⟩
  have : m ≠ h.next := Nat.ne_of_lt m2
  simp [this, m3]

theorem start_second {e : Env} {h : Heap} {d : NodeId} (c : Ctx h d d) {n : Str}
    (hn : GoodName n) (as : List AttrEvent)
    (hr : ∃ m ∈ (h.get d).children, m < h.next ∧ (h.get m).ntype = .element) :
    ∃ h', handleStart e d d (some n) as h = (.err .hierarchyRequest, h') := by
  obtain ⟨nm, hnm⟩ := hn
  refine ⟨(h.alloc (Node.newElement d nm)).2, ?_⟩
  · unfold handleStart
    have : createElement h d n = (.ok h.next, (h.alloc (Node.newElement d nm)).2) := by
      unfold createElement createNamed
      rw [hnm]; rfl
    simp only [this]
    rw [append_second c rfl hr]

/-! ## Names -/

theorem goodName {s : Str} (hq : IsQName s) (ha : AsciiParts s) : GoodName s := by
  rcases hq with hq | ⟨p, l, rfl, hp, hl⟩
  · rcases ha with ⟨ha, _⟩ | ⟨p, l, rfl, _⟩
    · exact ⟨_, C27_accepts_partial.1 s hq ha⟩
    · exact absurd hq.2 (by simp)
  · rcases ha with ⟨_, ha⟩ | ⟨p', l', he, ha, hb⟩
    · exact absurd ha (by simp)
    · have : p = p' ∧ l = l' := by
        obtain ⟨h1, h2⟩ : ∃ _ : p = p', l = l' := by
          have hp' : ':' ∉ p' := by
            intro hm
            obtain ⟨a, b, rfl⟩ := List.append_of_mem hm
            have := congrArg (fun t => t.count ':') he
            have h1 : p.count ':' = 0 := List.count_eq_zero.mpr hp.2
            have h2 : l.count ':' = 0 := List.count_eq_zero.mpr hl.2
            simp [List.count_append, h1, h2] at this
            omega
          obtain ⟨h1, h2⟩ := append_colon_inj hp.2 hp' he
          exact ⟨h1, h2⟩
        exact ⟨h1, h2⟩
      obtain ⟨rfl, rfl⟩ := this
      exact ⟨_, C27_accepts_partial.2 p l hp hl ha hb⟩

theorem _root_.XmlDom.Spec.Xml.Named.fit {x : Xml}
    (h1 : x.Named IsQName fun t => IsNcName t ∧ Unreserved t)
    (h2 : x.Named AsciiParts AsciiStart) : x.Named GoodName GoodTarget := by
  induction x with
  | nil => trivial
  | leaf l rest ih =>
    refine ⟨?_, ih h1.2 h2.2⟩
    intro t d ht
    obtain ⟨n1, n2⟩ := h1.1 t d ht
    exact ⟨⟨_, C27_accepts_partial.1 t n1 (h2.1 t d ht)⟩, n2⟩
  | element n as kids rest ihk ihr =>
    obtain ⟨a1, a2, a3, a4⟩ := h1
    obtain ⟨b1, b2, b3, b4⟩ := h2
    exact ⟨goodName a1 b1, fun a ha => goodName (a2 a ha) (b2 a ha), ihk a3 b3, ihr a4 b4⟩
  | docType => exact h1.elim
  | document => exact h1.elim
  | fragment => exact h1.elim

end XmlDom
