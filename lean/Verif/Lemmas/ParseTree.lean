import Verif.Lemmas.Parse
import Verif.Lemmas.Serial

/-!
# What the reader builds from a well-formed event stream
-/

namespace XmlDom
open Spec Props

/-! ## Values of `xml:id` -/

theorem nameChar_plain {c : Char} (hc : NameChar c) :
    c ≠ '&' ∧ c ≠ '%' ∧ c ≠ ' ' ∧ c ≠ '\t' ∧ c ≠ '\n' ∧ c ≠ '\r' ∧ c ≠ '\u0085' ∧ c ≠ '\u2028' ∧
      c ≠ '"' ∧ c ≠ '\'' ∧ c ≠ '<' ∧ c ≠ '>' := by
  refine ⟨?_, ?_, ?_, ?_, ?_, ?_, ?_, ?_, ?_, ?_, ?_, ?_⟩ <;>
    (rintro rfl; exact absurd hc (by decide))

theorem ncName_chars {v : Str} (hv : IsNcName v) : ∀ c ∈ v, NameChar c := by
  obtain ⟨⟨c, cs, rfl, h1, h2⟩, _⟩ := hv
  intro d hd
  rcases List.mem_cons.mp hd with rfl | hd
  · exact Or.inl h1
  · exact h2 d hd

/-- The value of an attribute whose text is a name is that name. -/
theorem attrValue_name {u : Uni} (hu : u.Ascii) {h : Heap} {a : NodeId} {v : Str}
    (hc : (h.get a).children ≠ []) (hr : attrRaw h a = v) (hv : ∀ c ∈ v, NameChar c) :
    attrValue u h a = .ok (some v) := by
  have hn : Normalizes v v := by
    refine ⟨fun hm => (nameChar_plain (hv _ hm)).2.1 rfl, v, ?_, ?_⟩
    · clear hr
      induction v with
      | nil => exact .nil
      | cons c v ih =>
        obtain ⟨_, _, _, _, _, h1, h2, h3, _⟩ := nameChar_plain (hv c (by simp))
        exact .other c v v (ih fun d hd => hv d (by simp [hd])) h1 h2 h3
    · clear hr
      induction v with
      | nil => exact .nil
      | cons c v ih =>
        obtain ⟨h1, _, h2, h3, h4, h5, _⟩ := nameChar_plain (hv c (by simp))
        exact .other c v v ⟨h1, h2, h3, h4, h5⟩ (ih fun d hd => hv d (by simp [hd]))
  obtain ⟨w, ⟨⟨x, y, hw⟩, ht1, ht2⟩, hval⟩ := attrValue_normalizes hu hc hr hn
  have hns : ' ' ∉ v := fun hm => (nameChar_plain (hv _ hm)).2.2.1 rfl
  have hwv : w = v := by
    have hx : x = 0 := by
      cases x with
      | zero => rfl
      | succ x => exact absurd (by rw [hw]; simp [List.replicate_succ]) hns
    have hy : y = 0 := by
      cases y with
      | zero => rfl
      | succ y => exact absurd (by rw [hw]; simp [List.replicate_succ]) hns
    subst hx hy
    simpa using hw.symm
  subst hwv
  rw [hval, escape_eq_esc]
  congr 2
  clear hval hw hns hn hr ht1 ht2
  induction w with
  | nil => rfl
  | cons c w ih =>
    obtain ⟨h1, _, _, _, _, _, _, _, h2, h3, h4, h5⟩ := nameChar_plain (hv c (by simp))
    have h6 := ih fun d hd => hv d (by simp [hd])
    unfold esc at h6 ⊢
    rw [List.flatMap_cons, h6]
    simp [escChar, h1, h2, h3, h4, h5]

/-! ## Attributes -/

/-- The values of the `xml:id` attributes of one element. -/
def idVals (as : List (Str × Str)) : List Str :=
  (as.filter fun a => decide (a.1 = c! "xml:id")).map (·.2)

/-- Each attribute of the list is in the map and has its value. -/
def AttrsBuilt (h : Heap) (d el lo : NodeId) (as : List (Str × Str))
    (attrs : List (Name × NodeId)) : Prop :=
  ∀ a ∈ as, ∃ k b t, (k, b) ∈ attrs ∧ k.display = a.1 ∧ lo ≤ t ∧ t < h.next ∧ lo ≤ b ∧
    b < h.next ∧ h.get b = attrNode d k t (some el) ∧ h.get t = Node.newText d a.2

/-- What adding attributes to `el` does. -/
structure AttrGrow (h h' : Heap) (d el : NodeId) (as : List (Str × Str)) : Prop where
  next : h.next ≤ h'.next
  live : ∀ m, m < h.next → h'.live m = h.live m
  others : ∀ m, m < h.next → m ≠ el → m ≠ d → h'.get m = h.get m
  doc : ∃ x ids, (h.get d).ext = .document x ∧
    h'.get d = { h.get d with ext := .document { x with idMap := ids } }
  elem : ∃ attrs nss attrs', (h.get el).ext = .element attrs nss ∧
    h'.get el = { h.get el with ext := .element attrs' nss } ∧
    attrs'.length = attrs.length + as.length ∧ (∀ kv ∈ attrs, kv ∈ attrs') ∧
    AttrsBuilt h' d el h.next as attrs'
  ids : ∀ s, s ∈ idsOf h' d ↔ s ∈ idsOf h d ∨ s ∈ idVals as

theorem mapInsert_fresh {κ ν : Type} [DecidableEq κ] {k : κ} {v : ν} {m : List (κ × ν)}
    (hk : ∀ e ∈ m, e.1 ≠ k) : mapInsert k v m = (k, v) :: m := by
  unfold mapInsert
  rw [mapRemove_of_notMem]
  exact hk

theorem AttrAdded.ctx {h h' : Heap} {d el : NodeId} {nm : Name} {v : Str}
    (a : AttrAdded h h' d el nm v) (c : Ctx h d el) (hne : el ≠ d) : Ctx h' d el := by
  have hd := a.others d c.dlt hne.symm
  obtain ⟨attrs, nss, h1, h2⟩ := a.elem
  have hlt : ∀ m, m < h.next → m < h'.next := fun m hm => by
    rw [a.next]; exact Nat.lt_succ_of_lt (Nat.lt_succ_of_lt hm)
  have hlv : ∀ m, h.live m = true → h'.live m = true := fun m hm => by rw [a.live]; simp [hm]
  rcases c.where_ with h3 | ⟨_, h4, h5, _⟩
  · exact absurd h3 hne
  · refine ⟨hlt d c.dlt, hlv d c.dlive, by rw [hd]; exact c.dtype, by rw [hd]; exact c.dext,
      hlt el c.plt, hlv el c.plive, Or.inr ⟨hne, ?_⟩⟩
    rw [h2]
    exact ⟨h4, h5, _, _, rfl⟩

theorem attrs_read {e : Env} (hu : e.uni.Ascii) {d el : NodeId} (hne : el ≠ d) :
    ∀ (as : List (Str × Str)) (h : Heap), Ctx h d el →
      (∀ a ∈ as, ∃ nm, Name.fromStr a.1 = .ok nm) → (as.map (·.1)).Nodup →
      (∀ k b, (k, b) ∈ attributes h el → k.display ∉ as.map (·.1)) →
      (∀ v ∈ idVals as, IsNcName v ∧ v ∉ idsOf h d) →
      ∃ h', handleAttributes e d el (as.map fun a => .good a.1 a.2) h = (.ok el, h') ∧
        AttrGrow h h' d el as := by
  intro as
  induction as with
  | nil =>
    intro h c _ _ _ _
    obtain ⟨x, hx, _⟩ := c.dext
    rcases c.where_ with h1 | ⟨_, te, _, attrs, nss, xe⟩
    · exact absurd h1 hne
    refine ⟨h, rfl, Nat.le_refl _, fun _ _ => rfl, fun _ _ _ _ => rfl, ⟨x, x.idMap, hx, ?_⟩,
      ⟨attrs, nss, attrs, xe, ?_, rfl, fun _ h => h, fun a ha => by cases ha⟩,
      fun s => by simp [idVals]⟩
    · rw [← hx]
    · rw [← xe]
  | cons a as ih =>
    intro h c hnames hnodup hkeys hids
    obtain ⟨k, v⟩ := a
    obtain ⟨nm, hk⟩ := hnames (k, v) (by simp)
    simp only at hk
    have hdisp : nm.display = k := C28_display_fromStr k nm hk
    obtain ⟨h1, h3, e1, ad, e2⟩ := attr_new (e := e) (v := v) c hne hk
    have c3 := ad.ctx c hne
    obtain ⟨attrs, nss, xe, g3⟩ := ad.elem
    have te : (h.get el).ntype = .element := by
      rcases c.where_ with h1 | ⟨_, te, _⟩
      · exact absurd h1 hne
      · exact te
    have hatt : attributes h el = attrs := by unfold attributes; rw [if_pos te, xe]
    have hfresh : ∀ kv ∈ attrs, kv.1 ≠ nm := by
      rintro ⟨k', b⟩ hm rfl
      exact hkeys k' b (by rw [hatt]; exact hm) (by simp [hdisp])
    have l1 : h.next < h3.next := by
      rw [ad.next]; exact Nat.lt_succ_of_lt (Nat.lt_succ_self _)
    have l2 : h.next + 1 < h3.next := by rw [ad.next]; exact Nat.lt_succ_self _
    have ids3 : idsOf h3 d = idsOf h d := by
      unfold idsOf; rw [ad.others d c.dlt hne.symm]
    have own3 : (h3.get (h.next + 1)).owner = some d := by rw [ad.attr]; rfl
    obtain ⟨r1, r2⟩ := recordId_new (u := e.uni) (a := h.next + 1) c3 hne hk own3
    -- the heap after the id is recorded
    have step : ∃ h4, recordId e.uni h3 el (h.next + 1) nm = (.ok (h.next + 1), h4) ∧
        h4.next = h3.next ∧ h4.live = h3.live ∧ (∀ m, m ≠ d → h4.get m = h3.get m) ∧
        (∃ x ids, (h3.get d).ext = .document x ∧
          h4.get d = { h3.get d with ext := .document { x with idMap := ids } }) ∧
        ∀ s, s ∈ idsOf h4 d ↔ s ∈ idsOf h3 d ∨ s ∈ idVals [(k, v)] := by
      obtain ⟨x, hx, _⟩ := c3.dext
      by_cases hid : k = c! "xml:id"
      · have hval : attrValue e.uni h3 (h.next + 1) = .ok (some v) := by
          refine attrValue_name hu (by rw [ad.attr]; simp [attrNode]) ?_
            (ncName_chars (hids v ?_).1)
          · unfold attrRaw
            rw [ad.attr]
            simp only [attrNode, List.flatMap_cons, List.flatMap_nil, List.append_nil, ad.text]
            rfl
          · simp [idVals, hid]
        obtain ⟨_, r3⟩ := r2 hid v hval
        obtain ⟨y, hy, r4⟩ := r3 (by rw [ids3]; exact (hids v (by simp [idVals, hid])).2)
        refine ⟨_, r4, rfl, rfl, fun m hm => Heap.get_set_ne _ _ hm,
          ⟨y, _, hy, Heap.get_set_self _ _ _⟩, ?_⟩
        intro s
        have : ∀ (hh : Heap) (z : DocExt), (hh.get d).ext = .document z →
            idsOf hh d = z.idMap.map (·.1) := by
          intro hh z hz; unfold idsOf; rw [hz]
        rw [this _ _ (by rw [Heap.get_set_self]), this _ _ hy]
        simp only [idVals, hid]
        rw [mapInsert_fresh]
        · simp [or_comm]
        · rintro ⟨i, w⟩ hm rfl
          refine (hids i (by simp [idVals, hid])).2 ?_
          rw [← ids3, this _ _ hy]
          exact List.mem_map.mpr ⟨_, hm, rfl⟩
      · refine ⟨h3, r1 hid, rfl, rfl, fun _ _ => rfl, ⟨x, x.idMap, hx, by rw [← hx]⟩, ?_⟩
        intro s; simp [idVals, hid]
    obtain ⟨h4, r, nx4, lv4, o4, ⟨x4, i4, hx4, gd4⟩, id4⟩ := step
    have ge4 : h4.get el = h3.get el := o4 el hne
    have nd : ∀ m, h.next ≤ m → m ≠ d := fun m hm =>
      (Nat.ne_of_lt (Nat.lt_of_lt_of_le c.dlt hm)).symm
    have c4 : Ctx h4 d el := by
      obtain ⟨x, hx, ho⟩ := c3.dext
      rw [hx4] at hx
      cases hx
      refine ⟨by rw [nx4]; exact c3.dlt, by rw [lv4]; exact c3.dlive,
        by rw [gd4]; exact c3.dtype, ⟨{ x4 with idMap := i4 }, by rw [gd4], ho⟩,
        by rw [nx4]; exact c3.plt, by rw [lv4]; exact c3.plive, ?_⟩
      rw [ge4]; exact c3.where_
    rw [List.map_cons, List.nodup_cons] at hnodup
    have hatt4 : attributes h4 el = (nm, h.next + 1) :: attrs := by
      unfold attributes
      rw [ge4, g3]
      simp only [te, if_true]
      exact mapInsert_fresh hfresh
    obtain ⟨h', hh, g⟩ := ih h4 c4 (fun a ha => hnames a (by simp [ha])) hnodup.2 (by
      intro k' b hm
      rw [hatt4] at hm
      rcases List.mem_cons.mp hm with hm | hm
      · cases hm
        rw [hdisp]; exact hnodup.1
      · intro h5
        exact hkeys k' b (by rw [hatt]; exact hm) (by simp only [List.map_cons]; exact List.mem_cons_of_mem _ h5)) (by
      intro w hw
      have hw' : w ∈ idVals ((k, v) :: as) := by
        unfold idVals at hw ⊢
        rw [List.filter_cons]
        split
        · exact List.mem_cons_of_mem _ hw
        · exact hw
      refine ⟨(hids w hw').1, ?_⟩
      intro hm
      rcases (id4 w).mp hm with h5 | h5
      · rw [ids3] at h5; exact (hids w hw').2 h5
      · -- only one attribute is `xml:id`
        unfold idVals at h5 hw
        obtain ⟨x, hx, rfl⟩ := List.mem_map.mp hw
        obtain ⟨y, hy, hy2⟩ := List.mem_map.mp h5
        obtain ⟨hy1, hy3⟩ := List.mem_filter.mp hy
        obtain ⟨hx1, hx3⟩ := List.mem_filter.mp hx
        simp only [List.mem_singleton] at hy1
        subst hy1
        simp only [decide_eq_true_eq] at hy3 hx3
        apply hnodup.1
        rw [hy3, ← hx3]
        exact List.mem_map.mpr ⟨x, hx1, rfl⟩)
    refine ⟨h', ?_, ?_, ?_, ?_, ?_, ?_, ?_⟩
    · simp only [List.map_cons]
      unfold handleAttributes
      simp only [e1, e2, r]
      exact hh
    · exact Nat.le_trans (Nat.le_of_lt l1) (nx4 ▸ g.next)
    · intro m hm
      rw [g.live m (by rw [nx4]; exact Nat.lt_trans hm l1), lv4, ad.live]
      rw [if_neg (Nat.ne_of_lt (Nat.lt_succ_of_lt hm)), if_neg (Nat.ne_of_lt hm)]
    · intro m hm hme hmd
      rw [g.others m (by rw [nx4]; exact Nat.lt_trans hm l1) hme hmd, o4 m hmd, ad.others m hm hme]
    · obtain ⟨x, ids, hx, gd⟩ := g.doc
      have hd3 := ad.others d c.dlt hne.symm
      rw [hd3] at hx4 gd4
      refine ⟨x4, ids, hx4, ?_⟩
      rw [gd4] at hx gd
      simp only at hx gd
      cases hx
      exact gd
    · obtain ⟨attrs5, nss5, attrs', h5, h6, h7, h8, h9⟩ := g.elem
      rw [ge4, g3] at h5 h6
      simp only [mapInsert_fresh hfresh] at h5 h6
      cases h5
      refine ⟨attrs, nss, attrs', xe, h6, ?_, ?_, ?_⟩
      · rw [h7]; simp only [List.length_cons]; omega
      · intro kv hkv; exact h8 kv (List.mem_cons_of_mem _ hkv)
      · intro a ha
        rcases List.mem_cons.mp ha with rfl | ha
        · refine ⟨nm, h.next + 1, h.next, h8 _ (by simp), hdisp, Nat.le_refl _, ?_, Nat.le_succ _,
            ?_, ?_, ?_⟩
          · exact Nat.lt_of_lt_of_le l1 (nx4 ▸ g.next)
          · exact Nat.lt_of_lt_of_le l2 (nx4 ▸ g.next)
          · rw [g.others _ (by rw [nx4]; exact l2)
              (Nat.ne_of_lt (Nat.lt_succ_of_lt c.plt)).symm (nd _ (Nat.le_succ _)),
              o4 _ (nd _ (Nat.le_succ _)), ad.attr]
          · rw [g.others _ (by rw [nx4]; exact l1) (Nat.ne_of_lt c.plt).symm (nd _ (Nat.le_refl _)),
              o4 _ (nd _ (Nat.le_refl _)), ad.text]
        · obtain ⟨k', b, t, h10, h11, h12, h13, h14, h15⟩ := h9 a ha
          have hle : h.next ≤ h4.next := by rw [nx4]; exact Nat.le_of_lt l1
          exact ⟨k', b, t, h10, h11, Nat.le_trans hle h12, h13, Nat.le_trans hle h14, h15⟩
    · intro s
      rw [g.ids, id4, ids3]
      have : idVals ((k, v) :: as) = idVals [(k, v)] ++ idVals as := by
        unfold idVals
        rw [← List.map_append, ← List.filter_append]
        rfl
      rw [this, List.mem_append, or_assoc]

/-! ## An element with its attributes -/

/-- The heap after a start tag, up to the ids. -/
structure Begun (h h' : Heap) (d p : NodeId) (n : Str) (as : List (Str × Str)) : Prop where
  grow : Grow h h' d p
  kids : (h'.get p).children = (h.get p).children ++ [h.next]
  ctx : Ctx h' d h.next
  ntype : (h'.get h.next).ntype = .element
  name : (h'.get h.next).name.display = n
  parent : (h'.get h.next).parent = some p
  owner : (h'.get h.next).owner = some d
  children : (h'.get h.next).children = []
  attrs : ∃ attrs nss, (h'.get h.next).ext = .element attrs nss ∧ attrs.length = as.length ∧
    AttrsBuilt h' d h.next h.next as attrs

/-- The heap after a start tag. -/
structure Started (h h' : Heap) (d p : NodeId) (n : Str) (as : List (Str × Str)) : Prop
    extends Begun h h' d p n as where
  ids : ∀ s, s ∈ idsOf h' d ↔ s ∈ idsOf h d ∨ s ∈ idVals as

theorem AttrGrow.grow {h h' : Heap} {d el : NodeId} {as : List (Str × Str)}
    (g : AttrGrow h h' d el as) {a : Heap} {p : NodeId} (x : Grow a h d p) (hd : d < a.next)
    (hp : p < a.next) (hel : a.next ≤ el) :
    Grow a h' d p ∧ (h'.get p).children = (h.get p).children := by
  have hl : ∀ m, m < a.next → m < h.next := fun m hm => Nat.lt_of_lt_of_le hm x.next
  have hne : ∀ m, m < a.next → m ≠ el := fun m hm => Nat.ne_of_lt (Nat.lt_of_lt_of_le hm hel)
  obtain ⟨y, i, hy, gd⟩ := g.doc
  have hk : (h'.get p).children = (h.get p).children := by
    by_cases hpd : p = d
    · subst hpd; rw [gd]
    · rw [g.others p (hl p hp) (hne p hp) hpd]
  refine ⟨⟨Nat.le_trans x.next g.next, fun m hm => (g.live m (hl m hm)).trans (x.live m hm),
    fun m hm h1 h2 => (g.others m (hl m hm) (hne m hm) h2).trans (x.others m hm h1 h2), ?_, ?_, ?_⟩, hk⟩
  · intro hpd
    rw [g.others p (hl p hp) (hne p hp) hpd]
    exact x.par hpd
  · obtain ⟨v, j, h1, h2⟩ := x.doc
    refine ⟨v, i, h1, ?_⟩
    rw [h2] at hy gd
    simp only at hy gd
    cases hy
    rw [gd]
  · intro hpd
    rw [gd]; exact x.docKids hpd

/-- No element among the children of the document yet. -/
def Rootless (h : Heap) (d : NodeId) : Prop :=
  ∀ m ∈ (h.get d).children, m < h.next ∧ (h.get m).ntype ≠ .element

theorem start_read {e : Env} (hu : e.uni.Ascii) {d p : NodeId} {h : Heap} (c : Ctx h d p) {n : Str}
    (hn : ∃ nm, Name.fromStr n = .ok nm) (hr : p = d → Rootless h d) {as : List (Str × Str)}
    (hnames : ∀ a ∈ as, ∃ nm, Name.fromStr a.1 = .ok nm) (hnodup : (as.map (·.1)).Nodup)
    (hids : ∀ v ∈ idVals as, IsNcName v ∧ v ∉ idsOf h d) :
    ∃ h', handleStart e d p (some n) (as.map fun a => .good a.1 a.2) h = (.ok h.next, h') ∧
      Started h h' d p n as := by
  obtain ⟨nm, hnm⟩ := hn
  have hallow : isChildAllowed (h.get p).ntype (Node.newElement d nm).ntype = true := by
    rcases c.where_ with h1 | ⟨_, h2, _⟩
    · subst h1; rw [c.dtype]; rfl
    · rw [h2]; rfl
  obtain ⟨h1, e1, a1⟩ := append_new (x := Node.newElement d nm) c rfl rfl hallow
    (fun hpd _ m hm => by
      obtain ⟨h5, h6⟩ := hr hpd m hm
      have : m ≠ h.next := Nat.ne_of_lt h5
      simpa [this] using h6)
  have c1 := a1.ctx c rfl rfl ⟨_, _, rfl⟩
  have hne : h.next ≠ d := (Nat.ne_of_lt c.dlt).symm
  obtain ⟨g1, id1⟩ := a1.grow c
  obtain ⟨h', e2, g⟩ := attrs_read hu hne as h1 c1 hnames hnodup (by
    intro k b hm
    unfold attributes at hm
    rw [a1.node] at hm
    simp [Node.newElement] at hm) (by rw [id1]; exact hids)
  obtain ⟨g2, k2⟩ := g.grow g1 c.dlt c.plt (Nat.le_refl _)
  obtain ⟨attrs, nss, attrs', x1, x2, x3, _, x5⟩ := g.elem
  rw [a1.node] at x1 x2
  simp only [Node.newElement] at x1
  cases x1
  have l1 : h.next < h'.next := Nat.lt_of_lt_of_le c1.plt g.next
  refine ⟨h', ?_, ⟨g2, ?_, ?_, ?_, ?_, ?_, ?_, ?_, ?_⟩, ?_⟩
  · unfold handleStart
    simp only
    have : createElement h d n = (.ok h.next, (h.alloc (Node.newElement d nm)).2) := by
      unfold createElement createNamed
      rw [hnm]; rfl
    rw [this]
    simp only [e1]
    exact e2
  · rw [k2, a1.par]
  · have c2 := c.grow g2
    refine ⟨c2.dlt, c2.dlive, c2.dtype, c2.dext, l1, ?_, Or.inr ⟨hne, ?_⟩⟩
    · rw [g.live _ c1.plt]; exact c1.plive
    · rw [x2]; exact ⟨rfl, rfl, _, _, rfl⟩
  · rw [x2]; rfl
  · rw [x2]; exact C28_display_fromStr n nm hnm
  · rw [x2]
  · rw [x2]; rfl
  · rw [x2]; rfl
  · refine ⟨attrs', [], by rw [x2], by simpa using x3, ?_⟩
    intro a ha
    obtain ⟨k, b, t, y1, y2, y3, y4, y5, y6⟩ := x5 a ha
    have hle : h.next ≤ h1.next := g1.next
    exact ⟨k, b, t, y1, y2, Nat.le_trans hle y3, y4, Nat.le_trans hle y5, y6⟩
  · intro s; rw [g.ids, id1]

/-! ## Trees -/

/-- The node is this leaf. -/
def LeafNode (x : Node) : Spec.Leaf → Prop
  | .text s => x.ntype = .text ∧ x.value = some s
  | .comment s => x.ntype = .comment ∧ x.value = some s
  | .cdata s => x.ntype = .cdata ∧ x.value = some s
  | .pi t d => x.ntype = .processingInstruction ∧ x.name.display = t ∧ x.value = d
  | _ => False

/-- The children `ns` of `p` and what is below are the tree, and all of it was made at `lo`
or later. -/
inductive Built (h : Heap) (d lo : NodeId) : NodeId → List NodeId → Xml → Prop
  | nil {p : NodeId} : Built h d lo p [] .nil
  | leaf {p n : NodeId} {ns : List NodeId} {l : Spec.Leaf} {rest : Xml} (h1 : lo ≤ n)
      (h2 : n < h.next) (hl : LeafNode (h.get n) l) (hp : (h.get n).parent = some p)
      (ho : (h.get n).owner = some d) (hc : (h.get n).children = [])
      (hr : Built h d lo p ns rest) : Built h d lo p (n :: ns) (.leaf l rest)
  | element {p n : NodeId} {ns : List NodeId} {name : Str} {as : List (Str × Str)}
      {kids rest : Xml} (h1 : lo ≤ n) (h2 : n < h.next) (hv : h.live n = true)
      (ht : (h.get n).ntype = .element)
      (hn : (h.get n).name.display = name) (hp : (h.get n).parent = some p)
      (ho : (h.get n).owner = some d) (ha : ∃ attrs nss, (h.get n).ext = .element attrs nss ∧
        attrs.length = as.length ∧ AttrsBuilt h d n lo as attrs)
      (hk : Built h d lo n (h.get n).children kids) (hr : Built h d lo p ns rest) :
      Built h d lo p (n :: ns) (.element name as kids rest)

theorem AttrsBuilt.keep {h h' : Heap} {d el lo lo' : NodeId} {as : List (Str × Str)}
    {attrs : List (Name × NodeId)} (b : AttrsBuilt h d el lo as attrs) (hlo : lo' ≤ lo)
    (hn : h.next ≤ h'.next) (hk : ∀ m, lo ≤ m → m < h.next → h'.get m = h.get m) :
    AttrsBuilt h' d el lo' as attrs := by
  intro a ha
  obtain ⟨k, b, t, y1, y2, y3, y4, y5, y6, y7, y8⟩ := b a ha
  exact ⟨k, b, t, y1, y2, Nat.le_trans hlo y3, Nat.lt_of_lt_of_le y4 hn, Nat.le_trans hlo y5,
    Nat.lt_of_lt_of_le y6 hn, (hk b y5 y6).trans y7, (hk t y3 y4).trans y8⟩

theorem Built.keep {h h' : Heap} {d lo lo' p : NodeId} {ns : List NodeId} {x : Xml}
    (b : Built h d lo p ns x) (hlo : lo' ≤ lo) (hn : h.next ≤ h'.next)
    (hk : ∀ m, lo ≤ m → m < h.next → h'.get m = h.get m ∧ h'.live m = h.live m) :
    Built h' d lo' p ns x := by
  induction b with
  | nil => exact .nil
  | leaf h1 h2 hl hp ho hc _ ih =>
    have e := (hk _ h1 h2).1
    exact .leaf (Nat.le_trans hlo h1) (Nat.lt_of_lt_of_le h2 hn) (by rw [e]; exact hl)
      (by rw [e]; exact hp) (by rw [e]; exact ho) (by rw [e]; exact hc) ih
  | element h1 h2 hv ht hnm hp ho ha _ _ ihk ihr =>
    obtain ⟨e, l⟩ := hk _ h1 h2
    obtain ⟨attrs, nss, a1, a2, a3⟩ := ha
    exact .element (Nat.le_trans hlo h1) (Nat.lt_of_lt_of_le h2 hn) (by rw [l]; exact hv)
      (by rw [e]; exact ht) (by rw [e]; exact hnm) (by rw [e]; exact hp) (by rw [e]; exact ho)
      ⟨attrs, nss, by rw [e]; exact a1, a2, a3.keep hlo hn fun m m1 m2 => (hk m m1 m2).1⟩
      (by rw [e]; exact ihk) ihr

/-- Nodes made later than `p` and `d` are kept while children are added to `p`. -/
theorem Grow.kept {h h' : Heap} {d p lo : NodeId} (g : Grow h h' d p) (hd : d < lo) (hp : p < lo) :
    ∀ m, lo ≤ m → m < h.next → h'.get m = h.get m ∧ h'.live m = h.live m := fun m h1 h2 =>
  ⟨g.others m h2 (Nat.ne_of_lt (Nat.lt_of_lt_of_le hp h1)).symm
    (Nat.ne_of_lt (Nat.lt_of_lt_of_le hd h1)).symm, g.live m h2⟩

/-- The tree is in the heap, as the interface shows it. -/
theorem Built.held {e : Env} {h : Heap} {d lo p : NodeId} {ns : List NodeId} {x : Xml}
    (b : Built h d lo p ns x) (hd : h.live d = true) (hp : h.live p = true) :
    Held e h d p ns x := by
  induction b with
  | nil => exact .nil
  | @leaf p n ns l rest h1 h2 hl hpar ho hc _ ih =>
    have hpn : parentNode h n = some p := by
      refine parentNode_eq_some.mpr ⟨?_, hpar, hp⟩
      cases l <;> simp only [LeafNode] at hl
      all_goals rw [hl.1]; simp
    refine .leaf ?_ hpn (Heap.upgrade_some.mpr ⟨ho, hd⟩) hc (ih hp)
    cases l with
    | text s => exact .text hl.1 hl.2
    | comment s => exact .comment hl.1 hl.2
    | cdata s => exact .cdata hl.1 hl.2
    | pi t v =>
      obtain ⟨q1, q2, q3⟩ := hl
      subst q2 q3
      exact .pi q1
    | _ => exact hl.elim
  | @element p n ns name as kids rest h1 h2 hv ht hn hpar ho ha _ _ ihk ihr =>
    obtain ⟨attrs, nss, a1, a2, a3⟩ := ha
    have hat : attributes h n = attrs := by unfold attributes; rw [if_pos ht, a1]
    refine .element ht hn (parentNode_eq_some.mpr ⟨by rw [ht]; simp, hpar, hp⟩)
      (Heap.upgrade_some.mpr ⟨ho, hd⟩) (by rw [hat]; exact a2) ?_ (ihk hv) (ihr hp)
    intro a ha
    obtain ⟨k, b, t, y1, y2, _, _, _, _, y7, y8⟩ := a3 a ha
    refine ⟨k, b, by rw [hat]; exact y1, y2, ?_, ?_, ?_, ?_, t, ?_, ?_, ?_⟩
    · unfold nodeType; rw [y7]; rfl
    · unfold nodeName; rw [y7]; exact y2
    · unfold ownerElement; rw [y7]; exact Heap.upgrade_some.mpr ⟨rfl, hv⟩
    · unfold ownerDocument; rw [y7]; exact Heap.upgrade_some.mpr ⟨rfl, hd⟩
    · unfold childNodes; rw [y7]; rfl
    · unfold nodeType; rw [y8]; rfl
    · unfold nodeValue; rw [y8]; rfl

/-! ## Processing instructions -/

theorem space_iff {c : Char} : Space c ↔ c = ' ' ∨ c = '\t' ∨ c = '\r' ∨ c = '\n' := by
  constructor
  · rintro ⟨r, hr, h1, h2⟩
    have : ∀ k, c.toNat = k → c = Char.ofNat k := fun k hk => by rw [← hk, Char.ofNat_toNat]
    simp only [List.mem_cons, List.not_mem_nil, or_false] at hr
    rcases hr with rfl | rfl | rfl | rfl
    · exact Or.inl (this 0x20 (Nat.le_antisymm h2 h1))
    · exact Or.inr (Or.inl (this 0x9 (Nat.le_antisymm h2 h1)))
    · exact Or.inr (Or.inr (Or.inl (this 0xD (Nat.le_antisymm h2 h1))))
    · exact Or.inr (Or.inr (Or.inr (this 0xA (Nat.le_antisymm h2 h1))))
  · rintro (rfl | rfl | rfl | rfl) <;> decide

theorem white_of_space {u : Uni} (hu : u.Ascii) {c : Char} (hc : Space c) : u.white c = true := by
  rcases space_iff.mp hc with rfl | rfl | rfl | rfl <;> rw [hu.white _ (by decide)] <;> decide

theorem dropWhile_all {p : Char → Bool} {w r : Str} (hw : ∀ c ∈ w, p c = true) :
    (w ++ r).dropWhile p = r.dropWhile p := by
  induction w with
  | nil => rfl
  | cons c w ih =>
    rw [List.cons_append, List.dropWhile_cons, if_pos (hw c (by simp))]
    exact ih fun d hd => hw d (by simp [hd])

theorem dropWhile_stop {p : Char → Bool} {d : Str} (hd : ∀ c, d.head? = some c → p c = false) :
    d.dropWhile p = d := by
  cases d with
  | nil => rfl
  | cons c d => rw [List.dropWhile_cons, if_neg (by rw [hd c rfl]; simp)]

theorem trimWhite_eq {u : Uni} {w d : Str} (hw : ∀ c ∈ w, u.white c = true)
    (h1 : ∀ c, d.head? = some c → u.white c = false)
    (h2 : ∀ c, d.getLast? = some c → u.white c = false) : trimWhite u (w ++ d) = d := by
  unfold trimWhite
  rw [dropWhile_all hw, dropWhile_stop h1, dropWhile_stop, List.reverse_reverse]
  intro c hc
  rw [List.head?_reverse] at hc
  exact h2 c hc

theorem splitPi_tame {u : Uni} (hu : u.Ascii) {s t : Str} {d : Option Str} (hp : PiTame u s t d) :
    splitPi u s = (t, d) := by
  obtain ⟨hp, hs, hw⟩ := hp
  have nosp : ∀ {t : Str}, (∀ c ∈ t, ¬ Space c) → ∀ c ∈ t, decide (c ≠ ' ') = true := by
    intro t ht c hc
    simp only [decide_eq_true_eq]
    rintro rfl
    exact ht _ hc (by decide)
  have take : ∀ {t : Str} {r : Str}, (∀ c ∈ t, ¬ Space c) →
      (t ++ ' ' :: r).takeWhile (fun c => decide (c ≠ ' ')) = t ∧
        (t ++ ' ' :: r).dropWhile (fun c => decide (c ≠ ' ')) = ' ' :: r := by
    intro t r ht
    induction t with
    | nil => simp
    | cons c t ih =>
      obtain ⟨i1, i2⟩ := ih fun c hc => ht c (by simp [hc])
      have := nosp ht c (by simp)
      constructor
      · rw [List.cons_append, List.takeWhile_cons, if_pos this, i1]
      · rw [List.cons_append, List.dropWhile_cons, if_pos this, i2]
  cases hp with
  | bare ht =>
    have : s.dropWhile (fun c => decide (c ≠ ' ')) = [] := by
      have := dropWhile_all (p := fun c => decide (c ≠ ' ')) (r := []) (nosp ht)
      simpa using this
    unfold splitPi
    rw [this]
  | @blank _ w c ht hc hws =>
    have := hs c w rfl
    subst this
    obtain ⟨i1, i2⟩ := take (r := w) ht
    unfold splitPi
    rw [i1, i2]
    have h3 : trimWhite u w = [] := by
      have := trimWhite_eq (u := u) (w := w) (d := []) (fun c hc => white_of_space hu (hws c hc))
        (by simp) (by simp)
      simpa using this
    simp [h3]
  | @data _ w x c y ht hc hws hx =>
    have := hs c _ rfl
    subst this
    obtain ⟨i1, i2⟩ := take (r := w ++ y :: x) ht
    unfold splitPi
    rw [i1, i2]
    have h3 : trimWhite u (w ++ y :: x) = y :: x :=
      trimWhite_eq (fun c hc => white_of_space hu (hws c hc))
        (fun c hc => hw _ rfl c (Or.inl hc)) (fun c hc => hw _ rfl c (Or.inr hc))
    simp [h3]

theorem lower_xml {c : Char} {l u : Char} (h : asciiLower c = l)
    (hlu : (l = 'x' ∧ u = 'X') ∨ (l = 'm' ∧ u = 'M') ∨ (l = 'l' ∧ u = 'L')) : c = l ∨ c = u := by
  unfold asciiLower at h
  split at h
  · rename_i hc
    right
    have hn : c.toNat + 32 = l.toNat := by
      rw [← h]
      have h1 : c.toNat ≤ 90 := hc.2
      have h2 : 65 ≤ c.toNat := hc.1
      have : (c.toNat + 32).isValidChar := Or.inl (by omega)
      unfold Char.ofNat
      rw [dif_pos this]
      rfl
    have key : c = Char.ofNat (l.toNat - 32) := by
      rw [← hn, Nat.add_sub_cancel, Char.ofNat_toNat]
    rcases hlu with ⟨rfl, rfl⟩ | ⟨rfl, rfl⟩ | ⟨rfl, rfl⟩ <;> exact key
  · exact Or.inl h

theorem unreserved_map {t : Str} (ht : Unreserved t) : t.map asciiLower ≠ Syn.piReserved := by
  intro h
  have h' : t.map asciiLower = ['x', 'm', 'l'] := h
  have hlen : t.length = 3 := by
    have := congrArg List.length h'
    simpa using this
  obtain ⟨a, b, c, rfl⟩ : ∃ a b c, t = [a, b, c] := by
    cases t with
    | nil => simp at hlen
    | cons a t =>
      cases t with
      | nil => simp at hlen
      | cons b t =>
        cases t with
        | nil => simp at hlen
        | cons c t =>
          cases t with
          | nil => exact ⟨a, b, c, rfl⟩
          | cons d t => simp at hlen
  simp only [List.map_cons, List.map_nil, List.cons.injEq, and_true] at h'
  exact ht a b c rfl (lower_xml h'.1 (Or.inl ⟨rfl, rfl⟩))
    (lower_xml h'.2.1 (Or.inr (Or.inl ⟨rfl, rfl⟩))) (lower_xml h'.2.2 (Or.inr (Or.inr ⟨rfl, rfl⟩)))

/-! ## One event without content -/

/-- The heap after a leaf was added. -/
structure LeafAdded (h h' : Heap) (d p : NodeId) (l : Spec.Leaf) : Prop where
  grow : Grow h h' d p
  kids : (h'.get p).children = (h.get p).children ++ [h.next]
  next : h'.next = h.next + 1
  leaf : LeafNode (h'.get h.next) l
  parent : (h'.get h.next).parent = some p
  owner : (h'.get h.next).owner = some d
  children : (h'.get h.next).children = []
  ids : idsOf h' d = idsOf h d

theorem leaf_read {h : Heap} {d p : NodeId} (c : Ctx h d p) {x : Node} {l : Spec.Leaf}
    (hp : x.parent = none) (ho : x.owner = some d) (hc : x.children = []) (hl : LeafNode x l)
    (ha : isChildAllowed (h.get p).ntype x.ntype = true) :
    ∃ h', appendChild (h.alloc x).2 p h.next = (.ok h.next, h') ∧ LeafAdded h h' d p l := by
  obtain ⟨h', e1, a⟩ := append_new c hp ho ha (by
    intro _ ht
    cases l <;> simp only [LeafNode] at hl
    all_goals rw [hl.1] at ht; cases ht)
  obtain ⟨g, i⟩ := a.grow c
  refine ⟨h', e1, g, by rw [a.par], a.next, ?_, by rw [a.node], by rw [a.node]; exact ho,
    by rw [a.node]; exact hc, i⟩
  rw [a.node]
  cases l <;> exact hl

/-- The target can be used. -/
def GoodTarget (t : Str) : Prop := (∃ nm, Name.fromStr t = .ok nm) ∧ Unreserved t

/-- The name can be used. -/
def GoodName (t : Str) : Prop := ∃ nm, Name.fromStr t = .ok nm

theorem text_read {d p : NodeId} {h : Heap} (c : Ctx h d p) (hne : p ≠ d) (s : Str) :
    ∃ h', handleText d p (some s) h = (.ok h.next, h') ∧ LeafAdded h h' d p (.text s) := by
  rcases c.where_ with h1 | ⟨_, h2, _⟩
  · exact absurd h1 hne
  · exact leaf_read (x := Node.newText d s) c rfl rfl rfl ⟨rfl, rfl⟩ (by rw [h2]; rfl)

theorem cdata_read {d p : NodeId} {h : Heap} (c : Ctx h d p) (hne : p ≠ d) (s : Str) :
    ∃ h', handleCdata d p (some s) h = (.ok h.next, h') ∧ LeafAdded h h' d p (.cdata s) := by
  rcases c.where_ with h1 | ⟨_, h2, _⟩
  · exact absurd h1 hne
  · exact leaf_read (x := Node.newCdata d s) c rfl rfl rfl ⟨rfl, rfl⟩ (by rw [h2]; rfl)

theorem comment_read {d p : NodeId} {h : Heap} (c : Ctx h d p) (s : Str) :
    ∃ h', handleComment d p (some s) h = (.ok h.next, h') ∧ LeafAdded h h' d p (.comment s) := by
  refine leaf_read (x := Node.newComment d s) c rfl rfl rfl ⟨rfl, rfl⟩ ?_
  rcases c.where_ with h1 | ⟨_, h2, _⟩
  · subst h1; rw [c.dtype]; rfl
  · rw [h2]; rfl

theorem pi_made {e : Env} {d p : NodeId} {h : Heap} (c : Ctx h d p) {s t : Str}
    {dat : Option Str} (hs : splitPi e.uni s = (t, dat)) (ht : GoodTarget t) :
    ∃ h', handlePi e d p (some s) h = (.ok h.next, h') ∧ LeafAdded h h' d p (.pi t dat) := by
  obtain ⟨⟨nm, hnm⟩, hres⟩ := ht
  obtain ⟨h', e1, a⟩ := leaf_read (x := Node.newProcessingInstruction d nm dat) (l := .pi t dat) c
    rfl rfl rfl ⟨rfl, C28_display_fromStr t nm hnm, rfl⟩ (by
      rcases c.where_ with h1 | ⟨_, h2, _⟩
      · subst h1; rw [c.dtype]; rfl
      · rw [h2]; rfl)
  refine ⟨h', ?_, a⟩
  unfold handlePi
  simp only [hs]
  have : createProcessingInstruction h d t dat =
      (.ok h.next, (h.alloc (Node.newProcessingInstruction d nm dat)).2) := by
    unfold createProcessingInstruction createNamed
    rw [if_neg (unreserved_map hres), hnm]; rfl
  rw [this]
  exact e1

theorem pi_read {e : Env} (hu : e.uni.Ascii) {d p : NodeId} {h : Heap} (c : Ctx h d p) {s t : Str}
    {dat : Option Str} (hs : PiTame e.uni s t dat) (ht : GoodTarget t) :
    ∃ h', handlePi e d p (some s) h = (.ok h.next, h') ∧ LeafAdded h h' d p (.pi t dat) :=
  pi_made c (splitPi_tame hu hs) ht

end XmlDom
