import Verif.Props.History
import Verif.Props.Attr
import Verif.Props.SetAttr
import Verif.Lemmas.CellParse
import Verif.Lemmas.Footprint

/-!
# C45: where the ids of a document come from
-/

namespace XmlDom
namespace Props

open Spec

/-- The ids of a document. -/
def idsAt (h : Heap) (d : NodeId) : List (Str × NodeId) :=
  match (h.get d).ext with
  | .document x => x.idMap
  | _ => []

theorem mem_idsAt {h : Heap} {d : NodeId} {p : Str × NodeId} :
    p ∈ idsAt h d ↔ ∃ x, (h.get d).ext = .document x ∧ p ∈ x.idMap := by
  unfold idsAt
  split
  · rename_i x hx
    exact ⟨fun hm => ⟨x, hx, hm⟩, fun ⟨y, hy, hm⟩ => by rw [hx] at hy; cases hy; exact hm⟩
  · rename_i hx
    exact ⟨fun hm => (by cases hm), fun ⟨y, hy, _⟩ => absurd hy (hx y)⟩

theorem idsAt_set {h : Heap} {n : NodeId} {x : Node} (hx : ∀ y, (h.get n).ext ≠ .document y)
    (hy : ∀ y, x.ext ≠ .document y) (d : NodeId) : idsAt (h.set n x) d = idsAt h d := by
  unfold idsAt
  by_cases hd : d = n
  · subst hd
    rw [Heap.get_set, if_pos rfl]
    split
    · rename_i y hy'; exact absurd hy' (hy y)
    · rfl
  · rw [Heap.get_set_ne _ _ hd]

/-- Calls that register no ids. -/
theorem ids_quiet {op : Op} {h h' : Heap} (i : Inv h) (hg : NoDocumentCopy h op)
    (hq : op.registers = false) (hs : Steps (StepsOf op) h h')
    (hargs : ∀ a ∈ op.args, h.live a = true) {d : NodeId} (hd : d < h'.next)
    {p : Str × NodeId} (hm : p ∈ idsAt h' d) : d < h.next ∧ p ∈ idsAt h d := by
  have main : Inv h' ∧ Keeps h h' ∧ ∀ d p, d < h'.next → p ∈ idsAt h' d →
      d < h.next ∧ p ∈ idsAt h d := by
    refine Steps.inv (fun h1 => Inv h1 ∧ Keeps h h1 ∧ ∀ d p, d < h1.next → p ∈ idsAt h1 d →
      d < h.next ∧ p ∈ idsAt h d) ?_ hs ⟨i, .refl _, fun _ _ a b => ⟨a, b⟩⟩
    rintro h1 l h2 ⟨i1, kp, k1⟩ hl hst
    have i2 := hst.inv i1
    refine ⟨i2, kp.trans (hst.keeps i1), ?_⟩
    intro d p hd hm
    obtain ⟨x, hx, hm⟩ := mem_idsAt.mp hm
    rcases hst.newNode hd with hn | hn
    · have hc := hst.ext hn
      rw [hx] at hc
      generalize hy : Ext.document x = y at hc
      cases hc with
      | keep => exact k1 d p hn (mem_idsAt.mpr ⟨x, hy.symm, hm⟩)
      | attrOwner => cases hy
      | attrPut => cases hy
      | nsPut => cases hy
      | attrDel => cases hy
      | decl hext => cases hy; exact k1 d p hn (mem_idsAt.mpr ⟨_, hext, hm⟩)
      | idPut => exact absurd (show op.registers = true from hl) (by rw [hq]; simp)
    · cases hn with
      | fresh hf hn hgx =>
        have h3 := hf.ext
        have h4 := i2.exts d hd
        rw [hgx] at hx h4
        rw [hx] at h3 h4
        unfold FreshExt at h3
        split at h3 <;> simp at h3
        obtain ⟨dt, ⟨o, h5⟩, _⟩ := h3
        rw [h5] at hm; cases hm
      | attrText _ _ hgx => rw [hgx] at hx; cases hx
      | attr _ _ _ hgx _ => rw [hgx] at hx; cases hx
      | @copy m cs hm1 hlive hcs hn hgx =>
        rw [hgx] at hx
        have ht : (h1.get m).ntype = .document := i1.isDocument (i1.wf.fresh m hm1) hx
        obtain ⟨n, deep, f, hop, _, h4⟩ := hl
        rcases h4 with h4 | ⟨q, hq, h4⟩
        · subst h4; subst hop
          have := kp.ntype m (i.wf.fresh m (hargs m (by simp [Op.args])))
          rw [ht] at this
          exact absurd this.symm hg
        · exact absurd ht (isChildAllowed_owned (i1.allowed q hq m h4)).1
  exact main.2.2 d p hd hm

/-- Steps that register no ids. -/
theorem ids_steps {h h' : Heap} (i : Inv h) (hs : Steps QuietL h h') {d : NodeId}
    (hd : d < h'.next) {p : Str × NodeId} (hm : p ∈ idsAt h' d) : d < h.next ∧ p ∈ idsAt h d := by
  have main : Inv h' ∧ ∀ d p, d < h'.next → p ∈ idsAt h' d → d < h.next ∧ p ∈ idsAt h d := by
    refine Steps.inv (fun h1 => Inv h1 ∧ ∀ d p, d < h1.next → p ∈ idsAt h1 d →
      d < h.next ∧ p ∈ idsAt h d) ?_ hs ⟨i, fun _ _ a b => ⟨a, b⟩⟩
    rintro h1 l h2 ⟨i1, k1⟩ hl hst
    have i2 := hst.inv i1
    refine ⟨i2, ?_⟩
    intro d p hd hm
    obtain ⟨x, hx, hm⟩ := mem_idsAt.mp hm
    rcases hst.newNode hd with hn | hn
    · have hc := hst.ext hn
      rw [hx] at hc
      generalize hy : Ext.document x = y at hc
      cases hc with
      | keep => exact k1 d p hn (mem_idsAt.mpr ⟨x, hy.symm, hm⟩)
      | attrOwner => cases hy
      | attrPut => cases hy
      | nsPut => cases hy
      | attrDel => cases hy
      | decl hext => cases hy; exact k1 d p hn (mem_idsAt.mpr ⟨_, hext, hm⟩)
      | idPut => exact absurd hl id
    · cases hn with
      | fresh hf hn hgx =>
        have h3 := hf.ext
        have h4 := i2.exts d hd
        rw [hgx] at hx h4
        rw [hx] at h3 h4
        unfold FreshExt at h3
        split at h3 <;> simp at h3
        obtain ⟨dt, ⟨o, h5⟩, _⟩ := h3
        rw [h5] at hm; cases hm
      | attrText _ _ hgx => rw [hgx] at hx; cases hx
      | attr _ _ _ hgx _ => rw [hgx] at hx; cases hx
      | copy => exact absurd hl id
  exact main.2 d p hd hm

/-- `set_attribute_node` leaves the ids alone until it records one. -/
theorem setAttributeNode_ids (e : Env) (h : Heap) (n a : NodeId) :
    (∀ d, idsAt (setAttributeNode e h n a).2 d = idsAt h d) ∨
      ∃ h3, Frame h h3 ∧ (∀ d, idsAt h3 d = idsAt h d) ∧
        recordId e.uni h3 n a (h.get a).name = setAttributeNode e h n a := by
  unfold setAttributeNode
  split
  · rename_i ht
    have hne : n ≠ a := fun hna => by
      subst hna
      rw [ht.1] at ht
      exact absurd ht.2 (by decide)
    split
    · exact Or.inl fun _ => rfl
    · exact Or.inl fun _ => rfl
    · exact Or.inl fun _ => rfl
    · split
      · rename_i w hx
        have f1 : Frame h (h.set a { h.get a with ext := .attribute (some n) }) :=
          Frame.set (by rw [hx]; exact ⟨_, rfl⟩)
        have a1 : ∀ d, idsAt (h.set a { h.get a with ext := .attribute (some n) }) d =
            idsAt h d := idsAt_set (by rw [hx]; nofun) nofun
        have n1 : ((h.set a { h.get a with ext := .attribute (some n) }).get a).name =
            (h.get a).name := by simp
        simp only [n1]
        generalize h.set a { h.get a with ext := .attribute (some n) } = h1 at *
        have k2 : ∀ d, idsAt (recordNamespace e.uni h1 n a (h.get a).name).2 d = idsAt h1 d := by
          unfold recordNamespace
          split
          · split
            · exact fun _ => rfl
            · exact fun _ => rfl
            · exact fun _ => rfl
            · exact fun _ => rfl
            · unfold insertMapping
              split
              · exact fun _ => rfl
              · split
                · split
                  · rename_i hx
                    exact idsAt_set (by rw [hx]; nofun) nofun
                  · exact fun _ => rfl
                · exact fun _ => rfl
          · exact fun _ => rfl
        obtain ⟨f2, _, _, _, _, g2⟩ := recordNamespace_frame e.uni h1 n a (h.get a).name
        generalize recordNamespace e.uni h1 n a (h.get a).name = q at *
        obtain ⟨o, h2⟩ := q
        simp only at f2 g2 k2
        have a12 : ∀ d, idsAt h2 d = idsAt h d := fun d => (k2 d).trans (a1 d)
        cases o with
        | err _ => exact Or.inl a12
        | panic _ => exact Or.inl a12
        | diverge => exact Or.inl a12
        | ok _ =>
          simp only
          unfold storeAttribute
          split
          · rename_i attrs nss hx2
            have n2 : (h2.get a).name = (h.get a).name := by
              rw [g2 a hne.symm]; exact n1
            simp only [n2]
            refine Or.inr ⟨_, (f1.trans f2).trans (Frame.set (by rw [hx2]; exact ⟨_, _, rfl⟩)),
              fun d => (idsAt_set (by rw [hx2]; nofun) (by nofun) d).trans (a12 d), rfl⟩
          · exact Or.inl a12
      · exact Or.inl fun _ => rfl
  · exact Or.inl fun _ => rfl

/-- What `record_id` adds. -/
theorem recordId_ids {u : Uni} {h : Heap} {n a : NodeId} {nm : Name} {d : NodeId}
    {p : Str × NodeId} (hm : p ∈ idsAt (recordId u h n a nm).2 d) :
    p ∈ idsAt h d ∨ (p.2 = n ∧ IsIdName (AssumesIds h d) nm ∧ attrValue u h a = .ok (some p.1) ∧
      (recordId u h n a nm).1 = .ok a ∧ (h.get a).owner = some d) := by
  unfold recordId at hm ⊢
  split at hm
  · exact Or.inl hm
  · rename_i d' hd'
    simp only at hm ⊢
    split at hm
    · exact Or.inl hm
    · rename_i hne
      rw [if_neg hne]
      cases hx : (h.get d').ext with
      | document x =>
        simp only [hx] at hm ⊢
        split at hm
        · rename_i hid
          rw [if_pos hid]
          split at hm
          · exact Or.inl hm
          · exact Or.inl hm
          · exact Or.inl hm
          · exact Or.inl hm
          · rename_i id hv
            split at hm
            · exact Or.inl hm
            · rename_i hnew
              rw [if_neg hnew]
              by_cases hd : d = d'
              · subst hd
                obtain ⟨y, hy, hm⟩ := mem_idsAt.mp hm
                simp only [Heap.get_set, if_true] at hy
                cases hy
                rcases mem_mapInsert.mp hm with h3 | ⟨h3, _⟩
                · subst h3
                  refine Or.inr ⟨rfl, ?_, hv, rfl, (Heap.upgrade_some.mp hd').1⟩
                  rw [isIdAttribute_iff] at hid
                  unfold AssumesIds
                  rw [hx]
                  exact hid
                · exact Or.inl (mem_idsAt.mpr ⟨x, hx, h3⟩)
              · refine Or.inl ?_
                unfold idsAt at hm ⊢
                rwa [Heap.get_set_ne _ _ hd] at hm
        · exact Or.inl hm
      | _ =>
        simp only [hx] at hm
        split at hm <;> exact Or.inl hm

theorem _root_.XmlDom.Frame.assumesIds {h h' : Heap} (f : Frame h h') {d : NodeId}
    (hd : d < h.next) : AssumesIds h' d = AssumesIds h d := by
  have := f.ext d hd
  unfold AssumesIds
  cases hx : (h.get d).ext <;> rw [hx] at this <;> simp only [SameExt] at this
  case document x =>
    obtain ⟨y, hy, _, ho⟩ := this
    rw [hy]
    simp only [ho]
  case element =>
    obtain ⟨_, _, hy⟩ := this
    rw [hy]
  case «attribute» =>
    obtain ⟨_, hy⟩ := this
    rw [hy]
  all_goals rw [this]

/-- What `set_attribute_node` adds. -/
theorem setAttributeNode_registers {e : Env} {h : Heap} (w : WF h) {n a d : NodeId}
    (ha : h.live a = true) (hd : d < h.next) {p : Str × NodeId}
    (hm : p ∈ idsAt (setAttributeNode e h n a).2 d) :
    p ∈ idsAt h d ∨ (p.2 = n ∧ HasId e.uni (setAttributeNode e h n a).2 d n p.1) := by
  obtain ⟨f, _, heff⟩ := setAttributeNode_effect e h n a
  rcases setAttributeNode_ids e h n a with h1 | ⟨h3, f3, h1, h2⟩
  · rw [h1] at hm; exact Or.inl hm
  · rw [← h2] at hm
    rcases recordId_ids hm with h4 | ⟨h4, h5, h6, h7, _⟩
    · rw [h1] at h4; exact Or.inl h4
    · refine Or.inr ⟨h4, (h.get a).name, a, ?_, ?_, ?_⟩
      · rw [h2] at h7
        rcases heff with ⟨_, h8⟩ | ⟨_, _, h8, _⟩
        · exact absurd h7 (h8 a)
        · rw [h8]; exact mem_mapInsert.mpr (Or.inl rfl)
      · rw [f.assumesIds hd, ← f3.assumesIds hd]; exact h5
      · rw [f.attrValue w _ ha, ← f3.attrValue w _ ha]; exact h6

theorem setAttributeNode_adds {e : Env} {h : Heap} (w : WF h) {n a d : NodeId}
    (ha : h.live a = true) (hd : d < h.next) {p : Str × NodeId}
    (hm : p ∈ idsAt (setAttributeNode e h n a).2 d) :
    p ∈ idsAt h d ∨ (p.2 = n ∧ (h.get a).owner = some d ∧
      IsIdName (AssumesIds h d) (h.get a).name ∧ attrValue e.uni h a = .ok (some p.1)) := by
  rcases setAttributeNode_ids e h n a with h1 | ⟨h3, f3, h1, h2⟩
  · rw [h1] at hm; exact Or.inl hm
  · rw [← h2] at hm
    rcases recordId_ids hm with h4 | ⟨h4, h5, h6, _, h8⟩
    · rw [h1] at h4; exact Or.inl h4
    · refine Or.inr ⟨h4, ?_, ?_, ?_⟩
      · rw [← f3.owner a (w.fresh a ha)]; exact h8
      · rw [← f3.assumesIds hd]; exact h5
      · rw [← f3.attrValue w _ ha]; exact h6

/-- What `set_attribute` and `set_attribute_ns` add. -/
theorem setAttributeNamed_registers {e : Env} {h : Heap} (i : Inv h) {n d : NodeId}
    (hn : h.live n = true) {o : Outcome Name} (ho : ∀ k, o = .ok k → NameOk k) {v : Str}
    (hd : d < (setAttributeNamed e h n o v).2.next) {p : Str × NodeId}
    (hm : p ∈ idsAt (setAttributeNamed e h n o v).2 d) :
    (d < h.next ∧ p ∈ idsAt h d) ∨
      (p.2 = n ∧ HasId e.uni (setAttributeNamed e h n o v).2 d n p.1) := by
  unfold setAttributeNamed at hm hd ⊢
  split at hm
  · exact Or.inl ⟨hd, hm⟩
  · exact Or.inl ⟨hd, hm⟩
  · exact Or.inl ⟨hd, hm⟩
  · rename_i nm
    split at hm
    · rename_i ho'
      simp only [ho'] at hd
      exact Or.inl ⟨hd, hm⟩
    · rename_i d' ho'
      simp only [ho', Result.void] at hm hd ⊢
      have st : Steps QuietL h (h.newAttribute d' nm (some v)).2 :=
        newAttribute_steps (Or.inr ⟨n, hn, ho'⟩) (ho nm rfl)
      have i1 := st.loud.invariant i
      have hlive := newAttribute_live h d' nm (some v)
      have hd1 : d < (h.newAttribute d' nm (some v)).2.next := by
        rw [(setAttributeNode_effect e _ n _).2.1] at hd; exact hd
      have hids : ∀ p, p ∈ idsAt (h.newAttribute d' nm (some v)).2 d →
          d < h.next ∧ p ∈ idsAt h d := by
        intro p hp
        obtain ⟨x, hx, hp⟩ := mem_idsAt.mp hp
        by_cases h1 : d = h.next
        · subst h1
          simp [Heap.newAttribute, Node.newText] at hx
        · by_cases h2 : d = h.next + 1
          · subst h2
            simp [Heap.newAttribute] at hx
          · have h3 : d < h.next + 2 := hd1
            have h4 : (h.newAttribute d' nm (some v)).2.get d = h.get d := by
              simp [Heap.newAttribute, h1, h2]
            rw [h4] at hx
            refine ⟨?_, mem_idsAt.mpr ⟨x, hx, hp⟩⟩
            exact Nat.lt_of_le_of_ne (Nat.le_of_lt_succ
              (Nat.lt_of_le_of_ne (Nat.le_of_lt_succ h3) h2)) h1
      rcases setAttributeNode_registers i1.wf hlive hd1 hm with h1 | h1
      · exact Or.inl (hids _ h1)
      · exact Or.inr h1

theorem leftBehind_eq {α : Type} {h : Heap} (r : Result α) : leftBehind h r = h ∨ leftBehind h r = r.2 := by
  obtain ⟨o, h'⟩ := r
  cases o <;> simp [leftBehind]

/-! ## Reading a text -/

/-- The new document, which does not take `id` for an id. -/
structure Blank (h : Heap) (doc : NodeId) : Prop where
  inv : Inv h
  live : h.live doc = true
  ext : ∃ x, (h.get doc).ext = .document x ∧ x.options.hasAssumeIds = false

theorem Blank.steps {h h' : Heap} {doc : NodeId} (b : Blank h doc) (s : Steps BasicL h h') :
    Blank h' doc := by
  obtain ⟨x, hx, ho⟩ := b.ext
  obtain ⟨y, hy, _, h2, _⟩ := (s.keeps b.inv).ids doc x (b.inv.wf.fresh doc b.live) hx
  exact ⟨s.invariant b.inv, s.basic_live b.live, y, hy, by rw [h2]; exact ho⟩

/-- The ids that are new are those of tags that were read. -/
def Took (u : Uni) (doc : NodeId) (evs : List Event) (h h' : Heap) : Prop :=
  ∀ d p, d < h'.next → p ∈ idsAt h' d → (d < h.next ∧ p ∈ idsAt h d) ∨
    (d = doc ∧ p.2 < h'.next ∧ TagWithId u evs (h'.get p.2).name.display p.1)

theorem _root_.XmlDom.Spec.TagWithId.mono {u : Uni} {evs evs' : List Event} {name id : Str}
    (t : TagWithId u evs name id) (hs : ∀ ev ∈ evs, ev ∈ evs') : TagWithId u evs' name id := by
  obtain ⟨as, v, h1, h2, h3⟩ := t
  exact ⟨as, v, h1.imp (hs _) (hs _), h2, h3⟩

theorem Took.refl {u : Uni} {doc : NodeId} {evs : List Event} {h : Heap} : Took u doc evs h h :=
  fun _ _ hd hp => Or.inl ⟨hd, hp⟩

theorem Took.quiet {u : Uni} {doc : NodeId} {evs : List Event} {h h' : Heap} (i : Inv h)
    (s : Steps QuietL h h') : Took u doc evs h h' :=
  fun _ _ hd hp => Or.inl (ids_steps i s hd hp)

theorem Took.mono {u : Uni} {doc : NodeId} {evs evs' : List Event} {h h' : Heap}
    (t : Took u doc evs h h') (hs : ∀ ev ∈ evs, ev ∈ evs') : Took u doc evs' h h' :=
  fun d p hd hp => (t d p hd hp).imp id fun ⟨a, b, c⟩ => ⟨a, b, c.mono hs⟩

theorem Took.trans {u : Uni} {doc : NodeId} {evs : List Event} {h h1 h2 : Heap}
    (t : Took u doc evs h h1) (k : Keeps h1 h2) (t' : Took u doc evs h1 h2) :
    Took u doc evs h h2 := by
  intro d p hd hp
  rcases t' d p hd hp with ⟨h3, h4⟩ | h3
  · rcases t d p h3 h4 with h5 | ⟨h5, h6, h7⟩
    · exact Or.inl h5
    · exact Or.inr ⟨h5, Nat.lt_of_lt_of_le h6 k.next, by rw [k.name _ h6]; exact h7⟩
  · exact Or.inr h3

theorem xmlId_of {k : Str} {nm : Name} (hk : Name.fromStr k = .ok nm) (hi : IsIdName false nm) :
    k = c! "xml:id" := by
  obtain ⟨h1, h2⟩ := hi
  rcases fromStr_ok hk with ⟨h3, _⟩ | ⟨p, l, h3, h4, _⟩
  · subst h3; simp at h2
  · subst h4; simp at h1 h2
    subst h1; subst h2; rw [h3]; rfl

theorem ids_attributes {e : Env} (he : e.Ok) {doc el : NodeId} : ∀ (as : List AttrEvent) (h : Heap),
    Blank h doc → h.live el = true →
    ∀ d p, d < (handleAttributes e doc el as h).2.next →
      p ∈ idsAt (handleAttributes e doc el as h).2 d → (d < h.next ∧ p ∈ idsAt h d) ∨
      (d = doc ∧ p.2 = el ∧ ∃ v, .good (c! "xml:id") v ∈ as ∧ ValueSays e.uni v (some p.1)) := by
  intro as
  induction as with
  | nil => intro h _ _ d p hd hp; exact Or.inl ⟨hd, hp⟩
  | cons a as ih =>
    intro h b hel d p hd hp
    cases a with
    | bad => exact Or.inl ⟨hd, hp⟩
    | undecodable => exact Or.inl ⟨hd, hp⟩
    | good k v =>
      unfold handleAttributes at hd hp
      unfold createAttributeWith createAttr at hd hp
      cases hnm : Name.fromStr k with
      | err _ => rw [hnm] at hd hp; exact Or.inl ⟨hd, hp⟩
      | panic _ => rw [hnm] at hd hp; exact Or.inl ⟨hd, hp⟩
      | diverge => rw [hnm] at hd hp; exact Or.inl ⟨hd, hp⟩
      | ok nm =>
        rw [hnm] at hd hp
        simp only at hd hp
        have q1 : Steps QuietL h (h.newAttribute doc nm (some v)).2 :=
          newAttribute_steps (Or.inl b.live) (nameOk_fromStr hnm)
        have la := newAttribute_live h doc nm (some v)
        have xa := newAttribute_ext h doc nm (some v)
        obtain ⟨na, ra⟩ := Cell.newAttribute_name h doc nm v
        have ca : ((h.newAttribute doc nm (some v)).2.get (h.newAttribute doc nm (some v)).1).children
            ≠ [] := by simp [Heap.newAttribute]
        have b1 := b.steps q1.loud
        have ih1 : ∀ d p, d < (h.newAttribute doc nm (some v)).2.next →
            p ∈ idsAt (h.newAttribute doc nm (some v)).2 d → d < h.next ∧ p ∈ idsAt h d :=
          fun d p h1 h2 => ids_steps b.inv q1 h1 h2
        have o1 := newAttribute_owner h doc nm (some v)
        have l1 := q1.loud.basic_live hel
        generalize h.newAttribute doc nm (some v) = q at *
        obtain ⟨a, h1⟩ := q
        simp only at *
        have q2 : Steps BasicL h1 (setAttributeNode e h1 el a).2 :=
          setAttributeNode_steps (fun _ _ => MapL.basic) xa (fun _ => trivial) l1 la
        have b2 := b1.steps q2
        have l2 := q2.basic_live l1
        have n2 : (setAttributeNode e h1 el a).2.next = h1.next := (setAttributeNode_effect e h1 el a).2.1
        have i2 : ∀ d p, d < h1.next → p ∈ idsAt (setAttributeNode e h1 el a).2 d →
            (d < h.next ∧ p ∈ idsAt h d) ∨ (d = doc ∧ p.2 = el ∧
              ∃ v', .good (c! "xml:id") v' ∈ AttrEvent.good k v :: as ∧
                ValueSays e.uni v' (some p.1)) := by
          intro d p hd hp
          rcases setAttributeNode_adds b1.inv.wf la hd hp with
            h3 | ⟨h3, h4, h5, h6⟩
          · exact Or.inl (ih1 d p hd h3)
          · rw [o1] at h4
            cases h4
            obtain ⟨x, hx, hax⟩ := b1.ext
            have hass : AssumesIds h1 doc = false := by unfold AssumesIds; rw [hx]; exact hax
            rw [hass, na] at h5
            have hk := xmlId_of hnm h5
            subst hk
            refine Or.inr ⟨rfl, h3, v, List.mem_cons_self, ?_⟩
            obtain ⟨_, s, hs, hv⟩ := (valued_iff he.uni).mpr h6
            rw [(rawText_iff h1 a s).mp hs] at ra
            rw [← ra]; exact hv
        generalize setAttributeNode e h1 el a = q at *
        obtain ⟨o, h2⟩ := q
        simp only at *
        cases o with
        | err _ => simp only at hd hp; exact i2 d p (n2 ▸ hd) hp
        | panic _ => simp only at hd hp; exact i2 d p (n2 ▸ hd) hp
        | diverge => simp only at hd hp; exact i2 d p (n2 ▸ hd) hp
        | ok _ =>
          simp only at hd hp
          rcases ih h2 b2 l2 d p hd hp with ⟨h3, h4⟩ | ⟨h3, h4, v', h5, h6⟩
          · exact i2 d p (n2 ▸ h3) h4
          · exact Or.inr ⟨h3, h4, v', List.mem_cons_of_mem _ h5, h6⟩

theorem took_start {e : Env} (he : e.Ok) {doc parent : NodeId} {nm : Option Str}
    {as : List AttrEvent} {h : Heap} (b : Blank h doc) (hp : h.live parent = true)
    {evs : List Event} (hev : .start nm as ∈ evs ∨ .empty nm as ∈ evs) :
    Took e.uni doc evs h (handleStart e doc parent nm as h).2 := by
  unfold handleStart
  cases nm with
  | none => exact .refl
  | some nm =>
    have h1 := createElement_steps (t := nm) b.live
    have h1l : ∀ n, (createElement h doc nm).1 = .ok n → Leaf (createElement h doc nm).2 n :=
      fun n hn => createNamed_live (fun _ => rfl) (Prod.ext hn rfl)
    have h1o : ∀ n, (createElement h doc nm).1 = .ok n →
        ((createElement h doc nm).2.get n).name.display = nm := by
      intro n hn
      unfold createElement createNamed at hn ⊢
      cases hk : Name.fromStr nm with
      | ok k =>
        rw [hk] at hn
        simp only at hn ⊢
        cases hn
        simp [Node.newElement, display_fromStr hk]
      | err _ => rw [hk] at hn; cases hn
      | panic _ => rw [hk] at hn; cases hn
      | diverge => rw [hk] at hn; cases hn
    simp only
    generalize createElement h doc nm = r at h1 h1l h1o
    obtain ⟨o, hh⟩ := r
    cases o with
    | err _ => exact .quiet b.inv h1
    | panic _ => exact .quiet b.inv h1
    | diverge => exact .quiet b.inv h1
    | ok el =>
      have h2 := createAppend_quiet hp h1 h1l rfl
      have h3 : ∀ h' r, appendChild hh parent el = (.ok r, h') → r = el :=
        fun _ _ hr => insertBefore_result hr
      have h4 := appendChild_quiet (h1.loud.basic_live hp) (h1l el rfl)
      have i1 := h1.loud.invariant b.inv
      have ll := i1.wf.fresh el (h1l el rfl).1
      have n1 := h1o el rfl
      simp only at h1 h4 i1 ll n1 ⊢
      generalize appendChild hh parent el = r2 at h2 h3 h4
      obtain ⟨o2, hh2⟩ := r2
      cases o2 with
      | err _ => exact .quiet b.inv h2.1
      | panic _ => exact .quiet b.inv h2.1
      | diverge => exact .quiet b.inv h2.1
      | ok el' =>
        have hel := h3 hh2 el' rfl
        subst hel
        have b2 := b.steps h2.1.loud
        have k2 := h4.1.loud.keeps i1
        have n3 : (hh2.get el').name.display = nm := by
          rw [show (hh2.get el').name = _ from k2.name el' ll]; exact n1
        have l3 : hh2.live el' = true := h2.2 el' rfl
        have k3 := (handleAttributes_res (e := e) as hh2 b2.live l3).1.keeps b2.inv
        intro d p hd hp
        simp only at hd hp
        rcases ids_attributes he as hh2 b2 l3 d p hd hp with ⟨h5, h6⟩ | ⟨h5, h6, v, h7, h8⟩
        · exact Or.inl (ids_steps b.inv h2.1 h5 h6)
        · have ll3 := b2.inv.wf.fresh el' l3
          refine Or.inr ⟨h5, ?_, as, v, ?_, h7, h8⟩
          · rw [h6]; exact Nat.lt_of_lt_of_le ll3 k3.next
          · rw [h6]
            simp only
            rw [k3.name el' ll3, n3]
            exact hev

theorem took_element {e : Env} (he : e.Ok) {doc : NodeId} : ∀ (fuel : Nat) (parent : NodeId)
    (evs : List Event) (h : Heap), Blank h doc → h.live parent = true →
    Took e.uni doc evs h (parseElement e doc fuel parent evs h).heap := by
  intro fuel
  induction fuel with
  | zero => intro _ _ _ _ _; exact .refl
  | succ fuel ih =>
    intro parent evs h b hp
    have go : ∀ (r : Result NodeId) (ev : Event) (rest : List Event), ReadRes h r →
        Took e.uni doc (ev :: rest) h r.2 →
        Took e.uni doc (ev :: rest) h ((match r with
          | (.ok _, h1) => parseElement e doc fuel parent rest h1
          | (o, h1) => ⟨o, rest, h1⟩) : ParseResult).heap := by
      rintro ⟨o, h1⟩ ev rest hr ht
      cases o with
      | ok n =>
        have b1 := b.steps hr.1
        have hp1 := hr.1.basic_live hp
        exact ht.trans ((parseElement_steps fuel parent rest h1 b1.live hp1).keeps b1.inv)
          ((ih parent rest h1 b1 hp1).mono fun _ => List.mem_cons_of_mem _)
      | err _ => exact ht
      | panic _ => exact ht
      | diverge => exact ht
    unfold parseElement
    cases evs with
    | nil => exact .refl
    | cons ev rest =>
      cases ev with
      | start name attrs =>
        have hr := handleStart_res (e := e) (nm := name) (as := attrs) b.live hp
        have ht := took_start he b hp (nm := name) (as := attrs) (evs := .start name attrs :: rest)
          (Or.inl List.mem_cons_self)
        simp only
        generalize handleStart e doc parent name attrs h = r at hr ht
        obtain ⟨o, h1⟩ := r
        cases o with
        | err _ => exact ht
        | panic _ => exact ht
        | diverge => exact ht
        | ok el =>
          have b1 := b.steps hr.1
          have hp1 := hr.1.basic_live hp
          have hel := hr.2 el rfl
          have s2 := parseElement_steps (e := e) fuel el rest h1 b1.live hel
          have t2 := ih el rest h1 b1 hel
          have r2 := Cell.parseElement_rest e doc fuel el rest h1
          simp only at s2 t2 r2 b1 hp1 ⊢
          generalize parseElement e doc fuel el rest h1 = q at s2 t2 r2
          obtain ⟨o2, rest2, hh2⟩ := q
          simp only at s2 t2 r2
          have t3 : Took e.uni doc (.start name attrs :: rest) h hh2 :=
            ht.trans (s2.keeps b1.inv) (t2.mono fun _ => List.mem_cons_of_mem _)
          cases o2 with
          | err _ => exact t3
          | panic _ => exact t3
          | diverge => exact t3
          | ok _ =>
            have b2 := b1.steps s2
            have hp2 := s2.basic_live hp1
            exact t3.trans ((parseElement_steps fuel parent rest2 hh2 b2.live hp2).keeps b2.inv)
              ((ih parent rest2 hh2 b2 hp2).mono fun _ hm => List.mem_cons_of_mem _ (r2.subset hm))
      | empty name attrs =>
        exact go _ _ _ (handleStart_res b.live hp) (took_start he b hp (Or.inr List.mem_cons_self))
      | comment t =>
        exact go _ _ _ (handleComment_res b.live hp)
          (.quiet b.inv (handleComment_quiet b.live hp).1)
      | pi t => exact go _ _ _ (handlePi_res b.live hp) (.quiet b.inv (handlePi_quiet b.live hp).1)
      | text t =>
        exact go _ _ _ (handleText_res b.live hp)
          (.quiet b.inv (handleText_quiet b.live hp).1)
      | cdata t =>
        exact go _ _ _ (handleCdata_res b.live hp)
          (.quiet b.inv (handleCdata_quiet b.live hp).1)
      | decl _ _ _ => exact .refl
      | close => exact .refl
      | other => exact .refl
      | eof => exact .refl
      | readError => exact .refl

theorem took_loop {e : Env} (he : e.Ok) {doc : NodeId} : ∀ (fuel : Nat)
    (evs : List Event) (h : Heap), Blank h doc →
    Took e.uni doc evs h (parseLoop e doc fuel evs h).2 := by
  intro fuel
  induction fuel with
  | zero => intro _ _ _; exact .refl
  | succ fuel ih =>
    intro evs h b
    have next : ∀ (h1 : Heap) (ev : Event) (rest rest' : List Event), Steps BasicL h h1 →
        rest' <:+ rest → Took e.uni doc (ev :: rest) h h1 →
        Took e.uni doc (ev :: rest) h (parseLoop e doc fuel rest' h1).2 := by
      intro h1 ev rest rest' hs hr ht
      have b1 := b.steps hs
      exact ht.trans ((parseLoop_steps fuel rest' h1 b1.live).keeps b1.inv)
        ((ih rest' h1 b1).mono fun _ hm => List.mem_cons_of_mem _ (hr.subset hm))
    have go : ∀ (r : Result NodeId) (ev : Event) (rest : List Event), ReadRes h r →
        Took e.uni doc (ev :: rest) h r.2 →
        Took e.uni doc (ev :: rest) h ((match r with
          | (.ok _, h1) => parseLoop e doc fuel rest h1
          | r => r) : Result NodeId).2 := by
      rintro ⟨o, h1⟩ ev rest hr ht
      cases o with
      | ok n => exact next h1 ev rest rest hr.1 (List.suffix_refl _) ht
      | err _ => exact ht
      | panic _ => exact ht
      | diverge => exact ht
    unfold parseLoop
    cases evs with
    | nil => exact .refl
    | cons ev rest =>
      cases ev with
      | decl v enc sa =>
        have hr := handleDecl_quiet (doc := doc) (v := v) (enc := enc) (sa := sa) (h := h)
        simp only
        generalize handleDecl doc v enc sa h = r at hr
        obtain ⟨o, h1⟩ := r
        cases o with
        | ok _ => exact next h1 _ rest rest hr.loud (List.suffix_refl _) (.quiet b.inv hr)
        | err _ => exact .quiet b.inv hr
        | panic _ => exact .quiet b.inv hr
        | diverge => exact .quiet b.inv hr
      | start name attrs =>
        have hr := handleStart_res (e := e) (nm := name) (as := attrs) b.live b.live
        have ht := took_start he b b.live (nm := name) (as := attrs)
          (evs := .start name attrs :: rest) (Or.inl List.mem_cons_self)
        simp only
        generalize handleStart e doc doc name attrs h = r at hr ht
        obtain ⟨o, h1⟩ := r
        cases o with
        | err _ => exact ht
        | panic _ => exact ht
        | diverge => exact ht
        | ok el =>
          have b1 := b.steps hr.1
          have hel := hr.2 el rfl
          have s2 := parseElement_steps (e := e) (rest.length + 1) el rest h1 b1.live hel
          have t2 := took_element he (rest.length + 1) el rest h1 b1 hel
          have r2 := Cell.parseElement_rest e doc (rest.length + 1) el rest h1
          have s1 := hr.1
          simp only at s1 s2 t2 r2 b1 ⊢
          generalize parseElement e doc (rest.length + 1) el rest h1 = q at s2 t2 r2
          obtain ⟨o2, rest2, hh2⟩ := q
          simp only at s2 t2 r2
          have t3 : Took e.uni doc (.start name attrs :: rest) h hh2 :=
            ht.trans (s2.keeps b1.inv) (t2.mono fun _ => List.mem_cons_of_mem _)
          cases o2 with
          | err _ => exact next hh2 _ rest rest2 (s1.trans s2) r2 t3
          | panic _ => exact t3
          | diverge => exact t3
          | ok _ => exact next hh2 _ rest rest2 (s1.trans s2) r2 t3
      | empty name attrs =>
        exact go _ _ _ (handleStart_res b.live b.live)
          (took_start he b b.live (Or.inr List.mem_cons_self))
      | comment t =>
        exact go _ _ _ (handleComment_res b.live b.live)
          (.quiet b.inv (handleComment_quiet b.live b.live).1)
      | pi t =>
        exact go _ _ _ (handlePi_res b.live b.live)
          (.quiet b.inv (handlePi_quiet b.live b.live).1)
      | close => exact next h _ rest rest (.refl _) (List.suffix_refl _) .refl
      | text t => exact .refl
      | cdata t => exact .refl
      | other => exact .refl
      | eof => exact .refl
      | readError => exact .refl

theorem took_read {e : Env} (he : e.Ok) {h : Heap} (i : Inv h) (evs : List Event) :
    Took e.uni h.next evs h (readXml e h evs).2 := by
  unfold readXml
  have h1 : Steps QuietL h (createDocument h none none none).2 :=
    createDocumentWithOptions_steps fun _ ht => by cases ht
  have hc : createDocument h none none none =
      (.ok h.next, (h.alloc (Node.newDocument none Options.new.setAddNamespaces)).2) := rfl
  rw [hc] at h1 ⊢
  simp only at h1 ⊢
  have b : Blank (h.alloc (Node.newDocument none Options.new.setAddNamespaces)).2 h.next :=
    ⟨h1.loud.invariant i, by simp, by simp [Node.newDocument]; rfl⟩
  exact (Took.quiet i h1).trans ((parseLoop_steps _ _ _ b.live).keeps b.inv) (took_loop he _ _ _ b)

/-- Where the ids come from that a document has after a call. -/
theorem ids_exec {e : Env} (he : e.Ok) {op : Op} {h : Heap} (i : Inv h)
    (hg : NoDocumentCopy h op) {d : NodeId} (hd : d < (exec e op h).next) {p : Str × NodeId}
    (hm : p ∈ idsAt (exec e op h) d) :
    (d < h.next ∧ p ∈ idsAt h d) ∨
      (SetsAttributeOf p.2 op ∧ HasId e.uni (exec e op h) d p.2 p.1) ∨
      ((∃ evs, op = .readXml evs ∧
        TagWithId e.uni evs (nodeName (exec e op h) p.2).display p.1) ∧ h.next ≤ d) := by
  have hst := exec_steps he op i.wf
  unfold exec at hd hm hst ⊢
  split at hm
  · rename_i hargs
    simp only [if_pos hargs] at hd hst ⊢
    rw [List.all_eq_true] at hargs
    by_cases hq : op.registers = true
    · cases op with
      | setAttribute n k v =>
        change d < (leftBehind h (setAttribute e h n k v)).next at hd
        change p ∈ idsAt (leftBehind h (setAttribute e h n k v)) d at hm
        show _ ∨ (_ ∧ HasId e.uni (leftBehind h (setAttribute e h n k v)) d p.2 p.1) ∨ _
        rcases leftBehind_eq (h := h) (setAttribute e h n k v) with h1 | h1
        · rw [h1] at hd hm; exact Or.inl ⟨hd, hm⟩
        · rw [h1] at hd hm ⊢
          rcases setAttributeNamed_registers i (hargs n (by simp [Op.args]))
            (fun _ => nameOk_fromStr) hd hm with h2 | ⟨h2, h3⟩
          · exact Or.inl h2
          · exact Or.inr (Or.inl ⟨h2.symm, by rw [h2]; exact h3⟩)
      | setAttributeNs n u k v =>
        change d < (leftBehind h (setAttributeNs e h n u k v)).next at hd
        change p ∈ idsAt (leftBehind h (setAttributeNs e h n u k v)) d at hm
        show _ ∨ (_ ∧ HasId e.uni (leftBehind h (setAttributeNs e h n u k v)) d p.2 p.1) ∨ _
        rcases leftBehind_eq (h := h) (setAttributeNs e h n u k v) with h1 | h1
        · rw [h1] at hd hm; exact Or.inl ⟨hd, hm⟩
        · rw [h1] at hd hm ⊢
          rcases setAttributeNamed_registers i (hargs n (by simp [Op.args]))
            (fun _ => nameOk_newNs) hd hm with h2 | ⟨h2, h3⟩
          · exact Or.inl h2
          · exact Or.inr (Or.inl ⟨h2.symm, by rw [h2]; exact h3⟩)
      | setAttributeNode n a =>
        change d < (leftBehind h (setAttributeNode e h n a)).next at hd
        change p ∈ idsAt (leftBehind h (setAttributeNode e h n a)) d at hm
        show _ ∨ (_ ∧ HasId e.uni (leftBehind h (setAttributeNode e h n a)) d p.2 p.1) ∨ _
        rcases leftBehind_eq (h := h) (setAttributeNode e h n a) with h1 | h1
        · rw [h1] at hd hm; exact Or.inl ⟨hd, hm⟩
        · rw [h1] at hd hm ⊢
          rw [(setAttributeNode_effect e h n a).2.1] at hd
          rcases setAttributeNode_registers i.wf (hargs a (by simp [Op.args])) hd hm with
            h2 | ⟨h2, h3⟩
          · exact Or.inl ⟨hd, h2⟩
          · exact Or.inr (Or.inl ⟨h2.symm, by rw [h2]; exact h3⟩)
      | readXml evs =>
        by_cases hlt : d < h.next
        · refine Or.inl ⟨hlt, ?_⟩
          change p ∈ idsAt (leftBehind h (readXml e h evs)) d at hm
          rcases leftBehind_eq (h := h) (readXml e h evs) with h1 | h1
          · rw [h1] at hm; exact hm
          · rw [h1] at hm
            have o : Only (fun m => h.next ≤ m) (fun m => h.next ≤ m) h (readXml e h evs).2 :=
              only_readXml (fun _ => id) (fun _ => id) evs
            rcases o.get d hlt (Nat.not_le_of_lt hlt) with h2 | ⟨h2, _⟩
            · unfold idsAt at hm ⊢
              rwa [h2] at hm
            · exact absurd h2 (Nat.not_le_of_lt hlt)
        · change d < (leftBehind h (readXml e h evs)).next at hd
          change p ∈ idsAt (leftBehind h (readXml e h evs)) d at hm
          have hle := Nat.le_of_not_lt hlt
          refine Or.inr (Or.inr ⟨⟨evs, rfl, ?_⟩, hle⟩)
          show TagWithId e.uni evs (nodeName (leftBehind h (readXml e h evs)) p.2).display p.1
          rcases leftBehind_eq (h := h) (readXml e h evs) with h1 | h1
          · rw [h1] at hd; exact absurd hd hlt
          · rw [h1] at hd hm ⊢
            rcases took_read he i evs d p hd hm with ⟨h2, _⟩ | ⟨_, _, h2⟩
            · exact absurd h2 hlt
            · exact h2
      | _ => cases hq
    · exact Or.inl (ids_quiet i hg (by simpa using hq) hst hargs hd hm)
  · rename_i hargs
    simp only [if_neg hargs] at hd
    exact Or.inl ⟨hd, hm⟩

/-- Where the ids come from that a document has after a history. -/
theorem ids_run : ∀ (ops : List (Env × Op)) (h : Heap), (∀ x ∈ ops, x.1.Ok) → Inv h →
    Obeys NoDocumentCopy ops h → ∀ (d : NodeId) (p : Str × NodeId), d < (run ops h).next →
    p ∈ idsAt (run ops h) d →
    (d < h.next ∧ p ∈ idsAt h d) ∨
      ∃ before env op later, ops = before ++ (env, op) :: later ∧
        ((SetsAttributeOf p.2 op ∧ HasId env.uni (exec env op (run before h)) d p.2 p.1) ∨
          ((∃ evs, op = .readXml evs ∧ TagWithId env.uni evs
            (nodeName (exec env op (run before h)) p.2).display p.1) ∧
            (run before h).live d = false)) := by
  intro ops
  induction ops with
  | nil => intro h _ _ _ d p hd hm; exact Or.inl ⟨hd, hm⟩
  | cons x rest ih =>
    obtain ⟨env, op⟩ := x
    intro h hok i hob d p hd hm
    have he := hok _ List.mem_cons_self
    have i1 : Inv (exec env op h) := (exec_steps he op i.wf).invariant i
    rcases ih (exec env op h) (fun y hy => hok y (List.mem_cons_of_mem _ hy)) i1 hob.2 d p hd hm with
      ⟨h1, h2⟩ | ⟨before, env', op', later, h1, h2⟩
    · rcases ids_exec he i hob.1 h1 h2 with h3 | h3 | ⟨h3, h4⟩
      · exact Or.inl h3
      · exact Or.inr ⟨[], env, op, rest, rfl, Or.inl h3⟩
      · refine Or.inr ⟨[], env, op, rest, rfl, Or.inr ⟨h3, ?_⟩⟩
        rw [← Bool.not_eq_true]
        exact fun hl => absurd (i.wf.fresh d hl) (Nat.not_lt_of_le h4)
    · exact Or.inr ⟨(env, op) :: before, env', op', later, by rw [h1]; rfl, h2⟩

/-- C45 (partial: no document is cloned; the attribute may have been removed or changed since).
An element is found by an id only because an earlier call set an attribute of the element, and
right after this call the element had an id attribute with this value; or the document was
read from a text with a tag that has the name of the element and an `xml:id` with this value. -/
theorem C45_origin_partial (ops : List (Env × Op)) (hok : ∀ x ∈ ops, x.1.Ok)
    (hob : Obeys NoDocumentCopy ops Heap.empty) (d : NodeId) (id : Str) (e : NodeId)
    (hd : (run ops Heap.empty).live d = true)
    (he : getElementById (run ops Heap.empty) d id = some e) :
    ∃ before env op later, ops = before ++ (env, op) :: later ∧
      ((SetsAttributeOf e op ∧ HasId env.uni (exec env op (run before Heap.empty)) d e id) ∨
        ((∃ evs, op = .readXml evs ∧ TagWithId env.uni evs
          (nodeName (exec env op (run before Heap.empty)) e).display id) ∧
          (run before Heap.empty).live d = false)) := by
  have hr : Reachable (run ops Heap.empty) := ⟨ops, hok, rfl⟩
  have hm : (id, e) ∈ idsAt (run ops Heap.empty) d := by
    unfold getElementById at he
    split at he
    · rename_i x hx
      exact mem_idsAt.mpr ⟨x, hx, mapGet_eq_some_mem (Heap.upgrade_some.mp he).1⟩
    · cases he
  rcases ids_run ops Heap.empty hok Inv.empty hob d (id, e)
    (hr.invariant.wf.fresh d hd) hm with ⟨h1, _⟩ | h1
  · exact absurd h1 (Nat.not_lt_zero _)
  · exact h1

example : Obeys NoDocumentCopy (idOps.map fun op => (plainEnv, op)) Heap.empty ∧
    (after idOps).live 0 = true ∧ getElementById (after idOps) 0 (c! "x") = some 1 :=
  ⟨⟨trivial, trivial, trivial, trivial, trivial⟩, by decide⟩

example : getElementById (after [.readXml [.empty (some (c! "a")) [.good (c! "xml:id") (c! "x")],
    .eof]]) 0 (c! "x") = some 1 := by decide

end Props
end XmlDom
