import Verif.Spec.History
import Verif.Lemmas.Invariants

/-!
# Invariants of restricted histories
-/

namespace XmlDom
open Spec

/-- An invariant of the restricted calls holds in every state that they reach. -/
theorem _root_.XmlDom.Spec.ReachableBy.inv {G : Heap → Op → Prop} {I : Heap → Prop} (h0 : I Heap.empty)
    (hI : ∀ op h h', Inv h → I h → G h op → Steps (StepsOf op) h h' →
      (∀ a ∈ op.args, h.live a = true) → I h')
    {h : Heap} (hr : ReachableBy G h) : Inv h ∧ I h := by
  obtain ⟨ops, hok, hg, rfl⟩ := hr
  have key : ∀ (ops : List (Env × Op)) (h : Heap), (∀ x ∈ ops, x.1.Ok) → Obeys G ops h →
      Inv h ∧ I h → Inv (run ops h) ∧ I (run ops h) := by
    intro ops
    induction ops with
    | nil => intro h _ _ hi; exact hi
    | cons x ops ih =>
      intro h hok hg hi
      refine ih _ (fun y hy => hok y (List.mem_cons_of_mem _ hy)) hg.2 ?_
      have hs := exec_steps (hok x List.mem_cons_self) x.2 hi.1.wf
      refine ⟨hs.invariant hi.1, ?_⟩
      by_cases ha : x.2.args.all h.live
      · exact hI x.2 h _ hi.1 hi.2 hg.1 hs fun a ha' => List.all_eq_true.mp ha a ha'
      · have : exec x.1 x.2 h = h := by unfold exec; rw [if_neg ha]
        rw [this]; exact hi.2
  exact key ops _ hok hg ⟨Inv.empty, h0⟩

theorem _root_.XmlDom.Spec.ReachableBy.reachable {G : Heap → Op → Prop} {h : Heap} (hr : ReachableBy G h) :
    Reachable h := by
  obtain ⟨ops, hok, _, rfl⟩ := hr
  exact ⟨ops, hok, rfl⟩

/-! ## Parent and child links -/

/-- Parent links and child lists fit together, apart from the children of attributes. -/
structure Links (h : Heap) : Prop where
  up : ∀ p c, h.live p = true → (h.get p).ntype ≠ .attribute → c ∈ (h.get p).children →
    (h.get c).parent = some p
  down : ∀ p c, h.live p = true → h.live c = true → (h.get p).ntype ≠ .attribute →
    (h.get c).parent = some p → c ∈ (h.get p).children
  nodup : ∀ p, h.live p = true → (h.get p).children.Nodup
  attr : ∀ a c, h.live a = true → (h.get a).ntype = .attribute → c ∈ (h.get a).children →
    (h.get c).parent = some a ∨ ((h.get c).parent = none ∧ c + 1 < h.next)
  attrUniq : ∀ a b c, h.live a = true → h.live b = true → (h.get a).ntype = .attribute →
    (h.get b).ntype = .attribute → c ∈ (h.get a).children → c ∈ (h.get b).children → a = b

theorem Links.empty : Links Heap.empty := by
  constructor
  · intro p _ hp; simp [Heap.empty] at hp
  · intro p _ hp; simp [Heap.empty] at hp
  · intro p hp; simp [Heap.empty] at hp
  · intro p _ hp; simp [Heap.empty] at hp
  · intro p _ _ hp; simp [Heap.empty] at hp

/-- The lists do not overlap. -/
theorem Links.uniq {h : Heap} (k : Links h) {p q c : NodeId} (hp : h.live p = true)
    (hq : h.live q = true) (hcp : c ∈ (h.get p).children) (hcq : c ∈ (h.get q).children) :
    p = q := by
  by_cases tp : (h.get p).ntype = .attribute <;> by_cases tq : (h.get q).ntype = .attribute
  · exact k.attrUniq p q c hp hq tp tq hcp hcq
  · have h1 := k.up q c hq tq hcq
    rcases k.attr p c hp tp hcp with h2 | ⟨h2, _⟩
    · rw [h1] at h2; cases h2; rfl
    · rw [h1] at h2; cases h2
  · have h1 := k.up p c hp tp hcp
    rcases k.attr q c hq tq hcq with h2 | ⟨h2, _⟩
    · rw [h1] at h2; cases h2; rfl
    · rw [h1] at h2; cases h2
  · have h1 := k.up p c hp tp hcp
    have h2 := k.up q c hq tq hcq
    rw [h1] at h2; cases h2; rfl

/-- The steps that keep the links in order. -/
def LinkOk (h : Heap) (l : Label) : Prop :=
  match l with
  | .unlink p c => (h.get c).parent = some p
  | .link _ c _ => ∀ a, h.live a = true → c ∉ (h.get a).children
  | .clear a => (h.get a).ntype = .attribute
  | .orphan a => (h.get a).ntype = .attribute
  | .clone _ cs => cs = []
  | _ => True

/-- The new nodes of a step that keeps the links in order. -/
theorem newNode_links {h h' : Heap} {l : Label} {n : NodeId} (hok : LinkOk h l)
    (hn : NewNode h h' n l) : (h'.get n).parent = none ∧
      ((h'.get n).children = [] ∨ ((h'.get n).children = [h.next] ∧ n = h.next + 1 ∧
        (h'.get n).ntype = .attribute ∧ (h'.get h.next).parent = none)) := by
  cases hn with
  | fresh hx hn hg => rw [hg]; exact ⟨hx.parent, Or.inl hx.children⟩
  | attrText hd hn hg => rw [hg]; exact ⟨rfl, Or.inl rfl⟩
  | attr hd hnm hn hg ht => rw [hg, ht]; exact ⟨rfl, Or.inr ⟨rfl, hn, rfl, rfl⟩⟩
  | copy hm hlive hcs hn hg => rw [hg]; exact ⟨rfl, Or.inl hok⟩

theorem nodup_insertAt {l : List NodeId} {c : NodeId} {pos : Option Nat} (hp : PosOk l pos)
    (hl : l.Nodup) (hc : c ∉ l) : (insertAt l c pos).Nodup := by
  obtain ⟨a, b, rfl, h2⟩ := insertAt_split (c := c) hp
  rw [h2]
  rw [List.nodup_append] at hl ⊢
  rw [List.mem_append, not_or] at hc
  refine ⟨hl.1, List.nodup_cons.mpr ⟨hc.2, hl.2.1⟩, ?_⟩
  intro x hx y hy
  rcases List.mem_cons.mp hy with rfl | hy
  · intro he; subst he; exact hc.1 hx
  · exact hl.2.2 x hx y hy

theorem Step.links {l : Label} {h h' : Heap} (hs : Step l h h') (i : Inv h) (k : Links h)
    (hok : LinkOk h l) : Links h' := by
  have w := i.wf
  have w' := hs.wf w
  have id : ∀ {n}, n < h.next → _ := fun {n} hn => hs.ident i.wf i.ownerNone (n := n) hn
  have lt : ∀ {n}, h.live n = true → n < h.next := fun {n} hn => w.fresh n hn
  -- a child of an old node is old
  have cases' : ∀ {p}, h'.live p = true → (p < h.next ∧ h.live p = true) ∨ NewNode h h' p l := by
    intro p hp
    rcases hs.newNode (w'.fresh p hp) with h1 | h1
    · exact Or.inl ⟨h1, hs.grow.2 p h1 hp⟩
    · exact Or.inr h1
  have par : ∀ {n}, n < h.next → _ := fun {n} hn => hs.parent (n := n) hn
  have chi : ∀ {p}, p < h.next → _ := fun {p} hp => hs.children (p := p) hp
  cases l with
  | unlink q d =>
    cases hs with
    | unlink hq hd =>
      have hpd : (h.get d).parent = some q := hok
      have hdl := w.child hq hd
      refine ⟨?_, ?_, ?_, ?_, ?_⟩
      · intro p c hp ht hc
        rw [get_unlink] at ht hc ⊢
        simp only at ht hc ⊢
        by_cases hpq : p = q
        · rw [if_pos hpq] at hc
          have hne : c ≠ d := fun he => by
            rw [he, hpq] at hc; exact (List.Nodup.mem_erase_iff (k.nodup q hq)).mp hc |>.1 rfl
          rw [if_neg hne]
          exact k.up p c hp ht (List.mem_of_mem_erase hc)
        · rw [if_neg hpq] at hc
          have hne : c ≠ d := fun he => by
            rw [he] at hc; exact hpq (k.uniq hp hq hc hd)
          rw [if_neg hne]
          exact k.up p c hp ht hc
      · intro p c hp hc ht hpar
        rw [get_unlink] at ht hpar ⊢
        simp only at ht hpar ⊢
        split at hpar
        · cases hpar
        · rename_i hne
          have := k.down p c hp hc ht hpar
          split
          · exact (List.mem_erase_of_ne hne).mpr this
          · exact this
      · intro p hp
        rw [get_unlink]
        simp only
        split
        · exact (k.nodup p hp).erase _
        · exact k.nodup p hp
      · intro a c ha ht hc
        rw [get_unlink] at ht hc ⊢
        simp only [next_unlink] at ht hc ⊢
        have hc0 : c ∈ (h.get a).children := by
          split at hc
          · exact List.mem_of_mem_erase hc
          · exact hc
        have hne : c ≠ d := by
          intro he
          subst he
          have := k.uniq ha hq hc0 hd
          rw [if_pos this, this] at hc
          exact (List.Nodup.mem_erase_iff (k.nodup q hq)).mp hc |>.1 rfl
        rw [if_neg hne]
        exact k.attr a c ha ht hc0
      · intro a b c ha hb ta tb hca hcb
        rw [get_unlink] at ta tb hca hcb
        simp only at ta tb hca hcb
        refine k.attrUniq a b c ha hb ta tb ?_ ?_
        · split at hca
          · exact List.mem_of_mem_erase hca
          · exact hca
        · split at hcb
          · exact List.mem_of_mem_erase hcb
          · exact hcb
  | link q d pos =>
    cases hs with
    | link hq hd hne hallow hdoc hsame hparent hpos =>
      have hno : ∀ a, h.live a = true → d ∉ (h.get a).children := hok
      have memq : ∀ {p c : NodeId}, c ∈ (if p = q then insertAt (h.get p).children d pos
          else (h.get p).children) → c ∈ (h.get p).children ∨ (p = q ∧ c = d) := by
        intro p c hc
        split at hc
        · rename_i he
          subst he
          rcases (mem_insertAt hpos).mp hc with h1 | h1
          · exact Or.inr ⟨rfl, h1⟩
          · exact Or.inl h1
        · exact Or.inl hc
      refine ⟨?_, ?_, ?_, ?_, ?_⟩
      · intro p c hp ht hc
        rw [get_link _ _ hne] at ht hc ⊢
        simp only at ht hc ⊢
        rcases memq hc with hc | ⟨rfl, rfl⟩
        · have : c ≠ d := fun he => hno p hp (he ▸ hc)
          rw [if_neg this]; exact k.up p c hp ht hc
        · rw [if_pos rfl]
      · intro p c hp hc ht hpar
        rw [get_link _ _ hne] at ht hpar ⊢
        simp only at ht hpar ⊢
        split at hpar
        · rename_i he
          cases hpar
          rw [if_pos rfl, he]
          exact (mem_insertAt hpos).mpr (Or.inl rfl)
        · have := k.down p c hp hc ht hpar
          split
          · rename_i he; subst he; exact (mem_insertAt hpos).mpr (Or.inr this)
          · exact this
      · intro p hp
        rw [get_link _ _ hne]
        simp only
        split
        · rename_i he; subst he
          exact nodup_insertAt hpos (k.nodup p hp) (hno p hp)
        · exact k.nodup p hp
      · intro a c ha ht hc
        rw [get_link _ _ hne] at ht hc ⊢
        simp only [next_link] at ht hc ⊢
        rcases memq hc with hc | ⟨rfl, rfl⟩
        · have : c ≠ d := fun he => hno a ha (he ▸ hc)
          rw [if_neg this]; exact k.attr a c ha ht hc
        · rw [if_pos rfl]; exact Or.inl rfl
      · intro a b c ha hb ta tb hca hcb
        rw [get_link _ _ hne] at ta tb hca hcb
        simp only at ta tb hca hcb
        rcases memq hca with h1 | ⟨rfl, rfl⟩ <;> rcases memq hcb with h2 | ⟨rfl, h2⟩
        · exact k.attrUniq a b c ha hb ta tb h1 h2
        · subst h2; exact absurd h1 (hno a ha)
        · exact absurd h2 (hno b hb)
        · rfl
  | clear x =>
    have hx : (h.get x).ntype = .attribute := hok
    cases hs with
    | clear =>
      have hsub : ∀ {p c}, c ∈ ((h.set x { h.get x with children := [] }).get p).children →
          c ∈ (h.get p).children := by
        intro p c hc
        rw [Heap.get_set] at hc
        split at hc
        · cases hc
        · exact hc
      have hty : ∀ p, ((h.set x { h.get x with children := [] }).get p).ntype =
          (h.get p).ntype := by
        intro p; rw [Heap.get_set]; split
        · rename_i he; rw [he]
        · rfl
      have hpa : ∀ p, ((h.set x { h.get x with children := [] }).get p).parent =
          (h.get p).parent := by
        intro p; rw [Heap.get_set]; split
        · rename_i he; rw [he]
        · rfl
      refine ⟨?_, ?_, ?_, ?_, ?_⟩
      · intro p c hp ht hc
        rw [hty] at ht; rw [hpa]
        exact k.up p c hp ht (hsub hc)
      · intro p c hp hc ht hpar
        rw [hty] at ht; rw [hpa] at hpar
        have := k.down p c hp hc ht hpar
        rw [Heap.get_set]
        split
        · rename_i he; subst he; exact absurd hx ht
        · exact this
      · intro p hp
        rw [Heap.get_set]
        split
        · exact List.nodup_nil
        · exact k.nodup p hp
      · intro a c ha ht hc
        rw [hty] at ht; rw [hpa]
        exact k.attr a c ha ht (hsub hc)
      · intro a b c ha hb ta tb hca hcb
        rw [hty] at ta tb
        exact k.attrUniq a b c ha hb ta tb (hsub hca) (hsub hcb)
  | orphan x =>
    have hx : (h.get x).ntype = .attribute := hok
    cases hs with
    | orphan =>
      have hch : ∀ p, ((h.set x { h.get x with parent := none }).get p).children =
          (h.get p).children := by
        intro p; rw [Heap.get_set]; split
        · rename_i he; rw [he]
        · rfl
      have hty : ∀ p, ((h.set x { h.get x with parent := none }).get p).ntype =
          (h.get p).ntype := by
        intro p; rw [Heap.get_set]; split
        · rename_i he; rw [he]
        · rfl
      have hnc : ∀ {p}, h.live p = true → x ∉ (h.get p).children := by
        intro p hp hm
        have := i.allowed p hp x hm
        rw [hx, isChildAllowed_attribute] at this
        cases this
      have hpa : ∀ {c}, c ≠ x → ((h.set x { h.get x with parent := none }).get c).parent =
          (h.get c).parent := by
        intro c hc; rw [Heap.get_set, if_neg hc]
      refine ⟨?_, ?_, ?_, ?_, ?_⟩
      · intro p c hp ht hc
        rw [hty] at ht; rw [hch] at hc
        rw [hpa fun he => hnc hp (he ▸ hc)]
        exact k.up p c hp ht hc
      · intro p c hp hc ht hpar
        rw [hty] at ht; rw [hch]
        have hne : c ≠ x := by
          intro he; rw [he, Heap.get_set, if_pos rfl] at hpar; cases hpar
        rw [hpa hne] at hpar
        exact k.down p c hp hc ht hpar
      · intro p hp; rw [hch]; exact k.nodup p hp
      · intro a c ha ht hc
        rw [hty] at ht; rw [hch] at hc
        rw [hpa fun he => hnc ha (he ▸ hc)]
        exact k.attr a c ha ht hc
      · intro a b c ha hb ta tb hca hcb
        rw [hty] at ta tb; rw [hch] at hca hcb
        exact k.attrUniq a b c ha hb ta tb hca hcb
  | _ =>
    -- the other steps change no link of an old node
    simp only at par chi
    have hup : ∀ p c, h'.live p = true → c ∈ (h'.get p).children →
        (p < h.next ∧ h.live p = true ∧ c ∈ (h.get p).children ∧ c < h.next) ∨
        (c = h.next ∧ p = h.next + 1 ∧ (h'.get p).ntype = .attribute ∧
          (h'.get c).parent = none) := by
      intro p c hp hc
      rcases cases' hp with ⟨h1, h2⟩ | h1
      · rw [chi h1] at hc
        exact Or.inl ⟨h1, h2, hc, lt (w.child h2 hc)⟩
      · rcases (newNode_links hok h1).2 with h2 | ⟨h2, h3, h4, h5⟩
        · rw [h2] at hc; cases hc
        · rw [h2, List.mem_singleton] at hc
          subst hc
          exact Or.inr ⟨rfl, h3, h4, h5⟩
    refine ⟨?_, ?_, ?_, ?_, ?_⟩
    · intro p c hp ht hc
      rcases hup p c hp hc with ⟨h1, h2, h3, h4⟩ | ⟨_, _, h5, _⟩
      · rw [par h4]
        rw [(id h1).1] at ht
        exact k.up p c h2 ht h3
      · exact absurd h5 ht
    · intro p c hp hc ht hpar
      rcases cases' hc with ⟨h1, h2⟩ | h1
      · rw [par h1] at hpar
        have hplt : p < h.next := w.weak c h2 p (by simp [weakRefs, hpar])
        rw [(id hplt).1] at ht
        rw [chi hplt]
        exact k.down p c (hs.grow.2 p hplt hp) h2 ht hpar
      · rw [(newNode_links hok h1).1] at hpar; cases hpar
    · intro p hp
      rcases cases' hp with ⟨h1, h2⟩ | h1
      · rw [chi h1]; exact k.nodup p h2
      · rcases (newNode_links hok h1).2 with h2 | ⟨h2, _⟩ <;> rw [h2] <;> simp
    · intro a c ha ht hc
      rcases hup a c ha hc with ⟨h1, h2, h3, h4⟩ | ⟨h5, h6, _, h7⟩
      · rw [par h4]
        rw [(id h1).1] at ht
        rcases k.attr a c h2 ht h3 with h5 | ⟨h5, h6⟩
        · exact Or.inl h5
        · exact Or.inr ⟨h5, Nat.lt_of_lt_of_le h6 hs.grow.1⟩
      · refine Or.inr ⟨h7, ?_⟩
        rw [h5, ← h6]; exact w'.fresh a ha
    · intro a b c ha hb ta tb hca hcb
      rcases hup a c ha hca with ⟨h1, h2, h3, h4⟩ | ⟨h5, h6, _, h7⟩ <;>
        rcases hup b c hb hcb with ⟨g1, g2, g3, g4⟩ | ⟨g5, g6, _, g7⟩
      · rw [(id h1).1] at ta; rw [(id g1).1] at tb
        exact k.attrUniq a b c h2 g2 ta tb h3 g3
      · rw [g5] at h4; exact absurd h4 (Nat.lt_irrefl _)
      · rw [h5] at g4; exact absurd g4 (Nat.lt_irrefl _)
      · rw [h6, g6]

/-- A call of a tidy history keeps the links in order. -/
theorem tidy_links {op : Op} {h h' : Heap} (i : Inv h) (k : Links h) (hg : TidyCall h op)
    (hs : Steps (StepsOf op) h h') (hargs : ∀ a ∈ op.args, h.live a = true) : Links h' := by
  -- the inserted node is not stuck in an attribute
  let Free (h1 : Heap) : Prop := ∀ s n, op.inserts = some (s, n) → n < h1.next ∧
    ∀ a, h1.live a = true → (h1.get a).ntype = .attribute → n ∈ (h1.get a).children →
      (h1.get n).parent = some a
  have free0 : Free h := by
    intro s n hop
    have key : ∀ m, m ∈ op.args → (∀ a, h.live a = true → nodeType h a = .attribute →
        m ∈ childNodes h a → parentNode h m = some a) → m < h.next ∧
        ∀ a, h.live a = true → (h.get a).ntype = .attribute → m ∈ (h.get a).children →
          (h.get m).parent = some a := by
      intro m hm hh
      exact ⟨i.wf.fresh m (hargs m hm), fun a ha ht hc => (parentNode_eq_some.mp (hh a ha ht hc)).2.1⟩
    cases op <;> simp only [Op.inserts, reduceCtorEq, Option.some.injEq, Prod.mk.injEq] at hop
    · obtain ⟨rfl, rfl⟩ := hop; exact key _ (by simp [Op.args]) hg
    · obtain ⟨rfl, rfl⟩ := hop; exact key _ (by simp [Op.args]) hg
    · obtain ⟨rfl, rfl⟩ := hop; exact key _ (by simp [Op.args]) hg.2
  -- the node to clone deeply has no children
  let Bare (h1 : Heap) : Prop := ∀ n f, op = .cloneNode n true f →
    n < h1.next ∧ (h1.get n).children = []
  have bare0 : Bare h := by
    rintro n f rfl
    exact ⟨i.wf.fresh n (hargs n (by simp [Op.args])), hg⟩
  have main : Inv h' ∧ Links h' ∧ Keeps h h' ∧ Free h' ∧ Bare h' := by
    refine Steps.inv (fun h1 => Inv h1 ∧ Links h1 ∧ Keeps h h1 ∧ Free h1 ∧ Bare h1) ?_ hs
      ⟨i, k, .refl _, free0, bare0⟩
    rintro h1 l h2 ⟨i1, k1, kp, fr, br⟩ hl hst
    have hty : ∀ {n}, h.live n = true → (h1.get n).ntype = (h.get n).ntype :=
      fun {n} hn => kp.ntype n (i.wf.fresh n hn)
    have hok : LinkOk h1 l := by
      cases l with
      | unlink p c =>
        cases hst with
        | unlink hp hc =>
          rcases hl with hl | hl | ⟨n, hl⟩ | hl
          · exact hl
          · subst hl
            refine k1.up p c hp ?_ hc
            rw [hty (hargs p (by simp [Op.args]))]; exact hg
          · subst hl
            refine k1.up p c hp ?_ hc
            rw [hty (hargs p (by simp [Op.args]))]; exact hg.1
          · subst hl
            refine k1.up p c hp ?_ hc
            rw [hty (hargs p (by simp [Op.args]))]; exact hg
      | link p c pos =>
        intro a ha hca
        cases hst with
        | link hp hc hne hallow hdoc hsame hparent hpos =>
          have hnp : ∀ q, h1.live q = true → (h1.get c).parent ≠ some q := by
            intro q hq he
            have : parentNode h1 c = some q := by
              refine parentNode_eq_some.mpr ⟨?_, he, hq⟩
              intro ht
              rw [ht, isChildAllowed_attribute] at hallow; cases hallow
            rw [this] at hparent; cases hparent
          by_cases ta : (h1.get a).ntype = .attribute
          · rcases hl with hl | ⟨_, _, hl⟩
            · exact hnp a ha ((fr p c hl).2 a ha ta hca)
            · rcases k1.attr a c ha ta hca with h3 | ⟨_, h3⟩
              · exact hnp a ha h3
              · rw [hl] at h3; exact Nat.lt_irrefl _ h3
          · exact hnp a ha (k1.up a c ha ta hca)
      | clear a =>
        rcases hl with ⟨v, hl⟩ | hl
        · subst hl; show (h1.get a).ntype = _
          rw [hty (hargs a (by simp [Op.args]))]; exact hg
        · subst hl; show (h1.get a).ntype = _
          rw [hty (hargs a (by simp [Op.args]))]; exact hg
      | orphan a =>
        rcases hl with ⟨n, hl⟩ | ⟨n, attrs, nss, key, h3, h4, h5⟩
        · subst hl; show (h1.get a).ntype = _
          rw [hty (hargs a (by simp [Op.args]))]; exact hg
        · exact ((i1.attrKeys n attrs nss h3 h4).2.2 key a h5).1
      | clone m cs =>
        obtain ⟨n, deep, f, hop, h3 | ⟨h3, h4⟩, _⟩ := hl
        · exact h3.2
        · -- the node to clone has no children, and it keeps none
          exfalso
          subst h3
          exact h4 (br n f hop).2
      | _ => trivial
    refine ⟨hst.inv i1, hst.links i1 k1 hok, kp.trans (hst.keeps i1), ?_, ?_⟩
    · intro s n hop
      obtain ⟨hn, hfr⟩ := fr s n hop
      refine ⟨Nat.lt_of_lt_of_le hn hst.grow.1, ?_⟩
      intro a ha ta hca
      have hpar := hst.parent hn
      cases hst.childFrom i1.wf ha hca with
      | old hlt hl1 hc1 =>
        rw [(hst.ident i1.wf i1.ownerNone hlt).1] at ta
        have h0 := hfr a hl1 ta hc1
        rw [hpar]
        cases l with
        | unlink q d =>
          simp only
          split
          · rename_i he
            subst he
            have hq : (h1.get n).parent = some q := hok
            rw [h0] at hq
            cases hq
            rw [hst.children hlt] at hca
            simp only [if_true] at hca
            exact absurd rfl ((List.Nodup.mem_erase_iff (k1.nodup a hl1)).mp hca).1
          · exact h0
        | link q d pos =>
          simp only
          split
          · rename_i he; subst he; exact absurd hc1 (hok a hl1)
          · exact h0
        | orphan x =>
          simp only
          split
          · rename_i he
            subst he
            have := i1.allowed a hl1 n hc1
            rw [show (h1.get n).ntype = .attribute from hok, isChildAllowed_attribute] at this
            cases this
          · exact h0
        | _ => exact h0
      | linked _ _ _ _ => rw [hpar]; simp
      | attrText hc _ _ _ => rw [hc] at hn; exact absurd hn (Nat.lt_irrefl _)
      | copied _ _ hc _ _ _ =>
        have hnil := hok
        rw [show _ = [] from hnil] at hc; cases hc
    · intro n f hop
      obtain ⟨hn, hb⟩ := br n f hop
      refine ⟨Nat.lt_of_lt_of_le hn hst.grow.1, ?_⟩
      have hch := hst.children hn
      rw [hb] at hch
      rw [hch]
      cases l with
      | unlink q d => simp
      | clear a => simp
      | link q d pos =>
        rcases hl with hl | ⟨hl, _⟩
        · rw [hop] at hl; cases hl
        · rw [hop] at hl; cases hl
      | _ => rfl
  exact main.2.1

theorem _root_.XmlDom.Spec.ReachableBy.links {h : Heap} (hr : ReachableBy TidyCall h) : Links h :=
  (ReachableBy.inv Links.empty (fun _ _ _ i k hg hs ha => tidy_links i k hg hs ha) hr).2

/-! ## Cycles -/

section Cycles
open Relation
variable {α : Type} {R R' : α → α → Prop}

theorem transGen_add {p c : α} (hsub : ∀ x y, R' x y → R x y ∨ (x = p ∧ y = c)) {x y : α}
    (hp : TransGen R' x y) : TransGen R x y ∨ (ReflTransGen R x p ∧ ReflTransGen R c y) := by
  induction hp with
  | single h1 =>
    rcases hsub _ _ h1 with h2 | ⟨rfl, rfl⟩
    · exact Or.inl (.single h2)
    · exact Or.inr ⟨.refl, .refl⟩
  | tail _ h1 ih =>
    rcases hsub _ _ h1 with h2 | ⟨rfl, rfl⟩
    · rcases ih with h3 | ⟨h3, h4⟩
      · exact Or.inl (h3.tail h2)
      · exact Or.inr ⟨h3, h4.tail h2⟩
    · rcases ih with h3 | ⟨h3, _⟩
      · exact Or.inr ⟨h3.to_reflTransGen, .refl⟩
      · exact Or.inr ⟨h3, .refl⟩

/-- An edge back to where its target cannot come from closes no cycle. -/
theorem acyclic_add {p c : α} (hR : ∀ x, ¬ TransGen R x x)
    (hsub : ∀ x y, R' x y → R x y ∨ (x = p ∧ y = c)) (hcp : ¬ ReflTransGen R c p) (x : α) :
    ¬ TransGen R' x x := by
  intro hx
  rcases transGen_add hsub hx with h1 | ⟨h1, h2⟩
  · exact hR x h1
  · exact hcp (h2.trans h1)

/-- Paths from elsewhere do not use the edges of a node that no edge leads to. -/
theorem transGen_source {s : α} (hsub : ∀ x y, R' x y → R x y ∨ x = s) (hin : ∀ x, ¬ R' x s)
    {x y : α} (hx : x ≠ s) (hp : TransGen R' x y) : TransGen R x y := by
  have key : TransGen R x y ∧ y ≠ s := by
    induction hp with
    | single h1 =>
      refine ⟨?_, fun he => hin _ (he ▸ h1)⟩
      rcases hsub _ _ h1 with h2 | h2
      · exact .single h2
      · exact absurd h2 hx
    | tail _ h1 ih =>
      refine ⟨?_, fun he => hin _ (he ▸ h1)⟩
      rcases hsub _ _ h1 with h2 | h2
      · exact ih.1.tail h2
      · exact absurd h2 ih.2
  exact key.1

theorem acyclic_source {s : α} (hR : ∀ x, ¬ TransGen R x x)
    (hsub : ∀ x y, R' x y → R x y ∨ x = s) (hin : ∀ x, ¬ R' x s) (x : α) : ¬ TransGen R' x x := by
  intro hx
  by_cases he : x = s
  · subst he
    cases hx with
    | single h1 => exact hin _ h1
    | tail _ h1 => exact hin _ h1
  · exact hR x (transGen_source hsub hin he hx)

end Cycles

/-- A node without children reaches only itself. -/
theorem reach_leaf {h : Heap} {c x : NodeId} (hc : h.live c = true → (h.get c).children = [])
    (hr : Relation.ReflTransGen (Child h) c x) : x = c := by
  rcases Relation.ReflTransGen.cases_head hr with h1 | ⟨y, h1, _⟩
  · exact h1.symm
  · have h2 := hc h1.1
    have := h1.2
    unfold childNodes at this
    rw [h2] at this; cases this

/-- A step keeps the child relation acyclic, unless it links a node under one of its
descendants. -/
theorem Step.acyclic {l : Label} {h h' : Heap} (hs : Step l h h') (w : WF h) (ac : Acyclic h)
    (hok : ∀ p c pos, l = .link p c pos → ¬ Relation.ReflTransGen (Child h) c p) :
    Acyclic h' := by
  have cf : ∀ {p c}, Child h' p c → ChildFrom h h' p c l :=
    fun hc => hs.childFrom w hc.1 hc.2
  have lt : ∀ {p c}, Child h p c → c < h.next := fun hc => w.fresh _ (w.child hc.1 hc.2)
  cases l with
  | link p c pos =>
    refine acyclic_add (p := p) (c := c) ac ?_ (hok p c pos rfl)
    intro x y hxy
    cases cf hxy with
    | old _ hl hc => exact Or.inl ⟨hl, hc⟩
    | linked _ _ _ _ => exact Or.inr ⟨rfl, rfl⟩
  | allocAttr d nm v =>
    refine acyclic_add (p := h.next + 1) (c := h.next) ac ?_ ?_
    · intro x y hxy
      cases cf hxy with
      | old _ hl hc => exact Or.inl ⟨hl, hc⟩
      | attrText hc hp _ _ => exact Or.inr ⟨hp, hc⟩
    · intro hr
      have := reach_leaf (fun hl => absurd (w.fresh _ hl) (Nat.lt_irrefl _)) hr
      exact Nat.succ_ne_self _ this
  | clone m cs =>
    refine acyclic_source (s := h.next) ac ?_ ?_
    · intro x y hxy
      cases cf hxy with
      | old _ hl hc => exact Or.inl ⟨hl, hc⟩
      | copied hp _ _ _ _ _ => exact Or.inr hp
    · intro x hxy
      cases cf hxy with
      | old _ hl hc => exact Nat.lt_irrefl _ (lt ⟨hl, hc⟩)
      | copied _ _ _ hlc _ _ => exact Nat.lt_irrefl _ (w.fresh _ hlc)
  | _ =>
    intro x hx
    refine ac x (Relation.TransGen.mono ?_ x x hx)
    intro x y hxy
    cases cf hxy with
    | old _ hl hc => exact ⟨hl, hc⟩

/-- A step that links nothing connects no old nodes. -/
theorem Step.descendant {l : Label} {h h' : Heap} (hs : Step l h h') (w : WF h)
    (hok : ∀ p c pos, l ≠ .link p c pos) {x y : NodeId} (hx : x < h.next)
    (hd : Descendant h' x y) : Descendant h x y := by
  have key : Descendant h x y ∧ y < h.next := by
    have cf : ∀ {p c}, p < h.next → Child h' p c → Child h p c ∧ c < h.next := by
      intro p c hp hc
      have hc' : Child h p c := by
        cases hs.childFrom w hc.1 hc.2 with
        | old _ hl hc => exact ⟨hl, hc⟩
        | linked => exact absurd rfl (hok _ _ _)
        | attrText _ hp' _ _ =>
          rw [hp'] at hp; exact absurd hp (Nat.not_lt_of_le (Nat.le_succ _))
        | copied hp' _ _ _ _ _ => rw [hp'] at hp; exact absurd hp (Nat.lt_irrefl _)
      exact ⟨hc', w.fresh _ (w.child hc'.1 hc'.2)⟩
    induction hd with
    | single h1 => exact ⟨.single (cf hx h1).1, (cf hx h1).2⟩
    | tail _ h1 ih => exact ⟨ih.1.tail (cf ih.2 h1).1, (cf ih.2 h1).2⟩
  exact key.1

theorem acyclic_call {op : Op} {h h' : Heap} (i : Inv h) (ac : Acyclic h)
    (hg : NoAncestorInserted h op) (hs : Steps (StepsOf op) h h')
    (hargs : ∀ a ∈ op.args, h.live a = true) : Acyclic h' := by
  let Free (h1 : Heap) : Prop := ∀ s n, op.inserts = some (s, n) → n < h1.next ∧
    ¬ Descendant h1 n s
  have free0 : Free h := by
    intro s n hop
    cases op <;> simp only [Op.inserts, reduceCtorEq, Option.some.injEq, Prod.mk.injEq] at hop
    all_goals
      obtain ⟨rfl, rfl⟩ := hop
      exact ⟨i.wf.fresh _ (hargs _ (by simp [Op.args])), hg⟩
  have main : WF h' ∧ Acyclic h' ∧ Free h' := by
    refine Steps.inv (fun h1 => WF h1 ∧ Acyclic h1 ∧ Free h1) ?_ hs ⟨i.wf, ac, free0⟩
    rintro h1 l h2 ⟨w1, a1, fr⟩ hl hst
    refine ⟨hst.wf w1, hst.acyclic w1 a1 ?_, ?_⟩
    · rintro p c pos rfl hr
      have hne : p ≠ c := by cases hst with | link _ _ hne => exact hne
      rcases hl with hl | ⟨_, hl, _⟩
      · rcases Relation.reflTransGen_iff_eq_or_transGen.mp hr with h3 | h3
        · exact hne h3
        · exact (fr p c hl).2 h3
      · exact hne (reach_leaf (fun _ => hl) hr)
    · intro s n hop
      obtain ⟨hn, hd⟩ := fr s n hop
      refine ⟨Nat.lt_of_lt_of_le hn hst.grow.1, ?_⟩
      intro hd'
      by_cases hlink : ∃ p c pos, l = .link p c pos
      · obtain ⟨p, c, pos, rfl⟩ := hlink
        have hne : p ≠ c := by cases hst with | link _ _ hne => exact hne
        have hpc : s = p ∧ n = c := by
          rcases hl with hl | ⟨hl, _⟩
          · rw [hop] at hl
            simp only [Option.some.injEq, Prod.mk.injEq] at hl
            exact hl
          · cases op <;> simp [Op.inserts, Op.plain] at hop hl
        obtain ⟨rfl, rfl⟩ := hpc
        have hsub : ∀ x y, Child h2 x y → Child h1 x y ∨ (x = s ∧ y = n) := by
          intro x y hxy
          cases hst.childFrom w1 hxy.1 hxy.2 with
          | old _ hl hc => exact Or.inl ⟨hl, hc⟩
          | linked _ _ _ _ => exact Or.inr ⟨rfl, rfl⟩
        rcases transGen_add hsub hd' with h3 | ⟨h3, _⟩
        · exact hd h3
        · rcases Relation.reflTransGen_iff_eq_or_transGen.mp h3 with h4 | h4
          · exact hne h4
          · exact hd h4
      · exact hd (hst.descendant w1 (fun p c pos he => hlink ⟨p, c, pos, he⟩) hn hd')
  exact main.2.1

theorem Acyclic.empty : Acyclic Heap.empty := by
  intro n hn
  cases hn with
  | single h1 => simp [Child, Heap.empty] at h1
  | tail _ h1 => simp [Child, Heap.empty] at h1

theorem _root_.XmlDom.Spec.ReachableBy.acyclic {h : Heap} (hr : ReachableBy NoAncestorInserted h) : Acyclic h :=
  (ReachableBy.inv Acyclic.empty (fun _ _ _ i k hg hs ha => acyclic_call i k hg hs ha) hr).2

/-! ## Children of documents -/

/-- The children of a document are owned by it. -/
def DocOwns (h : Heap) : Prop := ∀ p c, h.live p = true → (h.get p).ntype = .document →
  c ∈ (h.get p).children → (h.get c).owner = some p

theorem docOwns_call {op : Op} {h h' : Heap} (i : Inv h) (k : DocOwns h)
    (hg : NoDocumentClone h op) (hs : Steps (StepsOf op) h h')
    (hargs : ∀ a ∈ op.args, h.live a = true) : DocOwns h' := by
  have main : Inv h' ∧ Keeps h h' ∧ DocOwns h' := by
    refine Steps.inv (fun h1 => Inv h1 ∧ Keeps h h1 ∧ DocOwns h1) ?_ hs ⟨i, .refl _, k⟩
    rintro h1 l h2 ⟨i1, kp, k1⟩ hl hst
    refine ⟨hst.inv i1, kp.trans (hst.keeps i1), ?_⟩
    intro p c hp ht hc
    have id : ∀ {n}, h1.live n = true → _ :=
      fun {n} hn => hst.ident i1.wf i1.ownerNone (i1.wf.fresh n hn)
    cases hst.childFrom i1.wf hp hc with
    | old _ hl1 hc1 =>
      rw [(id hl1).1] at ht
      rw [(id (i1.wf.child hl1 hc1)).2.2]
      exact k1 p c hl1 ht hc1
    | linked hpl hcl hallow hsame =>
      rw [(id hpl).1] at ht
      rw [(id hcl).2.2, ← link_owner i1.ownerNone (i1.wf.fresh c hcl) hallow hsame]
      unfold ownerFor; rw [if_pos ht]
    | attrText _ _ _ hgp => rw [hgp] at ht; cases ht
    | @copied m cs hp0 hm hc1 hlc hcs hg0 =>
      rw [hg0] at ht
      obtain ⟨n, deep, f, hop, h3, h4⟩ := hl
      rcases h4 with h4 | ⟨q, hq, h4⟩
      · subst h4
        rcases h3 with ⟨_, h3⟩ | ⟨h3, _⟩
        · rw [h3] at hc1; cases hc1
        · subst h3; subst hop
          have := kp.ntype m (i.wf.fresh m (hargs m (by simp [Op.args])))
          rw [show (h1.get m).ntype = .document from ht] at this
          exact absurd this.symm hg
      · have := i1.allowed q hq m h4
        exact absurd ht (isChildAllowed_owned this).1
  exact main.2.2

theorem _root_.XmlDom.Spec.ReachableBy.docOwns {h : Heap} (hr : ReachableBy NoDocumentClone h) : DocOwns h :=
  (ReachableBy.inv (I := DocOwns) (by intro p _ hp; simp [Heap.empty] at hp)
    (fun _ _ _ i k hg hs ha => docOwns_call i k hg hs ha) hr).2

theorem Inv.isElement {h : Heap} (i : Inv h) {e : NodeId} (he : e < h.next)
    {attrs : List (Name × NodeId)} {nss : List (Option Str × Str)}
    (hx : (h.get e).ext = .element attrs nss) : (h.get e).ntype = .element := by
  have := i.exts e he
  rw [hx] at this
  unfold ExtFor at this
  split at this <;> simp at this
  assumption

theorem Inv.isDocument {h : Heap} (i : Inv h) {e : NodeId} (he : e < h.next)
    {x : DocExt} (hx : (h.get e).ext = .document x) : (h.get e).ntype = .document := by
  have := i.exts e he
  rw [hx] at this
  unfold ExtFor at this
  split at this <;> simp at this
  assumption

theorem attributes_eq {h : Heap} (i : Inv h) {e : NodeId} (he : h.live e = true)
    {attrs : List (Name × NodeId)} {nss : List (Option Str × Str)}
    (hx : (h.get e).ext = .element attrs nss) : attributes h e = attrs := by
  unfold attributes
  rw [if_pos (i.isElement (i.wf.fresh e he) hx), hx]

/-! ## Ids belong to the document -/

/-- The elements in the id map of a document are owned by it. -/
def IdsOwned (h : Heap) : Prop := ∀ d x id e, h.live d = true → (h.get d).ext = .document x →
  (id, e) ∈ x.idMap → (h.get e).owner = some d

theorem idsOwned_call {op : Op} {h h' : Heap} (i : Inv h) (k : IdsOwned h)
    (hg : NoDocumentCopy h op) (hs : Steps (StepsOf op) h h')
    (hargs : ∀ a ∈ op.args, h.live a = true) : IdsOwned h' := by
  have main : Inv h' ∧ Keeps h h' ∧ IdsOwned h' := by
    refine Steps.inv (fun h1 => Inv h1 ∧ Keeps h h1 ∧ IdsOwned h1) ?_ hs ⟨i, .refl _, k⟩
    rintro h1 l h2 ⟨i1, kp, k1⟩ hl hst
    have i2 := hst.inv i1
    refine ⟨i2, kp.trans (hst.keeps i1), ?_⟩
    intro d x id e hd hx hm
    have idn : ∀ {n}, n < h1.next → _ := fun {n} hn => hst.ident (n := n) i1.wf i1.ownerNone hn
    rcases hst.newNode (i2.wf.fresh d hd) with hn | hn
    · have hd1 := hst.grow.2 d hn hd
      have old : ∀ {y : DocExt}, (h1.get d).ext = .document y → (id, e) ∈ y.idMap →
          (h2.get e).owner = some d := by
        intro y hy hm
        have : e < h1.next := i1.wf.weak d hd1 e
          (mem_weakRefs.mpr (Or.inr (Or.inr (Or.inr ⟨y, id, hy, hm⟩))))
        rw [(idn this).2.2]
        exact k1 d y id e hd1 hy hm
      have hc := hst.ext hn
      rw [hx] at hc
      generalize hy : Ext.document x = y at hc
      cases hc with
      | keep => exact old hy.symm hm
      | attrOwner => cases hy
      | attrPut => cases hy
      | nsPut => cases hy
      | attrDel => cases hy
      | decl hext => cases hy; exact old hext hm
      | idPut hext hnew he het how =>
        cases hy
        rcases mem_mapInsert.mp hm with h3 | ⟨h3, _⟩
        · cases h3
          rw [(idn (i1.wf.fresh _ he)).2.2]; exact how
        · exact old hext h3
    · cases hn with
      | fresh hf hn hgx =>
        have h3 := hf.ext
        have h4 := i2.exts d (i2.wf.fresh d hd)
        rw [hgx] at hx h4
        rw [hx] at h3 h4
        unfold FreshExt at h3
        split at h3 <;> simp at h3
        obtain ⟨dt, ⟨o, h5⟩, _⟩ := h3
        rw [h5] at hm; cases hm
      | attrText _ _ hgx => rw [hgx] at hx; cases hx
      | attr _ _ _ hgx _ => rw [hgx] at hx; cases hx
      | @copy m cs hm1 hlive hcs hn hgx =>
        rw [hgx] at hx
        have ht : (h1.get m).ntype = .document := i1.isDocument (i1.wf.fresh m hm1) hx
        obtain ⟨n, deep, f, hop, _, h4⟩ := hl
        rcases h4 with h4 | ⟨q, hq, h4⟩
        · subst h4; subst hop
          have := kp.ntype m (i.wf.fresh m (hargs m (by simp [Op.args])))
          rw [ht] at this
          exact absurd this.symm hg
        · exact absurd ht (isChildAllowed_owned (i1.allowed q hq m h4)).1
  exact main.2.2

theorem _root_.XmlDom.Spec.ReachableBy.idsOwned {h : Heap} (hr : ReachableBy NoDocumentCopy h) : IdsOwned h :=
  (ReachableBy.inv (I := IdsOwned) (by intro d _ _ _ hd; simp [Heap.empty] at hd)
    (fun _ _ _ i k hg hs ha => idsOwned_call i k hg hs ha) hr).2

/-! ## Attributes belong to one element -/

/-- The owner element of an attribute is the element that holds it. -/
def AttrsOwned (h : Heap) : Prop := ∀ e attrs nss k a, h.live e = true →
  (h.get e).ext = .element attrs nss → (k, a) ∈ attrs → (h.get a).ext = .attribute (some e)

theorem attrsOwned_call {op : Op} {h h' : Heap} (i : Inv h) (k : AttrsOwned h)
    (hg : NoSharedAttribute h op) (hs : Steps (StepsOf op) h h')
    (hargs : ∀ a ∈ op.args, h.live a = true) : AttrsOwned h' := by
  -- the attribute to set is in the map of no other element
  let Own (h1 : Heap) : Prop := ∀ n a, op = .setAttributeNode n a →
    ∀ e attrs nss k, h1.live e = true → (h1.get e).ext = .element attrs nss → (k, a) ∈ attrs → e = n
  -- the node to clone has no attributes
  let Bare (h1 : Heap) : Prop := ∀ n deep f, op = .cloneNode n deep f →
    n < h1.next ∧ (∀ attrs nss, (h1.get n).ext = .element attrs nss → attrs = []) ∧
      (deep = true → (h1.get n).children = [])
  have own0 : Own h := by
    rintro n a rfl e attrs nss k he hx hm
    exact hg e he ⟨k, by rw [attributes_eq i he hx]; exact hm⟩
  have bare0 : Bare h := by
    rintro n deep f rfl
    have hn := hargs n (by simp [Op.args])
    refine ⟨i.wf.fresh n hn, ?_, hg.2⟩
    intro attrs nss hx
    have := hg.1
    rw [attributes_eq i hn hx] at this
    exact this
  have main : Inv h' ∧ AttrsOwned h' ∧ Own h' ∧ Bare h' := by
    refine Steps.inv (fun h1 => Inv h1 ∧ AttrsOwned h1 ∧ Own h1 ∧ Bare h1) ?_ hs
      ⟨i, k, own0, bare0⟩
    rintro h1 l h2 ⟨i1, k1, ow, br⟩ hl hst
    have i2 := hst.inv i1
    -- where an entry comes from
    have entry : ∀ e attrs nss k a, h2.live e = true → (h2.get e).ext = .element attrs nss →
        (k, a) ∈ attrs → h1.live e = true ∧ a < h1.next ∧
          ((∃ attrs1 nss1, (h1.get e).ext = .element attrs1 nss1 ∧ (k, a) ∈ attrs1) ∨
            (l = .attrPut e a ∧ (h1.get a).ext = .attribute (some e))) := by
      intro e attrs nss k a he hx hm
      rcases hst.newNode (i2.wf.fresh e he) with hn | hn
      · have he1 := hst.grow.2 e hn he
        have old : ∀ {at1 : List (Name × NodeId)} {ns1 : List (Option Str × Str)},
            (h1.get e).ext = .element at1 ns1 → (k, a) ∈ at1 → h1.live e = true ∧ a < h1.next ∧
          ((∃ attrs1 nss1, (h1.get e).ext = .element attrs1 nss1 ∧ (k, a) ∈ attrs1) ∨
            (l = .attrPut e a ∧ (h1.get a).ext = .attribute (some e))) := by
          intro at1 ns1 hy hm
          refine ⟨he1, ?_, Or.inl ⟨at1, ns1, hy, hm⟩⟩
          exact i1.wf.fresh a (i1.wf.strong e he1 a
            (mem_strongRefs.mpr (Or.inr (Or.inl ⟨at1, ns1, k, hy, hm⟩))))
        have hc := hst.ext hn
        rw [hx] at hc
        generalize hy : Ext.element attrs nss = y at hc
        cases hc with
        | keep => exact old hy.symm hm
        | attrOwner => cases hy
        | idPut => cases hy
        | decl => cases hy
        | nsPut hext => cases hy; exact old hext hm
        | attrDel hext => cases hy; exact old hext (mem_mapRemove.mp hm).1
        | attrPut hext hat ha hown =>
          cases hy
          rcases mem_mapInsert.mp hm with h3 | ⟨h3, _⟩
          · cases h3; exact ⟨he1, i1.wf.fresh _ ha, Or.inr ⟨rfl, hown⟩⟩
          · exact old hext h3
      · exfalso
        cases hn with
        | fresh hf hn hgx =>
          have h3 := hf.ext
          rw [hgx] at hx
          rw [hx] at h3
          unfold FreshExt at h3
          split at h3 <;> simp at h3
          rw [h3.1] at hm; cases hm
        | attrText _ _ hgx => rw [hgx] at hx; cases hx
        | attr _ _ _ hgx _ => rw [hgx] at hx; cases hx
        | @copy m cs hm1 hlive hcs hn hgx =>
          rw [hgx] at hx
          obtain ⟨n, deep, f, hop, h3, _⟩ := hl
          obtain ⟨_, b1, b2⟩ := br n deep f hop
          rcases h3 with ⟨h3, _⟩ | ⟨h3, h4⟩
          · subst h3; rw [b1 attrs nss hx] at hm; cases hm
          · exact h4 (b2 h3)
    refine ⟨i2, ?_, ?_, ?_⟩
    · intro e attrs nss k a he hx hm
      obtain ⟨he1, ha, h3⟩ := entry e attrs nss k a he hx hm
      have hown : (h1.get a).ext = .attribute (some e) := by
        rcases h3 with ⟨at1, ns1, h3, h4⟩ | ⟨_, h3⟩
        · exact k1 e at1 ns1 k a he1 h3 h4
        · exact h3
      have hc := hst.ext ha
      generalize hy : (h2.get a).ext = y at hc
      cases hc with
      | keep => exact hown
      | attrPut hext => rw [hown] at hext; cases hext
      | nsPut hext => rw [hown] at hext; cases hext
      | attrDel hext => rw [hown] at hext; cases hext
      | idPut hext => rw [hown] at hext; cases hext
      | decl hext => rw [hown] at hext; cases hext
      | @attrOwner e2 w hw he2 _ =>
        rcases hl with hl | hl
        · rw [hown] at hl; cases hl
        · rcases h3 with ⟨at1, ns1, h3, h4⟩ | ⟨h3, _⟩
          · rw [ow e2 a hl e at1 ns1 k he1 h3 h4]
          · cases h3
    · intro n a hop e attrs nss k he hx hm
      obtain ⟨he1, ha, h3⟩ := entry e attrs nss k a he hx hm
      rcases h3 with ⟨at1, ns1, h3, h4⟩ | ⟨h3, h4⟩
      · exact ow n a hop e at1 ns1 k he1 h3 h4
      · subst h3
        rcases hl with hl | ⟨b, hl⟩
        · rw [hop] at hl; cases hl
        · rw [hop] at hl; cases hl; rfl
    · intro n deep f hop
      obtain ⟨hn, b1, b2⟩ := br n deep f hop
      refine ⟨Nat.lt_of_lt_of_le hn hst.grow.1, ?_, ?_⟩
      · intro attrs nss hx
        have hc := hst.ext hn
        rw [hx] at hc
        generalize hy : Ext.element attrs nss = y at hc
        cases hc with
        | keep => exact b1 _ _ hy.symm
        | attrOwner => cases hy
        | idPut => cases hy
        | decl => cases hy
        | nsPut hext => cases hy; exact b1 _ _ hext
        | attrDel hext => cases hy; rw [b1 _ _ hext]; rfl
        | attrPut hext hat ha hown =>
          subst hop
          rcases hl with hl | ⟨b, hl⟩ <;> cases hl
      · intro hd
        have hb := b2 hd
        have hch := hst.children hn
        subst hop
        cases l with
        | link p c pos =>
          rcases hl with hl | hl
          · cases hl
          · cases hl.1
        | unlink p c =>
          rw [hch, hb]; simp
        | clear a => rw [hch, hb]; simp
        | _ => rw [hch, hb]
  exact main.2.1

theorem _root_.XmlDom.Spec.ReachableBy.attrsOwned {h : Heap} (hr : ReachableBy NoSharedAttribute h) :
    AttrsOwned h :=
  (ReachableBy.inv (I := AttrsOwned) (by intro d _ _ _ _ hd; simp [Heap.empty] at hd)
    (fun _ _ _ i k hg hs ha => attrsOwned_call i k hg hs ha) hr).2

end XmlDom
