import Verif.Lemmas.Walk
import Verif.Lemmas.Witness
import Verif.Props.Create
import Verif.Props.Footprint
import Verif.Props.Walk

/-!
# Deep clones: C55, C56
-/

namespace XmlDom
namespace Props

open Spec

/-! ## C55 -/

/-- Looking through a reference that was there before. -/
theorem upgrade_untouched {h h' : Heap} (u : Untouched h h') {w : Option NodeId}
    (hw : ∀ d, w = some d → d < h.next) : h'.upgrade w = h.upgrade w := by
  cases w with
  | none => rfl
  | some d => simp [Heap.upgrade, u.live d (hw d rfl)]

/-- Corresponding nodes agree in everything but parent and children. -/
inductive RawCopies (h h' : Heap) : Forest → Forest → Prop
  | nil : RawCopies h h' .nil .nil
  | cons {n m : NodeId} {kids kids' rest rest' : Forest} {cs : List NodeId}
      (hg : h'.get m = { h.get n with parent := none, children := cs })
      (hk : RawCopies h h' kids kids') (hr : RawCopies h h' rest rest') :
      RawCopies h h' (.cons n kids rest) (.cons m kids' rest')

/-- A copy stays a copy when only new nodes are added. -/
theorem RawCopies.later {h0 h h' : Heap} {f f' : Forest}
    (hc : RawCopies h0 h f f') (hl : ∀ m ∈ f'.preorder, m < h.next) (u : Untouched h h') :
    RawCopies h0 h' f f' := by
  induction hc with
  | nil => exact .nil
  | cons hg _ _ ih1 ih2 =>
    refine .cons ((u.get _ (hl _ (by simp [Forest.preorder]))).trans hg)
      (ih1 fun x hx => hl x (by simp [Forest.preorder, hx]))
      (ih2 fun x hx => hl x (by simp [Forest.preorder, hx]))

theorem RawCopies.copies {h h' : Heap} {f f' : Forest} (w : WF h) (hc : RawCopies h h' f f')
    (hl : ∀ n ∈ f.preorder, h.live n = true) (u : Untouched h h') : Copies h h' f f' := by
  induction hc with
  | nil => exact .nil
  | @cons n m _ _ _ _ cs hg _ _ ih1 ih2 =>
    have hn := hl n (by simp [Forest.preorder])
    refine .cons ?_ ?_ ?_ ?_ ?_ ?_ ?_
      (ih1 fun x hx => hl x (by simp [Forest.preorder, hx]))
      (ih2 fun x hx => hl x (by simp [Forest.preorder, hx]))
    · unfold nodeType; rw [hg]
    · unfold nodeName; rw [hg]
    · unfold nodeValue; rw [hg]
    · unfold ownerDocument; rw [hg]
      exact upgrade_untouched u fun d (hd : (h.get n).owner = some d) =>
        w.weak n hn d (by simp [weakRefs, hd])
    · unfold attributes; rw [hg]
    · unfold docType; rw [hg]
    · unfold parentNode; rw [hg]; split <;> rfl

/-- Cloning a list of nodes that unfolds, in a state with more nodes. -/
theorem cloneList_copies {h0 : Heap} {l : List NodeId} {f : Forest} (hf : Unfolds h0 l f) :
    ∀ (h : Heap) (fuel : Nat), Untouched h0 h → (∀ n ∈ f.preorder, n < h0.next) →
      f.height ≤ fuel →
    ∃ l' h' f', cloneList (fun h c => cloneNode fuel h c true) h l = (.ok l', h') ∧
      Untouched h h' ∧ Unfolds h' l' f' ∧ RawCopies h0 h' f f' ∧
      (∀ m ∈ f'.preorder, h.next ≤ m ∧ m < h'.next ∧ h'.live m = true) ∧ f'.preorder.Nodup ∧
      l'.length = l.length := by
  induction hf with
  | nil =>
    intro h fuel _ _ _
    exact ⟨[], h, .nil, rfl, .refl h, .nil, .nil, by simp [Forest.preorder], by
      simp [Forest.preorder], rfl⟩
  | @cons n l kids rest hk hr ih1 ih2 =>
    intro h fuel u hlt hfuel
    simp only [Forest.height] at hfuel
    have f1 := Nat.le_trans (Nat.le_max_left _ _) hfuel
    have f2 := Nat.le_trans (Nat.le_max_right _ _) hfuel
    obtain ⟨k, rfl⟩ : ∃ k, fuel = k + 1 := ⟨fuel - 1, by omega⟩
    have hn : n < h0.next := hlt n (by simp [Forest.preorder])
    have hget : h.get n = h0.get n := u.get n hn
    obtain ⟨cs, h1, fk, e1, u1, un1, rc1, rng1, nd1, _⟩ := ih1 h k u
      (fun m hm => hlt m (by simp [Forest.preorder, hm])) (Nat.le_of_succ_le_succ f1)
    have hclone : cloneNode (k + 1) h n true = (.ok h1.next,
        (h1.alloc { h0.get n with parent := none, children := cs }).2) := by
      unfold cloneNode
      simp only
      rw [if_pos trivial]
      unfold childNodes at e1
      rw [hget, e1]
      simp
    generalize hh2 : (h1.alloc { h0.get n with parent := none, children := cs }).2 = h2 at hclone
    have u2 : Untouched h1 h2 := by rw [← hh2]; exact untouched_alloc _ _
    have g2 : h2.get h1.next = { h0.get n with parent := none, children := cs } := by
      rw [← hh2]; simp
    have l2 : h2.live h1.next = true := by rw [← hh2]; simp
    have n2 : h2.next = h1.next + 1 := by rw [← hh2]; rfl
    obtain ⟨ls, h3, fr, e3, u3, un3, rc3, rng3, nd3, len3⟩ := ih2 h2 (k + 1)
      (u.trans (u1.trans u2)) (fun m hm => hlt m (by simp [Forest.preorder, hm])) f2
    have lt3 : h1.next < h2.next := by rw [n2]; exact Nat.lt_succ_self _
    refine ⟨h1.next :: ls, h3, .cons h1.next fk fr, ?_, u1.trans (u2.trans u3), ?_, ?_, ?_, ?_, ?_⟩
    · unfold cloneList
      rw [hclone]
      simp only
      rw [e3]
    · refine .cons ?_ un3
      have : childNodes h3 h1.next = cs := by
        unfold childNodes
        rw [u3.get _ lt3, g2]
      rw [this]
      refine un1.congr fun m hm => ?_
      unfold childNodes
      rw [(u2.trans u3).get m (rng1 m hm).2.1]
    · exact .cons ((u3.get _ lt3).trans g2)
        (rc1.later (fun m hm => (rng1 m hm).2.1) (u2.trans u3)) rc3
    · intro m hm
      simp only [Forest.preorder, List.mem_cons, List.mem_append] at hm
      rcases hm with rfl | hm | hm
      · exact ⟨u1.next, Nat.lt_of_lt_of_le lt3 u3.next, by rw [u3.live _ lt3]; exact l2⟩
      · obtain ⟨a, b, c⟩ := rng1 m hm
        exact ⟨a, Nat.lt_of_lt_of_le b (u2.trans u3).next, by
          rw [(u2.trans u3).live m b]; exact c⟩
      · obtain ⟨a, b, c⟩ := rng3 m hm
        exact ⟨Nat.le_trans (u1.trans u2).next a, b, c⟩
    · simp only [Forest.preorder, List.nodup_cons, List.nodup_append, List.mem_append, not_or]
      refine ⟨⟨?_, ?_⟩, nd1, nd3, ?_⟩
      · intro hm
        exact absurd (rng1 _ hm).2.1 (Nat.lt_irrefl _)
      · intro hm
        exact absurd (Nat.lt_of_lt_of_le lt3 (rng3 _ hm).1) (Nat.lt_irrefl _)
      · intro a ha b hb hab
        subst hab
        exact absurd (Nat.lt_of_lt_of_le (Nat.lt_of_lt_of_le (rng1 a ha).2.1 u2.next) (rng3 a hb).1)
          (Nat.lt_irrefl _)
    · simp [len3]

/-- C55: a deep clone of a node whose sub-tree is finite makes a copy of the whole sub-tree out
of new nodes, each used once, and changes no existing node. -/
theorem C55_copies (h : Heap) (hr : Reachable h) (n : NodeId) (hn : h.live n = true) (f : Forest)
    (hf : Unfolds h [n] f) (fuel : Nat) (hfuel : f.height ≤ fuel) :
    ∃ m h' f', cloneNode fuel h n true = (.ok m, h') ∧ Unfolds h' [m] f' ∧ Copies h h' f f' ∧
      (∀ x ∈ f'.preorder, h.live x = false ∧ h'.live x = true) ∧ f'.preorder.Nodup ∧
      (∀ x ∈ f'.preorder, x ∉ f.preorder) ∧ Untouched h h' := by
  have w := hr.wf
  have hl : ∀ x ∈ f.preorder, h.live x = true := hf.live w (by simpa using hn)
  obtain ⟨l', h', f', e1, u, un, rc, rng, nd, len⟩ := cloneList_copies hf h fuel (.refl h)
    (fun x hx => w.fresh x (hl x hx)) hfuel
  unfold cloneList cloneList at e1
  generalize hq : cloneNode fuel h n true = q at e1
  obtain ⟨o, h1⟩ := q
  cases o with
  | ok m =>
    simp only [Prod.mk.injEq, Outcome.ok.injEq] at e1
    obtain ⟨rfl, rfl⟩ := e1
    have hdead : ∀ x ∈ f'.preorder, h.live x = false := by
      intro x hx
      cases hlx : h.live x with
      | false => rfl
      | true => exact absurd (w.fresh x hlx) (Nat.not_lt_of_le (rng x hx).1)
    refine ⟨m, h1, f', rfl, un, rc.copies w hl u, ?_, nd, ?_, u⟩
    · exact fun x hx => ⟨hdead x hx, (rng x hx).2.2⟩
    · intro x hx hxf
      have := hdead x hx
      rw [hl x hxf] at this
      cases this
  | err _ => simp at e1
  | panic _ => simp at e1
  | diverge => simp at e1

/-- C55: in a state without cycles the deep clone of every live node is such a copy, with the
fuel that the model gives it. -/
theorem C55_terminates (h : Heap) (hr : Reachable h) (ha : Acyclic h) (n : NodeId)
    (hn : h.live n = true) :
    ∃ f m h' f', Unfolds h [n] f ∧ cloneNode (h.next + 1) h n true = (.ok m, h') ∧
      Unfolds h' [m] f' ∧ Copies h h' f f' ∧
      (∀ x ∈ f'.preorder, h.live x = false ∧ h'.live x = true) ∧ f'.preorder.Nodup ∧
      (∀ x ∈ f'.preorder, x ∉ f.preorder) ∧ Untouched h h' := by
  obtain ⟨f, hf, hh⟩ := unfolds_of_acyclic hr.wf ha hn
  obtain ⟨m, h', f', h1⟩ := C55_copies h hr n hn f hf _ hh
  exact ⟨f, m, h', f', hf, h1⟩

/-- The hypotheses can be met: a tree of three levels. -/
example : Reachable (after walkOps) ∧ (after walkOps).live 1 = true ∧
    (cloneNode 3 (after walkOps) 1 true).1 = .ok 10 ∧
    childNodes (cloneNode 3 (after walkOps) 1 true).2 10 = [8, 9] ∧
    childNodes (cloneNode 3 (after walkOps) 1 true).2 8 = [6, 7] :=
  ⟨reachable_after _, by decide⟩

/-! ## C56 -/

/-- C56: the nodes of a deep clone are linked to their parents, and no call that edits only
nodes and attributes of the clone changes a node or an attribute of the original. -/
def C56_full : Prop :=
  ∀ (h : Heap) (n m : NodeId) (f f' : Forest) (fuel : Nat) (h' : Heap), Reachable h →
    h.live n = true → Unfolds h [n] f → cloneNode fuel h n true = (.ok m, h') →
    Unfolds h' [m] f' →
    (∀ p ∈ f'.preorder, ∀ c ∈ childNodes h' p, parentNode h' c = some p) ∧
    ∀ (e : Env) (op : Op), e.Ok →
      (∀ x ∈ edited op, x ∈ f'.preorder ∨ ∃ p k, p ∈ f'.preorder ∧ (k, x) ∈ attributes h' p) →
      ∀ q ∈ f.preorder, (exec e op h').get q = h'.get q ∧
        ∀ k a, (k, a) ∈ attributes h' q → (exec e op h').get a = h'.get a

/-- C56 does not hold: the children of a clone have no parent. -/
theorem C56_full_false : ¬ C56_full := by
  intro hall
  have hl := (hall (after walkOps) 1 10 _
    (.cons 10 (.cons 8 (.cons 6 .nil (.cons 7 .nil .nil)) (.cons 9 .nil .nil)) .nil) 3
    (cloneNode 3 (after walkOps) 1 true).2
    (reachable_after _) (by decide) walk_unfolds (Prod.ext (by decide) rfl)
    (.cons (.cons (.cons .nil (.cons .nil .nil)) (.cons .nil .nil)) .nil)).1
  have := hl 10 (by decide) 8 (by decide)
  revert this
  decide

/-- C56: the second half fails as well: a clone shares its attribute nodes with the original,
so setting the value of an attribute of the clone sets it on the original. -/
theorem C56_attributes_shared :
    ∃ (h h' : Heap) (n m a : NodeId) (k : Name), Reachable h ∧ h.live n = true ∧
      cloneNode 1 h n true = (.ok m, h') ∧ (k, a) ∈ attributes h' m ∧
      getAttribute plainEnv h' n (c! "k") = .ok (some (c! "v")) ∧
      getAttribute plainEnv (exec plainEnv (.setValue a (c! "w")) h') n (c! "k") =
        .ok (some (c! "w")) :=
  ⟨after [mkDoc, .setAttribute 1 (c! "k") (c! "v")],
    (cloneNode 1 (after [mkDoc, .setAttribute 1 (c! "k") (c! "v")]) 1 true).2, 1, 4, 3,
    { namespaceUri := none, pfx := none, localName := c! "k" }, reachable_after _, by decide,
    Prod.ext (by decide) rfl, by decide, by decide, by decide⟩

/-- Everything made after some moment is connected by parents and children only to what was
made after it, as long as only such nodes are edited, and the rest does not change. -/
theorem run_above {k : Nat} : ∀ (ops : List (Env × Op)) (h : Heap), Reachable h →
    Closed (fun m => k ≤ m) h → k ≤ h.next → (∀ x ∈ ops, x.1.Ok) →
    (∀ x ∈ ops, ∀ n ∈ edited x.2, k ≤ n) → ∀ q, q < k →
    ((run ops h).get q = h.get q ∨ IdsOnly (h.get q) ((run ops h).get q)) ∧
      (run ops h).live q = h.live q := by
  intro ops
  induction ops with
  | nil => intro h _ _ _ _ _ q _; exact ⟨Or.inl rfl, rfl⟩
  | cons x ops ih =>
    intro h hr hcl hk hok hed q hq
    obtain ⟨e, op⟩ := x
    have he : e.Ok := hok (e, op) (by simp)
    have hr' : Reachable (exec e op h) := hr.run (ops := [(e, op)]) (by simpa using he)
    have one : (Closed (fun m => k ≤ m) (exec e op h) ∧ h.next ≤ (exec e op h).next) ∧
        ((exec e op h).get q = h.get q ∨ IdsOnly (h.get q) ((exec e op h).get q)) ∧
        (exec e op h).live q = h.live q := by
      unfold exec
      split
      · rename_i ha
        have ha' : ∀ n ∈ op.args, h.live n = true := fun n hn => List.all_eq_true.mp ha n hn
        have hed' : ∀ n ∈ edited op, k ≤ n := hed (e, op) (by simp)
        by_cases hd : ∃ n, op = .drop n
        · obtain ⟨n, rfl⟩ := hd
          have hn : k ≤ n := hed' n (by simp [edited, Op.args])
          show (Closed _ (dropNode h n) ∧ _ ≤ (dropNode h n).next) ∧
            ((dropNode h n).get q = _ ∨ IdsOnly _ ((dropNode h n).get q)) ∧
            (dropNode h n).live q = _
          unfold dropNode
          split
          · exact ⟨⟨hcl, Nat.le_refl _⟩, Or.inl rfl, rfl⟩
          · refine ⟨⟨hcl, Nat.le_refl _⟩, Or.inl rfl, ?_⟩
            show (if q = n then false else h.live q) = _
            rw [if_neg (Nat.ne_of_lt (Nat.lt_of_lt_of_le hq hn))]
        · have lt : ∀ n, n ∈ op.args → n < h.next := fun n hn => hr.wf.fresh n (ha' n hn)
          have hF : ∀ m, MayChange h op m → k ≤ m := by
            intro m hm
            have up : ∀ n, k ≤ n → n ∈ op.args → (h.get n).parent = some m → k ≤ m :=
              fun n h1 h2 h3 => (hcl n h1 (lt n h2)).1 m h3
            cases op with
            | insertBefore s n r =>
              rcases hm with rfl | rfl | hm
              · exact hed' _ (by simp [edited])
              · exact hed' _ (by simp [edited])
              · exact up n (hed' n (by simp [edited])) (by simp [Op.args]) hm
            | appendChild s n =>
              rcases hm with rfl | rfl | hm
              · exact hed' _ (by simp [edited, Op.args])
              · exact hed' _ (by simp [edited, Op.args])
              · exact up n (hed' n (by simp [edited, Op.args])) (by simp [Op.args]) hm
            | replaceChild s n o =>
              rcases hm with rfl | rfl | rfl | hm
              · exact hed' _ (by simp [edited, Op.args])
              · exact hed' _ (by simp [edited, Op.args])
              · exact hed' _ (by simp [edited, Op.args])
              · exact up n (hed' n (by simp [edited, Op.args])) (by simp [Op.args]) hm
            | removeChild s o =>
              rcases hm with rfl | rfl
              · exact hed' _ (by simp [edited, Op.args])
              · exact hed' _ (by simp [edited, Op.args])
            | normalize n =>
              have hn : k ≤ n := hed' n (by simp [edited, Op.args])
              have hnl := ha' n (by simp [Op.args])
              have kids : ∀ c ∈ childNodes h n, k ≤ c ∧ h.live c = true := fun c hc =>
                ⟨(hcl n hn (hr.wf.fresh n hnl)).2 c hc, hr.wf.child hnl hc⟩
              rcases hm with rfl | hm | ⟨c, p, hc, hp, hm⟩
              · exact hn
              · exact (kids m hm).1
              · obtain ⟨h1, h2⟩ := kids c hc
                have hpk := (hcl c h1 (hr.wf.fresh c h2)).1 p hp
                have hpn : p < h.next := hr.wf.weak c h2 p (mem_weakRefs.mpr (Or.inl hp))
                exact (hcl p hpk hpn).2 m hm
            | split n o =>
              rcases hm with rfl | hm
              · exact hed' _ (by simp [edited, Op.args])
              · exact up n (hed' n (by simp [edited, Op.args])) (by simp [Op.args]) hm
            | setAttributeNode n a =>
              rcases hm with rfl | rfl
              · exact hed' _ (by simp [edited, Op.args])
              · exact hed' _ (by simp [edited, Op.args])
            | removeAttributeNode n a =>
              rcases hm with rfl | rfl
              · exact hed' _ (by simp [edited, Op.args])
              · exact hed' _ (by simp [edited, Op.args])
            | _ =>
              first
              | exact hm.elim
              | (cases hm; exact hed' _ (by simp [edited, Op.args]))
          have o := apply_only (F := fun m => k ≤ m) (D := fun _ => True) he hr (op := op) ha'
            (fun n hn => hd ⟨n, hn⟩) hF (fun m hm => Nat.le_trans hk hm) (fun _ _ => trivial)
            (fun _ _ => trivial)
          refine ⟨⟨o.closed hcl, o.next⟩, ?_, o.live q (Nat.lt_of_lt_of_le hq hk)⟩
          rcases o.get q (Nat.lt_of_lt_of_le hq hk) (Nat.not_le_of_lt hq) with h1 | ⟨_, h1⟩
          · exact Or.inl h1
          · exact Or.inr h1
      · exact ⟨⟨hcl, Nat.le_refl _⟩, Or.inl rfl, rfl⟩
    obtain ⟨⟨h1, h2⟩, h3, h4⟩ := one
    obtain ⟨h5, h6⟩ := ih (exec e op h) hr' h1 (Nat.le_trans hk h2)
      (fun x hx => hok x (List.mem_cons_of_mem _ hx))
      (fun x hx => hed x (List.mem_cons_of_mem _ hx)) q hq
    refine ⟨?_, h6.trans h4⟩
    show (run ops (exec e op h)).get q = _ ∨ IdsOnly _ ((run ops (exec e op h)).get q)
    rcases h3 with h3 | h3 <;> rcases h5 with h5 | h5
    · exact Or.inl (h5.trans h3)
    · exact Or.inr (h3 ▸ h5)
    · exact Or.inr (h5 ▸ h3)
    · exact Or.inr (h3.trans h5)

/-- C56 (partial: nothing is said about edits of the attribute nodes that the clone shares with
the original, and not every node of a clone has its parent link): after a clone, every history
that edits only the clone and nodes made later leaves all older nodes as they were, except for
ids that are recorded in documents. -/
theorem C56_independent_partial (h : Heap) (hr : Reachable h) (n m : NodeId)
    (hn : h.live n = true) (deep : Bool) (fuel : Nat) (h' : Heap)
    (hc : cloneNode fuel h n deep = (.ok m, h')) (ops : List (Env × Op))
    (hok : ∀ x ∈ ops, x.1.Ok) (hed : ∀ x ∈ ops, ∀ a ∈ edited x.2, h.next ≤ a) :
    ∀ q, h.live q = true →
      ((run ops h').get q = h.get q ∨ IdsOnly (h.get q) ((run ops h').get q)) ∧
        (run ops h').live q = true := by
  intro q hq
  have hlt := hr.wf.fresh q hq
  have hr' : Reachable h' := by
    have : h' = exec plainEnv (.cloneNode n deep fuel) h := by
      unfold exec
      rw [if_pos (by simpa [Op.args] using hn)]
      show h' = leftBehind h (cloneNode fuel h n deep)
      rw [hc]
      rfl
    rw [this]
    exact hr.run (ops := [(plainEnv, .cloneNode n deep fuel)]) (by simpa using plainEnv_ok)
  have o := (only_cloneNode (F := fun m => h.next ≤ m) (D := fun _ => False) (k := h.next)
    (fun _ h1 => h1) deep fuel h n (Nat.le_refl _)).1
  rw [hc] at o
  have hcl : Closed (fun m => h.next ≤ m) h := fun m h1 h2 => absurd h2 (Nat.not_lt_of_le h1)
  obtain ⟨h1, h2⟩ := run_above ops h' hr' (o.closed hcl) o.next hok
    hed q hlt
  have hg : h'.get q = h.get q := by
    rcases o.get q hlt (Nat.not_le_of_lt hlt) with h3 | ⟨h3, _⟩
    · exact h3
    · exact h3.elim
  have hl : h'.live q = h.live q := o.live q hlt
  rw [hg] at h1
  exact ⟨h1, by rw [h2, hl]; exact hq⟩

/-- The hypotheses can be met: editing the clone of a tree. -/
example : (cloneNode 3 (after walkOps) 1 true).1 = .ok 10 ∧ (after walkOps).next = 6 ∧
    (∀ a ∈ edited (.removeChild 10 8), 6 ≤ a) := by decide

end Props
end XmlDom
