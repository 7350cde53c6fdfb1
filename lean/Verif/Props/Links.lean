import Verif.Lemmas.Guarded
import Verif.Lemmas.Witness
import Verif.Spec.Outcome

/-!
# C07: parent links never point at a stranger
-/

namespace XmlDom
namespace Props

open Spec

/-- A parent link leads to a node that has the child, except to attributes. -/
def Down (h : Heap) : Prop :=
  ∀ p c, h.live p = true → h.live c = true → (h.get p).ntype ≠ .attribute →
    (h.get c).parent = some p → c ∈ (h.get p).children

theorem step_down {l : Label} {h h' : Heap} (hs : Step l h h') (i : Inv h) (k : Down h)
    (hok : ∀ a, l = .clear a → (h.get a).ntype = .attribute) : Down h' := by
  have w := i.wf
  have w' := hs.wf w
  intro p c hp hc ht hpar
  have hcn : c < h.next := by
    rcases hs.newNode (w'.fresh c hc) with h1 | h1
    · exact h1
    · exfalso
      cases h1 with
      | fresh hx hn hg => rw [hg, hx.parent] at hpar; cases hpar
      | attrText hd hn hg => rw [hg] at hpar; cases hpar
      | attr hd hnm hn hg ht => rw [hg] at hpar; cases hpar
      | copy hm hlive hcs hn hg => rw [hg] at hpar; cases hpar
  have hcl := hs.grow.2 c hcn hc
  have hpar' := hs.parent hcn
  have hpn : p < h.next := by
    cases hs with
    | link hq hd hne =>
      rw [hpar] at hpar'
      simp only at hpar'
      split at hpar'
      · cases hpar'; exact w.fresh _ hq
      · exact w.weak c hcl p (mem_weakRefs.mpr (Or.inl hpar'.symm))
    | dealloc => exact w.weak c hcl p (mem_weakRefs.mpr (Or.inl hpar))
    | _ =>
      rw [hpar] at hpar'
      simp only at hpar'
      first
      | exact w.weak c hcl p (mem_weakRefs.mpr (Or.inl hpar'.symm))
      | (split at hpar'
         · cases hpar'
         · exact w.weak c hcl p (mem_weakRefs.mpr (Or.inl hpar'.symm)))
  have hpl := hs.grow.2 p hpn hp
  rw [(hs.ident w i.ownerNone hpn).1] at ht
  have hch := hs.children hpn
  rw [hpar] at hpar'
  have old : (h.get c).parent = some p → c ∈ (h.get p).children := k p c hpl hcl ht
  cases l with
  | unlink q d =>
    simp only at hpar' hch
    split at hpar'
    · cases hpar'
    · rename_i hne
      rw [hch]
      split
      · exact (List.mem_erase_of_ne hne).mpr (old hpar'.symm)
      · exact old hpar'.symm
  | link q d pos =>
    simp only at hpar' hch
    cases hs with
    | link hq hd hne hallow hdoc hsame hparent hpos =>
      rw [hch]
      split at hpar'
      · rename_i he
        cases hpar'
        rw [if_pos rfl, he]
        exact (mem_insertAt hpos).mpr (Or.inl rfl)
      · split
        · rename_i he
          subst he
          exact (mem_insertAt hpos).mpr (Or.inr (old hpar'.symm))
        · exact old hpar'.symm
  | orphan a =>
    simp only at hpar' hch
    rw [hch]
    split at hpar'
    · cases hpar'
    · exact old hpar'.symm
  | clear a =>
    simp only at hpar' hch
    rw [hch]
    split
    · rename_i he
      subst he
      exact absurd (hok p rfl) ht
    · exact old hpar'.symm
  | _ =>
    simp only at hpar' hch
    rw [hch]
    exact old hpar'.symm

theorem down_of {h : Heap} (hr : ReachableBy ValuesOfAttributes h) : Down h := by
  refine (ReachableBy.inv (I := Down) (fun p _ hp => by simp [Heap.empty] at hp) ?_ hr).2
  intro op h h' i k hg hs hargs
  have main : Inv h' ∧ Down h' ∧ Keeps h h' := by
    refine Steps.inv (fun h1 => Inv h1 ∧ Down h1 ∧ Keeps h h1) ?_ hs ⟨i, k, .refl _⟩
    rintro h1 l h2 ⟨i1, k1, kp⟩ hl hst
    refine ⟨hst.inv i1, step_down hst i1 k1 ?_, kp.trans (hst.keeps i1)⟩
    rintro a rfl
    rcases hl with ⟨v, hl⟩ | hl
    · subst hl
      have := hargs a (by simp [Op.args])
      rw [kp.ntype a (i.wf.fresh a this)]
      exact hg
    · subst hl
      have := hargs a (by simp [Op.args])
      rw [kp.ntype a (i.wf.fresh a this)]
      exact hg
  exact main.2.1

/-- C07 (partial: one direction, for parents that are not attributes): as long as values are set
and unset on attributes only, deep clones and attribute texts included, the parent of a node has
the node as a child. -/
theorem C07_down_partial (h : Heap) (hr : ReachableBy ValuesOfAttributes h) (p c : NodeId)
    (hp : h.live p = true) (hc : h.live c = true) (ht : nodeType h p ≠ .attribute)
    (hpar : parentNode h c = some p) : c ∈ childNodes h p :=
  down_of hr p c hp hc ht (parentNode_eq_some.mp hpar).2.1

/-- A child of a deep clone is put below another element. -/
def movedCopyOps : List Op := [mkDoc, .createElement 0 (c! "a"), .appendChild 1 2,
  .cloneNode 1 true 5, .appendChild 1 3]

example : ReachableBy ValuesOfAttributes (after movedCopyOps) ∧
    parentNode (after movedCopyOps) 3 = some 1 ∧ 3 ∈ childNodes (after movedCopyOps) 1 ∧
    3 ∈ childNodes (after movedCopyOps) 4 :=
  ⟨⟨movedCopyOps.map fun op => (plainEnv, op), by simp [plainEnv_ok],
    ⟨trivial, trivial, trivial, trivial, trivial, trivial⟩, rfl⟩, by decide⟩

end Props
end XmlDom
