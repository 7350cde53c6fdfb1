import Verif.Lemmas.Fuel
import Verif.Lemmas.Guarded
import Verif.Spec.Walk

/-!
# Facts about unfolded sub-trees
-/

namespace XmlDom

open Spec

theorem _root_.XmlDom.Spec.Unfolds.functional {h : Heap} {l : List NodeId} {f g : Forest}
    (hf : Unfolds h l f) (hg : Unfolds h l g) : f = g := by
  induction hf generalizing g with
  | nil => cases hg; rfl
  | cons _ _ ih1 ih2 =>
    cases hg with
    | cons hk hr => rw [ih1 hk, ih2 hr]

/-- Everything in the forest is alive when the list is. -/
theorem _root_.XmlDom.Spec.Unfolds.live {h : Heap} (w : WF h) {l : List NodeId} {f : Forest}
    (hf : Unfolds h l f) (hl : ∀ n ∈ l, h.live n = true) : ∀ n ∈ f.preorder, h.live n = true := by
  induction hf with
  | nil => intro n hn; cases hn
  | @cons n l kids rest _ _ ih1 ih2 =>
    have hn := hl n (by simp)
    intro m hm
    rcases List.mem_cons.mp hm with rfl | hm
    · exact hn
    · rcases List.mem_append.mp hm with hm | hm
      · exact ih1 (fun c hc => w.child hn hc) m hm
      · exact ih2 (fun c hc => hl c (List.mem_cons_of_mem _ hc)) m hm

/-- Only the child lists matter. -/
theorem _root_.XmlDom.Spec.Unfolds.congr {h h' : Heap} {l : List NodeId} {f : Forest}
    (hf : Unfolds h l f) (hc : ∀ n ∈ f.preorder, childNodes h' n = childNodes h n) :
    Unfolds h' l f := by
  induction hf with
  | nil => exact .nil
  | @cons n l kids rest _ _ ih1 ih2 =>
    have h1 := hc n (by simp [Forest.preorder])
    refine .cons ?_ ?_
    · rw [h1]
      exact ih1 fun m hm => hc m (by simp [Forest.preorder, hm])
    · exact ih2 fun m hm => hc m (by simp [Forest.preorder, hm])

/-- A list whose nodes unfold one by one unfolds. -/
theorem unfolds_list {h : Heap} {k : Nat} (l : List NodeId)
    (hl : ∀ n ∈ l, ∃ f, Unfolds h (childNodes h n) f ∧ f.height ≤ k) :
    ∃ f, Unfolds h l f ∧ f.height ≤ k + 1 := by
  induction l with
  | nil => exact ⟨.nil, .nil, Nat.zero_le _⟩
  | cons n l ih =>
    obtain ⟨f, h1, h2⟩ := hl n (by simp)
    obtain ⟨g, h3, h4⟩ := ih fun m hm => hl m (List.mem_cons_of_mem _ hm)
    refine ⟨_, .cons h1 h3, ?_⟩
    simp only [Forest.height]
    exact Nat.max_le.mpr ⟨Nat.succ_le_succ h2, h4⟩

/-- Without cycles every sub-tree unfolds, with no more levels than there are nodes. -/
theorem unfolds_of_acyclic {h : Heap} (w : WF h) (ac : Acyclic h) {n : NodeId}
    (hn : h.live n = true) : ∃ f, Unfolds h [n] f ∧ f.height ≤ h.next + 1 := by
  have step : ∀ k n, h.live n = true →
      (∃ f, Unfolds h (childNodes h n) f ∧ f.height ≤ k) ∨
      ∃ l, IsPath (Child h) (n :: l) ∧ l.length = k + 1 ∧ ∀ x ∈ n :: l, x < h.next := by
    intro k
    induction k with
    | zero =>
      intro n hn
      cases hc : childNodes h n with
      | nil => exact Or.inl ⟨.nil, .nil, Nat.le_refl _⟩
      | cons c cs =>
        have hm : c ∈ childNodes h n := by rw [hc]; simp
        refine Or.inr ⟨[c], ⟨⟨hn, hm⟩, trivial⟩, rfl, ?_⟩
        intro x hx
        rcases List.mem_cons.mp hx with rfl | hx
        · exact w.fresh _ hn
        · cases List.mem_singleton.mp hx
          exact w.fresh _ (w.child hn hm)
    | succ k ih =>
      intro n hn
      by_cases hall : ∀ c ∈ childNodes h n, ∃ f, Unfolds h (childNodes h c) f ∧ f.height ≤ k
      · exact Or.inl (unfolds_list _ hall)
      · obtain ⟨c, hnc⟩ := Classical.not_forall.mp hall
        obtain ⟨hc, hno⟩ := Classical.not_imp.mp hnc
        rcases ih c (w.child hn hc) with h1 | ⟨l, h1, h2, h3⟩
        · exact absurd h1 hno
        · refine Or.inr ⟨c :: l, ⟨⟨hn, hc⟩, h1⟩, by simp [h2], ?_⟩
          intro x hx
          rcases List.mem_cons.mp hx with rfl | hx
          · exact w.fresh _ hn
          · exact h3 x hx
  rcases step h.next n hn with ⟨f, h1, h2⟩ | ⟨l, h1, h2, h3⟩
  · refine ⟨_, .cons h1 .nil, ?_⟩
    simp only [Forest.height]
    exact Nat.max_le.mpr ⟨Nat.succ_le_succ h2, Nat.zero_le _⟩
  · have := h1.length_le (fun x hx => ac x hx) h3
    rw [List.length_cons, h2] at this
    exact absurd (Nat.le_of_succ_le this) (Nat.not_succ_le_self _)

/-- Unfolding a list that is put together. -/
theorem unfolds_append {h : Heap} {l l' : List NodeId} {f : Forest} (hf : Unfolds h (l ++ l') f) :
    ∃ a b, Unfolds h l a ∧ Unfolds h l' b ∧ f.preorder = a.preorder ++ b.preorder ∧
      f.elements h = a.elements h ++ b.elements h ∧ f.height = max a.height b.height := by
  induction l generalizing f with
  | nil => exact ⟨.nil, f, .nil, hf, rfl, rfl, by simp [Forest.height]⟩
  | cons n l ih =>
    cases hf with
    | @cons _ _ kids rest hk hr =>
      obtain ⟨a, b, h1, h2, h3, h4, h5⟩ := ih hr
      refine ⟨.cons n kids a, b, .cons hk h1, h2, ?_, ?_, ?_⟩
      · simp [Forest.preorder, h3]
      · simp only [Forest.elements, h4]
        split <;> simp
      · simp only [Forest.height, h5, Nat.max_assoc]

theorem elements_elem {h : Heap} {n : NodeId} {kids rest : Forest}
    (ht : (h.get n).ntype = .element) : (Forest.cons n kids rest).elements h =
      n :: (kids.elements h ++ rest.elements h) := if_pos ht

theorem elements_other {h : Heap} {n : NodeId} {kids rest : Forest}
    (ht : (h.get n).ntype ≠ .element) : (Forest.cons n kids rest).elements h = rest.elements h :=
  if_neg ht

/-- Collecting from a list of nodes. -/
theorem collectList_unfolds (m : Name → Bool) {h : Heap} {l : List NodeId} {f : Forest}
    (hf : Unfolds h l f) (fuel : Nat) (hfuel : f.height ≤ fuel) :
    collect.collectList (collect m h fuel) h l =
      .ok ((f.elements h).filter fun n => m (h.get n).name) := by
  induction hf generalizing fuel with
  | nil => rfl
  | @cons n l kids rest hk hr ih1 ih2 =>
    simp only [Forest.height] at hfuel
    have h1 := Nat.le_trans (Nat.le_max_left _ _) hfuel
    have h2 := Nat.le_trans (Nat.le_max_right _ _) hfuel
    obtain ⟨k, rfl⟩ : ∃ k, fuel = k + 1 := ⟨fuel - 1, by omega⟩
    unfold collect.collectList
    by_cases ht : (h.get n).ntype = .element
    · have hc : collect m h (k + 1) n =
          .ok ((if m (h.get n).name then [n] else []) ++
            (kids.elements h).filter fun n => m (h.get n).name) := by
        unfold collect
        rw [if_pos ht]
        simp only
        have := ih1 k (Nat.le_of_succ_le_succ h1)
        unfold childNodes at this
        rw [this]
        rfl
      rw [if_pos ht, hc, Outcome.bind_ok, ih2 (k + 1) h2]
      rw [elements_elem ht, List.filter_cons, List.filter_append]
      simp only [Outcome.map, Outcome.bind_ok]
      split <;> simp
    · rw [if_neg ht, ih2 (k + 1) h2, elements_other ht]

/-- Collecting from an element. -/
theorem collect_unfolds (m : Name → Bool) {h : Heap} {n : NodeId} {f : Forest}
    (hf : Unfolds h [n] f) (fuel : Nat) (hfuel : f.height ≤ fuel) (hpos : 0 < fuel) :
    collect m h fuel n = .ok ((f.elements h).filter fun n => m (h.get n).name) := by
  by_cases ht : (h.get n).ntype = .element
  · have := collectList_unfolds m hf fuel hfuel
    unfold collect.collectList collect.collectList at this
    rw [if_pos ht] at this
    cases hc : collect m h fuel n with
    | ok a => rw [hc] at this; simpa [Outcome.bind, Outcome.map] using this
    | err _ => rw [hc] at this; simp [Outcome.bind] at this
    | panic _ => rw [hc] at this; simp [Outcome.bind] at this
    | diverge => rw [hc] at this; simp [Outcome.bind] at this
  · obtain ⟨k, rfl⟩ : ∃ k, fuel = k + 1 := ⟨fuel - 1, by omega⟩
    unfold collect
    rw [if_neg ht]
    cases hf with
    | cons _ hr =>
      cases hr
      rw [elements_other ht]
      rfl

/-- The elements of the forest are elements of the forest. -/
theorem elements_sub {h : Heap} {f : Forest} : ∀ n ∈ f.elements h, n ∈ f.preorder ∧
    (h.get n).ntype = .element := by
  induction f with
  | nil => intro n hn; cases hn
  | cons n kids rest ih1 ih2 =>
    intro m hm
    simp only [Forest.elements] at hm
    split at hm
    · rename_i ht
      rcases List.mem_cons.mp hm with rfl | hm
      · exact ⟨by simp [Forest.preorder], ht⟩
      · rcases List.mem_append.mp hm with hm | hm
        · exact ⟨by simp [Forest.preorder, (ih1 m hm).1], (ih1 m hm).2⟩
        · exact ⟨by simp [Forest.preorder, (ih2 m hm).1], (ih2 m hm).2⟩
    · exact ⟨by simp [Forest.preorder, (ih2 m hm).1], (ih2 m hm).2⟩

end XmlDom
