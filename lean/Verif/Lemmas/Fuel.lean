import Mathlib.Logic.Relation

/-!
# Acyclic relations on finitely many numbers have bounded paths
-/

namespace XmlDom

/-- A list in which each entry is related to the next. -/
def IsPath {α : Type} (R : α → α → Prop) : List α → Prop
  | [] => True
  | [_] => True
  | a :: b :: l => R a b ∧ IsPath R (b :: l)

theorem IsPath.tail {α : Type} {R : α → α → Prop} {a : α} {l : List α} (h : IsPath R (a :: l)) :
    IsPath R l := by
  cases l with
  | nil => trivial
  | cons b l => exact h.2

theorem IsPath.cons {α : Type} {R : α → α → Prop} {a b : α} {l : List α} (hab : R a b)
    (h : IsPath R (b :: l)) : IsPath R (a :: b :: l) := ⟨hab, h⟩

theorem IsPath.reach {α : Type} {R : α → α → Prop} {a : α} {l : List α} (h : IsPath R (a :: l)) :
    ∀ x ∈ l, Relation.TransGen R a x := by
  induction l generalizing a with
  | nil => intro x hx; cases hx
  | cons b l ih =>
    intro x hx
    rcases List.mem_cons.mp hx with rfl | hx
    · exact .single h.1
    · exact .head h.1 (ih h.2 x hx)

theorem IsPath.nodup {α : Type} {R : α → α → Prop} (ac : ∀ x, ¬ Relation.TransGen R x x)
    {l : List α} (h : IsPath R l) : l.Nodup := by
  induction l with
  | nil => simp
  | cons a l ih =>
    rw [List.nodup_cons]
    exact ⟨fun ha => ac a (h.reach a ha), ih h.tail⟩

/-- A path of an acyclic relation on the numbers below `N` has at most `N` entries. -/
theorem IsPath.length_le {R : Nat → Nat → Prop} (ac : ∀ x, ¬ Relation.TransGen R x x) {N : Nat}
    {l : List Nat} (h : IsPath R l) (hl : ∀ x ∈ l, x < N) : l.length ≤ N := by
  have := (h.nodup ac).length_le_of_subset (l₂ := List.range N)
    (fun x hx => List.mem_range.mpr (hl x hx))
  simpa using this

end XmlDom
