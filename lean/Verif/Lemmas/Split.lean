import Verif.Basic

/-! # `str::split` on one character -/

namespace XmlDom

theorem splitOn_ne_nil (sep : Char) (s : Str) : splitOn sep s ≠ [] := by
  cases s with
  | nil => simp [splitOn]
  | cons c cs =>
    unfold splitOn
    split
    · simp
    · split <;> simp

theorem splitOn_of_notMem {sep : Char} {s : Str} (h : sep ∉ s) : splitOn sep s = [s] := by
  induction s with
  | nil => rfl
  | cons c cs ih =>
    simp only [List.mem_cons, not_or] at h
    unfold splitOn
    rw [if_neg (fun he => h.1 he.symm), ih h.2]

theorem splitOn_append {sep : Char} {p r : Str} (h : sep ∉ p) :
    splitOn sep (p ++ sep :: r) = p :: splitOn sep r := by
  induction p with
  | nil => simp [splitOn]
  | cons c cs ih =>
    simp only [List.mem_cons, not_or] at h
    simp only [List.cons_append]
    rw [splitOn.eq_2, if_neg (fun he => h.1 he.symm), ih h.2]

/-- A string has no separator, or can be cut at its first separator. -/
theorem splitOn_cases (sep : Char) (s : Str) :
    sep ∉ s ∨ ∃ p r, s = p ++ sep :: r ∧ sep ∉ p := by
  induction s with
  | nil => left; simp
  | cons c cs ih =>
    by_cases hc : c = sep
    · right; exact ⟨[], cs, by simp [hc], by simp⟩
    · rcases ih with h | ⟨p, r, h1, h2⟩
      · left
        simp only [List.mem_cons, not_or]
        exact ⟨fun he => hc he.symm, h⟩
      · right
        refine ⟨c :: p, r, by simp [h1], ?_⟩
        simp only [List.mem_cons, not_or]
        exact ⟨fun he => hc he.symm, h2⟩

/-- The first cut is unique. -/
theorem first_sep_unique {sep : Char} {p p' r r' : Str} (h : p ++ sep :: r = p' ++ sep :: r')
    (hp : sep ∉ p) (hp' : sep ∉ p') : p = p' ∧ r = r' := by
  have h1 := splitOn_append (r := r) hp
  rw [h, splitOn_append hp'] at h1
  have hpp : p' = p := (List.cons.inj h1).1
  subst hpp
  exact ⟨rfl, by simpa using h⟩

theorem mem_splitOn_iff {sep : Char} {s : Str} (P : Char → Prop) :
    (∀ part ∈ splitOn sep s, ∀ c ∈ part, P c) ↔ ∀ c ∈ s, c = sep ∨ P c := by
  induction s with
  | nil => simp [splitOn]
  | cons c cs ih =>
    unfold splitOn
    split
    · rename_i h
      simp only [List.mem_cons, forall_eq_or_imp, h, true_or, true_and]
      rw [← ih]
      simp
    · rename_i h
      split
      · rename_i h2; exact absurd h2 (splitOn_ne_nil _ _)
      · rename_i p ps h2
        rw [h2] at ih
        simp only [List.mem_cons, forall_eq_or_imp, h, false_or] at ih ⊢
        rw [← ih]
        constructor
        · rintro ⟨⟨h3, h4⟩, h5⟩; exact ⟨h3, h4, h5⟩
        · rintro ⟨h3, h4, h5⟩; exact ⟨⟨h3, h4⟩, h5⟩

end XmlDom
