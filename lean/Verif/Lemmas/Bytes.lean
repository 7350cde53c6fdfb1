import Verif.Model.CharData

/-! # Lemmas on byte lengths and byte splits -/

namespace XmlDom

@[simp] theorem byteLen_nil : byteLen [] = 0 := rfl
@[simp] theorem byteLen_cons (c : Char) (s : Str) : byteLen (c :: s) = c.utf8Size + byteLen s := rfl

@[simp] theorem byteLen_append (a b : Str) : byteLen (a ++ b) = byteLen a + byteLen b := by
  induction a with
  | nil => simp
  | cons c a ih => simp [ih]; omega

theorem byteLen_eq_zero {s : Str} : byteLen s = 0 ↔ s = [] := by
  cases s with
  | nil => simp
  | cons c s =>
    have := Char.utf8Size_pos c
    simp; omega

theorem byteLen_pos {s : Str} (h : s ≠ []) : 0 < byteLen s := by
  rcases Nat.eq_zero_or_pos (byteLen s) with h0 | h0
  · exact absurd (byteLen_eq_zero.mp h0) h
  · exact h0

theorem length_le_byteLen (s : Str) : s.length ≤ byteLen s := by
  induction s with
  | nil => simp
  | cons c s ih => have := Char.utf8Size_pos c; simp; omega

@[simp] theorem splitAtByte_zero (s : Str) : splitAtByte 0 s = some ([], s) := by
  cases s <;> rfl

theorem splitAtByte_append (p q : Str) : splitAtByte (byteLen p) (p ++ q) = some (p, q) := by
  induction p with
  | nil => simp
  | cons c p ih =>
    have hp := Char.utf8Size_pos c
    obtain ⟨n, hn⟩ : ∃ n, byteLen (c :: p) = n + 1 := ⟨byteLen (c :: p) - 1, by simp; omega⟩
    rw [hn]
    simp only [List.cons_append, splitAtByte]
    have h1 : c.utf8Size ≤ n + 1 := by rw [← hn]; simp
    have h2 : n + 1 - c.utf8Size = byteLen p := by rw [← hn]; simp
    rw [if_pos h1, h2, ih]

theorem splitAtByte_some {n : Nat} {s p q : Str} (h : splitAtByte n s = some (p, q)) :
    s = p ++ q ∧ byteLen p = n := by
  induction s generalizing n p q with
  | nil =>
    cases n with
    | zero => simp at h; obtain ⟨rfl, rfl⟩ := h; simp
    | succ n => simp [splitAtByte] at h
  | cons c s ih =>
    cases n with
    | zero => simp at h; obtain ⟨rfl, rfl⟩ := h; simp
    | succ n =>
      simp only [splitAtByte] at h
      split at h
      · rename_i hc
        split at h
        · rename_i a b hab
          simp at h
          obtain ⟨rfl, rfl⟩ := h
          obtain ⟨h1, h2⟩ := ih hab
          constructor
          · simp [h1]
          · simp [h2]; omega
        · simp at h
      · simp at h

/-- The two ways to cut a string at the same byte offset are the same cut. -/
theorem append_eq_of_byteLen {a b a' b' : Str} (h : a ++ b = a' ++ b')
    (hl : byteLen a = byteLen a') : a = a' ∧ b = b' := by
  have h1 := splitAtByte_append a b
  have h2 := splitAtByte_append a' b'
  rw [h, hl, h2] at h1
  simp at h1
  exact ⟨h1.1.symm, h1.2.symm⟩

theorem splitAtByte_none {n : Nat} {s : Str} :
    splitAtByte n s = none ↔ ∀ p q, s = p ++ q → byteLen p ≠ n := by
  constructor
  · rintro h p q rfl rfl
    rw [splitAtByte_append] at h
    cases h
  · intro h
    cases hs : splitAtByte n s with
    | none => rfl
    | some pq =>
      obtain ⟨p, q⟩ := pq
      obtain ⟨h1, h2⟩ := splitAtByte_some hs
      exact absurd h2 (h p q h1)

theorem sliceRange_append (a m b : Str) :
    sliceRange (a ++ m ++ b) (byteLen a) (byteLen a + byteLen m) = some (a, m, b) := by
  unfold sliceRange
  rw [if_pos (by omega), List.append_assoc, splitAtByte_append]
  simp only [Nat.add_sub_cancel_left]
  rw [splitAtByte_append]

theorem sliceRange_some {s : Str} {x y : Nat} {a m b : Str}
    (h : sliceRange s x y = some (a, m, b)) :
    s = a ++ m ++ b ∧ byteLen a = x ∧ byteLen a + byteLen m = y := by
  unfold sliceRange at h
  split at h
  · rename_i hxy
    split at h
    · cases h
    · rename_i p r hp
      split at h
      · cases h
      · rename_i m' q' hq
        obtain ⟨rfl, h2⟩ := splitAtByte_some hp
        obtain ⟨rfl, h4⟩ := splitAtByte_some hq
        simp only [Option.some.injEq, Prod.mk.injEq] at h
        obtain ⟨rfl, rfl, rfl⟩ := h
        exact ⟨by simp, h2, by omega⟩
  · cases h

theorem sliceRange_none {s : Str} {x y : Nat} (hxy : x ≤ y) :
    sliceRange s x y = none ↔
      (∀ p q, s = p ++ q → byteLen p ≠ x) ∨ (∀ p q, s = p ++ q → byteLen p ≠ y) := by
  constructor
  · intro h
    unfold sliceRange at h
    rw [if_pos hxy] at h
    split at h
    · left; rename_i hp; exact splitAtByte_none.mp hp
    · rename_i p r hp
      split at h
      · right
        rename_i hq
        obtain ⟨rfl, h2⟩ := splitAtByte_some hp
        rintro p' q' h3 h4
        apply splitAtByte_none.mp hq (p'.drop p.length) q'
        · have : p <+: p' ++ q' := ⟨r, h3⟩
          have hpp : p <+: p' := by
            rcases List.prefix_or_prefix_of_prefix this (List.prefix_append p' q') with h5 | h5
            · exact h5
            · obtain ⟨t, rfl⟩ := h5
              have : byteLen t = 0 := by simp at h2; omega
              rw [byteLen_eq_zero] at this
              subst this; simp
          obtain ⟨t, rfl⟩ := hpp
          simp at h3 ⊢
          exact h3
        · have : p <+: p' ++ q' := ⟨r, h3⟩
          have hpp : p <+: p' := by
            rcases List.prefix_or_prefix_of_prefix this (List.prefix_append p' q') with h5 | h5
            · exact h5
            · obtain ⟨t, rfl⟩ := h5
              have : byteLen t = 0 := by simp at h2; omega
              rw [byteLen_eq_zero] at this
              subst this; simp
          obtain ⟨t, rfl⟩ := hpp
          simp at h4 ⊢
          omega
      · cases h
  · intro h
    cases hs : sliceRange s x y with
    | none => rfl
    | some v =>
      obtain ⟨a, m, b⟩ := v
      obtain ⟨h1, h2, h3⟩ := sliceRange_some hs
      exfalso
      rcases h with h | h
      · exact h a (m ++ b) (by simp [h1]) h2
      · exact h (a ++ m) b (by simp [h1]) (by simp; omega)

/-- `byteLen` is the length of the UTF-8 encoding. -/
theorem byteLen_eq_utf8ByteSize (s : Str) : byteLen s = (String.ofList s).utf8ByteSize := by
  induction s with
  | nil => rfl
  | cons c s ih =>
    rw [byteLen_cons, ih, show c :: s = [c] ++ s from rfl, String.ofList_append]
    simp

end XmlDom
