import Verif.Lemmas.Bytes

/-!
# C16-C20: the `CharacterData` calls as string algebra

`ov` is the build profile (overflow checks on or off). Offsets and counts are `usize`
values, so both are below `usizeLimit = 2^64`; the bound on the length of the data is a
fact about every Rust string. `byteLen` is the number of UTF-8 bytes
(`byteLen_eq_utf8ByteSize`).
-/

namespace XmlDom
namespace Props

/-! ## C16 substring_data -/

/-- C16: a range inside the data gives exactly that range. -/
theorem C16_substring_range (ov : Bool) (a m b : Str) (hm : m ≠ [])
    (hlen : byteLen (a ++ m ++ b) < usizeLimit) :
    substringData ov (some (a ++ m ++ b)) (byteLen a) (byteLen m) = .ok m := by
  have hp := byteLen_pos hm
  simp only [byteLen_append] at hlen
  unfold substringData addUsize
  rw [if_pos (by omega), Outcome.bind_ok, if_neg (by omega)]
  simp only [byteLen_append]
  rw [if_neg (by omega)]
  by_cases hb : b = []
  · subst hb
    rw [if_pos (by simp)]
    simp only [List.append_nil]
    rw [splitAtByte_append]
  · have := byteLen_pos hb
    rw [if_neg (by omega), sliceRange_append]

/-- C16: a range that reaches or passes the end gives everything from the offset. -/
theorem C16_substring_past_end (ov : Bool) (a t : Str) (count : Nat) (ht : t ≠ [])
    (hcount : byteLen t ≤ count) (hsum : byteLen a + count < usizeLimit) :
    substringData ov (some (a ++ t)) (byteLen a) count = .ok t := by
  have hp := byteLen_pos ht
  unfold substringData addUsize
  rw [if_pos (by omega), Outcome.bind_ok, if_neg (by omega)]
  simp only [byteLen_append]
  rw [if_neg (by omega), if_pos (by omega), splitAtByte_append]

/-- C16: a zero count gives the empty string, for every offset and even without data. -/
theorem C16_substring_zero (ov : Bool) (v : Option Str) (offset : Nat)
    (hoff : offset < usizeLimit) : substringData ov v offset 0 = .ok [] := by
  unfold substringData addUsize
  rw [if_pos (by omega)]
  simp

/-- C16: whatever a successful call returns is the requested range cut at the end of the
data, in both build profiles and for every pair of `usize` arguments. -/
theorem C16_substring_only (ov : Bool) (v : Option Str) (offset count : Nat) (s : Str)
    (hoff : offset < usizeLimit) (hcount : count < usizeLimit)
    (hok : substringData ov v offset count = .ok s) :
    (count = 0 ∧ s = []) ∨
      ∃ a b, v = some (a ++ s ++ b) ∧ byteLen a = offset ∧
        (byteLen s = count ∨ (b = [] ∧ byteLen s ≤ count)) := by
  unfold substringData addUsize at hok
  by_cases hsum : offset + count < usizeLimit
  · rw [if_pos hsum, Outcome.bind_ok] at hok
    split at hok
    · left
      simp at hok
      exact ⟨by omega, hok⟩
    · right
      split at hok
      · cases hok
      · rename_i data
        split at hok
        · cases hok
        · split at hok
          · split at hok
            · cases hok
            · rename_i p t hp
              simp only [Outcome.ok.injEq] at hok
              subst hok
              obtain ⟨rfl, h2⟩ := splitAtByte_some hp
              refine ⟨p, [], by simp, h2, Or.inr ⟨rfl, ?_⟩⟩
              simp at *
              omega
          · split at hok
            · cases hok
            · rename_i p m q hp
              simp only [Outcome.ok.injEq] at hok
              subst hok
              obtain ⟨rfl, h2, h3⟩ := sliceRange_some hp
              exact ⟨p, q, rfl, h2, Or.inl (by omega)⟩
  · rw [if_neg hsum] at hok
    cases ov with
    | true => simp at hok
    | false =>
      simp only [Bool.false_eq_true, if_false, Outcome.bind_ok] at hok
      have hlt : (offset + count) % usizeLimit < offset := by
        rw [Nat.mod_eq_sub_mod (by omega), Nat.mod_eq_of_lt (by omega)]
        omega
      rw [if_neg (by omega)] at hok
      split at hok
      · cases hok
      · rename_i data
        split at hok
        · cases hok
        · rename_i hlen
          rw [if_neg (by omega)] at hok
          unfold sliceRange at hok
          rw [if_neg (by omega)] at hok
          cases hok

example : substringData true (some (c! "héllo")) 1 3 = .ok (c! "él") :=
  C16_substring_range true (c! "h") (c! "él") (c! "lo") (by decide) (by decide)
example : substringData false (some (c! "héllo")) 3 99 = .ok (c! "llo") :=
  C16_substring_past_end false (c! "hé") (c! "llo") 99 (by decide) (by decide) (by decide)
example : substringData true none 7 0 = .ok [] := C16_substring_zero true none 7 (by decide)

/-! ## C17 replace_data -/

/-- C17: a range inside the data is replaced, the rest stays. -/
theorem C17_replace_range (ov : Bool) (a m b r : Str) (hmb : m ++ b ≠ [])
    (hlen : byteLen (a ++ m ++ b) < usizeLimit) :
    replaceData ov (some (a ++ m ++ b)) (byteLen a) (byteLen m) r = .ok (some (a ++ r ++ b)) := by
  have hp := byteLen_pos hmb
  simp only [byteLen_append] at hlen hp
  unfold replaceData addUsize
  simp only [byteLen_append]
  rw [if_neg (by omega), if_pos (by omega), Outcome.bind_ok]
  by_cases hb : b = []
  · subst hb
    rw [if_pos (by simp)]
    simp only [List.append_nil]
    rw [splitAtByte_append]
  · have := byteLen_pos hb
    rw [if_neg (by omega), sliceRange_append]

/-- C17: a range that reaches or passes the end replaces everything from the offset. -/
theorem C17_replace_past_end (ov : Bool) (a t r : Str) (count : Nat) (ht : t ≠ [])
    (hcount : byteLen t ≤ count) (hsum : byteLen a + count < usizeLimit) :
    replaceData ov (some (a ++ t)) (byteLen a) count r = .ok (some (a ++ r)) := by
  have hp := byteLen_pos ht
  unfold replaceData addUsize
  simp only [byteLen_append]
  rw [if_neg (by omega), if_pos (by omega), Outcome.bind_ok, if_pos (by omega), splitAtByte_append]

/-- C17: on a node without data only the empty range at 0 is accepted and sets the data. -/
theorem C17_replace_none (ov : Bool) (r : Str) :
    replaceData ov none 0 0 r = .ok (some r) := by
  simp [replaceData, addUsize, usizeLimit]

/-- C17: whatever a successful call leaves is the old data with exactly the requested
range, cut at the end of the data, replaced. On a node without data only the empty range
is accepted, except that in the release profile a range whose end wraps around to 0
passes as the empty one. -/
theorem C17_replace_only (ov : Bool) (v w : Option Str) (offset count : Nat) (r : Str)
    (hoff : offset < usizeLimit) (hcount : count < usizeLimit)
    (hok : replaceData ov v offset count r = .ok w) :
    (v = none ∧ w = some r ∧
        ((offset = 0 ∧ count = 0) ∨ (ov = false ∧ offset + count = usizeLimit))) ∨
      ∃ a m b, v = some (a ++ m ++ b) ∧ w = some (a ++ r ++ b) ∧ byteLen a = offset ∧
        m ++ b ≠ [] ∧ (byteLen m = count ∨ (b = [] ∧ byteLen m ≤ count)) := by
  unfold replaceData addUsize at hok
  by_cases hsum : offset + count < usizeLimit
  · simp only [if_pos hsum, Outcome.bind_ok] at hok
    split at hok
    · left
      split at hok
      · cases hok
      · simp at hok
        refine ⟨rfl, hok.symm, Or.inl ⟨by omega, by omega⟩⟩
    · right
      rename_i old
      split at hok
      · cases hok
      · rename_i hlen
        split at hok
        · split at hok
          · cases hok
          · rename_i p t hp
            simp only [Outcome.ok.injEq] at hok
            subst hok
            obtain ⟨rfl, h2⟩ := splitAtByte_some hp
            refine ⟨p, t, [], by simp, by simp, h2, ?_, Or.inr ⟨rfl, ?_⟩⟩
            · rintro h3
              simp at h3
              subst h3
              simp at hlen
              omega
            · simp at *
              omega
        · split at hok
          · cases hok
          · rename_i p m q hp
            simp only [Outcome.ok.injEq] at hok
            subst hok
            obtain ⟨rfl, h2, h3⟩ := sliceRange_some hp
            refine ⟨p, m, q, rfl, rfl, h2, ?_, Or.inl (by omega)⟩
            rintro h4
            simp at h4
            obtain ⟨rfl, rfl⟩ := h4
            simp at hlen
            omega
  · simp only [if_neg hsum] at hok
    cases ov with
    | true =>
      simp only [if_true, Outcome.bind_panic] at hok
      split at hok
      · cases hok
      · split at hok <;> cases hok
    | false =>
      simp only [Bool.false_eq_true, if_false, Outcome.bind_ok] at hok
      have hlt : (offset + count) % usizeLimit < offset := by
        rw [Nat.mod_eq_sub_mod (by omega), Nat.mod_eq_of_lt (by omega)]
        omega
      have hsumval : (offset + count) % usizeLimit = offset + count - usizeLimit := by
        rw [Nat.mod_eq_sub_mod (by omega), Nat.mod_eq_of_lt (by omega)]
      split at hok
      · left
        split at hok
        · cases hok
        · simp at hok
          refine ⟨rfl, hok.symm, Or.inr ⟨rfl, by omega⟩⟩
      · rename_i old
        split at hok
        · cases hok
        · rw [if_neg (by omega)] at hok
          unfold sliceRange at hok
          rw [if_neg (by omega)] at hok
          cases hok

example : replaceData true (some (c! "héllo")) 1 3 (c! "E") = .ok (some (c! "hElo")) :=
  C17_replace_range true (c! "h") (c! "él") (c! "lo") (c! "E") (by decide) (by decide)
example : replaceData true (some (c! "héllo")) 3 99 (c! "y") = .ok (some (c! "héy")) :=
  C17_replace_past_end true (c! "hé") (c! "llo") (c! "y") 99 (by decide) (by decide) (by decide)
/-- The wrap-around case of `C17_replace_only` happens. -/
example : replaceData false none (usizeLimit - 1) 1 (c! "x") = .ok (some (c! "x")) := by decide

/-! ## C18 insert_data, delete_data, append_data -/

/-- C18: inserting at a boundary before the end splices the text in. -/
theorem C18_insert (ov : Bool) (a b s : Str) (hb : b ≠ [])
    (hlen : byteLen (a ++ b) < usizeLimit) :
    insertData ov (some (a ++ b)) (byteLen a) s = .ok (some (a ++ s ++ b)) := by
  unfold insertData
  by_cases hs : s = []
  · subst hs; simp
  · rw [if_neg hs]
    have := C17_replace_range ov a [] b s (by simpa using hb) (by simpa using hlen)
    simpa using this

/-- C18: deleting a range takes it out. -/
theorem C18_delete (ov : Bool) (a m b : Str) (hmb : m ++ b ≠ [])
    (hlen : byteLen (a ++ m ++ b) < usizeLimit) :
    deleteData ov (some (a ++ m ++ b)) (byteLen a) (byteLen m) = .ok (some (a ++ b)) := by
  unfold deleteData addUsize
  have hlen' := hlen
  simp only [byteLen_append] at hlen
  rw [if_pos (by omega), Outcome.bind_ok]
  by_cases hm : m = []
  · subst hm; simp
  · have := byteLen_pos hm
    rw [if_neg (by omega)]
    have := C17_replace_range ov a m b [] hmb hlen'
    simpa using this

/-- C18: deleting past the end truncates. -/
theorem C18_delete_past_end (ov : Bool) (a t : Str) (count : Nat) (ht : t ≠ [])
    (hcount : byteLen t ≤ count) (hsum : byteLen a + count < usizeLimit) :
    deleteData ov (some (a ++ t)) (byteLen a) count = .ok (some a) := by
  have := byteLen_pos ht
  unfold deleteData addUsize
  rw [if_pos hsum, Outcome.bind_ok, if_neg (by omega)]
  have := C17_replace_past_end ov a t [] count ht hcount hsum
  simpa using this

/-- C18: append concatenates; a missing value counts as empty, and appending nothing
leaves it missing. -/
theorem C18_append (v : Option Str) (s : Str) :
    (∀ old, v = some old → appendData v s = some (old ++ s)) ∧
      (v = none → appendData v s = if s = [] then none else some s) := by
  constructor
  · rintro old rfl
    unfold appendData
    split <;> simp_all
  · rintro rfl
    unfold appendData
    split <;> simp_all

/-- C18: deleting what was inserted restores the data. -/
theorem C18_delete_insert (ov : Bool) (a b s : Str) (hb : b ≠ [])
    (hlen : byteLen (a ++ s ++ b) < usizeLimit) :
    (insertData ov (some (a ++ b)) (byteLen a) s).bind
      (fun v => deleteData ov v (byteLen a) (byteLen s)) = .ok (some (a ++ b)) := by
  have h1 : byteLen (a ++ b) < usizeLimit := by simp only [byteLen_append] at *; omega
  rw [C18_insert ov a b s hb h1, Outcome.bind_ok,
    C18_delete ov a s b (by simp [hb]) hlen]

/-- C18: reading back what was inserted. -/
theorem C18_substring_insert (ov : Bool) (a b s : Str) (hb : b ≠ []) (hs : s ≠ [])
    (hlen : byteLen (a ++ s ++ b) < usizeLimit) :
    (insertData ov (some (a ++ b)) (byteLen a) s).bind
      (fun v => substringData ov v (byteLen a) (byteLen s)) = .ok s := by
  have h1 : byteLen (a ++ b) < usizeLimit := by simp only [byteLen_append] at *; omega
  rw [C18_insert ov a b s hb h1, Outcome.bind_ok, C16_substring_range ov a s b hs hlen]

example : insertData true (some (c! "hé")) 1 (c! "ü") = .ok (some (c! "hüé")) :=
  C18_insert true (c! "h") (c! "é") (c! "ü") (by decide) (by decide)
example : deleteData true (some (c! "hüé")) 1 2 = .ok (some (c! "hé")) :=
  C18_delete true (c! "h") (c! "ü") (c! "é") (by decide) (by decide)

/-! ## C19 IndexSize -/

/-- C19, the documented rule: with data `d` the calls that take an offset return
`IndexSize` exactly when the offset is greater than the length of the data. -/
def C19_full : Prop :=
  ∀ (ov : Bool) (d : Str) (offset count : Nat) (r : Str),
    byteLen d < usizeLimit → offset + count < usizeLimit →
    (replaceData ov (some d) offset count r = .err .indexSize ↔ byteLen d < offset)

/-- C19 does not hold: an offset equal to the length is refused. -/
theorem C19_full_false : ¬ C19_full := by
  intro h
  have := (h true (c! "ab") 2 0 (c! "c") (by decide) (by decide)).mp (by decide)
  exact absurd this (by decide)

/-- C19 (partial: the threshold is the length itself, not one more): with data, each
call returns `IndexSize` exactly when the offset is at or past the end, except for the
calls that do nothing (nothing to insert, nothing to delete, zero count). Without data,
every non-empty range is refused. -/
theorem C19_index_size_partial (ov : Bool) (d r : Str) (offset count : Nat)
    (hsum : offset + count < usizeLimit) :
    (replaceData ov (some d) offset count r = .err .indexSize ↔ byteLen d ≤ offset) ∧
    (insertData ov (some d) offset r = .err .indexSize ↔ r ≠ [] ∧ byteLen d ≤ offset) ∧
    (deleteData ov (some d) offset count = .err .indexSize ↔ count ≠ 0 ∧ byteLen d ≤ offset) ∧
    (substringData ov (some d) offset count = .err .indexSize ↔ count ≠ 0 ∧ byteLen d ≤ offset) ∧
    (replaceData ov none offset count r = .err .indexSize ↔ offset ≠ 0 ∨ count ≠ 0) ∧
    (substringData ov none offset count = .err .indexSize ↔ count ≠ 0) := by
  have hrep : ∀ (count : Nat) (r : Str), offset + count < usizeLimit →
      (replaceData ov (some d) offset count r = .err .indexSize ↔ byteLen d ≤ offset) := by
    intro count r hsum
    unfold replaceData addUsize
    simp only [if_pos hsum, Outcome.bind_ok]
    split
    · simp_all
    · rename_i h
      simp only [h, iff_false]
      intro hc
      split at hc
      · split at hc <;> cases hc
      · split at hc <;> cases hc
  refine ⟨hrep count r hsum, ?_, ?_, ?_, ?_, ?_⟩
  · unfold insertData
    split
    · simp_all
    · rename_i hr
      rw [hrep 0 r (by omega)]
      simp [hr]
  · unfold deleteData addUsize
    simp only [if_pos hsum, Outcome.bind_ok]
    split
    · simp; omega
    · rw [hrep count [] hsum]
      constructor
      · intro h; exact ⟨by omega, h⟩
      · exact fun h => h.2
  · unfold substringData addUsize
    simp only [if_pos hsum, Outcome.bind_ok]
    split
    · simp; omega
    · split
      · simp_all
      · rename_i h1 h2
        constructor
        · intro hc
          split at hc
          · split at hc <;> cases hc
          · split at hc <;> cases hc
        · intro hc; omega
  · unfold replaceData addUsize
    simp only [if_pos hsum, Outcome.bind_ok]
    split
    · simp; omega
    · simp; omega
  · unfold substringData addUsize
    simp only [if_pos hsum, Outcome.bind_ok]
    split
    · simp; omega
    · simp; omega

example : insertData true (some (c! "ab")) 2 (c! "c") = .err .indexSize :=
  (C19_index_size_partial true (c! "ab") (c! "c") 2 0 (by decide)).2.1.mpr (by decide)

/-! ## C20 panics -/

/-- The offset is a position between two characters (or an end) of the string. -/
def Boundary (s : Str) (offset : Nat) : Prop := ∃ a b, s = a ++ b ∧ byteLen a = offset

/-- C20: exactly when `replace_data` panics on data `d` (no overflow of the sum): the
offset is inside the data and one of the two ends of the range, cut at the end of the
data, is not on a character boundary. -/
theorem C20_replace_panics_iff (ov : Bool) (d r : Str) (offset count : Nat)
    (hsum : offset + count < usizeLimit) :
    (replaceData ov (some d) offset count r).Panics ↔
      offset < byteLen d ∧
        (¬ Boundary d offset ∨ (offset + count < byteLen d ∧ ¬ Boundary d (offset + count))) := by
  unfold replaceData addUsize Boundary
  simp only [if_pos hsum, Outcome.bind_ok]
  split
  · simp; omega
  · rename_i hlt
    split
    · rename_i hle
      split
      · rename_i hs
        rw [splitAtByte_none] at hs
        simp only [Outcome.panics_panic, true_iff]
        refine ⟨by omega, Or.inl ?_⟩
        rintro ⟨a, b, h1, h2⟩
        exact hs a b h1 h2
      · rename_i p q hs
        obtain ⟨h1, h2⟩ := splitAtByte_some hs
        simp only [Outcome.not_panics_ok, false_iff]
        rintro ⟨_, h3 | h3⟩
        · exact h3 ⟨p, q, h1, h2⟩
        · omega
    · rename_i hle
      split
      · rename_i hs
        rw [sliceRange_none (by omega)] at hs
        simp only [Outcome.panics_panic, true_iff]
        refine ⟨by omega, ?_⟩
        rcases hs with hs | hs
        · left; rintro ⟨a, b, h1, h2⟩; exact hs a b h1 h2
        · right; refine ⟨by omega, ?_⟩; rintro ⟨a, b, h1, h2⟩; exact hs a b h1 h2
      · rename_i p m q hs
        obtain ⟨h1, h2, h3⟩ := sliceRange_some hs
        simp only [Outcome.not_panics_ok, false_iff]
        rintro ⟨_, h4 | ⟨_, h4⟩⟩
        · exact h4 ⟨p, m ++ q, by simp [h1], h2⟩
        · exact h4 ⟨p ++ m, q, h1, by simp; omega⟩

/-- C20: the same for `substring_data` with a non-zero count. -/
theorem C20_substring_panics_iff (ov : Bool) (d : Str) (offset count : Nat)
    (hsum : offset + count < usizeLimit) :
    (substringData ov (some d) offset count).Panics ↔
      count ≠ 0 ∧ offset < byteLen d ∧
        (¬ Boundary d offset ∨ (offset + count < byteLen d ∧ ¬ Boundary d (offset + count))) := by
  unfold substringData addUsize Boundary
  simp only [if_pos hsum, Outcome.bind_ok]
  split
  · simp; omega
  · split
    · simp; omega
    · rename_i hlt
      split
      · rename_i hle
        split
        · rename_i hs
          rw [splitAtByte_none] at hs
          simp only [Outcome.panics_panic, true_iff]
          refine ⟨by omega, by omega, Or.inl ?_⟩
          rintro ⟨a, b, h1, h2⟩
          exact hs a b h1 h2
        · rename_i p q hs
          obtain ⟨h1, h2⟩ := splitAtByte_some hs
          simp only [Outcome.not_panics_ok, false_iff]
          rintro ⟨_, _, h3 | h3⟩
          · exact h3 ⟨p, q, h1, h2⟩
          · omega
      · rename_i hle
        split
        · rename_i hs
          rw [sliceRange_none (by omega)] at hs
          simp only [Outcome.panics_panic, true_iff]
          refine ⟨by omega, by omega, ?_⟩
          rcases hs with hs | hs
          · left; rintro ⟨a, b, h1, h2⟩; exact hs a b h1 h2
          · right; refine ⟨by omega, ?_⟩; rintro ⟨a, b, h1, h2⟩; exact hs a b h1 h2
        · rename_i p m q hs
          obtain ⟨h1, h2, h3⟩ := sliceRange_some hs
          simp only [Outcome.not_panics_ok, false_iff]
          rintro ⟨_, _, h4 | ⟨_, h4⟩⟩
          · exact h4 ⟨p, m ++ q, by simp [h1], h2⟩
          · exact h4 ⟨p ++ m, q, h1, by simp; omega⟩

/-- C20: insert and delete inherit their panics from replace, a call that has nothing to
do never panics, and append has no way to panic. -/
theorem C20_insert_delete_panics_iff (ov : Bool) (d r : Str) (offset count : Nat)
    (hsum : offset + count < usizeLimit) :
    ((insertData ov (some d) offset r).Panics ↔
      r ≠ [] ∧ offset < byteLen d ∧ ¬ Boundary d offset) ∧
    ((deleteData ov (some d) offset count).Panics ↔
      count ≠ 0 ∧ offset < byteLen d ∧
        (¬ Boundary d offset ∨ (offset + count < byteLen d ∧ ¬ Boundary d (offset + count)))) := by
  constructor
  · unfold insertData
    split
    · simp_all
    · rename_i hr
      rw [C20_replace_panics_iff ov d r offset 0 (by omega)]
      simp [hr]
  · unfold deleteData addUsize
    simp only [if_pos hsum, Outcome.bind_ok]
    split
    · simp; omega
    · rw [C20_replace_panics_iff ov d [] offset count hsum]
      constructor
      · intro h; exact ⟨by omega, h⟩
      · exact fun h => h.2

/-- C20: without data nothing panics unless the sum overflows. -/
theorem C20_none_returns (ov : Bool) (r : Str) (offset count : Nat)
    (hsum : offset + count < usizeLimit) :
    (replaceData ov none offset count r).Returns ∧
      (insertData ov none offset r).Returns ∧
      (deleteData ov none offset count).Returns ∧
      (substringData ov none offset count).Returns := by
  have hrep : ∀ (c : Nat) (r : Str), offset + c < usizeLimit →
      (replaceData ov none offset c r).Returns := by
    intro c r hs
    unfold replaceData addUsize
    simp only [if_pos hs, Outcome.bind_ok]
    split <;> simp
  refine ⟨hrep _ _ hsum, ?_, ?_, ?_⟩
  · unfold insertData
    split
    · simp
    · exact hrep _ _ (by omega)
  · unfold deleteData addUsize
    simp only [if_pos hsum, Outcome.bind_ok]
    split
    · simp
    · exact hrep _ _ hsum
  · unfold substringData addUsize
    simp only [if_pos hsum, Outcome.bind_ok]
    split <;> simp

/-- C20: when `offset + count` overflows, `delete_data` and `substring_data` panic in the
debug profile whatever the data is; in the release profile they never succeed with an
offset inside the data, they panic there too. -/
theorem C20_overflow (d : Str) (offset count : Nat) (hoff : offset < usizeLimit)
    (hcount : count < usizeLimit) (hsum : usizeLimit ≤ offset + count) :
    (substringData true (some d) offset count).Panics ∧
    (deleteData true (some d) offset count).Panics ∧
    (offset < byteLen d → (substringData false (some d) offset count).Panics ∧
      (deleteData false (some d) offset count).Panics) := by
  have hlt : (offset + count) % usizeLimit < offset := by
    rw [Nat.mod_eq_sub_mod (by omega), Nat.mod_eq_of_lt (by omega)]
    omega
  refine ⟨?_, ?_, ?_⟩
  · unfold substringData addUsize
    rw [if_neg (by omega)]; simp
  · unfold deleteData addUsize
    rw [if_neg (by omega)]; simp
  · intro hd
    constructor
    · unfold substringData addUsize
      rw [if_neg (by omega)]
      simp only [Bool.false_eq_true, if_false, Outcome.bind_ok]
      rw [if_neg (by omega), if_neg (by omega), if_neg (by omega)]
      unfold sliceRange
      rw [if_neg (by omega)]
      simp
    · unfold deleteData replaceData addUsize
      rw [if_neg (by omega)]
      simp only [Bool.false_eq_true, if_false, Outcome.bind_ok]
      rw [if_neg (by omega), if_neg (by omega), if_neg (by omega)]
      unfold sliceRange
      rw [if_neg (by omega)]
      simp

/-- The panics of C20 happen: offset 2 is inside the two-byte `é`. -/
example : (replaceData true (some (c! "hé")) 2 0 (c! "x")).Panics := by decide
/-- A boundary that is not an end of the string. -/
example : Boundary (c! "hé") 1 := ⟨c! "h", c! "é", rfl, rfl⟩

end Props
end XmlDom
