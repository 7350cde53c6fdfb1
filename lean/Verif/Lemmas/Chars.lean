import Verif.Spec.Chars
import Verif.Model.Text

/-! # Characters as numbers, and the model's predicates as ranges -/

namespace XmlDom

theorem char_eq_iff (c d : Char) : c = d ↔ c.toNat = d.toNat := by
  constructor
  · rintro rfl; rfl
  · intro h
    exact Char.ext (UInt32.toNat_inj.mp h)

theorem char_le_iff (c d : Char) : c ≤ d ↔ c.toNat ≤ d.toNat := Iff.rfl

theorem char_lt_bound (c : Char) : c.toNat < 0x110000 := by
  have := c.valid
  rcases this with h | ⟨_, h⟩
  · exact Nat.lt_trans h (by decide)
  · exact h

theorem utf8Size_eq_one_iff (c : Char) : c.utf8Size = 1 ↔ c.toNat < 128 := by
  rw [Char.utf8Size_eq_one_iff, UInt32.le_iff_toNat_le]
  exact ⟨Nat.lt_succ_of_le, Nat.le_of_lt_succ⟩

theorem inRanges_cons (a b : Nat) (t : List (Nat × Nat)) (c : Char) :
    Spec.InRanges ((a, b) :: t) c ↔ (a ≤ c.toNat ∧ c.toNat ≤ b) ∨ Spec.InRanges t c := by
  simp [Spec.InRanges]

theorem inRanges_nil (c : Char) : Spec.InRanges [] c ↔ False := by
  simp [Spec.InRanges]

theorem isAsciiUpper_iff (c : Char) : isAsciiUpper c = true ↔ 0x41 ≤ c.toNat ∧ c.toNat ≤ 0x5A := by
  unfold isAsciiUpper
  rw [decide_eq_true_iff, char_le_iff, char_le_iff]
  exact Iff.rfl

theorem isAsciiLower_iff (c : Char) : isAsciiLower c = true ↔ 0x61 ≤ c.toNat ∧ c.toNat ≤ 0x7A := by
  unfold isAsciiLower
  rw [decide_eq_true_iff, char_le_iff, char_le_iff]
  exact Iff.rfl

theorem isAsciiDigit_iff (c : Char) : isAsciiDigit c = true ↔ 0x30 ≤ c.toNat ∧ c.toNat ≤ 0x39 := by
  unfold isAsciiDigit
  rw [decide_eq_true_iff, char_le_iff, char_le_iff]
  exact Iff.rfl

theorem eq_colon (c : Char) : c = ':' ↔ c.toNat = 0x3A := char_eq_iff _ _
theorem eq_under (c : Char) : c = '_' ↔ c.toNat = 0x5F := char_eq_iff _ _
theorem eq_dash (c : Char) : c = '-' ↔ c.toNat = 0x2D := char_eq_iff _ _
theorem eq_dot (c : Char) : c = '.' ↔ c.toNat = 0x2E := char_eq_iff _ _
theorem eq_b7 (c : Char) : c = '·' ↔ c.toNat = 0xB7 := char_eq_iff _ _
theorem eq_tab (c : Char) : c = '\u0009' ↔ c.toNat = 0x9 := char_eq_iff _ _
theorem eq_lf (c : Char) : c = '\u000A' ↔ c.toNat = 0xA := char_eq_iff _ _
theorem eq_cr (c : Char) : c = '\u000D' ↔ c.toNat = 0xD := char_eq_iff _ _
theorem eq_sp (c : Char) : c = ' ' ↔ c.toNat = 0x20 := char_eq_iff _ _
theorem sp_le (c : Char) : ' ' ≤ c ↔ 0x20 ≤ c.toNat := char_le_iff _ _

theorem isXmlNameStartChar_iff (c : Char) :
    isXmlNameStartChar c = true ↔ Spec.NameStartChar c := by
  unfold isXmlNameStartChar Spec.NameStartChar Spec.nameStartRanges
  simp only [Bool.or_eq_true, decide_eq_true_iff, isAsciiUpper_iff, isAsciiLower_iff,
    eq_colon, eq_under, inRanges_cons, inRanges_nil, or_false]
  omega

theorem isXmlNameChar_iff (c : Char) : isXmlNameChar c = true ↔ Spec.NameChar c := by
  unfold isXmlNameChar Spec.NameChar Spec.nameExtraRanges
  simp only [Bool.or_eq_true, decide_eq_true_iff, isXmlNameStartChar_iff, isAsciiDigit_iff,
    eq_dash, eq_dot, eq_b7, inRanges_cons, inRanges_nil, or_false]
  generalize Spec.NameStartChar c = p
  by_cases p <;> simp_all <;> omega

theorem isXmlSpace_iff (c : Char) : isXmlSpace c = true ↔ Spec.Space c := by
  unfold isXmlSpace Spec.Space
  simp only [Bool.or_eq_true, decide_eq_true_iff, eq_tab, eq_lf, eq_cr, eq_sp, inRanges_cons,
    inRanges_nil, or_false]
  omega

theorem isXml10Char_iff (c : Char) :
    isXml10Char c = true ↔ Spec.Char10 c ∧ c.toNat ≤ 0x10FFF := by
  unfold isXml10Char Spec.Char10
  simp only [Bool.or_eq_true, decide_eq_true_iff, eq_tab, eq_lf, eq_cr, sp_le, inRanges_cons,
    inRanges_nil, or_false]
  omega

theorem isXml11Char_iff (c : Char) :
    isXml11Char c = true ↔ Spec.Char11 c ∧ c.toNat ≤ 0x10FFF := by
  unfold isXml11Char Spec.Char11
  simp only [Bool.or_eq_true, decide_eq_true_iff, inRanges_cons, inRanges_nil, or_false]
  omega

theorem isXml11RestrictedChar_iff (c : Char) :
    isXml11RestrictedChar c = true ↔ Spec.RestrictedChar c := by
  unfold isXml11RestrictedChar Spec.RestrictedChar
  simp only [Bool.or_eq_true, decide_eq_true_iff, inRanges_cons, inRanges_nil, or_false]
  omega

/-- `is_xml_name` in words: on an ASCII start it decides Name, on a wider start it panics
when the start is a NameStartChar. -/
theorem isXmlName_ascii {s : Str} (h : Spec.AsciiStart s) :
    isXmlName s = .ok true ∧ Spec.IsName s ∨ isXmlName s = .ok false ∧ ¬ Spec.IsName s := by
  obtain ⟨c, cs, rfl, hc⟩ := h
  have h1 : c.utf8Size = 1 := (utf8Size_eq_one_iff c).mpr hc
  have hsp : splitAtByte 1 (c :: cs) = some ([c], cs) := by
    simp [splitAtByte, h1]
  unfold isXmlName
  simp only [hsp]
  by_cases hst : isXmlNameStartChar c = true
  · simp only [hst, if_true]
    by_cases hall : cs.all isXmlNameChar = true
    · left
      refine ⟨by rw [hall], c, cs, rfl, (isXmlNameStartChar_iff c).mp hst, ?_⟩
      intro d hd
      exact (isXmlNameChar_iff d).mp (List.all_eq_true.mp hall d hd)
    · right
      refine ⟨by simp only [Bool.not_eq_true] at hall; rw [hall], ?_⟩
      rintro ⟨c', cs', he, _, h3⟩
      cases he
      exact hall (List.all_eq_true.mpr fun d hd => (isXmlNameChar_iff d).mpr (h3 d hd))
  · right
    refine ⟨by simp [hst], ?_⟩
    rintro ⟨c', cs', he, h2, _⟩
    cases he
    exact hst ((isXmlNameStartChar_iff _).mpr h2)

theorem isXmlName_wide {c : Char} {cs : Str} (h : ¬ c.toNat < 128) :
    isXmlName (c :: cs) = if isXmlNameStartChar c then .panic .slice else .ok false := by
  have h1 : c.utf8Size ≠ 1 := fun he => h ((utf8Size_eq_one_iff c).mp he)
  have h2 : 1 ≤ c.utf8Size := Char.utf8Size_pos c
  unfold isXmlName
  have : splitAtByte 1 (c :: cs) = none := by
    simp [splitAtByte]; omega
  simp [this]

theorem isXmlName_nil : isXmlName [] = .ok false := rfl

/-- What a positive answer of `is_xml_name` means. -/
theorem isXmlName_true {s : Str} (h : isXmlName s = .ok true) :
    Spec.IsName s ∧ Spec.AsciiStart s := by
  cases s with
  | nil => cases h
  | cons c cs =>
    by_cases hc : c.toNat < 128
    · have ha : Spec.AsciiStart (c :: cs) := ⟨c, cs, rfl, hc⟩
      rcases isXmlName_ascii ha with ⟨_, h2⟩ | ⟨h1, _⟩
      · exact ⟨h2, ha⟩
      · rw [h1] at h; cases h
    · rw [isXmlName_wide hc] at h
      split at h <;> cases h

theorem isXmlName_ok {s : Str} (h : Spec.IsName s) (ha : Spec.AsciiStart s) :
    isXmlName s = .ok true := by
  rcases isXmlName_ascii ha with ⟨h1, _⟩ | ⟨_, h2⟩
  · exact h1
  · exact absurd h h2

end XmlDom
