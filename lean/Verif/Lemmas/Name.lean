import Verif.Lemmas.Chars
import Verif.Lemmas.Split
import Verif.Model.Name

/-!
# Facts about name parsing
-/

namespace XmlDom

/-! ## What `from_str` does, form by form -/

theorem IsName.ne_nil {s : Str} (h : Spec.IsName s) : s ≠ [] := by
  obtain ⟨c, cs, rfl, _⟩ := h; simp

theorem asciiStart_or_wideStart {s : Str} (h : Spec.IsName s) :
    Spec.AsciiStart s ∨ Spec.WideStart s := by
  obtain ⟨c, cs, rfl, h1, _⟩ := h
  by_cases hc : c.toNat < 128
  · left; exact ⟨c, cs, rfl, hc⟩
  · right; exact ⟨c, cs, rfl, h1, by omega⟩

theorem not_wideStart_of_ascii {s : Str} (h : Spec.AsciiStart s) : ¬ Spec.WideStart s := by
  obtain ⟨c, cs, rfl, hc⟩ := h
  rintro ⟨c', cs', he, _, h2⟩
  cases he
  omega

/-- The four outcomes of checking one part. -/
theorem checkPart_cases (s : Str) :
    (s = [] ∧ Name.checkPart s = .err .syntax) ∨
    (Spec.IsName s ∧ Spec.AsciiStart s ∧ Name.checkPart s = .ok s) ∨
    (Spec.WideStart s ∧ Name.checkPart s = .panic .slice) ∨
    (s ≠ [] ∧ ¬ Spec.IsName s ∧ ¬ Spec.WideStart s ∧
      Name.checkPart s = .err .invalidCharacter) := by
  unfold Name.checkPart
  cases s with
  | nil => left; exact ⟨rfl, rfl⟩
  | cons c cs =>
    right
    rw [if_neg (by simp)]
    by_cases hc : c.toNat < 128
    · have ha : Spec.AsciiStart (c :: cs) := ⟨c, cs, rfl, hc⟩
      rcases isXmlName_ascii ha with ⟨h1, h2⟩ | ⟨h1, h2⟩
      · left; exact ⟨h2, ha, by rw [h1]; rfl⟩
      · right; right
        exact ⟨by simp, h2, not_wideStart_of_ascii ha, by rw [h1]; rfl⟩
    · right
      rw [isXmlName_wide hc]
      by_cases hst : isXmlNameStartChar c = true
      · left
        exact ⟨⟨c, cs, rfl, (isXmlNameStartChar_iff c).mp hst, by omega⟩, by simp [hst]⟩
      · right
        have hns : ¬ Spec.NameStartChar c := fun h => hst ((isXmlNameStartChar_iff c).mpr h)
        refine ⟨by simp, ?_, ?_, by simp [hst]⟩
        · rintro ⟨c', cs', he, h1, _⟩; cases he; exact hns h1
        · rintro ⟨c', cs', he, h1, _⟩; cases he; exact hns h1

theorem nsSep_eq : Syn.nsSeparator = ':' := rfl

theorem fromStr_single {s : Str} (hs : s ≠ []) (h : ':' ∉ s) :
    Name.fromStr s = (Name.checkPart s).bind fun l => Name.new l none none := by
  unfold Name.fromStr
  rw [if_neg hs]
  rw [nsSep_eq, splitOn_of_notMem h]

theorem fromStr_pair {p l : Str} (hp : ':' ∉ p) (hl : ':' ∉ l) :
    Name.fromStr (p ++ ':' :: l) = (Name.checkPart l).bind fun l =>
      (Name.checkPart p).bind fun p => Name.new l (some p) none := by
  unfold Name.fromStr
  rw [if_neg (by simp)]
  rw [nsSep_eq, splitOn_append hp, splitOn_of_notMem hl]

theorem fromStr_many {p q r : Str} (hp : ':' ∉ p) (hq : ':' ∉ q) :
    Name.fromStr (p ++ ':' :: (q ++ ':' :: r)) = .err .syntax := by
  unfold Name.fromStr
  rw [if_neg (by simp)]
  rw [nsSep_eq, splitOn_append hp, splitOn_append hq]
  cases h : splitOn ':' r with
  | nil => exact absurd h (splitOn_ne_nil _ _)
  | cons a b => rfl

/-- Every string has one of four forms. -/
theorem name_forms (s : Str) :
    s = [] ∨ (s ≠ [] ∧ ':' ∉ s) ∨ (∃ p l, s = p ++ ':' :: l ∧ ':' ∉ p ∧ ':' ∉ l) ∨
      (∃ p q r, s = p ++ ':' :: (q ++ ':' :: r) ∧ ':' ∉ p ∧ ':' ∉ q) := by
  by_cases hs : s = []
  · left; exact hs
  · right
    rcases splitOn_cases ':' s with h | ⟨p, r, h1, h2⟩
    · left; exact ⟨hs, h⟩
    · right
      rcases splitOn_cases ':' r with h | ⟨q, r', h3, h4⟩
      · left; exact ⟨p, r, h1, h2, h⟩
      · right; exact ⟨p, q, r', by rw [h1, h3], h2, h4⟩

theorem not_colon_mem_of_ncName {s : Str} (h : Spec.IsNcName s) : ':' ∉ s := h.2

/-- A string with two colons is not a QName. -/
theorem not_qName_many {p q r : Str} (hp : ':' ∉ p) (_hq : ':' ∉ q) :
    ¬ Spec.IsQName (p ++ ':' :: (q ++ ':' :: r)) := by
  rintro (h | ⟨p', l, h, h1, h2⟩)
  · exact h.2 (by simp)
  · obtain ⟨_, h4⟩ := first_sep_unique h hp h1.2
    exact h2.2 (by rw [← h4]; simp)

theorem new_ok {l : Str} {p : Option Str} (hl : l ≠ []) (hp : p ≠ some []) :
    Name.new l p none = .ok ⟨none, p, l⟩ := by
  unfold Name.new
  rw [if_neg hl, if_neg hp, if_neg (by simp)]

/-- All that `from_str` can do, in one statement. -/
theorem fromStr_cases (s : Str) :
    (s = [] ∧ Name.fromStr s = .err .syntax) ∨
    (∃ p q r, s = p ++ ':' :: (q ++ ':' :: r) ∧ ':' ∉ p ∧ ':' ∉ q ∧
      Name.fromStr s = .err .syntax) ∨
    (s ≠ [] ∧ ':' ∉ s ∧
      ((Spec.IsName s ∧ Spec.AsciiStart s ∧ Name.fromStr s = .ok ⟨none, none, s⟩) ∨
       (Spec.WideStart s ∧ Name.fromStr s = .panic .slice) ∨
       (¬ Spec.IsName s ∧ ¬ Spec.WideStart s ∧ Name.fromStr s = .err .invalidCharacter))) ∨
    (∃ p l, s = p ++ ':' :: l ∧ ':' ∉ p ∧ ':' ∉ l ∧
      ((l = [] ∧ Name.fromStr s = .err .syntax) ∨
       (Spec.WideStart l ∧ Name.fromStr s = .panic .slice) ∨
       (l ≠ [] ∧ ¬ Spec.IsName l ∧ ¬ Spec.WideStart l ∧
          Name.fromStr s = .err .invalidCharacter) ∨
       (Spec.IsName l ∧ Spec.AsciiStart l ∧
         ((p = [] ∧ Name.fromStr s = .err .syntax) ∨
          (Spec.IsName p ∧ Spec.AsciiStart p ∧ Name.fromStr s = .ok ⟨none, some p, l⟩) ∨
          (Spec.WideStart p ∧ Name.fromStr s = .panic .slice) ∨
          (p ≠ [] ∧ ¬ Spec.IsName p ∧ ¬ Spec.WideStart p ∧
            Name.fromStr s = .err .invalidCharacter))))) := by
  rcases name_forms s with rfl | ⟨h1, h2⟩ | ⟨p, l, rfl, hp, hl⟩ | ⟨p, q, r, rfl, hp, hq⟩
  · left; exact ⟨rfl, rfl⟩
  · right; right; left
    refine ⟨h1, h2, ?_⟩
    rw [fromStr_single h1 h2]
    rcases checkPart_cases s with ⟨h, _⟩ | ⟨ha, hb, hc⟩ | ⟨ha, hb⟩ | ⟨_, hb, hc, hd⟩
    · exact absurd h h1
    · left; exact ⟨ha, hb, by rw [hc, Outcome.bind_ok, new_ok h1 (by simp)]⟩
    · right; left; exact ⟨ha, by rw [hb]; rfl⟩
    · right; right; exact ⟨hb, hc, by rw [hd]; rfl⟩
  · right; right; right
    refine ⟨p, l, rfl, hp, hl, ?_⟩
    rw [fromStr_pair hp hl]
    rcases checkPart_cases l with ⟨h, h'⟩ | ⟨ha, hb, hc⟩ | ⟨ha, hb⟩ | ⟨ha, hb, hc, hd⟩
    · left; exact ⟨h, by rw [h']; rfl⟩
    · right; right; right
      refine ⟨ha, hb, ?_⟩
      rw [hc, Outcome.bind_ok]
      rcases checkPart_cases p with ⟨h, h'⟩ | ⟨pa, pb, pc⟩ | ⟨pa, pb⟩ | ⟨pa, pb, pc, pd⟩
      · left; exact ⟨h, by rw [h']; rfl⟩
      · right; left
        exact ⟨pa, pb, by
          rw [pc, Outcome.bind_ok, new_ok (IsName.ne_nil ha) (by simpa using IsName.ne_nil pa)]⟩
      · right; right; left; exact ⟨pa, by rw [pb]; rfl⟩
      · right; right; right; exact ⟨pa, pb, pc, by rw [pd]; rfl⟩
    · right; left; exact ⟨ha, by rw [hb]; rfl⟩
    · right; right; left; exact ⟨ha, hb, hc, by rw [hd]; rfl⟩
  · right; left
    exact ⟨p, q, r, rfl, hp, hq, fromStr_many hp hq⟩

/-- What a parsed name is. -/
theorem fromStr_ok {s : Str} {n : Name} (h : Name.fromStr s = .ok n) :
    (n = ⟨none, none, s⟩ ∧ Spec.IsNcName s ∧ Spec.AsciiStart s) ∨
    (∃ p l, s = p ++ ':' :: l ∧ n = ⟨none, some p, l⟩ ∧ Spec.IsNcName p ∧ Spec.IsNcName l ∧
      Spec.AsciiStart p ∧ Spec.AsciiStart l) := by
  rcases fromStr_cases s with ⟨_, h'⟩ | ⟨_, _, _, _, _, _, h'⟩ | ⟨_, hcol, h'⟩ |
    ⟨p, l, hs, hp, hl, h'⟩
  · rw [h'] at h; cases h
  · rw [h'] at h; cases h
  · left
    rcases h' with ⟨a, b, h'⟩ | ⟨_, h'⟩ | ⟨_, _, h'⟩
    · rw [h'] at h; cases h; exact ⟨rfl, ⟨a, hcol⟩, b⟩
    · rw [h'] at h; cases h
    · rw [h'] at h; cases h
  · right
    rcases h' with ⟨_, h'⟩ | ⟨_, h'⟩ | ⟨_, _, _, h'⟩ | ⟨hl1, hl2, h'⟩
    · rw [h'] at h; cases h
    · rw [h'] at h; cases h
    · rw [h'] at h; cases h
    · rcases h' with ⟨_, h'⟩ | ⟨a, b, h'⟩ | ⟨_, h'⟩ | ⟨_, _, _, h'⟩
      · rw [h'] at h; cases h
      · rw [h'] at h; cases h; exact ⟨p, l, hs, rfl, ⟨a, hp⟩, ⟨hl1, hl⟩, b, hl2⟩
      · rw [h'] at h; cases h
      · rw [h'] at h; cases h

end XmlDom
