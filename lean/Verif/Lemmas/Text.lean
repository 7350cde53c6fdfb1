import Verif.Lemmas.Chars
import Verif.Lemmas.Split
import Verif.Lemmas.Bytes
import Verif.Spec.Text

/-! # The text functions of the model satisfy the relations of the specification -/

namespace XmlDom

open Spec

/-! ## Escaping -/

theorem toEntity_special :
    toEntity '&' = c! "&#38;" ∧ toEntity '\'' = c! "&#39;" ∧ toEntity '>' = c! "&#62;" ∧
      toEntity '<' = c! "&#60;" ∧ toEntity '"' = c! "&#34;" := by decide

/-- The characters that `escape` replaces. -/
def isSpecial (c : Char) : Bool :=
  decide (c = '&' ∨ c = '\'' ∨ c = '>' ∨ c = '<' ∨ c = '"')

theorem escape_cons (c : Char) (s : Str) :
    (∃ ds, DecRef ds c ∧ isSpecial c = true ∧
      escape (c :: s) = '&' :: '#' :: (ds ++ ';' :: escape s)) ∨
    (isSpecial c = false ∧ escape (c :: s) = c :: escape s) := by
  obtain ⟨e1, e2, e3, e4, e5⟩ := toEntity_special
  unfold isSpecial
  rw [escape.eq_2]
  by_cases h1 : c = '&'
  · subst h1; left
    exact ⟨c! "38", ⟨by decide, by decide, by decide⟩, by decide, by rw [if_pos rfl, e1]; rfl⟩
  rw [if_neg h1]
  by_cases h2 : c = '\''
  · subst h2; left
    exact ⟨c! "39", ⟨by decide, by decide, by decide⟩, by decide, by rw [if_pos rfl, e2]; rfl⟩
  rw [if_neg h2]
  by_cases h3 : c = '>'
  · subst h3; left
    exact ⟨c! "62", ⟨by decide, by decide, by decide⟩, by decide, by rw [if_pos rfl, e3]; rfl⟩
  rw [if_neg h3]
  by_cases h4 : c = '<'
  · subst h4; left
    exact ⟨c! "60", ⟨by decide, by decide, by decide⟩, by decide, by rw [if_pos rfl, e4]; rfl⟩
  rw [if_neg h4]
  by_cases h5 : c = '"'
  · subst h5; left
    exact ⟨c! "34", ⟨by decide, by decide, by decide⟩, by decide, by rw [if_pos rfl, e5]; rfl⟩
  rw [if_neg h5]
  right
  simp [h1, h2, h3, h4, h5]

theorem escape_append (a b : Str) : escape (a ++ b) = escape a ++ escape b := by
  induction a with
  | nil => rfl
  | cons c cs ih =>
    rw [List.cons_append, escape.eq_2, escape.eq_2, ih, List.append_assoc]

theorem decodes_escape (s : Str) : Decodes (escape s) s := by
  induction s with
  | nil => exact .nil
  | cons c cs ih =>
    rcases escape_cons c cs with ⟨ds, h1, _, h2⟩ | ⟨h1, h2⟩
    · rw [h2]; exact .ref ds c _ _ h1 ih
    · rw [h2]
      refine .lit c _ _ ?_ ih
      rintro rfl
      exact absurd h1 (by decide)

theorem isDec_ne_semi {ds : Str} (h : ∀ d ∈ ds, IsDec d) : ';' ∉ ds :=
  fun hm => absurd (h _ hm) (by decide)

theorem isHex_ne_semi {ds : Str} (h : ∀ d ∈ ds, IsHex d) : ';' ∉ ds :=
  fun hm => absurd (h _ hm) (by decide)

theorem decodes_functional {t s s' : Str} (h : Decodes t s) (h' : Decodes t s') : s = s' := by
  induction h generalizing s' with
  | nil => cases h'; rfl
  | ref ds c t s hr _ ih =>
    generalize ht : '&' :: '#' :: (ds ++ ';' :: t) = w at h'
    cases h' with
    | nil => cases ht
    | ref ds' c' t' s'' hr' ht' =>
      simp only [List.cons.injEq, true_and] at ht
      obtain ⟨rfl, rfl⟩ := first_sep_unique ht (isDec_ne_semi hr.2.1) (isDec_ne_semi hr'.2.1)
      have hc : c = c' := (char_eq_iff _ _).mpr (hr.2.2.symm.trans hr'.2.2)
      rw [hc, ih ht']
    | lit c' t' s'' hne _ =>
      exact absurd (List.cons.inj ht).1.symm hne
  | lit c t s hne _ ih =>
    generalize ht : c :: t = w at h'
    cases h' with
    | nil => cases ht
    | ref ds' c' t' s'' hr' ht' => exact absurd (List.cons.inj ht).1 hne
    | lit c' t' s'' _ ht' =>
      obtain ⟨rfl, rfl⟩ := List.cons.inj ht
      rw [ih ht']

/-- In a text that decodes, every ampersand starts a decimal reference. -/
theorem decodes_amp {t s : Str} (h : Decodes t s) :
    ∀ a b, t = a ++ '&' :: b → ∃ ds c r, b = '#' :: (ds ++ ';' :: r) ∧ DecRef ds c := by
  induction h with
  | nil => intro a b h; simp at h
  | ref ds c t s hr _ ih =>
    intro a b h
    cases a with
    | nil =>
      simp only [List.nil_append, List.cons.injEq, true_and] at h
      exact ⟨ds, c, t, h.symm, hr⟩
    | cons x a =>
      simp only [List.cons_append, List.cons.injEq] at h
      obtain ⟨_, h⟩ := h
      cases a with
      | nil => simp at h
      | cons y a =>
        simp only [List.cons_append, List.cons.injEq] at h
        obtain ⟨_, h⟩ := h
        -- the ampersand is not in the digits and is not the semicolon
        rw [List.append_eq_append_iff] at h
        rcases h with ⟨a', h1, h2⟩ | ⟨c', h1, h2⟩
        · cases a' with
          | nil => simp at h2
          | cons z a' =>
            simp only [List.cons_append, List.cons.injEq] at h2
            exact ih _ _ h2.2
        · cases c' with
          | nil => simp at h2
          | cons z c' =>
            simp only [List.cons_append, List.cons.injEq] at h2
            have : '&' ∈ ds := by rw [h1, h2.1]; simp
            exact absurd (hr.2.1 _ this) (by decide)
  | lit c t s hne _ ih =>
    intro a b h
    cases a with
    | nil => exact absurd (List.cons.inj h).1 hne
    | cons x a => exact ih a b (List.cons.inj h).2

/-- The markup characters do not occur in escaped text. -/
theorem escape_no_markup (s : Str) (c : Char) (hc : c = '<' ∨ c = '>' ∨ c = '"' ∨ c = '\'') :
    c ∉ escape s := by
  induction s with
  | nil => simp [escape]
  | cons d ds ih =>
    rcases escape_cons d ds with ⟨ws, hr, _, h2⟩ | ⟨h1, h2⟩
    · rw [h2]
      have hw : c ∉ ws := by
        intro hm
        have := hr.2.1 _ hm
        rcases hc with rfl | rfl | rfl | rfl <;> exact absurd this (by decide)
      simp only [List.mem_cons, List.mem_append, not_or]
      refine ⟨?_, ?_, hw, ?_, ih⟩ <;> rcases hc with rfl | rfl | rfl | rfl <;> decide
    · rw [h2]
      simp only [List.mem_cons, not_or]
      refine ⟨?_, ih⟩
      rintro rfl
      rcases hc with rfl | rfl | rfl | rfl <;> exact absurd h1 (by decide)

/-! ## End of lines -/

theorem eolNorm_normalizeEol (s : Str) : EolNorm s (normalizeEol s) := by
  fun_induction normalizeEol s with
  | case1 => exact .nil
  | case2 =>
    exact .cr [] [] .nil (by simp) (by simp)
  | case3 d ds h ih =>
    rcases h with rfl | rfl
    · exact .crlf _ _ ih
    · exact .crnel _ _ ih
  | case4 d ds h ih =>
    refine .cr _ _ ih ?_ ?_
    · simp only [List.head?_cons, ne_eq, Option.some.injEq]; exact fun h' => h (Or.inl h')
    · simp only [List.head?_cons, ne_eq, Option.some.injEq]; exact fun h' => h (Or.inr h')
  | case5 c cs hc h ih =>
    rcases h with rfl | rfl
    · exact .nel _ _ ih
    · exact .ls _ _ ih
  | case6 c cs hc h ih =>
    exact .other c _ _ ih hc (fun h' => h (Or.inl h')) (fun h' => h (Or.inr h'))

theorem normalizeEol_break {c : Char} (s : Str) (h1 : c ≠ '\r') (h2 : c = '\u0085' ∨ c = '\u2028') :
    normalizeEol (c :: s) = '\n' :: normalizeEol s := by
  rw [normalizeEol.eq_def]
  simp only [h1, if_false, h2, if_true]

theorem normalizeEol_other {c : Char} (s : Str) (h1 : c ≠ '\r')
    (h2 : ¬ (c = '\u0085' ∨ c = '\u2028')) :
    normalizeEol (c :: s) = c :: normalizeEol s := by
  rw [normalizeEol.eq_def]
  simp only [h1, if_false, h2]

theorem eolNorm_eq {s t : Str} (h : EolNorm s t) : normalizeEol s = t := by
  induction h with
  | nil => rfl
  | crlf s t _ ih => rw [← ih]; simp [normalizeEol]
  | crnel s t _ ih => rw [← ih]; simp [normalizeEol]
  | nel s t _ ih => rw [← ih]; exact normalizeEol_break s (by decide) (Or.inl rfl)
  | ls s t _ ih => rw [← ih]; exact normalizeEol_break s (by decide) (Or.inr rfl)
  | cr s t _ h1 h2 ih =>
    rw [← ih]
    cases s with
    | nil => simp [normalizeEol]
    | cons d ds =>
      simp only [List.head?_cons, ne_eq, Option.some.injEq] at h1 h2
      rw [normalizeEol.eq_3]
      simp [h1, h2]
  | other c s t _ h1 h2 h3 ih =>
    rw [← ih]
    exact normalizeEol_other s h1 (fun h => h.elim h2 h3)

theorem eolNorm_clean {s t : Str} (h : EolNorm s t) :
    '\r' ∉ t ∧ '\u0085' ∉ t ∧ '\u2028' ∉ t := by
  induction h with
  | nil => simp
  | other c s t _ h1 h2 h3 ih =>
    simp only [List.mem_cons, not_or]
    exact ⟨⟨fun h => h1 h.symm, ih.1⟩, ⟨fun h => h2 h.symm, ih.2.1⟩,
      ⟨fun h => h3 h.symm, ih.2.2⟩⟩
  | _ => simp_all

theorem byteLen_normalizeEol_le (s : Str) : byteLen (normalizeEol s) ≤ byteLen s := by
  have h := eolNorm_normalizeEol s
  generalize normalizeEol s = t at h
  induction h with
  | nil => simp
  | other c s t _ h1 h2 h3 ih => simp only [byteLen_cons]; omega
  | crlf s t _ ih =>
    simp only [byteLen_cons]
    have := Char.utf8Size_pos '\r'
    omega
  | crnel s t _ ih =>
    simp only [byteLen_cons]
    have h1 : '\n'.utf8Size = 1 := by decide
    have := Char.utf8Size_pos '\r'
    omega
  | nel s t _ ih =>
    simp only [byteLen_cons]
    have h1 : '\n'.utf8Size = 1 := by decide
    have := Char.utf8Size_pos '\u0085'
    omega
  | ls s t _ ih =>
    simp only [byteLen_cons]
    have h1 : '\n'.utf8Size = 1 := by decide
    have := Char.utf8Size_pos '\u2028'
    omega
  | cr s t _ _ _ ih =>
    simp only [byteLen_cons]
    have h1 : '\n'.utf8Size = 1 := by decide
    have := Char.utf8Size_pos '\r'
    omega

theorem normalizeEol_clean {s : Str} (h1 : '\r' ∉ s) (h2 : '\u0085' ∉ s) (h3 : '\u2028' ∉ s) :
    normalizeEol s = s := by
  induction s with
  | nil => rfl
  | cons c cs ih =>
    simp only [List.mem_cons, not_or] at h1 h2 h3
    rw [normalizeEol_other cs (fun h => h1.1 h.symm)
      (by rintro (h | h); exact h2.1 h.symm; exact h3.1 h.symm), ih h1.2 h2.2 h3.2]

/-! ## Character references -/

theorem parseDigits_eq (radix : Nat) (val : Char → Nat) (ds : Str)
    (h : ∀ d ∈ ds, digitVal radix d = some (val d)) (acc : Nat) :
    parseDigits radix acc ds = some (ds.foldl (fun a d => a * radix + val d) acc) := by
  induction ds generalizing acc with
  | nil => rfl
  | cons d ds ih =>
    unfold parseDigits
    rw [h d (by simp)]
    exact ih (fun x hx => h x (by simp [hx])) _

theorem digitVal_dec {d : Char} (h : IsDec d) : digitVal 10 d = some (decVal d) := by
  unfold digitVal IsDec decVal at *
  have h1 : '0' ≤ d ∧ d ≤ '9' := h
  simp only [h1, and_self, if_true]
  rw [if_pos (by omega)]

theorem digitVal_hex {d : Char} (h : IsHex d) : digitVal 16 d = some (hexVal d) := by
  unfold digitVal IsHex hexVal at *
  have a1 : ('0' ≤ d ∧ d ≤ '9') = (48 ≤ d.toNat ∧ d.toNat ≤ 57) := rfl
  have a2 : ('a' ≤ d ∧ d ≤ 'f') = (97 ≤ d.toNat ∧ d.toNat ≤ 102) := rfl
  have a3 : ('A' ≤ d ∧ d ≤ 'F') = (65 ≤ d.toNat ∧ d.toNat ≤ 70) := rfl
  simp only [a1, a2, a3]
  rcases h with h | h | h
  · simp only [h, and_self, if_true]
    rw [if_pos (by omega)]
  · rw [if_neg (by omega), if_pos h, if_neg (by omega), if_pos (by omega)]
    simp only
    rw [if_pos (by omega)]
  · rw [if_neg (by omega), if_neg (by omega), if_pos h, if_neg (by omega), if_neg (by omega)]
    simp only
    rw [if_pos (by omega)]

theorem charTryFrom_toNat (c : Char) : charTryFrom c.toNat = some c := by
  unfold charTryFrom
  have : c.toNat.isValidChar := c.valid
  rw [if_pos this, Char.ofNat_toNat]

theorem parseU32_eq {radix : Nat} {val : Char → Nat} {ds : Str} {c : Char} (hne : ds ≠ [])
    (h : ∀ d ∈ ds, digitVal radix d = some (val d)) (hv : digitsValue radix val ds = c.toNat) :
    parseU32 radix ds = some c.toNat := by
  unfold parseU32
  rw [if_neg hne, parseDigits_eq radix val ds h 0]
  unfold digitsValue at hv
  rw [hv]
  have := char_lt_bound c
  simp only
  rw [if_pos (by omega)]

theorem charFromEntity_dec {ds : Str} {c : Char} (h : DecRef ds c) :
    charFromEntity ('&' :: '#' :: (ds ++ [';'])) = .ok [c] := by
  obtain ⟨hne, hd, hv⟩ := h
  cases ds with
  | nil => exact absurd rfl hne
  | cons d ds =>
    have hx : d ≠ 'x' := fun hx => absurd (hd d (by simp)) (by rw [hx]; decide)
    have hd1 : IsDec d := hd d (by simp)
    have hsz : d.utf8Size = 1 := (utf8Size_eq_one_iff d).mpr (by unfold IsDec at hd1; omega)
    have hp := parseU32_eq hne (fun d h => digitVal_dec (hd d h)) hv
    unfold charFromEntity
    simp only [List.cons_append]
    have hl : (d :: (ds ++ [';'])).getLast? = some ';' := by
      rw [← List.cons_append, List.getLast?_concat]
    rw [if_pos hl]
    have hdl : (d :: (ds ++ [';'])).dropLast = d :: ds := by
      rw [← List.cons_append, List.dropLast_concat]
    split
    · rw [hdl, hp]
      simp only [charTryFrom_toNat]
    · contradiction

theorem charFromEntity_hex {ds : Str} {c : Char} (h : HexRef ds c) :
    charFromEntity ('&' :: '#' :: 'x' :: (ds ++ [';'])) = .ok [c] := by
  obtain ⟨hne, hd, hv⟩ := h
  have hp := parseU32_eq hne (fun d h => digitVal_hex (hd d h)) hv
  unfold charFromEntity
  have hl : ('x' :: (ds ++ [';'])).getLast? = some ';' := by
    rw [← List.cons_append, List.getLast?_concat]
  have hdl : (ds ++ [';']).dropLast = ds := by simp
  simp only [hl, if_true, hdl, hp, charTryFrom_toNat]

/-! ## The attribute value scanner -/

theorem takeWhile_stop {p : Char → Bool} {ds t : Str} {c : Char} (h : ∀ d ∈ ds, p d = true)
    (hc : p c = false) :
    (ds ++ c :: t).takeWhile p = ds ∧ (ds ++ c :: t).dropWhile p = c :: t := by
  induction ds with
  | nil => simp [hc]
  | cons d ds ih =>
    have := ih (fun x hx => h x (by simp [hx]))
    simp [h d (by simp), this.1, this.2]

theorem Uni.Ascii.digit_dec {u : Uni} (hu : u.Ascii) {d : Char} (h : IsDec d) :
    u.digit d = true := by
  unfold IsDec at h
  rw [hu.digit d (by omega)]
  exact (isAsciiDigit_iff d).mpr h

theorem isHexDigit_of {d : Char} (h : IsHex d) : isHexDigit d = true := by
  unfold isHexDigit
  rw [decide_eq_true_iff]
  exact h

/-- No entity reference can start here. -/
theorem matchEntity_none {u : Uni} {s : Str}
    (h : s.head? ≠ some '&' ∧ s.head? ≠ some '%' ∨
      ∀ b, s.tail.head? = some b → u.letter b = false ∧ b ≠ '_') :
    matchEntity u s = none := by
  unfold matchEntity
  split
  · rename_i a b cs
    rw [if_neg]
    rintro ⟨h1, h2⟩
    rcases h with ⟨h3, h4⟩ | h
    · rcases h1 with rfl | rfl <;> simp at h3 h4
    · obtain ⟨h3, h4⟩ := h b (by simp)
      rcases h2 with h2 | h2
      · rw [h2] at h3; cases h3
      · exact h4 h2
  · rfl

theorem matchDec_none {u : Uni} {s : Str}
    (h : s.head? ≠ some '&' ∨ s.tail.head? ≠ some '#') : matchDec u s = none := by
  unfold matchDec
  split
  · rcases h with h | h <;> simp at h
  · rfl

theorem matchHex_none {s : Str}
    (h : s.head? ≠ some '&' ∨ s.tail.head? ≠ some '#') : matchHex s = none := by
  unfold matchHex
  split
  · rcases h with h | h <;> simp at h
  · rfl

/-- Every percent sign is followed by something that cannot start a name. -/
def PercentOk (u : Uni) (s : Str) : Prop :=
  ∀ a b, s = a ++ '%' :: b → ∀ c, b.head? = some c → u.letter c = false ∧ c ≠ '_'

theorem PercentOk.tail {u : Uni} {a b : Str} (h : PercentOk u (a ++ b)) : PercentOk u b :=
  fun x y hxy => h (a ++ x) y (by rw [hxy, List.append_assoc])

theorem PercentOk.of_notMem {u : Uni} {s : Str} (h : '%' ∉ s) : PercentOk u s :=
  fun a b hab => absurd (by rw [hab]; simp) h

theorem scanAttr_of_attrNorm {u : Uni} (hu : u.Ascii) (ent : Str → Outcome Str) {m r : Str}
    (h : AttrNorm m r) :
    PercentOk u m → ∀ n, m.length < n → scanAttr u ent n m = .ok r := by
  induction h with
  | nil =>
    intro _ n hn
    cases n with
    | zero => omega
    | succ n => rfl
  | dec ds c t s hr _ ih =>
    intro hp n hn
    cases n with
    | zero => omega
    | succ n =>
      have ht : PercentOk u t := by
        have : PercentOk u (('&' :: '#' :: (ds ++ [';'])) ++ t) := by simpa using hp
        exact this.tail
      have hlen : t.length < n := by simp at hn; omega
      have hl : u.letter '#' = false := by rw [hu.letter '#' (by decide)]; decide
      have hs : u.digit ';' = false := by rw [hu.digit ';' (by decide)]; decide
      obtain ⟨h1, h2⟩ := takeWhile_stop (t := t) (fun d hd => hu.digit_dec (hr.2.1 d hd)) hs
      have hmd : matchDec u ('&' :: '#' :: (ds ++ ';' :: t)) =
          some ('&' :: '#' :: (ds ++ [';']), t) := by
        unfold matchDec
        simp only [h1, h2]
        rw [if_neg hr.1]
        simp
      unfold scanAttr
      rw [matchEntity_none (Or.inr (by
        intro b hb
        simp only [List.tail_cons, List.head?_cons, Option.some.injEq] at hb
        subst hb
        exact ⟨hl, by decide⟩)), hmd]
      simp only
      rw [charFromEntity_dec hr, ih ht n hlen]
      rfl
  | hex ds c t s hr _ ih =>
    intro hp n hn
    cases n with
    | zero => omega
    | succ n =>
      have ht : PercentOk u t := by
        have : PercentOk u (('&' :: '#' :: 'x' :: (ds ++ [';'])) ++ t) := by simpa using hp
        exact this.tail
      have hlen : t.length < n := by simp at hn; omega
      have hl : u.letter '#' = false := by rw [hu.letter '#' (by decide)]; decide
      have hx : u.digit 'x' = false := by rw [hu.digit 'x' (by decide)]; decide
      have hs : isHexDigit ';' = false := by decide
      obtain ⟨h1, h2⟩ := takeWhile_stop (t := t) (fun d hd => isHexDigit_of (hr.2.1 d hd)) hs
      have hmd : matchDec u ('&' :: '#' :: 'x' :: (ds ++ ';' :: t)) = none := by
        unfold matchDec
        simp [hx]
      have hmh : matchHex ('&' :: '#' :: 'x' :: (ds ++ ';' :: t)) =
          some ('&' :: '#' :: 'x' :: (ds ++ [';']), t) := by
        unfold matchHex
        simp only [h1, h2]
        rw [if_neg hr.1]
        simp
      unfold scanAttr
      rw [matchEntity_none (Or.inr (by
        intro b hb
        simp only [List.tail_cons, List.head?_cons, Option.some.injEq] at hb
        subst hb
        exact ⟨hl, by decide⟩)), hmd]
      simp only
      rw [hmh]
      simp only
      rw [charFromEntity_hex hr, ih ht n hlen]
      rfl
  | space c t s hc _ ih =>
    intro hp n hn
    cases n with
    | zero => omega
    | succ n =>
      have ht : PercentOk u t := PercentOk.tail (a := [c]) hp
      have hlen : t.length < n := by simp at hn; omega
      have hne : c ≠ '&' ∧ c ≠ '%' := by
        rcases hc with rfl | rfl | rfl | rfl <;> decide
      unfold scanAttr
      rw [matchEntity_none (Or.inl (by simp [hne.1, hne.2])),
        matchDec_none (Or.inl (by simp [hne.1])), matchHex_none (Or.inl (by simp [hne.1]))]
      simp only [ih ht n hlen]
      rcases hc with rfl | rfl | rfl | rfl <;> rfl
  | other c t s hc _ ih =>
    intro hp n hn
    cases n with
    | zero => omega
    | succ n =>
      have ht : PercentOk u t := PercentOk.tail (a := [c]) hp
      have hlen : t.length < n := by simp at hn; omega
      obtain ⟨h1, h2, h3, h4, h5⟩ := hc
      have hme : matchEntity u (c :: t) = none := by
        by_cases hpc : c = '%'
        · subst hpc
          exact matchEntity_none (Or.inr fun b hb => hp [] t rfl b hb)
        · exact matchEntity_none (Or.inl (by simp [h1, hpc]))
      unfold scanAttr
      rw [hme, matchDec_none (Or.inl (by simp [h1])), matchHex_none (Or.inl (by simp [h1]))]
      simp only [ih ht n hlen]
      rw [if_neg (by rintro (h | h | h) <;> contradiction)]
      rfl

theorem normalizeAttrValue_of_attrNorm {u : Uni} (hu : u.Ascii)
    (resolve : Str → Outcome (Option Str)) (isCdata : Bool) (depth : Nat) {v m r : Str}
    (he : EolNorm v m) (h : AttrNorm m r) (hp : PercentOk u m) :
    normalizeAttrValue u resolve isCdata (depth + 1) v =
      .ok (if isCdata then r else trimSpaces r) := by
  unfold normalizeAttrValue
  rw [eolNorm_eq he]
  by_cases hm : m = []
  · subst hm
    cases h
    simp
  · simp only [if_neg hm]
    rw [scanAttr_of_attrNorm hu _ h hp _ (by omega)]
    rfl

end XmlDom
