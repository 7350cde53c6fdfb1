import Verif.Lemmas.Serial
import Verif.Props.Text
import Verif.Spec.Stream

/-!
# The value of an attribute, exactly
-/

namespace XmlDom
open Spec Props

/-! ## The three alternatives of the expression -/

theorem refChar_iff {u : Uni} {c : Char} : entityNameClass u c = true ↔ RefChar u c := by
  unfold entityNameClass RefChar
  simp only [Bool.or_eq_true, decide_eq_true_eq]
  constructor
  · rintro ((((h | h) | h) | h) | h)
    · exact Or.inl h
    · exact Or.inr (Or.inr (Or.inl h))
    · exact Or.inr (Or.inl h)
    · exact Or.inr (Or.inr (Or.inr (Or.inl h)))
    · exact Or.inr (Or.inr (Or.inr (Or.inr h)))
  · rintro (h | h | h | h | h)
    · exact Or.inl (Or.inl (Or.inl (Or.inl h)))
    · exact Or.inl (Or.inl (Or.inr h))
    · exact Or.inl (Or.inl (Or.inl (Or.inr h)))
    · exact Or.inl (Or.inr h)
    · exact Or.inr h

theorem Uni.Ascii.semicolon {u : Uni} (hu : u.Ascii) :
    entityNameClass u ';' = false ∧ u.digit ';' = false := by
  unfold entityNameClass
  rw [hu.letter ';' (by decide), hu.digit ';' (by decide)]
  decide

theorem Uni.Ascii.hash {u : Uni} (hu : u.Ascii) : u.letter '#' = false := by
  rw [hu.letter '#' (by decide)]; decide

theorem matchEntity_some {u : Uni} (hu : u.Ascii) {a b : Char} {cs t : Str}
    (ha : a = '&' ∨ a = '%') (hb : u.letter b = true ∨ b = '_') (hcs : ∀ c ∈ cs, RefChar u c) :
    matchEntity u (a :: b :: (cs ++ ';' :: t)) = some (a :: b :: (cs ++ [';']), t) := by
  obtain ⟨h1, h2⟩ := takeWhile_stop (p := entityNameClass u) (t := t)
    (fun c hc => refChar_iff.mpr (hcs c hc)) hu.semicolon.1
  unfold matchEntity
  simp only [h1, h2]
  rw [if_pos ⟨ha, hb⟩]
  simp

theorem matchDec_some {u : Uni} (hu : u.Ascii) {ds t : Str} (hne : ds ≠ [])
    (hd : ∀ d ∈ ds, u.digit d = true) :
    matchEntity u ('&' :: '#' :: (ds ++ ';' :: t)) = none ∧
      matchDec u ('&' :: '#' :: (ds ++ ';' :: t)) = some ('&' :: '#' :: (ds ++ [';']), t) := by
  obtain ⟨h1, h2⟩ := takeWhile_stop (p := u.digit) (t := t) hd hu.semicolon.2
  refine ⟨matchEntity_none (Or.inr ?_), ?_⟩
  · intro b hb
    simp only [List.tail_cons, List.head?_cons, Option.some.injEq] at hb
    subst hb
    exact ⟨hu.hash, by decide⟩
  · unfold matchDec
    simp only [h1, h2]
    rw [if_neg hne]
    simp

theorem matchHex_some {u : Uni} (hu : u.Ascii) {ds t : Str} (hne : ds ≠ [])
    (hd : ∀ d ∈ ds, IsHex d) :
    matchEntity u ('&' :: '#' :: 'x' :: (ds ++ ';' :: t)) = none ∧
      matchDec u ('&' :: '#' :: 'x' :: (ds ++ ';' :: t)) = none ∧
      matchHex ('&' :: '#' :: 'x' :: (ds ++ ';' :: t)) = some ('&' :: '#' :: 'x' :: (ds ++ [';']), t) := by
  obtain ⟨h1, h2⟩ := takeWhile_stop (p := isHexDigit) (t := t) (fun d h => isHexDigit_of (hd d h))
    (c := ';') (by decide)
  have hx : u.digit 'x' = false := by rw [hu.digit 'x' (by decide)]; decide
  refine ⟨matchEntity_none (Or.inr ?_), ?_, ?_⟩
  · intro b hb
    simp only [List.tail_cons, List.head?_cons, Option.some.injEq] at hb
    subst hb
    exact ⟨hu.hash, by decide⟩
  · unfold matchDec
    simp [hx]
  · unfold matchHex
    simp only [h1, h2]
    rw [if_neg hne]
    simp

theorem mem_takeWhile {p : Char → Bool} {s : Str} {d : Char} (h : d ∈ s.takeWhile p) : p d = true := by
  induction s with
  | nil => cases h
  | cons c s ih =>
    rw [List.takeWhile_cons] at h
    split at h
    · rcases List.mem_cons.mp h with rfl | h
      · assumption
      · exact ih h
    · cases h

theorem dropWhile_split {p : Char → Bool} {s rest : Str} {c : Char} (h : s.dropWhile p = c :: rest) :
    s = s.takeWhile p ++ c :: rest ∧ ∀ d ∈ s.takeWhile p, p d = true := by
  refine ⟨?_, ?_⟩
  · rw [← h, List.takeWhile_append_dropWhile]
  · intro d hd; exact mem_takeWhile hd

theorem no_match {u : Uni} {s : Str} (hn : ¬ RefStart u s) :
    matchEntity u s = none ∧ matchDec u s = none ∧ matchHex s = none := by
  refine ⟨?_, ?_, ?_⟩
  · unfold matchEntity
    split
    · rename_i a b cs
      split
      · rename_i hab
        split
        · rename_i rest hd
          obtain ⟨h1, h2⟩ := dropWhile_split hd
          refine absurd ?_ hn
          rw [h1]
          exact .entity hab.1 hab.2 fun c hc => refChar_iff.mp (h2 c hc)
        · rfl
      · rfl
    · rfl
  · unfold matchDec
    split
    · rename_i cs
      split
      · rfl
      · rename_i hne
        split
        · rename_i rest hd
          obtain ⟨h1, h2⟩ := dropWhile_split hd
          refine absurd ?_ hn
          rw [h1]
          exact .dec hne h2
        · rfl
    · rfl
  · unfold matchHex
    split
    · rename_i cs
      split
      · rfl
      · rename_i hne
        split
        · rename_i rest hd
          obtain ⟨h1, h2⟩ := dropWhile_split hd
          refine absurd ?_ hn
          rw [h1]
          refine .hex hne fun d hd => ?_
          have := h2 d hd
          unfold isHexDigit at this
          exact of_decide_eq_true this
        · rfl
    · rfl

/-! ## Character references that are none -/

theorem digitVal_dec_some {d : Char} {n : Nat} (h : digitVal 10 d = some n) : IsDec d := by
  unfold digitVal at h
  unfold IsDec
  have a1 : ('0' ≤ d ∧ d ≤ '9') = (48 ≤ d.toNat ∧ d.toNat ≤ 57) := rfl
  have a2 : ('a' ≤ d ∧ d ≤ 'f') = (97 ≤ d.toNat ∧ d.toNat ≤ 102) := rfl
  have a3 : ('A' ≤ d ∧ d ≤ 'F') = (65 ≤ d.toNat ∧ d.toNat ≤ 70) := rfl
  simp only [a1, a2, a3] at h
  split at h
  · rename_i v hv
    split at hv
    · assumption
    · split at hv
      · cases hv
        rw [if_neg (by omega)] at h
        cases h
      · split at hv
        · cases hv
          rw [if_neg (by omega)] at h
          cases h
        · cases hv
  · cases h

theorem digits_dec : ∀ {ds : Str} {acc n : Nat}, parseDigits 10 acc ds = some n → ∀ d ∈ ds, IsDec d := by
  intro ds
  induction ds with
  | nil => intro _ _ _ d hd; cases hd
  | cons c ds ih =>
    intro acc n h d hd
    unfold parseDigits at h
    split at h
    · rename_i v hv
      rcases List.mem_cons.mp hd with rfl | hd
      · exact digitVal_dec_some hv
      · exact ih h d hd
    · cases h

theorem charFromEntity_badDec {u : Uni} (hu : u.Ascii) {ds : Str} (hne : ds ≠ [])
    (hd : ∀ d ∈ ds, u.digit d = true) (hn : ∀ c, ¬ DecRef ds c) :
    (charFromEntity ('&' :: '#' :: (ds ++ [';']))).Panics := by
  cases ds with
  | nil => exact absurd rfl hne
  | cons d ds =>
    have hx : d ≠ 'x' := by
      rintro rfl
      have := hd 'x' (by simp)
      rw [hu.digit 'x' (by decide)] at this
      exact absurd this (by decide)
    unfold charFromEntity
    simp only [List.cons_append]
    have hl : (d :: (ds ++ [';'])).getLast? = some ';' := by
      rw [← List.cons_append, List.getLast?_concat]
    have hdl : (d :: (ds ++ [';'])).dropLast = d :: ds := by
      rw [← List.cons_append, List.dropLast_concat]
    rw [if_pos hl]
    split
    · rw [hdl]
      split
      · simp
      · rename_i n hp
        split
        · simp
        · rename_i c hc
          exfalso
          unfold parseU32 at hp
          rw [if_neg (by simp)] at hp
          cases hq : parseDigits 10 0 (d :: ds) with
          | none => rw [hq] at hp; cases hp
          | some k =>
            have hdec := digits_dec hq
            rw [hq] at hp
            simp only at hp
            split at hp
            · cases hp
              unfold charTryFrom at hc
              split at hc
              · rename_i hv
                cases hc
                refine hn (Char.ofNat n) ⟨by simp, hdec, ?_⟩
                have h1 := parseDigits_eq 10 decVal (d :: ds) (fun x hx => digitVal_dec (hdec x hx)) 0
                rw [hq] at h1
                have h2 : digitsValue 10 decVal (d :: ds) = n := by
                  unfold digitsValue; exact (Option.some.inj h1).symm
                rw [h2]
                unfold Char.ofNat
                rw [dif_pos hv]
                rfl
              · cases hc
            · cases hp
    · simp

theorem charFromEntity_badHex {ds : Str} (hne : ds ≠ []) (hd : ∀ d ∈ ds, IsHex d)
    (hn : ∀ c, ¬ HexRef ds c) : (charFromEntity ('&' :: '#' :: 'x' :: (ds ++ [';']))).Panics := by
  unfold charFromEntity
  have hl : ('x' :: (ds ++ [';'])).getLast? = some ';' := by
    rw [← List.cons_append, List.getLast?_concat]
  have hdl : (ds ++ [';']).dropLast = ds := by simp
  simp only [hl, if_true, hdl]
  split
  · simp
  · rename_i n hp
    split
    · simp
    · rename_i c hc
      exfalso
      unfold parseU32 at hp
      rw [if_neg hne, parseDigits_eq 16 hexVal ds (fun x hx => digitVal_hex (hd x hx)) 0] at hp
      simp only at hp
      split at hp
      · cases hp
        unfold charTryFrom at hc
        split at hc
        · rename_i hv
          cases hc
          refine hn (Char.ofNat (digitsValue 16 hexVal ds)) ⟨hne, hd, ?_⟩
          have hv' : (digitsValue 16 hexVal ds).isValidChar := hv
          unfold Char.ofNat
          rw [dif_pos hv']
          rfl
        · cases hc
      · cases hp

/-! ## The scanner -/

/-- An outcome is this text, or a panic. -/
def Gives (o : Outcome Str) : Option Str → Prop
  | some w => o = .ok w
  | none => o.Panics

theorem gives_map {o : Outcome Str} {r : Option Str} (h : Gives o r) (c : Char) :
    Gives (o.map fun t => [c] ++ t) (r.map (c :: ·)) := by
  cases r with
  | some w =>
    have : o = .ok w := h
    subst this
    exact rfl
  | none =>
    have : o.Panics := h
    cases o <;> simp at this
    simp [Gives]

theorem scanAttr_gives {u : Uni} (hu : u.Ascii) {ent : Str → Outcome Str}
    (hent : ∀ x m, x = '&' ∨ x = '%' → (ent (x :: m)).Panics) {m : Str} {r : Option Str}
    (h : ValueText u m r) : ∀ n, m.length < n → Gives (scanAttr u ent n m) r := by
  induction h with
  | nil =>
    intro n hn
    cases n with
    | zero => omega
    | succ n => exact rfl
  | @entity a b cs t ha hb hcs =>
    intro n hn
    cases n with
    | zero => omega
    | succ n =>
      unfold scanAttr
      rw [matchEntity_some hu ha hb hcs]
      have := hent a (b :: (cs ++ [';'])) ha
      simp only
      generalize ent (a :: b :: (cs ++ [';'])) = o at this
      cases o <;> simp at this
      simp [Gives]
  | @dec ds t c r hr _ ih =>
    intro n hn
    cases n with
    | zero => omega
    | succ n =>
      obtain ⟨h1, h2⟩ := matchDec_some (t := t) hu hr.1 fun d hd => hu.digit_dec (hr.2.1 d hd)
      unfold scanAttr
      rw [h1, h2]
      simp only
      rw [charFromEntity_dec hr]
      exact gives_map (ih n (by simp at hn; omega)) c
  | @badDec ds t hne hd hno =>
    intro n hn
    cases n with
    | zero => omega
    | succ n =>
      obtain ⟨h1, h2⟩ := matchDec_some (t := t) hu hne hd
      have := charFromEntity_badDec hu hne hd hno
      unfold scanAttr
      rw [h1, h2]
      simp only
      generalize charFromEntity _ = o at this
      cases o <;> simp at this
      simp [Gives]
  | @hex ds t c r hr _ ih =>
    intro n hn
    cases n with
    | zero => omega
    | succ n =>
      obtain ⟨h1, h2, h3⟩ := matchHex_some (t := t) hu hr.1 hr.2.1
      unfold scanAttr
      rw [h1, h2]
      simp only
      rw [h3]
      simp only
      rw [charFromEntity_hex hr]
      exact gives_map (ih n (by simp at hn; omega)) c
  | @badHex ds t hne hd hno =>
    intro n hn
    cases n with
    | zero => omega
    | succ n =>
      obtain ⟨h1, h2, h3⟩ := matchHex_some (t := t) hu hne hd
      have := charFromEntity_badHex hne hd hno
      unfold scanAttr
      rw [h1, h2]
      simp only
      rw [h3]
      simp only
      generalize charFromEntity _ = o at this
      cases o <;> simp at this
      simp [Gives]
  | @space c t r hc _ ih =>
    intro n hn
    cases n with
    | zero => omega
    | succ n =>
      have hne : c ≠ '&' ∧ c ≠ '%' := by rcases hc with rfl | rfl | rfl <;> decide
      unfold scanAttr
      rw [matchEntity_none (Or.inl (by simp [hne.1, hne.2])),
        matchDec_none (Or.inl (by simp [hne.1])), matchHex_none (Or.inl (by simp [hne.1]))]
      simp only
      rw [if_pos hc]
      exact gives_map (ih n (by simp at hn; omega)) ' '
  | @other c t r hc hno _ ih =>
    intro n hn
    cases n with
    | zero => omega
    | succ n =>
      obtain ⟨h1, h2, h3⟩ := no_match hno
      unfold scanAttr
      rw [h1, h2, h3]
      simp only
      rw [if_neg hc]
      exact gives_map (ih n (by simp at hn; omega)) c

/-! ## Every text has a reading -/

theorem valueText_total (u : Uni) : ∀ (n : Nat) (m : Str), m.length < n → ∃ r, ValueText u m r := by
  intro n
  induction n with
  | zero => intro m hm; omega
  | succ n ih =>
    intro m hm
    cases m with
    | nil => exact ⟨_, .nil⟩
    | cons c t =>
      by_cases hw : c = '\t' ∨ c = '\n' ∨ c = '\r'
      · obtain ⟨r, hr⟩ := ih t (by simp at hm; omega)
        exact ⟨_, .space hw hr⟩
      · by_cases hs : RefStart u (c :: t)
        · generalize hq : c :: t = q at hs
          rw [hq] at hm
          cases hs with
          | entity ha hb hcs => exact ⟨_, .entity ha hb hcs⟩
          | @dec ds s hne hd =>
            by_cases hr : ∃ c, DecRef ds c
            · obtain ⟨x, hx⟩ := hr
              obtain ⟨r, hr⟩ := ih s (by simp at hm; omega)
              exact ⟨_, .dec hx hr⟩
            · exact ⟨_, .badDec hne hd fun c hc => hr ⟨c, hc⟩⟩
          | @hex ds s hne hd =>
            by_cases hr : ∃ c, HexRef ds c
            · obtain ⟨x, hx⟩ := hr
              obtain ⟨r, hr⟩ := ih s (by simp at hm; omega)
              exact ⟨_, .hex hx hr⟩
            · exact ⟨_, .badHex hne hd fun c hc => hr ⟨c, hc⟩⟩
        · obtain ⟨r, hr⟩ := ih t (by simp at hm; omega)
          exact ⟨_, .other hw hs hr⟩

theorem valueOf_total (u : Uni) (v : Str) : ∃ r, ValueSays u v r := by
  have he := eolNorm_normalizeEol v
  obtain ⟨r, hr⟩ := valueText_total u _ (normalizeEol v) (Nat.lt_succ_self _)
  cases r with
  | none => exact ⟨_, .crash he hr⟩
  | some r =>
    obtain ⟨x, y, h3, h4, h5⟩ := C35_trim r
    exact ⟨_, .value he hr ⟨⟨x, y, h3⟩, h4, h5⟩⟩

/-! ## The value -/

/-- What is left between the spaces at the ends is determined. -/
theorem trimmed_unique {r w : Str} (h : Trimmed r w) : w = trimSpaces r := by
  obtain ⟨⟨a, b, rfl⟩, h1, h2⟩ := h
  unfold trimSpaces
  have key : ∀ (n : Nat) (s : Str), s.head? ≠ some ' ' → s ≠ [] →
      (List.replicate n ' ' ++ s).dropWhile (fun c => decide (c = ' ')) = s := by
    intro n s hs hne
    induction n with
    | zero =>
      cases s with
      | nil => rfl
      | cons c s =>
        have : c ≠ ' ' := fun hc => hs (by rw [hc]; rfl)
        simp [this]
    | succ n ih => simp only [List.replicate_succ, List.cons_append, List.dropWhile_cons, decide_true, if_true]; exact ih
  have all : ∀ n : Nat, (List.replicate n ' ').dropWhile (fun c => decide (c = ' ')) = [] := by
    intro n
    induction n with
    | zero => rfl
    | succ n ih => simp [List.replicate_succ]
  by_cases hw : w = []
  · subst hw
    rw [List.append_nil, List.replicate_append_replicate, all]
    rfl
  · have h3 : (w ++ List.replicate b ' ').head? ≠ some ' ' := by
      cases w with
      | nil => exact absurd rfl hw
      | cons c w => exact h1
    rw [List.append_assoc, key a _ h3 (by simp [hw]), List.reverse_append, List.reverse_replicate,
      key b w.reverse (by rw [List.head?_reverse]; exact h2) (by simp [hw]), List.reverse_reverse]

/-- The outcome of reading a value is this value, or a panic. -/
def ReadsAs (o : Outcome (Option Str)) : Option Str → Prop
  | some w => o = .ok (some w)
  | none => o.Panics

theorem attrValue_gives {u : Uni} (hu : u.Ascii) {h : Heap} {a : NodeId} {v : Str} {r : Option Str}
    (hc : (h.get a).children ≠ []) (hv : attrRaw h a = v) (hr : ValueSays u v r) :
    ReadsAs (attrValue u h a) r := by
  have hent : ∀ x m, x = '&' ∨ x = '%' → (((resolveEntity h a (x :: m)).bind fun r =>
      match r with
      | none => .panic .explicit
      | some replacement => normalizeAttrValue u (resolveEntity h a) false 0 replacement) :
        Outcome Str).Panics := by
    intro x m hx
    rcases resolveEntity_ne_some h a x m hx with hq | hq
    · rw [hq]; simp
    · generalize resolveEntity h a (x :: m) = o at hq
      cases o <;> simp at hq ⊢
  have main : ∀ {m : Str} {q : Option Str}, EolNorm v m → ValueText u m q →
      Gives (normalizeAttrValue u (resolveEntity h a) false 1 v) (q.map trimSpaces) := by
    intro m q he hm
    unfold normalizeAttrValue
    rw [eolNorm_eq he]
    simp only [Bool.false_eq_true, if_false]
    have hs := scanAttr_gives (ent := fun m => (resolveEntity h a m).bind fun r =>
      match r with
      | none => .panic .explicit
      | some replacement => normalizeAttrValue u (resolveEntity h a) false 0 replacement)
      hu hent hm (m.length + 1) (Nat.lt_succ_self _)
    split
    · rename_i h0
      subst h0
      cases hm
      exact rfl
    · generalize scanAttr u _ _ _ = o at hs
      cases q with
      | some w =>
        have : o = .ok w := hs
        subst this
        exact rfl
      | none =>
        have : o.Panics := hs
        cases o <;> simp at this
        simp [Gives]
  unfold attrValue
  rw [if_neg hc, hv]
  cases hr with
  | value he hm ht =>
    have h1 := main he hm
    have h2 : normalizeAttrValue u (resolveEntity h a) false 1 v = .ok (trimSpaces _) := h1
    rw [h2, ← trimmed_unique ht, ← escape_eq_esc]
    rfl
  | crash he hm =>
    have h1 : (normalizeAttrValue u (resolveEntity h a) false 1 v).Panics := main he hm
    generalize normalizeAttrValue u (resolveEntity h a) false 1 v = o at h1
    cases o <;> simp at h1
    simp [ReadsAs]

end XmlDom
