import Verif.Spec.Reader
import Verif.Lemmas.Serial

/-! # The reference reader on the serialization -/

namespace XmlDom

open Spec

/-! ## Character data -/

theorem esc_cons (c : Char) (s : Str) : esc (c :: s) = escChar c ++ esc s := by
  unfold esc; rw [List.flatMap_cons]

theorem esc_append (a b : Str) : esc (a ++ b) = esc a ++ esc b := by
  unfold esc; rw [List.flatMap_append]

theorem esc_notMem (s : Str) {c : Char} (hc : c = '<' ∨ c = '>' ∨ c = '"' ∨ c = '\'') :
    c ∉ esc s := by
  rw [← escape_eq_esc]; exact escape_no_markup s c hc

/-- The two shapes of an escaped character. -/
theorem escChar_cases (c : Char) :
    (∃ d1 d2, escChar c = ['&', '#', d1, d2, ';'] ∧ Reader.reference ['#', d1, d2] = some c ∧
      d1 ≠ ';' ∧ d2 ≠ ';') ∨
    (escChar c = [c] ∧ c ≠ '&' ∧ c ≠ '<') := by
  unfold escChar
  by_cases h1 : c = '"'
  · subst h1; left; exact ⟨'3', '4', rfl, by decide, by decide, by decide⟩
  by_cases h2 : c = '&'
  · subst h2; left; exact ⟨'3', '8', rfl, by decide, by decide, by decide⟩
  by_cases h3 : c = '\''
  · subst h3; left; exact ⟨'3', '9', rfl, by decide, by decide, by decide⟩
  by_cases h4 : c = '<'
  · subst h4; left; exact ⟨'6', '0', rfl, by decide, by decide, by decide⟩
  by_cases h5 : c = '>'
  · subst h5; left; exact ⟨'6', '2', rfl, by decide, by decide, by decide⟩
  right
  simp [h1, h2, h3, h4, h5]

/-- Decoding undoes escaping, up to white space in attribute values. -/
theorem decode_esc (b : Bool) (s : Str) (hs : b = true → ∀ c ∈ s, Space c → c = ' ') :
    ∀ k, (esc s).length ≤ k → Reader.decode b k (esc s) = some s := by
  induction s with
  | nil => intro k _; cases k <;> rfl
  | cons c s ih =>
    intro k hk
    have ih := ih (fun hb d hd => hs hb d (by simp [hd]))
    rw [esc_cons] at hk ⊢
    rcases escChar_cases c with ⟨d1, d2, h1, h2, h3, h4⟩ | ⟨h1, h2, _⟩
    · rw [h1] at hk ⊢
      cases k with
      | zero => simp at hk
      | succ k =>
        simp only [List.cons_append, List.nil_append, List.length_cons] at hk ⊢
        unfold Reader.decode
        rw [if_pos rfl]
        have e1 : (('#' :: d1 :: d2 :: ';' :: esc s).dropWhile fun d => decide (d ≠ ';')) =
            ';' :: esc s := by
          simp [List.dropWhile, h3, h4]
        have e2 : (('#' :: d1 :: d2 :: ';' :: esc s).takeWhile fun d => decide (d ≠ ';')) =
            ['#', d1, d2] := by
          simp [List.takeWhile, h3, h4]
        rw [e1, e2, h2]
        simp only [Option.bind_some]
        rw [ih k (by omega)]
        rfl
    · rw [h1] at hk ⊢
      cases k with
      | zero => simp at hk
      | succ k =>
        simp only [List.cons_append, List.nil_append, List.length_cons] at hk ⊢
        unfold Reader.decode
        rw [if_neg h2, ih k (by omega)]
        simp only [Option.map_some, Option.some.injEq, List.cons.injEq, and_true]
        split
        · rename_i hb
          exact (hs hb.1 c (by simp) hb.2).symm
        · rfl

/-! ## Names -/

theorem isQName_isName {s : Str} (h : IsQName s) : IsName s := by
  rcases h with h | ⟨p, l, rfl, ⟨⟨c, cs, rfl, h1, h2⟩, _⟩, ⟨⟨d, ds, rfl, h3, h4⟩, _⟩⟩
  · exact h.1
  · refine ⟨c, cs ++ ':' :: d :: ds, rfl, h1, ?_⟩
    intro x hx
    simp only [List.mem_append, List.mem_cons] at hx
    rcases hx with hx | hx | hx | hx
    · exact h2 x hx
    · subst hx; left; unfold NameStartChar; decide
    · subst hx; left; exact h3
    · exact h4 x hx

theorem takeWhile_append_stop {p : Char → Bool} {a : Str} {c : Char} {t : Str}
    (ha : ∀ d ∈ a, p d = true) (hc : p c = false) :
    (a ++ c :: t).takeWhile p = a ∧ (a ++ c :: t).dropWhile p = c :: t := by
  induction a with
  | nil => simp [hc]
  | cons d ds ih =>
    obtain ⟨h1, h2⟩ := ih (fun x hx => ha x (by simp [hx]))
    have hd := ha d (by simp)
    simp [hd, h1, h2]

theorem takeWhile_all {p : Char → Bool} {a : Str} (ha : ∀ d ∈ a, p d = true) :
    a.takeWhile p = a ∧ a.dropWhile p = [] := by
  induction a with
  | nil => simp
  | cons d ds ih =>
    obtain ⟨h1, h2⟩ := ih (fun x hx => ha x (by simp [hx]))
    have hd := ha d (by simp)
    simp [hd, h1, h2]

theorem name_append {n : Str} (hn : IsName n) {c : Char} (hc : ¬ NameChar c) (t : Str) :
    Reader.name (n ++ c :: t) = some (n, c :: t) := by
  obtain ⟨d, ds, rfl, h1, h2⟩ := hn
  obtain ⟨e1, e2⟩ := takeWhile_append_stop (p := fun d => decide (NameChar d)) (t := t)
    (fun x hx => decide_eq_true (h2 x hx)) (decide_eq_false hc)
  show Reader.name (d :: (ds ++ c :: t)) = _
  unfold Reader.name
  simp only
  rw [if_pos h1, e1, e2]

theorem not_nameChar : ¬ NameChar ' ' ∧ ¬ NameChar '>' ∧ ¬ NameChar '=' := by decide

theorem nameStart_ne {c : Char} (h : NameStartChar c) :
    c ≠ '/' ∧ c ≠ '>' ∧ ¬ Space c := by
  refine ⟨?_, ?_, ?_⟩
  · rintro rfl; revert h; decide
  · rintro rfl; revert h; decide
  · intro hs
    have : ∀ n ∈ [(0x20, 0x20), (0x9, 0x9), (0xD, 0xD), (0xA, 0xA)],
        ∀ r ∈ (0x3A, 0x3A) :: nameStartRanges, n.2 < r.1 := by decide
    obtain ⟨n, hn, _, h2⟩ := hs
    obtain ⟨r, hr, h3, _⟩ := h
    exact absurd (Nat.le_trans h3 h2) (Nat.not_le.mpr (this n hn r hr))

theorem skip_cons {c : Char} (h : ¬ Space c) (t : Str) : Reader.skip (c :: t) = c :: t := by
  unfold Reader.skip
  rw [List.dropWhile_cons_of_neg (by simpa using h)]

theorem skip_space {c : Char} (h : Space c) (t : Str) : Reader.skip (c :: t) = Reader.skip t := by
  unfold Reader.skip
  rw [List.dropWhile_cons_of_pos (by simpa using h)]

/-! ## Tags -/

/-- An attribute that is read back unchanged. -/
def AttrKept (a : Str × Str) : Prop := IsQName a.1 ∧ ∀ c ∈ a.2, Space c → c = ' '

theorem attributes_print (as : List (Str × Str)) (ha : ∀ a ∈ as, AttrKept a) (r : Str) :
    ∀ k, as.length + 1 ≤ k →
      Reader.attributes k (printAttrs as ++ '>' :: r) = some (as, false, r) := by
  induction as with
  | nil =>
    intro k hk
    cases k with
    | zero => omega
    | succ k =>
      show Reader.attributes (k + 1) ('>' :: r) = _
      unfold Reader.attributes
      rw [skip_cons (by decide)]
      rfl
  | cons a as ih =>
    intro k hk
    cases k with
    | zero => omega
    | succ k =>
      obtain ⟨n, v⟩ := a
      obtain ⟨hq, hv⟩ := ha (n, v) (by simp)
      replace hq : IsQName n := hq
      replace hv : ∀ c ∈ v, Space c → c = ' ' := hv
      simp only [List.length_cons] at hk
      have ih := ih (fun b hb => ha b (by simp [hb])) k (by omega)
      have hprint : printAttrs ((n, v) :: as) ++ '>' :: r =
          ' ' :: (n ++ '=' :: '"' :: (esc v ++ '"' :: (printAttrs as ++ '>' :: r))) := by
        simp [printAttrs, printAttr, quoted]
      rw [hprint]
      have hname := name_append (isQName_isName hq) not_nameChar.2.2
        ('"' :: (esc v ++ '"' :: (printAttrs as ++ '>' :: r)))
      generalize hX : esc v ++ '"' :: (printAttrs as ++ '>' :: r) = X at hname ⊢
      obtain ⟨d, ds, hnd, h1, _⟩ := isQName_isName hq
      obtain ⟨n1, n2, n3⟩ := nameStart_ne h1
      have hskip : Reader.skip (' ' :: (n ++ '=' :: '"' :: X)) = d :: (ds ++ '=' :: '"' :: X) := by
        rw [skip_space (by decide), hnd, List.cons_append, skip_cons n3]
      have hlen : (n ++ '=' :: '"' :: X) = d :: (ds ++ '=' :: '"' :: X) := by
        rw [hnd, List.cons_append]
      unfold Reader.attributes
      rw [hskip]
      split
      · rename_i heq; exact absurd (List.cons.inj heq).1 n2
      · rename_i heq; exact absurd (List.cons.inj heq).1 n1
      · rw [← hlen, if_neg (by simp), hname]
        simp only [Option.bind_some]
        rw [skip_cons (by decide)]
        simp only
        rw [skip_cons (by decide)]
        simp only [true_or, if_true]
        obtain ⟨e1, e2⟩ := takeWhile_append_stop (p := fun d => decide (d ≠ '"'))
          (a := esc v) (c := '"') (t := printAttrs as ++ '>' :: r)
          (fun x hx => decide_eq_true (by
            rintro rfl; exact esc_notMem v (Or.inr (Or.inr (Or.inl rfl))) hx)) (by decide)
        rw [← hX, e1, e2]
        simp only
        rw [if_neg (esc_notMem v (Or.inl rfl)), decode_esc true v (fun _ => hv) _ (Nat.le_refl _)]
        simp only [Option.bind_some]
        rw [ih]
        rfl

theorem endTag_print {n : Str} (hn : IsQName n) (t : Str) :
    Reader.endTag n ('<' :: '/' :: (n ++ '>' :: t)) = some t := by
  unfold Reader.endTag
  simp only
  rw [name_append (isQName_isName hn) not_nameChar.2.1]
  simp only [Option.bind_some]
  rw [skip_cons (by decide)]
  simp

/-! ## Trees -/

namespace Spec.Xml

/-- No text first. -/
def NoText : Xml → Prop
  | .leaf (.text _) _ => False
  | _ => True

/-- A comment, CDATA section or processing instruction. -/
def _root_.XmlDom.Spec.Leaf.Marked : Leaf → Prop
  | .comment _ => True
  | .cdata _ => True
  | .pi _ _ => True
  | _ => False

/-- Simple, with texts that are neither empty nor adjacent. -/
def Normal : Xml → Prop
  | .nil => True
  | .leaf l rest => ((∃ s, s ≠ [] ∧ l = .text s) ∧ rest.NoText ∨ l.Marked) ∧ Normal rest
  | .element _ _ kids rest => Normal kids ∧ Normal rest
  | _ => False

/-- The number of nodes. -/
def size : Xml → Nat
  | .nil => 0
  | .leaf _ rest => 1 + size rest
  | .element _ _ kids rest => 1 + size kids + size rest
  | _ => 0

end Spec.Xml

theorem marked_start {l : Spec.Leaf} (hl : l.Marked) (t : Str) : ∃ u, l.print ++ t = '<' :: u := by
  cases l with
  | comment s => exact ⟨_, by simp only [Spec.Leaf.print, List.cons_append]; rfl⟩
  | cdata s => exact ⟨_, by simp only [Spec.Leaf.print, List.cons_append]; rfl⟩
  | pi t d =>
    cases d with
    | none => exact ⟨_, by simp only [Spec.Leaf.print, List.cons_append]; rfl⟩
    | some d => exact ⟨_, by simp only [Spec.Leaf.print, List.cons_append]; rfl⟩
  | _ => exact hl.elim

theorem print_normal_start {y : Xml} (hy : y.Normal) (hn : y.NoText) (tail : Str)
    (ht : tail = [] ∨ ∃ t, tail = '<' :: '/' :: t) :
    y.print ++ tail = [] ∨ ∃ t, y.print ++ tail = '<' :: t := by
  cases y with
  | nil =>
    rcases ht with rfl | ⟨t, rfl⟩
    · left; rfl
    · right; exact ⟨_, rfl⟩
  | leaf l rest =>
    obtain ⟨h1, _⟩ := hy
    rcases h1 with ⟨⟨s, _, rfl⟩, _⟩ | h1
    · exact hn.elim
    · right
      obtain ⟨u, hu⟩ := marked_start h1 (rest.print ++ tail)
      exact ⟨u, by rw [← hu]; simp [Xml.print]⟩
  | element n as k r => right; exact ⟨_, by simp only [Xml.print, List.cons_append]; rfl⟩
  | docType _ _ _ _ _ _ => exact hy.elim
  | document _ _ _ _ => exact hy.elim
  | fragment _ _ _ => exact hy.elim

theorem esc_ne_nil {s : Str} (h : s ≠ []) : ∃ c t, esc s = c :: t ∧ c ≠ '<' := by
  cases s with
  | nil => exact absurd rfl h
  | cons c s =>
    rw [esc_cons]
    rcases escChar_cases c with ⟨d1, d2, h1, _⟩ | ⟨h1, _, h2⟩
    · exact ⟨'&', _, by rw [h1]; rfl, by decide⟩
    · exact ⟨c, _, by rw [h1]; rfl, h2⟩

theorem length_printAttrs (as : List (Str × Str)) : as.length ≤ (printAttrs as).length := by
  induction as with
  | nil => simp
  | cons a as ih =>
    have e : printAttrs (a :: as) = ' ' :: (printAttr a ++ printAttrs as) := by simp [printAttrs]
    rw [e]
    simp only [List.length_append, List.length_cons]
    omega

/-! ## Comments, CDATA sections and processing instructions -/

theorem cut_append {p a t : Str} (hp : p ≠ []) (hin : ¬ p <:+: a)
    (hov : ∀ q, q ≠ [] → q.length < p.length → q <+: p → q <:+ a → ¬ p <+: q ++ (p ++ t)) :
    Reader.cut p (a ++ (p ++ t)) = some (a, t) := by
  induction a with
  | nil =>
    cases p with
    | nil => exact absurd rfl hp
    | cons c p =>
      show Reader.cut (c :: p) (c :: (p ++ t)) = _
      unfold Reader.cut
      rw [if_pos (by rw [List.isPrefixOf_iff_prefix]; exact ⟨t, rfl⟩)]
      simp
  | cons c a ih =>
    have ih := ih (fun hi => hin (hi.trans (List.suffix_cons c a).isInfix))
      (fun q h1 h2 h3 h4 => hov q h1 h2 h3 (h4.trans (List.suffix_cons c a)))
    show Reader.cut p (c :: (a ++ (p ++ t))) = _
    unfold Reader.cut
    rw [if_neg, ih]
    · rfl
    · rw [List.isPrefixOf_iff_prefix]
      intro hpre
      replace hpre : p <+: (c :: a) ++ (p ++ t) := hpre
      by_cases hlen : p.length ≤ (c :: a).length
      · exact hin ((List.prefix_of_prefix_length_le hpre (List.prefix_append _ _) hlen).isInfix)
      · have hlen : (c :: a).length < p.length := by omega
        have h3 : (c :: a) <+: p :=
          List.prefix_of_prefix_length_le (List.prefix_append _ _) hpre (by omega)
        exact hov (c :: a) (by simp) hlen h3 List.suffix_rfl hpre

theorem infix_esc {s : Str} (h : ¬ (c! "--") <:+: s) : ¬ (c! "--") <:+: esc s := by
  induction s with
  | nil => exact h
  | cons c s ih =>
    have h1 : ¬ (c! "--") <:+: s := fun hi => h (hi.trans (List.suffix_cons c s).isInfix)
    have ih := ih h1
    rw [esc_cons]
    rcases escChar_cases c with ⟨d1, d2, e1, e2, _⟩ | ⟨e1, _⟩
    · have hd : d1 ≠ '-' ∧ d2 ≠ '-' := by
        constructor
        · rintro rfl
          unfold escChar at e1
          split at e1
          · cases e1
          split at e1
          · cases e1
          split at e1
          · cases e1
          split at e1
          · cases e1
          split at e1
          · cases e1
          · cases e1
        · rintro rfl
          unfold escChar at e1
          split at e1
          · cases e1
          split at e1
          · cases e1
          split at e1
          · cases e1
          split at e1
          · cases e1
          split at e1
          · cases e1
          · cases e1
      rw [e1]
      intro hi
      simp only [List.cons_append, List.nil_append, List.infix_cons_iff, List.cons_prefix_cons] at hi
      simp [hd.1.symm, hd.2.symm, ih] at hi
    · rw [e1]
      intro hi
      simp only [List.cons_append, List.nil_append, List.infix_cons_iff] at hi
      rcases hi with hi | hi
      · simp only [List.cons_prefix_cons] at hi
        obtain ⟨rfl, hi⟩ := hi
        cases s with
        | nil => simp [esc] at hi
        | cons d s =>
          rw [esc_cons] at hi
          rcases escChar_cases d with ⟨d1, d2, e1, e2, _⟩ | ⟨e1, _⟩
          · rw [e1] at hi; simp at hi
          · rw [e1] at hi
            simp only [List.cons_append, List.cons_prefix_cons] at hi
            obtain ⟨rfl, _⟩ := hi
            exact h ⟨[], s, rfl⟩
      · exact ih hi

theorem getLast_esc {s : Str} (h : s.getLast? ≠ some '-') : (esc s).getLast? ≠ some '-' := by
  rcases List.eq_nil_or_concat s with rfl | ⟨a, c, rfl⟩
  · simp [esc]
  · have hc : c ≠ '-' := by simpa using h
    rw [List.concat_eq_append, esc_append, esc_cons]
    rcases escChar_cases c with ⟨d1, d2, e1, _⟩ | ⟨e1, _⟩
    · rw [e1]; simp [esc]
    · rw [e1]; simpa [esc] using hc

theorem short_prefix {q p : Str} (h1 : q ≠ []) (h2 : q.length < p.length) (h3 : q <+: p) :
    ∃ c, c ∈ p ∧ q.getLast? = some c := by
  rcases List.eq_nil_or_concat q with rfl | ⟨a, c, rfl⟩
  · exact absurd rfl h1
  · exact ⟨c, h3.subset (by simp), by simp⟩

theorem getLast_suffix {q a : Str} (h1 : q ≠ []) (h : q <:+ a) : a.getLast? = q.getLast? := by
  obtain ⟨b, rfl⟩ := h
  rw [List.getLast?_append]
  cases hq : q.getLast? with
  | none => exact absurd (List.getLast?_eq_none_iff.mp hq) h1
  | some c => rfl

theorem comment_print {s : Str} (h1 : ¬ (c! "--") <:+: s) (h2 : s.getLast? ≠ some '-') (t : Str) :
    Reader.comment (esc s ++ (c! "-->" ++ t)) = some (esc s, t) := by
  have : Reader.cut (c! "--") (esc s ++ (c! "--" ++ '>' :: t)) = some (esc s, '>' :: t) := by
    refine cut_append (by decide) (infix_esc h1) ?_
    intro q q1 q2 q3 q4
    obtain ⟨c, hc, hl⟩ := short_prefix q1 q2 q3
    rw [← getLast_suffix q1 q4] at hl
    have hc : c = '-' := by simpa using hc
    subst hc
    exact absurd hl (getLast_esc h2)
  unfold Reader.comment
  rw [show (c! "-->") ++ t = (c! "--") ++ '>' :: t from rfl, this]
  rfl

theorem cdata_print {s : Str} (h1 : ¬ (c! "]]>") <:+: s) (t : Str) :
    Reader.cut (c! "]]>") (' ' :: (s ++ [' ']) ++ (c! "]]>" ++ t)) =
      some (' ' :: (s ++ [' ']), t) := by
  refine cut_append (by decide) ?_ ?_
  · intro hi
    rw [List.infix_cons_iff] at hi
    rcases hi with hi | hi
    · simp at hi
    · rw [List.infix_concat_iff] at hi
      rcases hi with hi | hi
      · obtain ⟨b, hb⟩ := hi
        have := congrArg List.getLast? hb
        simp at this
      · exact h1 hi
  · intro q q1 q2 q3 q4
    obtain ⟨c, hc, hl⟩ := short_prefix q1 q2 q3
    rw [← getLast_suffix q1 q4, List.cons_append.symm, List.getLast?_append] at hl
    simp at hl
    subst hl
    simp at hc

theorem pi_cut {d : Str} (h1 : ¬ (c! "?>") <:+: d) (t : Str) :
    Reader.cut (c! "?>") (d ++ (c! "?>" ++ t)) = some (d, t) := by
  refine cut_append (by decide) h1 ?_
  intro q q1 q2 q3 _ h4
  have hq : q = ['?'] := by
    obtain ⟨b, hb⟩ := q3
    cases q with
    | nil => exact absurd rfl q1
    | cons c q =>
      cases q with
      | nil => cases hb; rfl
      | cons _ _ => simp at q2; omega
  subst hq
  simp [List.cons_prefix_cons] at h4

theorem instruction_print {n : Str} (hn : IsQName n) (hres : Reader.reserved n = false)
    {d : Option Str} (hd : ∀ x, d = some x → ¬ (c! "?>") <:+: x) (t : Str) :
    Reader.instruction ((Spec.Leaf.pi n d).print.drop 2 ++ t) =
      some (match (Spec.Leaf.pi n d).asRead with
        | .pi a b => (a, b, t)
        | _ => (n, d, t)) := by
  cases d with
  | none =>
    have e : (Spec.Leaf.pi n none).print.drop 2 ++ t = n ++ '?' :: '>' :: t := by
      simp [Spec.Leaf.print]
    rw [e]
    unfold Reader.instruction
    rw [name_append (isQName_isName hn) (by decide)]
    simp only [Option.bind_some]
    rw [if_neg (by simp [hres]), show '?' :: '>' :: t = [] ++ ((c! "?>") ++ t) from rfl,
      pi_cut (by decide)]
    rfl
  | some d =>
    have e : (Spec.Leaf.pi n (some d)).print.drop 2 ++ t = n ++ ' ' :: (d ++ ((c! "?>") ++ t)) := by
      simp [Spec.Leaf.print]
    rw [e]
    unfold Reader.instruction
    rw [name_append (isQName_isName hn) not_nameChar.1]
    simp only [Option.bind_some]
    have hin : ¬ (c! "?>") <:+: ' ' :: d := by
      intro hi
      rw [List.infix_cons_iff] at hi
      rcases hi with hi | hi
      · simp at hi
      · exact hd d rfl hi
    rw [if_neg (by simp [hres]), show ' ' :: (d ++ ((c! "?>") ++ t)) = (' ' :: d) ++ ((c! "?>") ++ t) from rfl,
      pi_cut hin]
    simp only [Option.bind_some]
    rw [if_pos (by decide)]
    rfl

/-- The targets of processing instructions are not reserved. -/
def TargetsOk (x : Xml) : Prop := x.Leaves fun l => ∀ t d, l = .pi t d → Reader.reserved t = false

theorem content_print {y : Xml} (hy : y.Normal) (hn : y.NamesOk) (htg : TargetsOk y)
    (hw : y.Leaves Spec.Leaf.Writable)
    (ha : y.AttrLists fun as => (∀ a ∈ as, AttrKept a) ∧ (as.map (·.1)).Nodup) (tail : Str)
    (ht : tail = [] ∨ ∃ t, tail = '<' :: '/' :: t) :
    ∀ k, y.size + 1 ≤ k →
      Reader.content k (y.print ++ tail) = some (y.mapLeaves Spec.Leaf.asRead, tail) := by
  induction y generalizing tail with
  | nil =>
    intro k hk
    cases k with
    | zero => omega
    | succ k =>
      rcases ht with rfl | ⟨t, rfl⟩
      · rfl
      · show Reader.content (k + 1) ('<' :: '/' :: t) = _
        unfold Reader.content
        simp [Xml.mapLeaves]
  | leaf l rest ih =>
    intro k hk
    obtain ⟨hl, h2⟩ := hy
    simp only [Xml.size] at hk
    cases k with
    | zero => omega
    | succ k =>
      have ih := ih h2 hn.2 htg.2 hw.2 ha tail ht k (by omega)
      rcases hl with ⟨⟨s, hs, rfl⟩, h1⟩ | hl
      · have hstart := print_normal_start h2 h1 tail ht
        have hp : (Xml.leaf (.text s) rest).print ++ tail = esc s ++ (rest.print ++ tail) := by
          simp [Xml.print, Spec.Leaf.print]
        rw [hp]
        obtain ⟨c, t, hct, hc⟩ := esc_ne_nil hs
        have hmem : ∀ d ∈ esc s, decide (d ≠ '<') = true := fun x hx => decide_eq_true (by
          rintro rfl; exact esc_notMem s (Or.inl rfl) hx)
        have htd : (esc s ++ (rest.print ++ tail)).takeWhile (fun d => decide (d ≠ '<')) = esc s ∧
            (esc s ++ (rest.print ++ tail)).dropWhile (fun d => decide (d ≠ '<')) =
              rest.print ++ tail := by
          rcases hstart with h0 | ⟨t', h0⟩
          · rw [h0, List.append_nil]
            exact takeWhile_all hmem
          · rw [h0]
            exact takeWhile_append_stop hmem (by decide)
        have hcons : esc s ++ (rest.print ++ tail) = c :: (t ++ (rest.print ++ tail)) := by
          rw [hct, List.cons_append]
        rw [hcons] at htd ⊢
        unfold Reader.content
        rw [if_neg hc]
        simp only
        rw [htd.1, htd.2]
        have hinf : ¬ (c! "]]>") <:+: esc s := by
          rintro ⟨a, b, hab⟩
          exact esc_notMem s (c := '>') (Or.inr (Or.inl rfl)) (by rw [← hab]; simp)
        rw [if_neg hinf, decode_esc false s (fun h => by cases h) _ (Nat.le_refl _)]
        simp only [Option.bind_some]
        rw [ih]
        rfl
      · cases l with
        | comment s =>
          have hp : (Xml.leaf (.comment s) rest).print ++ tail =
              '<' :: ((c! "!--") ++ (esc s ++ ((c! "-->") ++ (rest.print ++ tail)))) := by
            simp [Xml.print, Spec.Leaf.print]
          rw [hp]
          unfold Reader.content
          rw [if_pos rfl, if_neg (by simp), if_pos (by simp [List.isPrefixOf])]
          rw [show ((c! "!--") ++ (esc s ++ ((c! "-->") ++ (rest.print ++ tail)))).drop 3 =
            esc s ++ ((c! "-->") ++ (rest.print ++ tail)) from rfl,
            comment_print hw.1.2.1 hw.1.2.2]
          simp only [Option.bind_some]
          rw [ih]
          rfl
        | cdata s =>
          have hp : (Xml.leaf (.cdata s) rest).print ++ tail =
              '<' :: ((c! "![CDATA[") ++ (' ' :: (s ++ [' ']) ++ ((c! "]]>") ++ (rest.print ++ tail)))) := by
            simp [Xml.print, Spec.Leaf.print]
          rw [hp]
          unfold Reader.content
          rw [if_pos rfl, if_neg (by simp), if_neg (by simp [List.isPrefixOf]),
            if_pos (by simp [List.isPrefixOf])]
          rw [show ((c! "![CDATA[") ++ (' ' :: (s ++ [' ']) ++ ((c! "]]>") ++ (rest.print ++ tail)))).drop 8 =
            ' ' :: (s ++ [' ']) ++ ((c! "]]>") ++ (rest.print ++ tail)) from rfl,
            cdata_print hw.1.2]
          simp only [Option.bind_some]
          rw [ih]
          rfl
        | pi t d =>
          have hp : (Xml.leaf (.pi t d) rest).print ++ tail =
              '<' :: '?' :: ((Spec.Leaf.pi t d).print.drop 2 ++ (rest.print ++ tail)) := by
            cases d <;> simp [Xml.print, Spec.Leaf.print]
          rw [hp]
          unfold Reader.content
          rw [if_pos rfl, if_neg (by simp), if_neg (by simp [List.isPrefixOf]),
            if_neg (by simp [List.isPrefixOf]), if_pos (by simp)]
          rw [List.drop_one, List.tail_cons, instruction_print hn.1 (htg.1 t d rfl)]
          · cases d with
            | none =>
              simp only [Option.bind_some, Spec.Leaf.asRead]
              rw [ih]
              rfl
            | some d =>
              simp only [Option.bind_some, Spec.Leaf.asRead]
              rw [ih]
              rfl
          · rintro x rfl
            exact hw.1.2
        | _ => exact hl.elim
  | element n as kids rest ihk ihr =>
    intro k hk
    obtain ⟨hk1, hr1⟩ := hy
    obtain ⟨htk, htr⟩ := htg
    obtain ⟨hwk, hwr⟩ := hw
    obtain ⟨hq, _, hnk, hnr⟩ := hn
    obtain ⟨⟨ha1, ha2⟩, hak, har⟩ := ha
    simp only [Xml.size] at hk
    cases k with
    | zero => omega
    | succ k =>
      have hp : (Xml.element n as kids rest).print ++ tail =
          '<' :: (n ++ (printAttrs as ++ '>' :: (kids.print ++ ('<' :: '/' :: (n ++ '>' ::
            (rest.print ++ tail)))))) := by
        simp [Xml.print]
      rw [hp]
      have ihk := ihk hk1 hnk htk hwk hak ('<' :: '/' :: (n ++ '>' :: (rest.print ++ tail)))
        (Or.inr ⟨_, rfl⟩) k (by omega)
      have ihr := ihr hr1 hnr htr hwr har tail ht k (by omega)
      have hat := attributes_print as ha1
        (kids.print ++ ('<' :: '/' :: (n ++ '>' :: (rest.print ++ tail))))
      generalize hK : kids.print ++ ('<' :: '/' :: (n ++ '>' :: (rest.print ++ tail))) = K at *
      have hname : Reader.name (n ++ (printAttrs as ++ '>' :: K)) =
          some (n, printAttrs as ++ '>' :: K) := by
        cases as with
        | nil => exact name_append (isQName_isName hq) not_nameChar.2.1 _
        | cons a as =>
          have : printAttrs (a :: as) ++ '>' :: K =
              ' ' :: (printAttr a ++ (printAttrs as ++ '>' :: K)) := by
            simp [printAttrs]
          rw [this]
          exact name_append (isQName_isName hq) not_nameChar.1 _
      have hlen : as.length + 1 ≤ (printAttrs as ++ '>' :: K).length + 1 := by
        have := length_printAttrs as
        rw [List.length_append]
        omega
      have hhead : ∀ c, c = '/' ∨ c = '!' ∨ c = '?' →
          (n ++ (printAttrs as ++ '>' :: K)).head? ≠ some c := by
        obtain ⟨d, ds, rfl, h1, _⟩ := isQName_isName hq
        intro c hc h'
        simp only [List.cons_append, List.head?_cons, Option.some.injEq] at h'
        subst h'
        rcases hc with rfl | rfl | rfl <;> exact absurd h1 (by decide)
      have hpre : ∀ p : Str, p.head? = some '!' →
          ¬ p.isPrefixOf (n ++ (printAttrs as ++ '>' :: K)) = true := by
        intro p hp h'
        rw [List.isPrefixOf_iff_prefix] at h'
        obtain ⟨b, hb⟩ := h'
        refine hhead '!' (by simp) ?_
        rw [← hb, List.head?_append, hp]
        rfl
      unfold Reader.content
      rw [if_pos rfl, if_neg (hhead _ (by simp)), if_neg (hpre _ rfl), if_neg (hpre _ rfl),
        if_neg (hhead _ (by simp)), hname]
      simp only [Option.bind_some]
      rw [hat _ hlen]
      simp only [Option.bind_some]
      rw [if_pos ha2, if_neg (by simp), ihk]
      simp only [Option.bind_some]
      rw [endTag_print hq]
      simp only [Option.bind_some]
      rw [ihr]
      rfl
  | docType _ _ _ _ _ _ _ _ => exact hy.elim
  | document _ _ _ _ _ _ _ => exact hy.elim
  | fragment _ _ _ _ _ => exact hy.elim

/-! ## Merging -/

theorem merge_text_nil (rest : Xml) : (Xml.leaf (.text []) rest).merge = rest.merge := by
  rw [Xml.merge]

theorem merge_text {s : Str} (hs : s ≠ []) (rest : Xml) :
    (∃ t r, rest.merge = .leaf (.text t) r ∧
      (Xml.leaf (.text s) rest).merge = .leaf (.text (s ++ t)) r) ∨
    ((∀ t r, rest.merge ≠ .leaf (.text t) r) ∧
      (Xml.leaf (.text s) rest).merge = .leaf (.text s) rest.merge) := by
  have key : (Xml.leaf (.text s) rest).merge = match rest.merge with
      | .leaf (.text t) r => .leaf (.text (s ++ t)) r
      | r => .leaf (.text s) r := by
    cases s with
    | nil => exact absurd rfl hs
    | cons c s =>
      rw [Xml.merge]
      · rfl
      · intro h; cases h
  rw [key]
  split
  · rename_i t r h; exact Or.inl ⟨t, r, h, rfl⟩
  · rename_i h; exact Or.inr ⟨fun t r h' => h t r h', rfl⟩

theorem merge_marked {l : Spec.Leaf} (hl : l.Marked) (rest : Xml) :
    (Xml.leaf l rest).merge = .leaf l rest.merge := by
  cases l with
  | comment _ => rw [Xml.merge] <;> simp
  | cdata _ => rw [Xml.merge] <;> simp
  | pi _ _ => rw [Xml.merge] <;> simp
  | _ => exact hl.elim

theorem merge_blank (rest : Xml) : (Xml.leaf .blank rest).merge = rest.merge := by rw [Xml.merge]

theorem merge_element (n : Str) (as : List (Str × Str)) (kids rest : Xml) :
    (Xml.element n as kids rest).merge = .element n as kids.merge rest.merge := by rw [Xml.merge]

theorem simple_leaf {l : Spec.Leaf} {rest : Xml} (h : (Xml.leaf l rest).Simple) :
    (l = .blank ∨ (∃ s, l = .text s) ∨ l.Marked) ∧ rest.Simple := by
  refine ⟨?_, h.2⟩
  have h := h.1
  cases l with
  | blank => simp
  | text s => simp
  | comment _ => exact Or.inr (Or.inr trivial)
  | cdata _ => exact Or.inr (Or.inr trivial)
  | pi _ _ => exact Or.inr (Or.inr trivial)
  | _ => exact h.elim

/-- Induction along the joining of texts. -/
theorem merge_induction {P : Xml → Xml → Prop} (hnil : P .nil .nil)
    (hblank : ∀ r, P r r.merge → P (.leaf .blank r) r.merge)
    (hempty : ∀ r, P r r.merge → P (.leaf (.text []) r) r.merge)
    (hjoin : ∀ s t r m, s ≠ [] → r.merge = .leaf (.text t) m → P r (.leaf (.text t) m) →
      P (.leaf (.text s) r) (.leaf (.text (s ++ t)) m))
    (hkeep : ∀ s r, s ≠ [] → (∀ t m, r.merge ≠ .leaf (.text t) m) → P r r.merge →
      P (.leaf (.text s) r) (.leaf (.text s) r.merge))
    (hmark : ∀ l r, Spec.Leaf.Marked l → P r r.merge → P (.leaf l r) (.leaf l r.merge))
    (helem : ∀ n as k r, P k k.merge → P r r.merge →
      P (.element n as k r) (.element n as k.merge r.merge))
    (x : Xml) (hp : x.Simple) : P x x.merge := by
  induction x with
  | nil => rw [Xml.merge]; exact hnil
  | leaf l rest ih =>
    obtain ⟨h1, h2⟩ := simple_leaf hp
    have ih := ih h2
    rcases h1 with rfl | ⟨s, rfl⟩ | h1
    · rw [merge_blank]; exact hblank _ ih
    · by_cases hs : s = []
      · subst hs
        rw [merge_text_nil]; exact hempty _ ih
      · rcases merge_text hs rest with ⟨t, r, e1, e2⟩ | ⟨e1, e2⟩
        · rw [e2]; exact hjoin _ _ _ _ hs e1 (e1 ▸ ih)
        · rw [e2]; exact hkeep _ _ hs e1 ih
    · rw [merge_marked h1]; exact hmark _ _ h1 ih
  | element n as kids rest ihk ihr =>
    rw [merge_element]; exact helem _ _ _ _ (ihk hp.1) (ihr hp.2)
  | docType _ _ _ _ _ _ _ _ => exact hp.elim
  | document _ _ _ _ _ _ _ => exact hp.elim
  | fragment _ _ _ _ _ => exact hp.elim

theorem merge_print (x : Xml) (hp : x.Simple) : x.merge.print = x.print := by
  refine merge_induction (P := fun x y => y.print = x.print) rfl ?_ ?_ ?_ ?_ ?_ ?_ x hp
  · intro r h; exact h
  · intro r h; exact h
  · intro s t r m _ _ h
    simp only [Xml.print, Spec.Leaf.print, esc_append, List.append_assoc] at h ⊢
    rw [h]
  · intro s r _ _ h; simp only [Xml.print]; rw [h]
  · intro l r _ h; simp only [Xml.print]; rw [h]
  · intro n as k r hk hr; simp only [Xml.print]; rw [hk, hr]

theorem merge_normal (x : Xml) (hp : x.Simple) : x.merge.Normal := by
  refine merge_induction (P := fun _ y => y.Normal) trivial ?_ ?_ ?_ ?_ ?_ ?_ x hp
  · intro r h; exact h
  · intro r h; exact h
  · intro s t r m hs _ h
    obtain ⟨h1 | h1, h2⟩ := h
    · exact ⟨Or.inl ⟨⟨s ++ t, by simp [hs], rfl⟩, h1.2⟩, h2⟩
    · exact h1.elim
  · intro s r hs hno h
    refine ⟨Or.inl ⟨⟨s, hs, rfl⟩, ?_⟩, h⟩
    cases hm : r.merge with
    | leaf l m =>
      cases l with
      | text t => exact absurd hm (hno t m)
      | _ => trivial
    | _ => trivial
  · intro l r hl h; exact ⟨Or.inr hl, h⟩
  · intro n as k r hk hr; exact ⟨hk, hr⟩

theorem merge_namesOk (x : Xml) (hp : x.Simple) : x.NamesOk → x.merge.NamesOk := by
  refine merge_induction (P := fun x y => x.NamesOk → y.NamesOk) id ?_ ?_ ?_ ?_ ?_ ?_ x hp
  · intro r h hn; exact h hn.2
  · intro r h hn; exact h hn.2
  · intro s t r m _ _ h hn; exact ⟨trivial, (h hn.2).2⟩
  · intro s r _ _ h hn; exact ⟨trivial, h hn.2⟩
  · intro l r _ h hn; exact ⟨hn.1, h hn.2⟩
  · intro n as k r hk hr hn; exact ⟨hn.1, hn.2.1, hk hn.2.2.1, hr hn.2.2.2⟩

theorem merge_attrLists (p : List (Str × Str) → Prop) (x : Xml) (hp : x.Simple) :
    x.AttrLists p → x.merge.AttrLists p := by
  refine merge_induction (P := fun x y => x.AttrLists p → y.AttrLists p) id ?_ ?_ ?_ ?_ ?_ ?_ x hp
  · intro r h hn; exact h hn
  · intro r h hn; exact h hn
  · intro s t r m _ _ h hn; exact h hn
  · intro s r _ _ h hn; exact h hn
  · intro l r _ h hn; exact h hn
  · intro n as k r hk hr hn; exact ⟨hn.1, hk hn.2.1, hr hn.2.2⟩

/-- A condition on leaves that joined texts keep. -/
theorem merge_leaves (p : Spec.Leaf → Prop) (hj : ∀ s t, p (.text s) → p (.text t) → p (.text (s ++ t)))
    (x : Xml) (hp : x.Simple) : x.Leaves p → x.merge.Leaves p := by
  refine merge_induction (P := fun x y => x.Leaves p → y.Leaves p) id ?_ ?_ ?_ ?_ ?_ ?_ x hp
  · intro r h hn; exact h hn.2
  · intro r h hn; exact h hn.2
  · intro s t r m _ _ h hn; exact ⟨hj _ _ hn.1 (h hn.2).1, (h hn.2).2⟩
  · intro s r _ _ h hn; exact ⟨hn.1, h hn.2⟩
  · intro l r _ h hn; exact ⟨hn.1, h hn.2⟩
  · intro n as k r hk hr hn; exact ⟨hk hn.1, hr hn.2⟩

theorem size_le_print (y : Xml) (hy : y.Normal) : y.size ≤ y.print.length := by
  induction y with
  | nil => simp [Xml.size]
  | leaf l rest ih =>
    have := ih hy.2
    rcases hy.1 with ⟨⟨s, hs, rfl⟩, _⟩ | hl
    · obtain ⟨c, t, hct, _⟩ := esc_ne_nil hs
      simp only [Xml.size, Xml.print, Spec.Leaf.print, List.length_append, hct, List.length_cons]
      omega
    · obtain ⟨u, hu⟩ := marked_start hl []
      rw [List.append_nil] at hu
      simp only [Xml.size, Xml.print, List.length_append, hu, List.length_cons]
      omega
  | element n as kids rest ihk ihr =>
    have h1 := ihk hy.1
    have h2 := ihr hy.2
    simp only [Xml.size, Xml.print, List.length_append, List.length_cons]
    omega
  | docType _ _ _ _ _ _ _ _ => exact hy.elim
  | document _ _ _ _ _ _ _ => exact hy.elim
  | fragment _ _ _ _ _ => exact hy.elim

/-! ## Characters of the output -/

theorem char10_of_name {n : Str} (hn : IsQName n) : ∀ c ∈ n, Char10 c ∧ c ≠ '\r' := by
  have step : ∀ t : List (Nat × Nat), (∀ r ∈ t, ∃ w ∈ [(0x20, 0xD7FF), (0xE000, 0xFFFD),
      (0x10000, 0x10FFFF)], w.1 ≤ r.1 ∧ r.2 ≤ w.2) → ∀ c, InRanges t c → Char10 c ∧ c ≠ '\r' := by
    rintro t ht c ⟨r, hr, h1, h2⟩
    obtain ⟨w, hw, h3, h4⟩ := ht r hr
    refine ⟨⟨w, ?_, Nat.le_trans h3 h1, Nat.le_trans h2 h4⟩, ?_⟩
    · simp only [List.mem_cons, List.not_mem_nil, or_false] at hw
      rcases hw with rfl | rfl | rfl <;> simp
    · rintro rfl
      have h5 : w.1 ≤ 13 := Nat.le_trans h3 h1
      simp only [List.mem_cons, List.not_mem_nil, or_false] at hw
      rcases hw with rfl | rfl | rfl <;> exact absurd h5 (by decide)
  have hstart : ∀ c, NameStartChar c → Char10 c ∧ c ≠ '\r' := step _ (by decide)
  have hextra := step nameExtraRanges (by decide)
  obtain ⟨d, ds, rfl, h1, h2⟩ := isQName_isName hn
  intro c hc
  rcases List.mem_cons.mp hc with rfl | hc
  · exact hstart c h1
  · rcases h2 c hc with h3 | h3
    · exact hstart c h3
    · exact hextra c h3

theorem mem_esc {s : Str} {c : Char} (h : c ∈ esc s) : c ∈ s ∨ (Char10 c ∧ c ≠ '\r') := by
  unfold esc at h
  obtain ⟨d, hd, hc⟩ := List.mem_flatMap.mp h
  unfold escChar at hc
  split at hc
  · right; exact (by decide : ∀ c ∈ _, Char10 c ∧ c ≠ '\r') c hc
  split at hc
  · right; exact (by decide : ∀ c ∈ _, Char10 c ∧ c ≠ '\r') c hc
  split at hc
  · right; exact (by decide : ∀ c ∈ _, Char10 c ∧ c ≠ '\r') c hc
  split at hc
  · right; exact (by decide : ∀ c ∈ _, Char10 c ∧ c ≠ '\r') c hc
  split at hc
  · right; exact (by decide : ∀ c ∈ _, Char10 c ∧ c ≠ '\r') c hc
  · left; rw [List.mem_singleton.mp hc]; exact hd

theorem mem_esc_of {s : Str} (hs : ∀ c ∈ s, Char10 c ∧ c ≠ '\r') :
    ∀ c ∈ esc s, Char10 c ∧ c ≠ '\r' := by
  intro c hc
  rcases mem_esc hc with h | h
  · exact hs c h
  · exact h

theorem leaf_chars {l : Spec.Leaf} (hl : l = .blank ∨ (∃ s, l = .text s) ∨ l.Marked)
    (hn : ∀ t d, l = .pi t d → IsQName t) (hw : l.Writable) : Clean l.print := by
  unfold Clean
  rcases hl with rfl | ⟨s, rfl⟩ | hl
  · intro c hc; cases hc
  · exact mem_esc_of hw
  · cases l with
    | comment s =>
      simp only [Spec.Leaf.print, List.forall_mem_append]
      exact ⟨⟨by decide, mem_esc_of hw.1⟩, by decide⟩
    | cdata s =>
      simp only [Spec.Leaf.print, List.forall_mem_append]
      exact ⟨⟨by decide, hw.1⟩, by decide⟩
    | pi t d =>
      have ht := char10_of_name (hn t d rfl)
      cases d with
      | none =>
        simp only [Spec.Leaf.print, List.forall_mem_append]
        exact ⟨⟨by decide, ht⟩, by decide⟩
      | some d =>
        have e : (Spec.Leaf.pi t (some d)).print = (c! "<?") ++ (t ++ ((c! " ") ++ (d ++ (c! "?>")))) := by
          simp [Spec.Leaf.print]
        rw [e]
        simp only [List.forall_mem_append]
        exact ⟨by decide, ht, by decide, hw.1, by decide⟩
    | _ => exact hl.elim

theorem print_chars (x : Xml) (hp : x.Simple) (hn : x.NamesOk) (ht : x.Leaves Spec.Leaf.Writable)
    (ha : x.AttrLists fun as => ∀ a ∈ as, ∀ c ∈ a.2, Char10 c ∧ c ≠ '\r') : Clean x.print := by
  induction x with
  | nil => intro c hc; cases hc
  | leaf l rest ih =>
    obtain ⟨h1, h2⟩ := simple_leaf hp
    intro c hc
    simp only [Xml.print, List.mem_append] at hc
    rcases hc with hc | hc
    · refine leaf_chars h1 ?_ ht.1 c hc
      rintro t d rfl
      exact hn.1
    · exact ih h2 hn.2 ht.2 ha c hc
  | element n as kids rest ihk ihr =>
    obtain ⟨hq, hqa, hnk, hnr⟩ := hn
    have hname := char10_of_name hq
    have hlit : ∀ d ∈ (c! "<>/ =\""), Char10 d ∧ d ≠ '\r' := by decide
    have hattrs : ∀ c ∈ printAttrs as, Char10 c ∧ c ≠ '\r' := by
      intro c hc
      obtain ⟨⟨m, v⟩, hmv, hc⟩ := List.mem_flatMap.mp hc
      simp only [printAttr, quoted, List.mem_cons, List.mem_append, List.not_mem_nil,
        or_false] at hc
      rcases hc with rfl | hc | rfl | rfl | hc | rfl
      · exact hlit _ (by decide)
      · exact char10_of_name (hqa _ hmv) c hc
      · exact hlit _ (by decide)
      · exact hlit _ (by decide)
      · exact mem_esc_of (ha.1 _ hmv) c hc
      · exact hlit _ (by decide)
    have e : (Xml.element n as kids rest).print =
        (c! "<") ++ (n ++ (printAttrs as ++ ((c! ">") ++ (kids.print ++ ((c! "</") ++ (n ++
          ((c! ">") ++ rest.print))))))) := by simp [Xml.print]
    rw [e]
    unfold Clean
    simp only [List.forall_mem_append]
    exact ⟨by decide, hname, hattrs, by decide, ihk hp.1 hnk ht.1 ha.2.1, by decide, hname,
      by decide, ihr hp.2 hnr ht.2 ha.2.2⟩
  | docType _ _ _ _ _ _ _ _ => exact hp.elim
  | document _ _ _ _ _ _ _ => exact hp.elim
  | fragment _ _ _ _ _ => exact hp.elim

theorem plain_simple {x : Xml} (h : x.Plain) : x.Simple := by
  induction x with
  | nil => trivial
  | leaf l rest ih => exact ⟨by rcases h.1 with ⟨s, rfl⟩ | rfl <;> trivial, ih h.2⟩
  | element n as kids rest ihk ihr => exact ⟨ihk h.1, ihr h.2⟩
  | docType _ _ _ _ _ _ _ _ => exact h.elim
  | document _ _ _ _ _ _ _ => exact h.elim
  | fragment _ _ _ _ _ => exact h.elim

theorem endOfLine_clean {s : Str} (h : '\r' ∉ s) : Reader.endOfLine s = s := by
  induction s with
  | nil => rfl
  | cons c s ih =>
    simp only [List.mem_cons, not_or] at h
    unfold Reader.endOfLine
    rw [if_neg (fun h' => h.1 h'.symm), ih h.2]

end XmlDom

