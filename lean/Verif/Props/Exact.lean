import Verif.Props.Undo
import Verif.Props.Access
import Verif.Props.Stream
import Verif.Lemmas.Value
import Verif.Lemmas.RoundTrip

/-!
# Exact conditions

For three claims that hold on part of the inputs: on which.
-/

namespace XmlDom
namespace Props

open Spec

/-! ## C80 -/

/-- C80: exactly when the name with the new prefix is one that parsing its text form gives. -/
theorem C80_exact (u q : Str) (n : Name) (p : Option Str) (hn : Name.newNs u q = .ok n) :
    Name.newNs u (n.setPrefix p).display = .ok (n.setPrefix p) ↔
      ∀ w, p = some w → IsNcName w ∧ AsciiStart w ∧ ¬ ForeignUse w u := by
  refine ⟨?_, C80_set_prefix_partial u q n p hn⟩
  rintro h w rfl
  obtain ⟨m, h1, _, h3, h4, _⟩ := (C29_new_ns_ok _ _ _).mp h
  have hw : m.pfx = some w := (congrArg Name.pfx h3).symm
  refine (?_ : IsNcName w ∧ AsciiStart w).1 |> fun a => ⟨a, ?_, fun hf => h4 ⟨w, hw, hf⟩⟩
  all_goals
    rcases fromStr_ok h1 with ⟨rfl, _⟩ | ⟨p, l, _, rfl, a, _, b, _⟩
    · cases hw
    · cases hw; first | exact ⟨a, b⟩ | exact b

example : Name.newNs (c! "u") (c! "a") = .ok ⟨some (c! "u"), none, c! "a"⟩ := by decide

/-! ## C85 -/

/-- C85: what is read back for every character: the character whose number is the number of the
given one cut to 16 bits, or a panic if there is none. -/
theorem C85_exact (c : Char) :
    (∀ d : Char, d.toNat = c.toNat % 65536 →
      charFromEntity (toEntity c) = .ok [d] ∧ charFromEntity (toEntityHex c) = .ok [d]) ∧
    ((∀ d : Char, d.toNat ≠ c.toNat % 65536) →
      (charFromEntity (toEntity c)).Panics ∧ (charFromEntity (toEntityHex c)).Panics) ∧
    (charFromEntity (toEntity c) = .ok [c] ↔ c.toNat < 65536) := by
  have h1 := toDigits_spec (c.toNat % 65536)
  have hlt : c.toNat % 65536 < 65536 := Nat.mod_lt _ (by decide)
  have h2 := hexDigits16_spec (c.toNat % 65536) hlt
  have e1 : toEntity c = '&' :: '#' :: (Nat.toDigits 10 (c.toNat % 65536) ++ [';']) := rfl
  have e2 : toEntityHex c = '&' :: '#' :: 'x' :: (hexDigits16 (c.toNat % 65536) ++ [';']) := rfl
  have good : ∀ d : Char, d.toNat = c.toNat % 65536 →
      charFromEntity (toEntity c) = .ok [d] ∧ charFromEntity (toEntityHex c) = .ok [d] := by
    intro d hd
    rw [e1, e2]
    exact ⟨charFromEntity_dec ⟨h1.1, h1.2.1, h1.2.2.trans hd.symm⟩,
      charFromEntity_hex ⟨h2.1, h2.2.1, h2.2.2.trans hd.symm⟩⟩
  have bad : (∀ d : Char, d.toNat ≠ c.toNat % 65536) →
      (charFromEntity (toEntity c)).Panics ∧ (charFromEntity (toEntityHex c)).Panics := by
    intro hn
    rw [e1, e2]
    refine ⟨charFromEntity_badDec asciiUni_ascii h1.1 ?_ ?_, charFromEntity_badHex h2.1 h2.2.1 ?_⟩
    · intro d hd
      have := h1.2.1 d hd
      unfold IsDec at this
      rw [asciiUni_ascii.digit d (by omega)]
      exact decide_eq_true this
    · rintro d ⟨_, _, h3⟩; exact hn d (h3.symm.trans h1.2.2)
    · rintro d ⟨_, _, h3⟩; exact hn d (h3.symm.trans h2.2.2)
  refine ⟨good, bad, ?_, fun h => (good c (Nat.mod_eq_of_lt h).symm).1⟩
  intro h
  by_cases hd : ∃ d : Char, d.toNat = c.toNat % 65536
  · obtain ⟨d, hd⟩ := hd
    rw [(good d hd).1] at h
    cases h
    omega
  · have := (bad fun d h => hd ⟨d, h⟩).1
    rw [h] at this
    exact this.elim

example : charFromEntity (toEntity (Char.ofNat 0x1F600)) = .ok [Char.ofNat 0xF600] := by decide

/-! ## C89 -/

/-- The two shapes of an escaped character, once more. -/
theorem escChar_shape (c : Char) :
    (∃ d1 d2, escChar c = '&' :: '#' :: ([d1, d2] ++ [';']) ∧ DecRef [d1, d2] c) ∨
    (escChar c = [c] ∧ c ≠ '&') := by
  unfold escChar
  by_cases h1 : c = '"'
  · subst h1; left; exact ⟨'3', '4', rfl, by unfold DecRef; decide⟩
  by_cases h2 : c = '&'
  · subst h2; left; exact ⟨'3', '8', rfl, by unfold DecRef; decide⟩
  by_cases h3 : c = '\''
  · subst h3; left; exact ⟨'3', '9', rfl, by unfold DecRef; decide⟩
  by_cases h4 : c = '<'
  · subst h4; left; exact ⟨'6', '0', rfl, by unfold DecRef; decide⟩
  by_cases h5 : c = '>'
  · subst h5; left; exact ⟨'6', '2', rfl, by unfold DecRef; decide⟩
  right
  simp [h1, h2, h3, h4, h5]

/-- White space as it is read. -/
def blank (c : Char) : Char := if c = '\t' ∨ c = '\n' ∨ c = '\r' then ' ' else c

theorem valueText_one {u : Uni} (hu : u.Ascii) {m : Str} {r r' : Option Str}
    (h1 : ValueText u m r) (h2 : ValueText u m r') : r = r' := by
  have g1 := scanAttr_gives hu (ent := fun _ => .panic .explicit) (fun _ _ _ => trivial) h1
    (m.length + 1) (Nat.lt_succ_self _)
  have g2 := scanAttr_gives hu (ent := fun _ => .panic .explicit) (fun _ _ _ => trivial) h2
    (m.length + 1) (Nat.lt_succ_self _)
  generalize scanAttr u (fun _ => .panic .explicit) (m.length + 1) m = o at g1 g2
  cases r <;> cases r' <;> simp only [Gives] at g1 g2
  · rfl
  · subst g2; exact g1.elim
  · subst g1; exact g2.elim
  · rw [g1] at g2; cases g2; rfl

/-- How escaped text is read. -/
theorem valueText_esc (u : Uni) (w : Str) :
    ((∀ a b, esc w = a ++ '%' :: b → ¬ RefStart u ('%' :: b)) →
      ValueText u (esc w) (some (w.map blank))) ∧
    (¬ (∀ a b, esc w = a ++ '%' :: b → ¬ RefStart u ('%' :: b)) → ValueText u (esc w) none) := by
  induction w with
  | nil =>
    refine ⟨fun _ => .nil, fun h => absurd ?_ h⟩
    intro a b hab
    cases a <;> cases hab
  | cons c w ih =>
    rw [esc_cons]
    rcases escChar_shape c with ⟨d1, d2, h1, h2⟩ | ⟨h1, h2⟩
    · rw [h1]
      have hb : blank c = c := by
        unfold blank
        rw [if_neg]
        rintro (rfl | rfl | rfl) <;> exact absurd h1 (by simp [escChar])
      have hp : ∀ a b, '&' :: '#' :: ([d1, d2] ++ [';']) ++ esc w = a ++ '%' :: b →
          ∃ a', esc w = a' ++ '%' :: b := by
        intro a b hab
        have n1 := h2.2.1 d1 (by simp)
        have n2 := h2.2.1 d2 (by simp)
        rcases a with _ | ⟨x1, _ | ⟨x2, _ | ⟨x3, _ | ⟨x4, _ | ⟨x5, a⟩⟩⟩⟩⟩ <;> simp at hab
        · obtain ⟨_, _, rfl, _⟩ := hab; exact absurd n1 (by decide)
        · obtain ⟨_, _, _, rfl, _⟩ := hab; exact absurd n2 (by decide)
        · exact ⟨a, hab.2.2.2.2.2⟩
      have he : '&' :: '#' :: ([d1, d2] ++ [';']) ++ esc w = '&' :: '#' :: ([d1, d2] ++ ';' :: esc w) := by
        simp
      constructor
      · intro h
        have := ih.1 (fun a b hab => h ('&' :: '#' :: ([d1, d2] ++ [';']) ++ a) b (by
          rw [hab]; simp))
        rw [he, List.map_cons, hb]
        exact .dec h2 this
      · intro h
        have := ih.2 (fun h' => h fun a b hab => by
          obtain ⟨a', h3⟩ := hp a b hab
          exact h' a' b h3)
        rw [he]
        exact .dec h2 this
    · rw [h1]
      simp only [List.cons_append, List.nil_append]
      by_cases hr : c = '%' ∧ RefStart u (c :: esc w)
      · obtain ⟨rfl, hr⟩ := hr
        refine ⟨fun h => absurd hr (h [] (esc w) rfl), fun _ => ?_⟩
        generalize esc w = t at hr
        cases hr with
        | entity ha hb hcs => exact .entity ha hb hcs
      · have hns : ¬ RefStart u (c :: esc w) := by
          intro h
          have : c = '&' ∨ c = '%' := by
            generalize esc w = t at h
            cases h with
            | entity ha => exact ha
            | dec => exact Or.inl rfl
            | hex => exact Or.inl rfl
          rcases this with h3 | h3
          · exact h2 h3
          · exact hr ⟨h3, h⟩
        have step : ∀ r, ValueText u (esc w) r → ValueText u (c :: esc w) (r.map (blank c :: ·)) := by
          intro r hw
          unfold blank
          split
          · rename_i hc; exact .space hc hw
          · rename_i hc; exact .other hc hns hw
        constructor
        · intro h
          exact step _ (ih.1 fun a b hab => h (c :: a) b (by rw [hab]; rfl))
        · intro h
          refine step _ (ih.2 fun h' => h fun a b hab => ?_)
          cases a with
          | nil =>
            obtain ⟨rfl, h3⟩ := List.cons.inj hab
            rw [← h3]; exact hns
          | cons x a => exact h' a b (List.cons.inj hab).2

/-- Line ends of escaped text. -/
theorem eolNorm_esc {w m : Str} (h : EolNorm w m) : EolNorm (esc w) (esc m) := by
  induction h with
  | nil => exact .nil
  | crlf s t _ ih => exact .crlf _ _ ih
  | crnel s t _ ih => exact .crnel _ _ ih
  | nel s t _ ih => exact .nel _ _ ih
  | ls s t _ ih => exact .ls _ _ ih
  | cr s t _ h1 h2 ih =>
    have hd : ∀ x, x ≠ '&' → (esc s).head? = some x → s.head? = some x := by
      intro x hx h
      cases s with
      | nil => exact h
      | cons c s =>
        rw [esc_cons] at h
        rcases escChar_shape c with ⟨_, _, h3, _⟩ | ⟨h3, _⟩
        · rw [h3] at h; exact absurd (Option.some.inj h).symm hx
        · rw [h3] at h; exact h
    exact .cr _ _ ih (fun h => h1 (hd _ (by decide) h)) (fun h => h2 (hd _ (by decide) h))
  | other c s t _ h1 h2 h3 ih =>
    rw [esc_cons, esc_cons]
    rcases escChar_shape c with ⟨d1, d2, h4, h5⟩ | ⟨h4, _⟩
    · rw [h4]
      have n1 := h5.2.1 d1 (by simp)
      have n2 := h5.2.1 d2 (by simp)
      have k : ∀ d : Char, IsDec d → d ≠ '\r' ∧ d ≠ '\u0085' ∧ d ≠ '\u2028' := by
        intro d hd
        refine ⟨?_, ?_, ?_⟩ <;> rintro rfl <;> exact absurd hd (by decide)
      simp only [List.cons_append, List.nil_append]
      exact .other _ _ _ (.other _ _ _ (.other _ _ _ (.other _ _ _ (.other _ _ _ ih
        (by decide) (by decide) (by decide)) (k d2 n2).1 (k d2 n2).2.1 (k d2 n2).2.2)
        (k d1 n1).1 (k d1 n1).2.1 (k d1 n1).2.2) (by decide) (by decide) (by decide))
        (by decide) (by decide) (by decide)
    · rw [h4]; exact .other _ _ _ ih h1 h2 h3

theorem eolNorm_length {w m : Str} (h : EolNorm w m) : m.length ≤ w.length := by
  induction h <;> simp only [List.length_cons, List.length_nil] <;> omega

theorem eolNorm_same {w : Str} (h : ∀ c ∈ w, c ∉ ['\t', '\n', '\r', '\u0085', '\u2028']) :
    EolNorm w w := by
  induction w with
  | nil => exact .nil
  | cons c w ih =>
    have := h c List.mem_cons_self
    simp only [List.mem_cons, List.not_mem_nil, or_false, not_or] at this
    exact .other _ _ _ (ih fun d hd => h d (List.mem_cons_of_mem _ hd)) this.2.2.1 this.2.2.2.1
      this.2.2.2.2

theorem map_blank_same {w : Str} (h : ∀ c ∈ w, c ∉ ['\t', '\n', '\r', '\u0085', '\u2028']) :
    w.map blank = w := by
  induction w with
  | nil => rfl
  | cons c w ih =>
    have := h c List.mem_cons_self
    simp only [List.mem_cons, List.not_mem_nil, or_false, not_or] at this
    rw [List.map_cons, ih fun d hd => h d (List.mem_cons_of_mem _ hd)]
    unfold blank
    rw [if_neg]
    rintro (h | h | h)
    · exact this.1 h
    · exact this.2.1 h
    · exact this.2.2.1 h

theorem readsBack_iff {u : Uni} (hu : u.Ascii) (v : Str) : ReadsBack u v ↔ ValueSays u v (some v) := by
  constructor
  · rintro ⟨w, rfl, h1, h2, h3, h4⟩
    have := (valueText_esc u w).1 h4
    rw [map_blank_same h3] at this
    exact .value (eolNorm_esc (eolNorm_same h3)) this ⟨⟨0, 0, by simp⟩, h1, h2⟩
  · intro h
    generalize hv : some v = x at h
    cases h with
    | crash => cases hv
    | @value m r w he hm ht =>
      injection hv with hv
      have he' := eolNorm_esc (eolNorm_normalizeEol w)
      have h1 : m = esc (normalizeEol w) := by
        rw [← eolNorm_eq he, hv, eolNorm_eq he']
      subst h1
      have hc := eolNorm_clean (eolNorm_normalizeEol w)
      have hlen := eolNorm_length (eolNorm_normalizeEol w)
      have hp : ∀ a b, esc (normalizeEol w) = a ++ '%' :: b → ¬ RefStart u ('%' :: b) :=
        Classical.byContradiction fun hn => by
          have := valueText_one hu hm ((valueText_esc u _).2 hn)
          cases this
      have hr : r = (normalizeEol w).map blank :=
        Option.some.inj (valueText_one hu hm ((valueText_esc u _).1 hp))
      obtain ⟨⟨a, b, hab⟩, ht1, ht2⟩ := ht
      have hl : r.length = (normalizeEol w).length := by rw [hr, List.length_map]
      rw [hab] at hl
      simp only [List.length_append, List.length_replicate] at hl
      have ha : a = 0 := by omega
      have hb : b = 0 := by omega
      subst ha; subst hb
      simp only [List.replicate_zero, List.nil_append, List.append_nil] at hab
      rw [hab] at hr
      have hw : ∀ c ∈ w, c ∉ ['\t', '\n', '\r', '\u0085', '\u2028'] := by
        intro c hcw
        rw [hr] at hcw
        obtain ⟨d, hd, rfl⟩ := List.mem_map.mp hcw
        unfold blank
        split
        · decide
        · rename_i hn
          simp only [not_or] at hn
          simp only [List.mem_cons, List.not_mem_nil, or_false, not_or]
          exact ⟨hn.1, hn.2.1, hn.2.2, fun h => hc.2.1 (h ▸ hd), fun h => hc.2.2 (h ▸ hd)⟩
      have hs : normalizeEol w = w := eolNorm_eq (eolNorm_same hw)
      rw [hs] at hp
      exact ⟨w, hv, ht1, ht2, hw, by rw [hv]; exact hp⟩

/-- C89: exactly which values `value` reads as `set_value` wrote them. -/
theorem C89_exact (u : Uni) (hu : u.Ascii) (h : Heap) (hr : Reachable h)
    (a d : NodeId) (ha : h.live a = true) (ht : nodeType h a = .attribute)
    (hd : ownerDocument h a = some d) (hdt : nodeType h d = .document) (v : Str) (h' : Heap)
    (hs : setValue h a v = (.ok (), h')) :
    attrValue u h' a = .ok (some v) ↔ ReadsBack u v := by
  obtain ⟨h1, e1, e2, e3, e4, _⟩ := setValue_effect hr ha ht hd hdt v
  rw [hs] at e1
  cases e1
  have hraw : RawText h' (childNodes h' a) v := by
    have := RawText.text e3 e4 .nil
    rw [List.append_nil] at this
    rw [e2]; exact this
  rw [readsBack_iff hu, (C36_exact u hu h' a v (by rw [e2]; simp) hraw).2.1 v]

example : ReadsBack asciiUni (c! "a &#38; b") :=
  (readsBack_iff asciiUni_ascii _).mpr
    (((C36_exact asciiUni asciiUni_ascii (Heap.empty.newAttribute 0 ⟨none, none, []⟩
      (some (c! "a &#38; b"))).2 1 (c! "a &#38; b") (by decide)
      ((rawText_iff _ _ _).mpr (by decide))).2.1 _).mpr (by decide))

end Props
end XmlDom
