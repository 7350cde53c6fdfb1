import Verif.Lemmas.Chars
import Verif.Lemmas.Split
import Verif.Lemmas.Bytes
import Verif.Model.Options
import Verif.Model.Decl
import Verif.Model.Document

/-!
# C60 XML declarations, C61 processing options, C71 feature queries, C72 character classes
-/

namespace XmlDom
namespace Props

/-! ## C60 XML declarations -/

theorem isEncoding_iff (s : Str) :
    (isEncoding s = .ok true ∧ Spec.IsEncName s) ∨ (isEncoding s = .ok false ∧ ¬ Spec.IsEncName s) := by
  cases s with
  | nil =>
    right
    refine ⟨rfl, ?_⟩
    rintro ⟨c, cs, h, _⟩; cases h
  | cons c cs =>
    have hstart : isEncodingStartChar c = true ↔ Spec.InRanges [(0x41, 0x5A), (0x61, 0x7A)] c := by
      unfold isEncodingStartChar
      simp only [Bool.or_eq_true, isAsciiUpper_iff, isAsciiLower_iff, inRanges_cons, inRanges_nil,
        or_false]
    have hrest : ∀ d : Char, (d = '-' ∨ isEncodingRestChar d = true) ↔
        Spec.InRanges [(0x41, 0x5A), (0x61, 0x7A), (0x30, 0x39), (0x2E, 0x2E), (0x5F, 0x5F),
          (0x2D, 0x2D)] d := by
      intro d
      unfold isEncodingRestChar
      simp only [Bool.or_eq_true, isAsciiUpper_iff, isAsciiLower_iff, isAsciiDigit_iff,
        decide_eq_true_iff, eq_dash, eq_dot, eq_under, inRanges_cons, inRanges_nil, or_false]
      omega
    unfold isEncoding
    by_cases h : isEncodingStartChar c = true
    · have hc : c.toNat < 128 := by
        have := hstart.mp h
        simp only [inRanges_cons, inRanges_nil, or_false] at this
        omega
      have hsp : splitAtByte 1 (c :: cs) = some ([c], cs) := by
        simp [splitAtByte, (utf8Size_eq_one_iff c).mpr hc]
      simp only [h, if_true, hsp]
      have hall : (splitOn '-' cs).all isEncodingSubString = true ↔
          ∀ d ∈ cs, d = '-' ∨ isEncodingRestChar d = true := by
        rw [← mem_splitOn_iff]
        simp [isEncodingSubString]
      by_cases h2 : (splitOn '-' cs).all isEncodingSubString = true
      · left
        refine ⟨by rw [h2], c, cs, rfl, hstart.mp h, fun d hd => (hrest d).mp (hall.mp h2 d hd)⟩
      · right
        refine ⟨by simp only [Bool.not_eq_true] at h2; rw [h2], ?_⟩
        rintro ⟨c', cs', he, _, h3⟩
        cases he
        exact h2 (hall.mpr fun d hd => (hrest d).mpr (h3 d hd))
    · right
      refine ⟨by simp [h], ?_⟩
      rintro ⟨c', cs', he, h3, _⟩
      cases he
      exact h (hstart.mpr h3)

/-- C60: a declaration is built exactly from an EncName, otherwise the call panics. -/
theorem C60_new_encoding (v : XmlVersion) (e : Str) (sa : Option Bool) :
    (XmlDecl.new v (some e) sa = .ok { version := v, encoding := some e, standalone := sa } ↔
      Spec.IsEncName e) ∧
    ((XmlDecl.new v (some e) sa).Panics ↔ ¬ Spec.IsEncName e) := by
  unfold XmlDecl.new
  rcases isEncoding_iff e with ⟨h1, h2⟩ | ⟨h1, h2⟩ <;> simp [h1, h2]

/-- C60: without an encoding the declaration is always built. -/
theorem C60_new_no_encoding (v : XmlVersion) (sa : Option Bool) :
    XmlDecl.new v none sa = .ok { version := v, encoding := none, standalone := sa } := rfl

/-- C60: the default declaration is version 1.0 and nothing else. -/
theorem C60_default : XmlDecl.new .v10 none none = .ok XmlDecl.default ∧
    XmlDecl.default.display = c! "<?xml version=\"1.0\"?>" := by decide

/-- C60: the XMLDecl production, written out:
`<?xml version="V"( encoding="E")?( standalone="yes|no")?\?>`. -/
inductive XmlDeclText : XmlDecl → Str → Prop
  | mk (d : XmlDecl) (ver enc sa : Str)
      (hv : (d.version = .v10 ∧ ver = c! "1.0") ∨ (d.version = .v11 ∧ ver = c! "1.1"))
      (he : (d.encoding = none ∧ enc = []) ∨
        ∃ e, d.encoding = some e ∧ enc = c! " encoding=\"" ++ e ++ c! "\"")
      (hs : (d.standalone = none ∧ sa = []) ∨
        (d.standalone = some true ∧ sa = c! " standalone=\"yes\"") ∨
        (d.standalone = some false ∧ sa = c! " standalone=\"no\"")) :
      XmlDeclText d (c! "<?xml version=\"" ++ ver ++ c! "\"" ++ enc ++ sa ++ c! "?>")

/-- C60: the string form of a declaration is the XMLDecl production. -/
theorem C60_display (d : XmlDecl) : XmlDeclText d d.display := by
  obtain ⟨v, e, s⟩ := d
  unfold XmlDecl.display
  have key : ∀ ver enc sa : Str, XmlDeclText ⟨v, e, s⟩
      (c! "<?xml version=\"" ++ ver ++ c! "\"" ++ enc ++ sa ++ c! "?>") →
      XmlDeclText ⟨v, e, s⟩ (Syn.declStart ++ c! " " ++ Syn.declVersion ++ c! "=\"" ++ ver ++
        c! "\"" ++ enc ++ sa ++ Syn.declEnd) := by
    intro ver enc sa h
    simpa [Syn.declStart, Syn.declVersion, Syn.declEnd] using h
  apply key
  apply XmlDeclText.mk
  · cases v
    · left; exact ⟨rfl, rfl⟩
    · right; exact ⟨rfl, rfl⟩
  · cases e with
    | none => left; exact ⟨rfl, rfl⟩
    | some e => right; exact ⟨e, rfl, by simp [Syn.declEncoding]⟩
  · cases s with
    | none => left; exact ⟨rfl, rfl⟩
    | some b =>
      right
      cases b
      · right; exact ⟨rfl, rfl⟩
      · left; exact ⟨rfl, rfl⟩

/-- An EncName has no double quote. -/
theorem encName_no_quote {e : Str} (h : Spec.IsEncName e) : '"' ∉ e := by
  obtain ⟨c, cs, rfl, h1, h2⟩ := h
  intro hm
  rcases List.mem_cons.mp hm with h3 | h3
  · rw [← h3] at h1; exact absurd h1 (by decide)
  · exact absurd (h2 _ h3) (by decide)

/-- C60: the string form determines the declaration, for declarations that can be built. -/
theorem C60_display_injective (d d' : XmlDecl)
    (he : ∀ e, d.encoding = some e → Spec.IsEncName e)
    (he' : ∀ e, d'.encoding = some e → Spec.IsEncName e)
    (h : d.display = d'.display) : d = d' := by
  obtain ⟨v, e, s⟩ := d
  obtain ⟨v', e', s'⟩ := d'
  simp only [XmlDecl.display, Syn.declStart, Syn.declVersion, Syn.declEnd, Syn.declEncoding,
    Syn.declStandalone, Syn.standaloneYes, Syn.standaloneNo] at h
  have hvl : ∀ w : XmlVersion, ∃ t, w.display = ['1', '.', t] ∧ (t = '0' ↔ w = .v10) := by
    intro w; cases w
    · exact ⟨'0', rfl, by simp⟩
    · exact ⟨'1', rfl, by simp⟩
  obtain ⟨t, ht, hti⟩ := hvl v
  obtain ⟨t', ht', hti'⟩ := hvl v'
  rw [ht, ht'] at h
  simp only [List.append_assoc, List.cons_append, List.nil_append, List.cons.injEq, true_and] at h
  obtain ⟨htt, h⟩ := h
  have hv : v = v' := by
    subst htt
    cases v <;> cases v' <;> simp_all
  subst hv
  cases e with
  | none =>
    cases e' with
    | none =>
      rcases s with _ | _ | _ <;> rcases s' with _ | _ | _ <;> simp_all
    | some f' =>
      exfalso
      rcases s with _ | _ | _ <;> simp at h
  | some f =>
    cases e' with
    | none =>
      exfalso
      rcases s' with _ | _ | _ <;> simp at h
    | some f' =>
      simp only [List.cons_append, List.nil_append, List.append_assoc, List.cons.injEq,
        true_and] at h
      obtain ⟨h1, h2⟩ := first_sep_unique h (encName_no_quote (he f rfl)) (encName_no_quote (he' f' rfl))
      subst h1
      clear h
      rcases s with _ | _ | _ <;> rcases s' with _ | _ | _ <;> simp_all

/-- C60: version strings round-trip and nothing else is a version. -/
theorem C60_version (s : Str) (v : XmlVersion) :
    XmlVersion.fromStr v.display = some v ∧
      (XmlVersion.fromStr s = some v → s = v.display) ∧
      (XmlVersion.fromStr s = none ↔ s ≠ c! "1.0" ∧ s ≠ c! "1.1") := by
  refine ⟨by cases v <;> rfl, ?_, ?_⟩
  · unfold XmlVersion.fromStr
    split
    · rename_i h; intro h2; cases h2; exact h
    · split
      · rename_i h; intro h2; cases h2; exact h
      · intro h2; cases h2
  · unfold XmlVersion.fromStr
    show _ ↔ s ≠ Syn.version10 ∧ s ≠ Syn.version11
    split
    · simp_all
    · split <;> simp_all

example : Spec.IsEncName (c! "UTF-8") := ⟨'U', c! "TF-8", rfl, by decide, by decide⟩
example : XmlDecl.display ⟨.v11, some (c! "UTF-8"), some false⟩ =
    c! "<?xml version=\"1.1\" encoding=\"UTF-8\" standalone=\"no\"?>" := by decide
/-- The panic side of `C60_new_encoding` is inhabited. -/
example : ¬ Spec.IsEncName (c! "8859") := by
  rintro ⟨c, cs, h, h2, _⟩; cases h; exact absurd h2 (by decide)

/-! ## C61 processing options -/

/-- The abstract view: three independent switches. -/
def optView (o : Options) : Bool × Bool × Bool :=
  (o.hasAssumeIds, o.hasParseEntities, o.hasAddNamespaces)

theorem options_forall (P : Options → Prop) (h : ∀ n : Fin 256, P ⟨BitVec.ofFin n⟩) (o : Options) :
    P o := h o.bits.toFin

/-- C61: each setter turns on exactly its own switch. -/
theorem C61_setters (o : Options) :
    optView o.setAssumeIds = (true, (optView o).2.1, (optView o).2.2) ∧
    optView o.setParseEntities = ((optView o).1, true, (optView o).2.2) ∧
    optView o.setAddNamespaces = ((optView o).1, (optView o).2.1, true) :=
  options_forall (fun o =>
    optView o.setAssumeIds = (true, (optView o).2.1, (optView o).2.2) ∧
    optView o.setParseEntities = ((optView o).1, true, (optView o).2.2) ∧
    optView o.setAddNamespaces = ((optView o).1, (optView o).2.1, true))
    (by decide +kernel) o

/-- C61: a fresh value has every switch off. -/
theorem C61_new : optView Options.new = (false, false, false) ∧ Options.new.hasNone = true := by
  decide

/-- C61: setting twice is setting once. -/
theorem C61_idempotent (o : Options) :
    o.setAssumeIds.setAssumeIds = o.setAssumeIds ∧
    o.setParseEntities.setParseEntities = o.setParseEntities ∧
    o.setAddNamespaces.setAddNamespaces = o.setAddNamespaces :=
  options_forall (fun o =>
    o.setAssumeIds.setAssumeIds = o.setAssumeIds ∧
    o.setParseEntities.setParseEntities = o.setParseEntities ∧
    o.setAddNamespaces.setAddNamespaces = o.setAddNamespaces)
    (by decide +kernel) o

/-- C61: the order of setting does not matter. -/
theorem C61_commute (o : Options) :
    o.setAssumeIds.setParseEntities = o.setParseEntities.setAssumeIds ∧
    o.setAssumeIds.setAddNamespaces = o.setAddNamespaces.setAssumeIds ∧
    o.setParseEntities.setAddNamespaces = o.setAddNamespaces.setParseEntities :=
  options_forall (fun o =>
    o.setAssumeIds.setParseEntities = o.setParseEntities.setAssumeIds ∧
    o.setAssumeIds.setAddNamespaces = o.setAddNamespaces.setAssumeIds ∧
    o.setParseEntities.setAddNamespaces = o.setAddNamespaces.setParseEntities)
    (by decide +kernel) o

theorem and_bit_eq (a : BitVec 8) (i : Nat) (hi : i < 8) :
    decide (a &&& (1#8 <<< i) ≠ 0#8) = a.getLsbD i := by
  have : ∀ (n : Fin 256) (i : Fin 8),
      decide ((BitVec.ofFin n : BitVec 8) &&& (1#8 <<< i.val) ≠ 0#8) =
        (BitVec.ofFin n : BitVec 8).getLsbD i.val := by decide +kernel
  exact this a.toFin ⟨i, hi⟩

theorem hasAssumeIds_eq (o : Options) : o.hasAssumeIds = o.bits.getLsbD 0 :=
  and_bit_eq o.bits 0 (by decide)
theorem hasParseEntities_eq (o : Options) : o.hasParseEntities = o.bits.getLsbD 1 :=
  and_bit_eq o.bits 1 (by decide)
theorem hasAddNamespaces_eq (o : Options) : o.hasAddNamespaces = o.bits.getLsbD 2 :=
  and_bit_eq o.bits 2 (by decide)

/-- C61: `|` and `&` work switch by switch. -/
theorem C61_combine (a b : Options) :
    optView (a.bitOr b) = ((optView a).1 || (optView b).1, (optView a).2.1 || (optView b).2.1,
      (optView a).2.2 || (optView b).2.2) ∧
    optView (a.bitAnd b) = ((optView a).1 && (optView b).1, (optView a).2.1 && (optView b).2.1,
      (optView a).2.2 && (optView b).2.2) := by
  unfold optView
  simp only [hasAssumeIds_eq, hasParseEntities_eq, hasAddNamespaces_eq]
  simp [Options.bitOr, Options.bitAnd]

/-- C61: `has_none` says that no switch is on, for every value the public calls can build. -/
inductive Options.Built : Options → Prop
  | new : Built Options.new
  | setAssumeIds {o} : Built o → Built o.setAssumeIds
  | setParseEntities {o} : Built o → Built o.setParseEntities
  | setAddNamespaces {o} : Built o → Built o.setAddNamespaces
  | bitOr {a b} : Built a → Built b → Built (a.bitOr b)
  | bitAnd {a b} : Built a → Built b → Built (a.bitAnd b)

theorem C61_hasNone (o : Options) (h : Options.Built o) :
    o.hasNone = true ↔ optView o = (false, false, false) := by
  have hlow : ∀ i, 3 ≤ i → o.bits.getLsbD i = false := by
    induction h with
    | new => intro i _; simp [Options.new]
    | setAssumeIds _ ih =>
      intro i hi
      have : i ≠ 0 := by omega
      simp [Options.setAssumeIds, ih i hi, Options.flagAssumeIds, BitVec.getLsbD_ofNat]
      intro _; exact Nat.testBit_lt_two_pow (Nat.lt_of_lt_of_le (by decide : 1 < 2 ^ 3) (Nat.pow_le_pow_right (by decide) hi))
    | setParseEntities _ ih =>
      intro i hi
      simp [Options.setParseEntities, ih i hi, Options.flagParseEntities, BitVec.getLsbD_ofNat]
      intro _; exact Nat.testBit_lt_two_pow (Nat.lt_of_lt_of_le (by decide : 2 < 2 ^ 3) (Nat.pow_le_pow_right (by decide) hi))
    | setAddNamespaces _ ih =>
      intro i hi
      simp [Options.setAddNamespaces, ih i hi, Options.flagAddNamespaces, BitVec.getLsbD_ofNat]
      intro _; exact Nat.testBit_lt_two_pow (Nat.lt_of_lt_of_le (by decide : 4 < 2 ^ 3) (Nat.pow_le_pow_right (by decide) hi))
    | bitOr _ _ iha ihb => intro i hi; simp [Options.bitOr, iha i hi, ihb i hi]
    | bitAnd _ _ iha ihb => intro i hi; simp [Options.bitAnd, iha i hi]
  unfold optView Options.hasNone
  rw [hasAssumeIds_eq, hasParseEntities_eq, hasAddNamespaces_eq]
  simp only [decide_eq_true_iff, Prod.mk.injEq]
  constructor
  · intro h; rw [h]; simp
  · rintro ⟨h0, h1, h2⟩
    apply BitVec.eq_of_getLsbD_eq
    intro i _
    simp only [BitVec.getLsbD_zero]
    match i with
    | 0 => exact h0
    | 1 => exact h1
    | 2 => exact h2
    | i + 3 => exact hlow _ (by omega)

example : optView (Options.new.setParseEntities) = (false, true, false) := by decide

/-! ## C71 feature queries -/

/-- C71: the four supported pairs and nothing else. -/
theorem C71_has_feature (feature version : Str) :
    hasFeature feature version = true ↔
      (feature = c! "Core" ∨ feature = c! "XML") ∧ (version = c! "1.0" ∨ version = c! "2.0") := by
  unfold hasFeature
  simp only [Bool.and_eq_true, Bool.or_eq_true, decide_eq_true_iff]
  exact Iff.rfl

example : hasFeature (c! "XML") (c! "2.0") = true := by decide

/-! ## C72 character classes -/

/-- C72: every predicate is its production. -/
def C72_full : Prop :=
  ∀ c : Char,
    (isXml10Char c = true ↔ Spec.Char10 c) ∧
    (isXml11Char c = true ↔ Spec.Char11 c) ∧
    (isXml11RestrictedChar c = true ↔ Spec.RestrictedChar c) ∧
    (isXmlSpace c = true ↔ Spec.Space c) ∧
    (isXmlNameStartChar c = true ↔ Spec.NameStartChar c) ∧
    (isXmlNameChar c = true ↔ Spec.NameChar c)

/-- C72 does not hold: the upper bound of Char is written `10FFF` instead of `10FFFF`. -/
theorem C72_full_false : ¬ C72_full := by
  intro h
  have := (h '😀').1.mpr (by unfold Spec.Char10; decide)
  exact absurd this (by decide)

/-- C72 (partial: Char only up to U+10FFF, where it stops by mistake). -/
theorem C72_classes_partial (c : Char) :
    (isXml10Char c = true ↔ Spec.Char10 c ∧ c.toNat ≤ 0x10FFF) ∧
    (isXml11Char c = true ↔ Spec.Char11 c ∧ c.toNat ≤ 0x10FFF) ∧
    (isXml11RestrictedChar c = true ↔ Spec.RestrictedChar c) ∧
    (isXmlSpace c = true ↔ Spec.Space c) ∧
    (isXmlNameStartChar c = true ↔ Spec.NameStartChar c) ∧
    (isXmlNameChar c = true ↔ Spec.NameChar c) :=
  ⟨isXml10Char_iff c, isXml11Char_iff c, isXml11RestrictedChar_iff c, isXmlSpace_iff c,
    isXmlNameStartChar_iff c, isXmlNameChar_iff c⟩

/-- C72: Nmtoken follows its production. -/
theorem C72_nmtoken (s : Str) : isXmlNmtoken s = true ↔ Spec.IsNmtoken s := by
  unfold isXmlNmtoken Spec.IsNmtoken
  simp only [Bool.and_eq_true, decide_eq_true_iff, List.all_eq_true, isXmlNameChar_iff]

/-- C72: Name follows its production for names that start with an ASCII character; a
wider NameStartChar at the start makes the predicate panic. -/
theorem C72_name (s : Str) :
    (isXmlName s = .ok true ↔ Spec.IsName s ∧ Spec.AsciiStart s) ∧
    ((isXmlName s).Panics ↔ ∃ c cs, s = c :: cs ∧ Spec.NameStartChar c ∧ 128 ≤ c.toNat) := by
  refine ⟨⟨isXmlName_true, fun h => isXmlName_ok h.1 h.2⟩, ?_⟩
  cases s with
  | nil => simp [isXmlName]
  | cons c cs =>
    by_cases hc : c.toNat < 128
    · rcases isXmlName_ascii ⟨c, cs, rfl, hc⟩ with ⟨h, _⟩ | ⟨h, _⟩ <;>
      · rw [h]
        simp only [Outcome.not_panics_ok, false_iff]
        rintro ⟨c', cs', he, _, h2⟩
        cases he
        omega
    · rw [isXmlName_wide hc]
      by_cases h : isXmlNameStartChar c = true
      · simp only [h, if_true, Outcome.panics_panic, true_iff]
        exact ⟨c, cs, rfl, (isXmlNameStartChar_iff c).mp h, by omega⟩
      · simp only [h, if_false, Bool.false_eq_true, Outcome.not_panics_ok, false_iff]
        rintro ⟨c', cs', he, h2, _⟩
        cases he
        exact h ((isXmlNameStartChar_iff _).mpr h2)

example : Spec.NameChar '9' ∧ ¬ Spec.NameStartChar '9' := by
  constructor
  · right; decide
  · unfold Spec.NameStartChar; decide
example : (isXmlName (c! "éa")).Panics := by decide

/-- A separated string is one whose pieces are all in the class. -/
theorem separated_iff {P : Str → Prop} (hsp : ∀ p, P p → ' ' ∉ p) (s : Str) :
    Spec.Separated P s ↔ ∀ p ∈ splitOn ' ' s, P p := by
  constructor
  · intro h
    induction h with
    | one hp => rw [splitOn_of_notMem (hsp _ hp)]; simpa using hp
    | cons hp _ ih =>
      rw [splitOn_append (hsp _ hp)]
      intro q hq
      rcases List.mem_cons.mp hq with rfl | hq
      · exact hp
      · exact ih q hq
  · intro h
    generalize hl : s.length = l
    induction l using Nat.strongRecOn generalizing s with
    | ind l ih =>
      rcases splitOn_cases ' ' s with hn | ⟨p, r, rfl, hp⟩
      · rw [splitOn_of_notMem hn] at h
        exact .one (h s (by simp))
      · rw [splitOn_append hp] at h
        refine .cons (h p (by simp)) (ih r.length ?_ r (fun q hq => h q (by simp [hq])) rfl)
        simp only [List.length_append, List.length_cons] at hl
        omega

theorem nameChar_not_space {c : Char} (h : Spec.NameChar c) : c ≠ ' ' := by
  rintro rfl
  rcases h with h | h
  · revert h; unfold Spec.NameStartChar; decide
  · revert h; decide

theorem IsName.no_space {s : Str} (h : Spec.IsName s) : ' ' ∉ s := by
  obtain ⟨c, cs, rfl, h1, h2⟩ := h
  intro hm
  rcases List.mem_cons.mp hm with h3 | h3
  · exact nameChar_not_space (.inl h1) h3.symm
  · exact nameChar_not_space (h2 _ h3) rfl

/-- C72: Nmtokens follows its production. -/
theorem C72_nmtokens (s : Str) : isXmlNmtokens s = true ↔ Spec.Separated Spec.IsNmtoken s := by
  rw [separated_iff (fun p hp hm => nameChar_not_space (hp.2 _ hm) rfl)]
  unfold isXmlNmtokens
  simp only [Bool.and_eq_true, decide_eq_true_iff, List.all_eq_true, C72_nmtoken]
  refine ⟨fun h => h.2, fun h => ⟨?_, h⟩⟩
  rintro rfl
  exact (h [] (by simp [splitOn])).1 rfl

/-- C72: Names follows its production where every name starts with an ASCII character. -/
theorem C72_names (s : Str) :
    isXmlNames s = .ok true ↔ Spec.Separated (fun p => Spec.IsName p ∧ Spec.AsciiStart p) s := by
  rw [separated_iff (fun p hp => IsName.no_space hp.1)]
  have hgo : ∀ l : List Str, isXmlNames.go l = .ok true ↔
      ∀ p ∈ l, Spec.IsName p ∧ Spec.AsciiStart p := by
    intro l
    induction l with
    | nil => simp [isXmlNames.go]
    | cons p ps ih =>
      unfold isXmlNames.go
      simp only [List.mem_cons, forall_eq_or_imp, ← ih, ← (C72_name p).1]
      cases isXmlName p with
      | ok b => cases b <;> simp [Outcome.bind]
      | err _ => simp [Outcome.bind]
      | panic _ => simp [Outcome.bind]
      | diverge => simp [Outcome.bind]
  unfold isXmlNames
  split
  · rename_i h; subst h
    simp only [Outcome.ok.injEq, false_iff, Bool.false_eq_true]
    intro h
    obtain ⟨⟨c, cs, h1, _⟩, _⟩ := h [] (by simp [splitOn])
    cases h1
  · exact hgo _

/-- C72: the restricted characters of XML 1.0 are those of the predefined entities. -/
theorem C72_restricted (c : Char) : isXml10RestrictedChar c = true ↔ Spec.Predefined c := by
  unfold isXml10RestrictedChar Spec.Predefined Spec.InRanges
  simp only [Bool.or_eq_true, decide_eq_true_iff, char_eq_iff, List.mem_cons, List.not_mem_nil,
    or_false, exists_eq_or_imp, exists_eq_left]
  simp only [show '&'.toNat = 0x26 from rfl, show '\''.toNat = 0x27 from rfl,
    show '>'.toNat = 0x3E from rfl, show '<'.toNat = 0x3C from rfl, show '"'.toNat = 0x22 from rfl]
  omega

example : Spec.Separated Spec.IsNmtoken (c! "a 9") :=
  .cons (p := c! "a") (s := c! "9") ((C72_nmtoken _).mp (by decide))
    (.one ((C72_nmtoken _).mp (by decide)))
example : isXmlNames (c! "a b") = .ok true ∧ isXmlNames (c! "a  b") = .ok false := by decide
example : isXml10RestrictedChar '&' = true := by decide

end Props
end XmlDom
