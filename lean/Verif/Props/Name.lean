import Verif.Lemmas.Name

/-!
# C27-C30: qualified names
-/

namespace XmlDom

namespace Props

/-! ## C27 -/

/-- C27: `from_str` never panics and accepts exactly the qualified names. -/
def C27_full : Prop :=
  ∀ s : Str, (Name.fromStr s).Returns ∧ ((∃ n, Name.fromStr s = .ok n) ↔ Spec.IsQName s)

/-- C27 does not hold: a name that starts with a letter outside ASCII panics. -/
theorem C27_full_false : ¬ C27_full := by
  intro h
  have := (h (c! "été")).1
  exact absurd this (by decide)

/-- C27, one half, for all strings: only qualified names are accepted, and the parts of
the result are the parts of the string. -/
theorem C27_only_qnames (s : Str) (n : Name) (h : Name.fromStr s = .ok n) :
    Spec.IsQName s ∧ n.namespaceUri = none ∧
      ((n.pfx = none ∧ n.localName = s) ∨ ∃ p, n.pfx = some p ∧ s = p ++ ':' :: n.localName) := by
  rcases fromStr_ok h with ⟨rfl, h1, _⟩ | ⟨p, l, rfl, rfl, h1, h2, _⟩
  · exact ⟨Or.inl h1, rfl, Or.inl ⟨rfl, rfl⟩⟩
  · exact ⟨Or.inr ⟨p, l, rfl, h1, h2⟩, rfl, Or.inr ⟨p, rfl, rfl⟩⟩

/-- C27, other half (partial: the parts must start with an ASCII character; the
missing case panics, see `C27_panics_iff`). -/
theorem C27_accepts_partial :
    (∀ s, Spec.IsNcName s → Spec.AsciiStart s → Name.fromStr s = .ok ⟨none, none, s⟩) ∧
    (∀ p l, Spec.IsNcName p → Spec.IsNcName l → Spec.AsciiStart p → Spec.AsciiStart l →
      Name.fromStr (p ++ ':' :: l) = .ok ⟨none, some p, l⟩) := by
  constructor
  · intro s h ha
    rcases fromStr_cases s with ⟨h', _⟩ | ⟨p, q, r, h', _⟩ | ⟨_, _, h'⟩ | ⟨p, l, h', _⟩
    · exact absurd h' (IsName.ne_nil h.1)
    · exact absurd (by rw [h']; simp) h.2
    · rcases h' with ⟨_, _, h'⟩ | ⟨h', _⟩ | ⟨h', _⟩
      · exact h'
      · exact absurd h' (not_wideStart_of_ascii ha)
      · exact absurd h.1 h'
    · exact absurd (by rw [h']; simp) h.2
  · intro p l hp hl ap al
    rw [fromStr_pair hp.2 hl.2]
    rcases checkPart_cases l with ⟨h, _⟩ | ⟨_, _, hc⟩ | ⟨ha, _⟩ | ⟨_, hb, _⟩
    · exact absurd h (IsName.ne_nil hl.1)
    · rcases checkPart_cases p with ⟨h, _⟩ | ⟨_, _, hc'⟩ | ⟨ha, _⟩ | ⟨_, hb, _⟩
      · exact absurd h (IsName.ne_nil hp.1)
      · rw [hc, Outcome.bind_ok, hc', Outcome.bind_ok,
          new_ok (IsName.ne_nil hl.1) (by simpa using IsName.ne_nil hp.1)]
      · exact absurd ha (not_wideStart_of_ascii ap)
      · exact absurd hp.1 hb
    · exact absurd ha (not_wideStart_of_ascii al)
    · exact absurd hl.1 hb

/-- C27: exactly when `from_str` panics: at most one colon, and the local part, or after
an accepted local part the prefix, starts with a NameStartChar outside ASCII. -/
theorem C27_panics_iff (s : Str) :
    (Name.fromStr s).Panics ↔
      (':' ∉ s ∧ Spec.WideStart s) ∨
      ∃ p l, s = p ++ ':' :: l ∧ ':' ∉ p ∧ ':' ∉ l ∧
        (Spec.WideStart l ∨ (Spec.IsName l ∧ Spec.AsciiStart l ∧ Spec.WideStart p)) := by
  constructor
  · intro h
    rcases fromStr_cases s with ⟨_, h'⟩ | ⟨_, _, _, _, _, _, h'⟩ | ⟨_, hcol, h'⟩ |
      ⟨p, l, hs, hp, hl, h'⟩
    · rw [h'] at h; simp at h
    · rw [h'] at h; simp at h
    · rcases h' with ⟨_, _, h'⟩ | ⟨hw, h'⟩ | ⟨_, _, h'⟩
      · rw [h'] at h; simp at h
      · left; exact ⟨hcol, hw⟩
      · rw [h'] at h; simp at h
    · right
      refine ⟨p, l, hs, hp, hl, ?_⟩
      rcases h' with ⟨_, h'⟩ | ⟨hw, _⟩ | ⟨_, _, _, h'⟩ | ⟨ha, hb, h'⟩
      · rw [h'] at h; simp at h
      · left; exact hw
      · rw [h'] at h; simp at h
      · rcases h' with ⟨_, h'⟩ | ⟨_, _, h'⟩ | ⟨hw, _⟩ | ⟨_, _, _, h'⟩
        · rw [h'] at h; simp at h
        · rw [h'] at h; simp at h
        · right; exact ⟨ha, hb, hw⟩
        · rw [h'] at h; simp at h
  · rintro (⟨h1, h2⟩ | ⟨p, l, rfl, hp, hl, h⟩)
    · have hne : s ≠ [] := by obtain ⟨c, cs, rfl, _⟩ := h2; simp
      rw [fromStr_single hne h1]
      rcases checkPart_cases s with ⟨h, _⟩ | ⟨_, hb, _⟩ | ⟨_, hb⟩ | ⟨_, _, hc, _⟩
      · exact absurd h hne
      · exact absurd h2 (not_wideStart_of_ascii hb)
      · rw [hb]; simp
      · exact absurd h2 hc
    · rw [fromStr_pair hp hl]
      rcases checkPart_cases l with ⟨h', _⟩ | ⟨_, hb, hc⟩ | ⟨_, hb⟩ | ⟨_, hb, hc, _⟩
      · subst h'
        rcases h with ⟨c, cs, he, _⟩ | ⟨⟨c, cs, he, _⟩, _⟩ <;> cases he
      · rcases h with h | ⟨_, _, h⟩
        · exact absurd h (not_wideStart_of_ascii hb)
        · rw [hc, Outcome.bind_ok]
          rcases checkPart_cases p with ⟨h', _⟩ | ⟨_, pb, _⟩ | ⟨_, pb⟩ | ⟨_, _, pc, _⟩
          · subst h'; obtain ⟨c, cs, he, _⟩ := h; cases he
          · exact absurd h (not_wideStart_of_ascii pb)
          · rw [pb]; simp
          · exact absurd h pc
      · rw [hb]; simp
      · rcases h with h | ⟨h, _⟩
        · exact absurd h hc
        · exact absurd h hb

/-! ## C28 -/

/-- C28: parsing then printing is the identity. -/
theorem C28_display_fromStr (s : Str) (n : Name) (h : Name.fromStr s = .ok n) :
    n.display = s := by
  rcases fromStr_ok h with ⟨rfl, _⟩ | ⟨p, l, rfl, rfl, _⟩ <;> rfl

/-- C28: printing then parsing is the identity on parsed names. -/
theorem C28_fromStr_display (s : Str) (n : Name) (h : Name.fromStr s = .ok n) :
    Name.fromStr n.display = .ok n := by
  rw [C28_display_fromStr s n h]; exact h

/-- C28: two strings that parse to the same name are the same string. -/
theorem C28_injective (s t : Str) (n : Name) (hs : Name.fromStr s = .ok n)
    (ht : Name.fromStr t = .ok n) : s = t := by
  rw [← C28_display_fromStr s n hs, C28_display_fromStr t n ht]

/-! ## C29 -/

/-- The two reserved prefixes and their namespaces (Namespaces in XML, section 3). -/
def reservedUri (word : Str) : Option Str :=
  if word = c! "xml" then some (c! "http://www.w3.org/XML/1998/namespace")
  else if word = c! "xmlns" then some (c! "http://www.w3.org/2000/xmlns/")
  else none

/-- The word is reserved for another namespace. -/
def ForeignUse (word uri : Str) : Prop := ∃ own, reservedUri word = some own ∧ uri ≠ own

theorem foreignUse_iff (w u : Str) : ForeignUse w u ↔
    (w = Syn.xmlPrefix ∧ u ≠ Syn.xmlNsUri) ∨ (w = Syn.xmlnsPrefix ∧ u ≠ Syn.xmlnsNsUri) := by
  unfold ForeignUse reservedUri
  show (∃ own, (if w = Syn.xmlPrefix then some Syn.xmlNsUri
    else if w = Syn.xmlnsPrefix then some Syn.xmlnsNsUri else none) = some own ∧ u ≠ own) ↔ _
  have hne : Syn.xmlPrefix ≠ Syn.xmlnsPrefix := by decide
  by_cases h1 : w = Syn.xmlPrefix
  · subst h1
    simp [hne]
  · by_cases h2 : w = Syn.xmlnsPrefix
    · subst h2
      simp [hne.symm]
    · simp [h1, h2]

theorem checkNamespaceUri_eq (u : Str) (p : Option Str) (l : Str) :
    (u = [] ∧ Name.checkNamespaceUri u p l = .err .syntax) ∨
    (u ≠ [] ∧ ((∃ w, p = some w ∧ ForeignUse w u) ∨ ForeignUse l u) ∧
      Name.checkNamespaceUri u p l = .err .namespace) ∨
    (u ≠ [] ∧ ¬ ((∃ w, p = some w ∧ ForeignUse w u) ∨ ForeignUse l u) ∧
      Name.checkNamespaceUri u p l = .ok u) := by
  unfold Name.checkNamespaceUri
  by_cases hu : u = []
  · left; exact ⟨hu, by rw [if_pos hu]⟩
  · right
    rw [if_neg hu]
    have hp : (∃ w, p = some w ∧ ForeignUse w u) ↔
        ((p = some Syn.xmlPrefix ∧ u ≠ Syn.xmlNsUri) ∨
          (p = some Syn.xmlnsPrefix ∧ u ≠ Syn.xmlnsNsUri)) := by
      simp only [foreignUse_iff]
      constructor
      · rintro ⟨w, rfl, ⟨rfl, h⟩ | ⟨rfl, h⟩⟩
        · exact Or.inl ⟨rfl, h⟩
        · exact Or.inr ⟨rfl, h⟩
      · rintro (⟨h1, h2⟩ | ⟨h1, h2⟩)
        · exact ⟨_, h1, Or.inl ⟨rfl, h2⟩⟩
        · exact ⟨_, h1, Or.inr ⟨rfl, h2⟩⟩
    rw [hp, foreignUse_iff]
    split
    · rename_i h; left; exact ⟨hu, Or.inl h, rfl⟩
    · split
      · rename_i h1 h2; left; exact ⟨hu, Or.inr h2, rfl⟩
      · rename_i h1 h2
        right
        exact ⟨hu, fun h => h.elim h1 h2, rfl⟩

/-- C29: what success of `new_ns` means: the qualified name parsed, the namespace is
not empty, prefix and local part are those of the string, the namespace is the one given,
and neither part is reserved for another namespace. -/
theorem C29_new_ns_ok (uri q : Str) (n : Name) :
    Name.newNs uri q = .ok n ↔
      ∃ m, Name.fromStr q = .ok m ∧ uri ≠ [] ∧ n = ⟨some uri, m.pfx, m.localName⟩ ∧
        ¬ (∃ w, m.pfx = some w ∧ ForeignUse w uri) ∧ ¬ ForeignUse m.localName uri := by
  unfold Name.newNs
  cases hq : Name.fromStr q with
  | ok m =>
    simp only [Outcome.bind_ok]
    rcases checkNamespaceUri_eq uri m.pfx m.localName with ⟨hu, h⟩ | ⟨hu, hf, h⟩ | ⟨hu, hf, h⟩
    · rw [h]
      simp only [Outcome.bind_err]
      constructor
      · intro h; cases h
      · rintro ⟨m', _, hne, _⟩; exact absurd hu hne
    · rw [h]
      simp only [Outcome.bind_err]
      constructor
      · intro h; cases h
      · rintro ⟨m', hm, _, _, h1, h2⟩
        cases hm
        rcases hf with hf | hf
        · exact absurd hf h1
        · exact absurd hf h2
    · rw [h]
      simp only [Outcome.bind_ok]
      constructor
      · intro he
        cases he
        exact ⟨m, rfl, hu, rfl, fun h => hf (Or.inl h), fun h => hf (Or.inr h)⟩
      · rintro ⟨m', hm, _, rfl, _⟩
        cases hm
        rfl
  | err e => simp
  | panic k => simp
  | diverge => simp

/-- C29: `Namespace` is returned exactly for a reserved prefix or local name with a
foreign namespace, in an otherwise acceptable call. -/
theorem C29_namespace_error (uri q : Str) :
    Name.newNs uri q = .err .namespace ↔
      ∃ m, Name.fromStr q = .ok m ∧ uri ≠ [] ∧
        ((∃ w, m.pfx = some w ∧ ForeignUse w uri) ∨ ForeignUse m.localName uri) := by
  unfold Name.newNs
  cases hq : Name.fromStr q with
  | ok m =>
    simp only [Outcome.bind_ok]
    rcases checkNamespaceUri_eq uri m.pfx m.localName with ⟨hu, h⟩ | ⟨hu, hf, h⟩ | ⟨hu, hf, h⟩
    · rw [h]; simp [hu]
    · rw [h]; simp only [Outcome.bind_err, true_iff]; exact ⟨m, rfl, hu, hf⟩
    · rw [h]
      simp only [Outcome.bind_ok]
      constructor
      · intro h; cases h
      · rintro ⟨m', hm, _, hf'⟩; cases hm; exact absurd hf' hf
  | err e =>
    simp only [Outcome.bind_err]
    constructor
    · intro h
      exfalso
      rcases fromStr_cases q with ⟨_, h'⟩ | ⟨_, _, _, _, _, _, h'⟩ | ⟨_, hcol, h'⟩ |
        ⟨p, l, hs, hp, hl, h'⟩
      · rw [h'] at hq; cases hq; cases h
      · rw [h'] at hq; cases hq; cases h
      · rcases h' with ⟨_, _, h'⟩ | ⟨_, h'⟩ | ⟨_, _, h'⟩ <;> rw [h'] at hq <;> cases hq <;> cases h
      · rcases h' with ⟨_, h'⟩ | ⟨_, h'⟩ | ⟨_, _, _, h'⟩ | ⟨_, _, h'⟩
        · rw [h'] at hq; cases hq; cases h
        · rw [h'] at hq; cases hq
        · rw [h'] at hq; cases hq; cases h
        · rcases h' with ⟨_, h'⟩ | ⟨_, _, h'⟩ | ⟨_, h'⟩ | ⟨_, _, _, h'⟩ <;>
            rw [h'] at hq <;> cases hq <;> cases h
    · rintro ⟨m, hm, _⟩; cases hm
  | panic k => simp
  | diverge => simp

/-- C29: an empty namespace is a Syntax error. -/
theorem C29_empty_namespace (q : Str) (m : Name) (h : Name.fromStr q = .ok m) :
    Name.newNs [] q = .err .syntax := by
  unfold Name.newNs
  rw [h]; rfl

/-! ## C30 -/

/-- C30: errors are classified by form first: an empty part or a second colon is Syntax,
any other refusal is InvalidCharacter. -/
def C30_full : Prop :=
  ∀ s : Str, (Name.fromStr s).IsErr →
    (Name.fromStr s = .err .syntax ↔
      s = [] ∨ (∃ p q r, s = p ++ ':' :: (q ++ ':' :: r)) ∨
        ∃ p l, s = p ++ ':' :: l ∧ (p = [] ∨ l = []))

/-- C30 does not hold: the local part is checked before the prefix is looked at, so an
empty prefix in front of a bad local part is reported as a bad character. -/
theorem C30_full_false : ¬ C30_full := by
  intro h
  have := (h (c! ":1") (by decide)).mpr (Or.inr (Or.inr ⟨[], c! "1", rfl, Or.inl rfl⟩))
  exact absurd this (by decide)

/-- C30 (partial: an empty prefix counts as Syntax only when the local part is good). -/
theorem C30_syntax_partial (s : Str) :
    Name.fromStr s = .err .syntax ↔
      s = [] ∨ (∃ p q r, s = p ++ ':' :: (q ++ ':' :: r)) ∨
        (∃ p, s = p ++ [':'] ∧ ':' ∉ p) ∨
        (∃ l, s = ':' :: l ∧ ':' ∉ l ∧ Spec.IsName l ∧ Spec.AsciiStart l) := by
  constructor
  · intro h
    rcases fromStr_cases s with ⟨h1, _⟩ | ⟨p, q, r, h1, _⟩ | ⟨_, _, h'⟩ |
      ⟨p, l, hs, hp, hl, h'⟩
    · left; exact h1
    · right; left; exact ⟨p, q, r, h1⟩
    · rcases h' with ⟨_, _, h'⟩ | ⟨_, h'⟩ | ⟨_, _, h'⟩ <;> rw [h'] at h <;> cases h
    · right; right
      rcases h' with ⟨h1, h'⟩ | ⟨_, h'⟩ | ⟨_, _, _, h'⟩ | ⟨ha, hb, h'⟩
      · left; exact ⟨p, by rw [hs, h1], hp⟩
      · rw [h'] at h; cases h
      · rw [h'] at h; cases h
      · rcases h' with ⟨h1, h'⟩ | ⟨_, _, h'⟩ | ⟨_, h'⟩ | ⟨_, _, _, h'⟩
        · right; exact ⟨l, by rw [hs, h1]; rfl, hl, ha, hb⟩
        · rw [h'] at h; cases h
        · rw [h'] at h; cases h
        · rw [h'] at h; cases h
  · rintro (rfl | ⟨p, q, r, rfl⟩ | ⟨p, rfl, hp⟩ | ⟨l, rfl, hl, ha, hb⟩)
    · rfl
    · have : ∃ p' q' r', p ++ ':' :: (q ++ ':' :: r) = p' ++ ':' :: (q' ++ ':' :: r') ∧
          ':' ∉ p' ∧ ':' ∉ q' := by
        rcases splitOn_cases ':' (p ++ ':' :: (q ++ ':' :: r)) with h | ⟨p', t, h1, h2⟩
        · exact absurd (by simp) h
        · rcases splitOn_cases ':' t with h | ⟨q', r', h3, h4⟩
          · exfalso
            have c1 := congrArg (List.count ':') h1
            have c2 : List.count ':' p' = 0 := List.count_eq_zero.mpr h2
            have c3 : List.count ':' t = 0 := List.count_eq_zero.mpr h
            simp [c2, c3] at c1
            omega
          · exact ⟨p', q', r', by rw [h1, h3], h2, h4⟩
      obtain ⟨p', q', r', h, h1, h2⟩ := this
      rw [h]; exact fromStr_many h1 h2
    · rw [fromStr_pair hp (by simp)]; rfl
    · have := fromStr_pair (p := []) (l := l) (by simp) hl
      rw [List.nil_append] at this
      rw [this]
      rcases checkPart_cases l with ⟨h, _⟩ | ⟨_, _, hc⟩ | ⟨h, _⟩ | ⟨_, h, _⟩
      · exact absurd h (IsName.ne_nil ha)
      · rw [hc]; rfl
      · exact absurd h (not_wideStart_of_ascii hb)
      · exact absurd ha h

/-- C30: the only other error is InvalidCharacter, and then some part really is not a
Name. -/
theorem C30_other_error (s : Str) (e : DomError) (h : Name.fromStr s = .err e)
    (he : e ≠ .syntax) :
    e = .invalidCharacter ∧ ¬ Spec.IsQName s := by
  have hnot : ¬ Spec.IsName s → ':' ∉ s → ¬ Spec.IsQName s := by
    rintro h1 h2 (h3 | ⟨p, l, h3, _⟩)
    · exact h1 h3.1
    · exact h2 (by rw [h3]; simp)
  rcases fromStr_cases s with ⟨_, h'⟩ | ⟨_, _, _, _, _, _, h'⟩ | ⟨_, hcol, h'⟩ |
    ⟨p, l, hs, hp, hl, h'⟩
  · rw [h'] at h; cases h; exact absurd rfl he
  · rw [h'] at h; cases h; exact absurd rfl he
  · rcases h' with ⟨_, _, h'⟩ | ⟨_, h'⟩ | ⟨h1, _, h'⟩
    · rw [h'] at h; cases h
    · rw [h'] at h; cases h
    · rw [h'] at h; cases h; exact ⟨rfl, hnot h1 hcol⟩
  · have hq : Spec.IsQName s → Spec.IsName p ∧ Spec.IsName l := by
      rintro (h3 | ⟨p', l', h3, h4, h5⟩)
      · exact absurd (by rw [hs]; simp) h3.2
      · rw [hs] at h3
        obtain ⟨rfl, rfl⟩ := first_sep_unique h3 hp h4.2
        exact ⟨h4.1, h5.1⟩
    rcases h' with ⟨_, h'⟩ | ⟨_, h'⟩ | ⟨_, h1, _, h'⟩ | ⟨_, _, h'⟩
    · rw [h'] at h; cases h; exact absurd rfl he
    · rw [h'] at h; cases h
    · rw [h'] at h; cases h; exact ⟨rfl, fun hh => h1 (hq hh).2⟩
    · rcases h' with ⟨_, h'⟩ | ⟨_, _, h'⟩ | ⟨_, h'⟩ | ⟨_, h1, _, h'⟩
      · rw [h'] at h; cases h; exact absurd rfl he
      · rw [h'] at h; cases h
      · rw [h'] at h; cases h
      · rw [h'] at h; cases h; exact ⟨rfl, fun hh => h1 (hq hh).1⟩

/-! ## Concrete cases -/

/-- The hypotheses of `C27_accepts_partial` are met. -/
example : Spec.IsNcName (c! "a-b") ∧ Spec.AsciiStart (c! "a-b") := by
  refine ⟨⟨⟨'a', c! "-b", rfl, by unfold Spec.NameStartChar; decide, ?_⟩, by decide⟩,
    'a', c! "-b", rfl, by decide⟩
  intro d hd
  unfold Spec.NameChar Spec.NameStartChar
  revert d
  decide

example : Name.fromStr (c! "xlink:href") = .ok ⟨none, some (c! "xlink"), c! "href"⟩ := by decide
example : Name.newNs (c! "urn:x") (c! "xml:lang") = .err .namespace := by decide
example : Name.newNs (c! "http://www.w3.org/XML/1998/namespace") (c! "xml:lang") =
    .ok ⟨some (c! "http://www.w3.org/XML/1998/namespace"), some (c! "xml"), c! "lang"⟩ := by decide
example : Name.fromStr (c! "a:b:c") = .err .syntax := by decide
example : Name.fromStr (c! "1a") = .err .invalidCharacter := by decide
/-- The second line of the panic condition: the prefix starts outside ASCII. -/
example : (Name.fromStr (c! "é:a")).Panics := by decide

end Props
end XmlDom
