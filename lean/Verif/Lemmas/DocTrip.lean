import Verif.Spec.Document
import Verif.Spec.Parse
import Verif.Lemmas.RoundTrip

/-! # The reference reader on the text form of documents -/

namespace XmlDom

open Spec

/-! ## Declarations -/

theorem skip_self {s : Str} (h : ∀ c, s.head? = some c → ¬ Space c) : Reader.skip s = s := by
  cases s with
  | nil => rfl
  | cons c s => exact skip_cons (h c rfl) s

theorem space_cons {s : Str} (h : ∀ c, s.head? = some c → ¬ Space c) :
    Reader.space (' ' :: s) = some s := by
  unfold Reader.space
  rw [skip_space (by decide), skip_self h, if_neg]
  intro h'
  have := congrArg List.length h'
  simp at this

theorem space_none {s : Str} (h : ∀ c, s.head? = some c → ¬ Space c) : Reader.space s = none := by
  unfold Reader.space
  rw [skip_self h, if_pos rfl]

theorem word_append (w t : Str) : Reader.word w (w ++ t) = some t := by
  unfold Reader.word
  rw [if_pos (by rw [List.isPrefixOf_iff_prefix]; exact List.prefix_append _ _)]
  simp

theorem word_none {w s : Str} (h : ¬ w <+: s) : Reader.word w s = none := by
  unfold Reader.word
  rw [if_neg (by rw [List.isPrefixOf_iff_prefix]; exact h)]

theorem inQuotes_quoted {v : Str} (hv : '"' ∉ v) (t : Str) :
    Reader.inQuotes (quoted v ++ t) = some (v, t) := by
  obtain ⟨e1, e2⟩ := takeWhile_append_stop (p := fun d => decide (d ≠ '"')) (a := v) (c := '"')
    (t := t) (fun x hx => decide_eq_true (by rintro rfl; exact hv hx)) (by decide)
  have e : quoted v ++ t = '"' :: (v ++ '"' :: t) := by simp [quoted]
  rw [e]
  unfold Reader.inQuotes
  simp only [true_or, if_true]
  rw [e1, e2]

theorem pseudo_print {key v : Str} {c : Char} {cs : Str} (hk : key = c :: cs) (hc : ¬ Space c)
    (hv : '"' ∉ v) (t : Str) :
    Reader.pseudo key (' ' :: (key ++ '=' :: (quoted v ++ t))) = some (v, t) := by
  unfold Reader.pseudo
  rw [space_cons (by subst hk; simpa using hc)]
  simp only [Option.bind_some]
  rw [word_append]
  simp only [Option.bind_some]
  rw [skip_cons (by decide), show '=' :: (quoted v ++ t) = ['='] ++ (quoted v ++ t) from rfl,
    word_append]
  simp only [Option.bind_some]
  rw [skip_self (by simp [quoted]; decide)]
  exact inQuotes_quoted hv t

theorem isEncName_of {s : Str} (h : IsEncName s) : Reader.isEncName s = true ∧ '"' ∉ s := by
  obtain ⟨c, cs, rfl, h1, h2⟩ := h
  refine ⟨?_, ?_⟩
  · unfold Reader.isEncName
    simp only [Bool.and_eq_true, decide_eq_true_eq, List.all_eq_true]
    exact ⟨h1, h2⟩
  · intro hm
    rcases List.mem_cons.mp hm with rfl | hm
    · exact absurd h1 (by decide)
    · exact absurd (h2 _ hm) (by decide)

/-- The text of the version. -/
def verText : XmlVersion → Str
  | .v10 => c! "1.0"
  | .v11 => c! "1.1"

/-- The text of the encoding. -/
def encText : Option Str → Str
  | none => []
  | some x => c! " encoding=" ++ quoted x

/-- The text of the standalone declaration. -/
def saText : Option Bool → Str
  | none => []
  | some true => c! " standalone=\"yes\""
  | some false => c! " standalone=\"no\""

/-- The declaration is read back. -/
theorem declaration_print {d : XmlDecl} (hd : ∀ x, d.encoding = some x → IsEncName x) (t : Str) :
    Reader.start (printDecl d ++ t) = some (some d, t) := by
  obtain ⟨v, en, sa⟩ := d
  have hver : ∀ r, Reader.version ((c! " version=") ++ (quoted (verText v) ++ r)) = some (v, r) := by
    intro r
    unfold Reader.version verText
    cases v with
    | v10 =>
      simp only
      rw [show (c! " version=") ++ (quoted (c! "1.0") ++ r) =
        ' ' :: ((c! "version") ++ '=' :: (quoted (c! "1.0") ++ r)) from rfl,
        pseudo_print rfl (by decide) (by decide)]
      rfl
    | v11 =>
      simp only
      rw [show (c! " version=") ++ (quoted (c! "1.1") ++ r) =
        ' ' :: ((c! "version") ++ '=' :: (quoted (c! "1.1") ++ r)) from rfl,
        pseudo_print rfl (by decide) (by decide)]
      rfl
  have hsa : Reader.standalone (saText sa ++ ((c! "?>") ++ t)) = some (sa, (c! "?>") ++ t) := by
    unfold Reader.standalone saText
    cases sa with
    | none =>
      have : Reader.pseudo (c! "standalone") ((c! "?>") ++ t) = none := by
        unfold Reader.pseudo
        rw [space_none (by simp; decide)]
        rfl
      simp only [List.nil_append]
      rw [this]
    | some b =>
      cases b with
      | true =>
        simp only
        rw [show (c! " standalone=\"yes\"") ++ ((c! "?>") ++ t) =
          ' ' :: ((c! "standalone") ++ '=' :: (quoted (c! "yes") ++ ((c! "?>") ++ t))) from rfl,
          pseudo_print rfl (by decide) (by decide)]
        rfl
      | false =>
        simp only
        rw [show (c! " standalone=\"no\"") ++ ((c! "?>") ++ t) =
          ' ' :: ((c! "standalone") ++ '=' :: (quoted (c! "no") ++ ((c! "?>") ++ t))) from rfl,
          pseudo_print rfl (by decide) (by decide)]
        rfl
  generalize hS : saText sa ++ ((c! "?>") ++ t) = S at hsa
  have hen : Reader.encoding (encText en ++ S) = some (en, S) := by
    unfold Reader.encoding encText
    cases en with
    | none =>
      have : Reader.pseudo (c! "encoding") S = none := by
        unfold Reader.pseudo
        rw [← hS]
        unfold saText
        cases sa with
        | none =>
          rw [space_none (by simp; decide)]
          rfl
        | some b =>
          cases b with
          | true =>
            rw [show (c! " standalone=\"yes\"") ++ ((c! "?>") ++ t) =
              ' ' :: ((c! "standalone=\"yes\"") ++ ((c! "?>") ++ t)) from rfl,
              space_cons (by simp; decide)]
            rfl
          | false =>
            rw [show (c! " standalone=\"no\"") ++ ((c! "?>") ++ t) =
              ' ' :: ((c! "standalone=\"no\"") ++ ((c! "?>") ++ t)) from rfl,
              space_cons (by simp; decide)]
            rfl
      simp only [List.nil_append]
      rw [this]
    | some x =>
      obtain ⟨h1, h2⟩ := isEncName_of (hd x rfl)
      simp only
      rw [show (c! " encoding=") ++ quoted x ++ S =
        ' ' :: ((c! "encoding") ++ '=' :: (quoted x ++ S)) by simp,
        pseudo_print rfl (by decide) h2]
      simp only
      rw [if_pos h1]
  generalize hE : encText en ++ S = E at hen
  have e : printDecl ⟨v, en, sa⟩ ++ t = (c! "<?xml") ++ ((c! " version=") ++ (quoted (verText v) ++ E)) := by
    rw [← hE, ← hS]
    unfold printDecl verText encText saText
    cases v <;> cases en <;> cases sa <;> (try rename_i b; cases b) <;> simp
  rw [e]
  unfold Reader.start
  rw [word_append]
  simp only
  rw [if_pos (by
    rw [show (c! " version=") ++ (quoted (verText v) ++ E) = ' ' :: ((c! "version=") ++ (quoted (verText v) ++ E)) from rfl, space_cons (by simp; decide)]
    rfl)]
  unfold Reader.declaration
  rw [hver]
  simp only [Option.bind_some]
  rw [hen]
  simp only [Option.bind_some]
  rw [hsa]
  simp only [Option.bind_some]
  rw [skip_self (by simp; decide), word_append]
  rfl

/-! ## Outside of elements -/

namespace Spec.Xml

/-- Comments, processing instructions and elements at the top. -/
def Top : Xml → Prop
  | .nil => True
  | .leaf l rest => l.Marked ∧ (∀ s, l ≠ .cdata s) ∧ Top rest
  | .element _ _ _ rest => Top rest
  | _ => False

end Spec.Xml

theorem top_start {y : Xml} (hy : y.Top) : y.print = [] ∨ ∃ t, y.print = '<' :: t := by
  cases y with
  | nil => left; rfl
  | leaf l rest =>
    right
    obtain ⟨u, hu⟩ := marked_start hy.1 rest.print
    exact ⟨u, hu⟩
  | element n as k r => right; exact ⟨_, by simp only [Xml.print, List.cons_append]; rfl⟩
  | docType _ _ _ _ _ _ => exact hy.elim
  | document _ _ _ _ => exact hy.elim
  | fragment _ _ _ => exact hy.elim

theorem outer_print {y : Xml} (htop : y.Top) (hy : y.Normal) (hn : y.NamesOk) (htg : TargetsOk y)
    (hw : y.Leaves Spec.Leaf.Writable)
    (ha : y.AttrLists fun as => (∀ a ∈ as, AttrKept a) ∧ (as.map (·.1)).Nodup) :
    ∀ k, y.size + 1 ≤ k → Reader.outer k y.print = some (y.mapLeaves Spec.Leaf.asRead) := by
  induction y with
  | nil =>
    intro k hk
    cases k with
    | zero => omega
    | succ k => rfl
  | leaf l rest ih =>
    intro k hk
    simp only [Xml.size] at hk
    cases k with
    | zero => omega
    | succ k =>
      have ih := ih htop.2.2 hy.2 hn.2 htg.2 hw.2 ha k (by omega)
      have hl := htop.1
      cases l with
      | comment s =>
        have hp : (Xml.leaf (.comment s) rest).print =
            '<' :: ((c! "!--") ++ (esc s ++ ((c! "-->") ++ rest.print))) := by
          simp [Xml.print, Spec.Leaf.print]
        rw [hp]
        unfold Reader.outer
        rw [skip_cons (by decide)]
        simp only
        rw [if_pos trivial, if_pos (by simp [List.isPrefixOf])]
        rw [show ((c! "!--") ++ (esc s ++ ((c! "-->") ++ rest.print))).drop 3 =
          esc s ++ ((c! "-->") ++ rest.print) from rfl, comment_print hw.1.2.1 hw.1.2.2]
        simp only [Option.bind_some]
        rw [ih]
        rfl
      | cdata s => exact absurd rfl (htop.2.1 s)
      | pi t d =>
        have hp : (Xml.leaf (.pi t d) rest).print =
            '<' :: '?' :: ((Spec.Leaf.pi t d).print.drop 2 ++ rest.print) := by
          cases d <;> simp [Xml.print, Spec.Leaf.print]
        rw [hp]
        unfold Reader.outer
        rw [skip_cons (by decide)]
        simp only
        rw [if_pos trivial, if_neg (by simp [List.isPrefixOf]), if_pos (by simp)]
        rw [List.drop_one, List.tail_cons, instruction_print hn.1 (htg.1 t d rfl)]
        · cases d with
          | none =>
            simp only [Option.bind_some, Spec.Leaf.asRead]
            rw [ih]
            rfl
          | some d =>
            simp only [Option.bind_some, Spec.Leaf.asRead]
            rw [ih]
            rfl
        · rintro x rfl
          exact hw.1.2
      | _ => exact hl.elim
  | element n as kids rest ihk ihr =>
    intro k hk
    obtain ⟨hk1, hr1⟩ := hy
    obtain ⟨htk, htr⟩ := htg
    obtain ⟨hwk, hwr⟩ := hw
    obtain ⟨hq, _, hnk, hnr⟩ := hn
    obtain ⟨⟨ha1, ha2⟩, hak, har⟩ := ha
    simp only [Xml.size] at hk
    clear ihk
    cases k with
    | zero => omega
    | succ k =>
      have hp : (Xml.element n as kids rest).print =
          '<' :: (n ++ (printAttrs as ++ '>' :: (kids.print ++ ('<' :: '/' :: (n ++ '>' ::
            rest.print))))) := by
        simp [Xml.print]
      rw [hp]
      have ihr := ihr htop hr1 hnr htr hwr har k (by omega)
      have hcont := content_print hk1 hnk htk hwk hak ('<' :: '/' :: (n ++ '>' :: rest.print))
        (Or.inr ⟨_, rfl⟩)
      have hsz : kids.size + 1 ≤ (kids.print ++ ('<' :: '/' :: (n ++ '>' :: rest.print))).length + 1 := by
        have := size_le_print kids hk1
        rw [List.length_append]
        omega
      have hcont := hcont _ hsz
      have hat := attributes_print as ha1
        (kids.print ++ ('<' :: '/' :: (n ++ '>' :: rest.print)))
      generalize hK : kids.print ++ ('<' :: '/' :: (n ++ '>' :: rest.print)) = K at *
      have hname : Reader.name (n ++ (printAttrs as ++ '>' :: K)) =
          some (n, printAttrs as ++ '>' :: K) := by
        cases as with
        | nil => exact name_append (isQName_isName hq) not_nameChar.2.1 _
        | cons a as =>
          have : printAttrs (a :: as) ++ '>' :: K =
              ' ' :: (printAttr a ++ (printAttrs as ++ '>' :: K)) := by
            simp [printAttrs]
          rw [this]
          exact name_append (isQName_isName hq) not_nameChar.1 _
      have hlen : as.length + 1 ≤ (printAttrs as ++ '>' :: K).length + 1 := by
        have := length_printAttrs as
        rw [List.length_append]
        omega
      have hhead : ∀ c, c = '/' ∨ c = '!' ∨ c = '?' →
          (n ++ (printAttrs as ++ '>' :: K)).head? ≠ some c := by
        obtain ⟨d, ds, rfl, h1, _⟩ := isQName_isName hq
        intro c hc h'
        simp only [List.cons_append, List.head?_cons, Option.some.injEq] at h'
        subst h'
        rcases hc with rfl | rfl | rfl <;> exact absurd h1 (by decide)
      have hpre : ∀ p : Str, p.head? = some '!' →
          ¬ p.isPrefixOf (n ++ (printAttrs as ++ '>' :: K)) = true := by
        intro p hp h'
        rw [List.isPrefixOf_iff_prefix] at h'
        obtain ⟨b, hb⟩ := h'
        refine hhead '!' (by simp) ?_
        rw [← hb, List.head?_append, hp]
        rfl
      unfold Reader.outer
      rw [skip_cons (by decide)]
      simp only
      rw [if_pos trivial, if_neg (hpre _ rfl), if_neg (hhead _ (by simp)), if_neg (hpre _ rfl), hname]
      simp only [Option.bind_some]
      rw [hat _ hlen]
      simp only [Option.bind_some]
      rw [if_pos ha2, if_neg (by simp), hcont]
      simp only [Option.bind_some]
      rw [endTag_print hq]
      simp only [Option.bind_some]
      rw [ihr]
      rfl
  | docType _ _ _ _ _ _ _ _ => exact hy.elim
  | document _ _ _ _ _ _ _ => exact hy.elim
  | fragment _ _ _ _ _ => exact hy.elim


/-- The shape of a document does not depend on the leaves. -/
theorem shape_mapLeaves (f : Spec.Leaf → Spec.Leaf) (y : Xml) :
    ∀ e d, Reader.shape e d (y.mapLeaves f) = Reader.shape e d y := by
  induction y with
  | nil => intro e d; rfl
  | leaf l rest ih => intro e d; exact ih e d
  | element n as k r _ ih => intro e d; simp only [Xml.mapLeaves, Reader.shape, ih]
  | docType n p s sub decls r _ ih => intro e d; simp only [Xml.mapLeaves, Reader.shape, ih]
  | document d' dtd k r _ _ _ => intro e d; rfl
  | fragment n k r _ _ => intro e d; rfl

theorem shape_top {y : Xml} (htop : y.Top) : ∀ e d, e + y.roots = 1 →
    Reader.shape e d y = true := by
  induction y with
  | nil => intro e d h; simpa [Xml.roots, Reader.shape] using h
  | leaf l rest ih => intro e d h; exact ih htop.2.2 e d h
  | element n as k r _ ih =>
    intro e d h
    simp only [Xml.roots] at h
    have he : e = 0 := by omega
    subst he
    simp only [Reader.shape]
    rw [ih htop 1 d (by omega)]
    rfl
  | docType _ _ _ _ _ _ _ _ => exact htop.elim
  | document _ _ _ _ _ _ _ => exact htop.elim
  | fragment _ _ _ _ _ => exact htop.elim

/-! ## The start -/

theorem nameChar_not_space {c : Char} (h : NameChar c) : ¬ Space c := by
  intro hs
  have key : ∀ n ∈ [(0x20, 0x20), (0x9, 0x9), (0xD, 0xD), (0xA, 0xA)],
      ∀ r ∈ ((0x3A, 0x3A) :: nameStartRanges) ++ nameExtraRanges, n.2 < r.1 := by decide
  obtain ⟨n, hn, _, h2⟩ := hs
  rcases h with ⟨r, hr, h3, _⟩ | ⟨r, hr, h3, _⟩
  · exact absurd (Nat.le_trans h3 h2) (Nat.not_le.mpr (key n hn r (List.mem_append_left _ hr)))
  · exact absurd (Nat.le_trans h3 h2) (Nat.not_le.mpr (key n hn r (List.mem_append_right _ hr)))

theorem start_none {s : Str} (h : ∀ t, s = c! "<?xml" ++ t → Reader.space t = none) :
    Reader.start s = some (none, s) := by
  unfold Reader.start
  by_cases hp : (c! "<?xml") <+: s
  · obtain ⟨t, rfl⟩ := hp
    rw [word_append]
    simp only
    rw [h t rfl]
    rfl
  · rw [word_none hp]

/-- A processing instruction at the start is not taken for a declaration. -/
theorem pi_start {n x t : Str} (hn : IsQName n) (hres : Reader.reserved n = false)
    (hx : ∀ c, x.head? = some c → c = '?' ∨ c = ' ')
    (h : n ++ x = (c! "xml") ++ t) : Reader.space t = none := by
  rcases List.append_eq_append_iff.mp h with ⟨a, h1, h2⟩ | ⟨a, h1, h2⟩
  · -- the target is a part of the word
    cases a with
    | nil =>
      rw [List.append_nil] at h1
      rw [← h1] at hres
      exact absurd hres (by decide)
    | cons c a =>
      exfalso
      have hc := hx c (by rw [h2]; rfl)
      have : c ∈ (c! "xml") := by rw [h1]; simp
      rcases hc with rfl | rfl <;> exact absurd this (by decide)
  · cases a with
    | nil =>
      rw [List.append_nil] at h1
      rw [h1] at hres
      exact absurd hres (by decide)
    | cons c a =>
      rw [h2]
      refine space_none ?_
      intro d hd
      cases hd
      obtain ⟨e, es, hne, _, h3⟩ := isQName_isName hn
      have : c ∈ es := by
        rw [h1] at hne
        cases hne
        simp
      exact nameChar_not_space (h3 c this)

theorem top_not_decl {y : Xml} (htop : y.Top) (hn : y.NamesOk) (htg : TargetsOk y) (t : Str)
    (h : y.print = (c! "<?xml") ++ t) : Reader.space t = none := by
  cases y with
  | nil => cases h
  | leaf l rest =>
    have hl := htop.1
    cases l with
    | comment s => simp [Xml.print, Spec.Leaf.print] at h
    | cdata s => exact absurd rfl (htop.2.1 s)
    | pi n d =>
      have hn := hn.1
      have hres := htg.1 n d rfl
      cases d with
      | none =>
        refine pi_start (x := (c! "?>") ++ rest.print) hn hres ?_ ?_
        · intro c hc; cases hc; simp
        · simp only [Xml.print, Spec.Leaf.print, List.cons_append, List.nil_append,
            List.append_assoc, List.cons.injEq, true_and] at h ⊢
          exact h
      | some d =>
        refine pi_start (x := ' ' :: (d ++ ((c! "?>") ++ rest.print))) hn hres ?_ ?_
        · intro c hc; cases hc; simp
        · simp only [Xml.print, Spec.Leaf.print, List.cons_append, List.nil_append,
            List.append_assoc, List.cons.injEq, true_and] at h ⊢
          exact h
    | _ => exact hl.elim
  | element n as k r =>
    exfalso
    obtain ⟨d, ds, rfl, h1, _⟩ := isQName_isName hn.1
    simp only [Xml.print, List.cons_append, List.cons.injEq, true_and] at h
    obtain ⟨rfl, _⟩ := h
    exact absurd h1 (by decide)
  | docType _ _ _ _ _ _ => exact htop.elim
  | document _ _ _ _ => exact htop.elim
  | fragment _ _ _ => exact htop.elim

/-! ## Document types -/

/-- A document type without public id is read back. -/
theorem docType_print {n : Str} (hn : IsQName n) {s : Option Str} (hs : ∀ x, s = some x → '"' ∉ x)
    (t : Str) :
    Reader.docType (' ' :: (n ++ (keyed (c! "SYSTEM") s ++ '>' :: t))) = some ((n, none, s), t) := by
  unfold Reader.docType
  obtain ⟨d, ds, hd, h1, h2⟩ := isQName_isName hn
  rw [space_cons (by
    subst hd
    intro c hc
    cases hc
    exact nameChar_not_space (Or.inl h1))]
  simp only [Option.bind_some]
  cases s with
  | none =>
    rw [show keyed (c! "SYSTEM") none ++ '>' :: t = '>' :: t from rfl,
      name_append (isQName_isName hn) not_nameChar.2.1]
    simp only [Option.bind_some]
    unfold Reader.external
    rw [space_none (by simp; decide)]
    simp only [Option.bind_some]
    rw [skip_cons (by decide), show '>' :: t = ['>'] ++ t from rfl, word_append]
    rfl
  | some x =>
    rw [show keyed (c! "SYSTEM") (some x) ++ '>' :: t =
      ' ' :: ((c! "SYSTEM") ++ (' ' :: (quoted x ++ '>' :: t))) by simp [keyed],
      name_append (isQName_isName hn) not_nameChar.1]
    simp only [Option.bind_some]
    unfold Reader.external
    rw [space_cons (by simp; decide)]
    simp only
    rw [word_append]
    simp only
    rw [space_cons (by simp [quoted]; decide)]
    simp only [Option.bind_some]
    rw [inQuotes_quoted (hs x rfl)]
    simp only [Option.map_some, Option.bind_some]
    rw [skip_cons (by decide), show '>' :: t = ['>'] ++ t from rfl, word_append]
    rfl

/-- A document type with a public id is not read at all. -/
theorem docType_public {n : Str} (hn : IsQName n) {p : Str} (hp : '"' ∉ p) {s : Option Str}
    (t : Str) :
    Reader.docType (' ' :: (n ++ (keyed (c! "PUBLIC") (some p) ++ (keyed (c! "SYSTEM") s ++
      '>' :: t)))) = none := by
  unfold Reader.docType
  obtain ⟨d, ds, hd, h1, h2⟩ := isQName_isName hn
  rw [space_cons (by
    subst hd
    intro c hc
    cases hc
    exact nameChar_not_space (Or.inl h1))]
  simp only [Option.bind_some]
  rw [show keyed (c! "PUBLIC") (some p) ++ (keyed (c! "SYSTEM") s ++ '>' :: t) =
      ' ' :: ((c! "PUBLIC") ++ (' ' :: (quoted p ++ (keyed (c! "SYSTEM") s ++ '>' :: t)))) by
        simp [keyed],
    name_append (isQName_isName hn) not_nameChar.1]
  simp only [Option.bind_some]
  unfold Reader.external
  rw [space_cons (by simp; decide)]
  simp only
  rw [word_none (by simp)]
  simp only
  rw [word_append]
  simp only
  rw [space_cons (by simp [quoted]; decide)]
  simp only [Option.bind_some]
  rw [inQuotes_quoted hp]
  simp only [Option.bind_some]
  split
  · cases s with
    | none =>
      rw [show keyed (c! "SYSTEM") none ++ '>' :: t = '>' :: t from rfl,
        space_none (by simp; decide)]
      rfl
    | some x =>
      rw [show keyed (c! "SYSTEM") (some x) ++ '>' :: t =
        ' ' :: ((c! "SYSTEM") ++ (' ' :: (quoted x ++ '>' :: t))) by simp [keyed],
        space_cons (by simp; decide)]
      simp only [Option.bind_some]
      rw [show Reader.inQuotes ((c! "SYSTEM") ++ (' ' :: (quoted x ++ '>' :: t))) = none by
        simp [Reader.inQuotes]]
      rfl
  · rfl

/-! ## Entities and notations -/

theorem pubid_noQuote {p : Str} (hp : ∀ c ∈ p, Reader.PubidChar c) : '"' ∉ p :=
  fun h => absurd (hp _ h) (by decide)

/-- A system id, and a public id in front of it, are read. -/
theorem external_print {p : Option Str} {s : Str} (hp : ∀ x, p = some x → ∀ c ∈ x, Reader.PubidChar c)
    (hs : '"' ∉ s) (t : Str) :
    Reader.external (externalId p (some s) ++ t) = some ((p, some s), t) := by
  unfold Reader.external
  cases p with
  | none =>
    rw [show externalId none (some s) ++ t =
      ' ' :: ((c! "SYSTEM") ++ (' ' :: (quoted s ++ t))) by simp [externalId, keyed],
      space_cons (by simp; decide)]
    simp only
    rw [word_append]
    simp only
    rw [space_cons (by simp [quoted]; decide)]
    simp only [Option.bind_some]
    rw [inQuotes_quoted hs]
    rfl
  | some x =>
    rw [show externalId (some x) (some s) ++ t =
      ' ' :: ((c! "PUBLIC") ++ (' ' :: (quoted x ++ (' ' :: (quoted s ++ t))))) by
        simp [externalId, keyed],
      space_cons (by simp; decide)]
    simp only
    rw [word_none (by simp)]
    simp only
    rw [word_append]
    simp only
    rw [space_cons (by simp [quoted]; decide)]
    simp only [Option.bind_some]
    rw [inQuotes_quoted (pubid_noQuote (hp x rfl))]
    simp only [Option.bind_some]
    rw [if_pos (hp x rfl), space_cons (by simp [quoted]; decide)]
    simp only [Option.bind_some]
    rw [inQuotes_quoted hs]
    rfl

/-- A public id alone is not an external id. -/
theorem external_public {p : Str} (hp : '"' ∉ p) (t : Str) :
    Reader.external (externalId (some p) none ++ '>' :: t) = none := by
  unfold Reader.external
  rw [show externalId (some p) none ++ '>' :: t =
      ' ' :: ((c! "PUBLIC") ++ (' ' :: (quoted p ++ '>' :: t))) by simp [externalId, keyed],
    space_cons (by simp; decide)]
  simp only
  rw [word_none (by simp)]
  simp only
  rw [word_append]
  simp only
  rw [space_cons (by simp [quoted]; decide)]
  simp only [Option.bind_some]
  rw [inQuotes_quoted hp]
  simp only [Option.bind_some]
  split
  · rw [space_none (by simp; decide)]
    rfl
  · rfl

theorem publicOnly_print {p : Str} (hp : ∀ c ∈ p, Reader.PubidChar c) (t : Str) :
    Reader.publicOnly (externalId (some p) none ++ t) = some (p, t) := by
  unfold Reader.publicOnly
  rw [show externalId (some p) none ++ t =
      ' ' :: ((c! "PUBLIC") ++ (' ' :: (quoted p ++ t))) by simp [externalId, keyed],
    space_cons (by simp; decide)]
  simp only [Option.bind_some]
  rw [word_append]
  simp only [Option.bind_some]
  rw [space_cons (by simp [quoted]; decide)]
  simp only [Option.bind_some]
  rw [inQuotes_quoted (pubid_noQuote hp)]
  simp only [Option.bind_some]
  rw [if_pos hp]

/-- The name after the keyword. -/
theorem declName {n : Str} (hn : IsQName n) {b : Str}
    (hb : ∃ c u, b = c :: u ∧ ¬ NameChar c) :
    (Reader.space (' ' :: (n ++ b))).bind Reader.name = some (n, b) := by
  obtain ⟨d, ds, hd, h1, h2⟩ := isQName_isName hn
  rw [space_cons (by
    subst hd
    intro c hc
    cases hc
    exact nameChar_not_space (Or.inl h1))]
  simp only [Option.bind_some]
  obtain ⟨c, u, rfl, hc⟩ := hb
  exact name_append (isQName_isName hn) hc u

theorem externalId_start (p s : Option Str) (t : Str) :
    ∃ c u, externalId p s ++ '>' :: t = c :: u ∧ ¬ NameChar c := by
  cases p <;> cases s
  · exact ⟨'>', t, rfl, not_nameChar.2.1⟩
  · exact ⟨' ', _, by simp [externalId, keyed]; rfl, not_nameChar.1⟩
  · exact ⟨' ', _, by simp [externalId, keyed]; rfl, not_nameChar.1⟩
  · exact ⟨' ', _, by simp [externalId, keyed]; rfl, not_nameChar.1⟩

/-- A declaration of an entity with a value. -/
theorem entityDecl_value {n v : Str} (hn : IsQName n) (hv : '"' ∉ v) (t : Str) :
    Reader.entityDecl (' ' :: (n ++ (' ' :: quoted v ++ '>' :: t))) =
      if Reader.entityValue v.length v then some ((n, .value v), t) else none := by
  have h1 := declName hn (b := ' ' :: quoted v ++ '>' :: t) ⟨' ', _, by simp; rfl, not_nameChar.1⟩
  unfold Reader.entityDecl
  cases hsp : Reader.space (' ' :: (n ++ (' ' :: quoted v ++ '>' :: t))) with
  | none => rw [hsp] at h1; cases h1
  | some s1 =>
    rw [hsp] at h1
    simp only [Option.bind_some] at h1 ⊢
    rw [h1]
    simp only [Option.bind_some]
    unfold Reader.entityDef
    rw [show ' ' :: quoted v ++ '>' :: t = ' ' :: (quoted v ++ '>' :: t) from rfl,
      space_cons (by simp [quoted]; decide)]
    simp only [Option.bind_some]
    rw [inQuotes_quoted hv]
    simp only
    split
    · simp only [Option.bind_some]
      rw [skip_cons (by decide), show '>' :: t = ['>'] ++ t from rfl, word_append]
      rfl
    · rfl

/-- A declaration of an entity with ids: there must be a system id. -/
theorem entityDecl_ids {n : Str} (hn : IsQName n) {p s : Option Str}
    (hp : ∀ x, p = some x → ∀ c ∈ x, Reader.PubidChar c) (hs : ∀ x, s = some x → '"' ∉ x)
    (hps : ¬ (p = none ∧ s = none)) (t : Str) :
    Reader.entityDecl (' ' :: (n ++ (externalId p s ++ '>' :: t))) =
      if s = none then none else some ((n, .ids p s none), t) := by
  have h1 := declName hn (externalId_start p s t)
  unfold Reader.entityDecl
  cases hsp : Reader.space (' ' :: (n ++ (externalId p s ++ '>' :: t))) with
  | none => rw [hsp] at h1; cases h1
  | some s1 =>
    rw [hsp] at h1
    simp only [Option.bind_some] at h1 ⊢
    rw [h1]
    simp only [Option.bind_some]
    unfold Reader.entityDef
    obtain ⟨k, u, hku, hk⟩ : ∃ k u, externalId p s ++ '>' :: t = ' ' :: k :: u ∧
        (k = 'S' ∨ k = 'P') := by
      cases p <;> cases s
      · exact absurd ⟨rfl, rfl⟩ hps
      · exact ⟨'S', _, by simp [externalId, keyed]; rfl, Or.inl rfl⟩
      · exact ⟨'P', _, by simp [externalId, keyed]; rfl, Or.inr rfl⟩
      · exact ⟨'P', _, by simp [externalId, keyed]; rfl, Or.inr rfl⟩
    have h2 : Reader.space (externalId p s ++ '>' :: t) = some (k :: u) := by
      rw [hku]
      refine space_cons ?_
      intro c hc
      cases hc
      rcases hk with rfl | rfl <;> decide
    have h3 : Reader.inQuotes (k :: u) = none := by
      unfold Reader.inQuotes
      simp only
      rw [if_neg]
      rcases hk with rfl | rfl <;> decide
    rw [h2]
    simp only [Option.bind_some]
    rw [h3]
    simp only
    cases s with
    | none =>
      cases p with
      | none => exact absurd ⟨rfl, rfl⟩ hps
      | some x =>
        rw [external_public (pubid_noQuote (hp x rfl))]
        rfl
    | some y =>
      rw [external_print hp (hs y rfl)]
      simp only [Option.bind_some]
      rw [if_neg (by simp), if_neg (by simp)]
      unfold Reader.nData
      rw [space_none (by simp; decide)]
      simp only [Option.bind_none, Option.map_some, Option.bind_some]
      rw [skip_cons (by decide), show '>' :: t = ['>'] ++ t from rfl, word_append]
      rfl

/-- A declaration of a notation: there must be an id. -/
theorem notationDecl_print {n : Str} (hn : IsQName n) {p s : Option Str}
    (hp : ∀ x, p = some x → ∀ c ∈ x, Reader.PubidChar c) (hs : ∀ x, s = some x → '"' ∉ x)
    (t : Str) :
    Reader.notationDecl (' ' :: (n ++ (externalId p s ++ '>' :: t))) =
      if p = none ∧ s = none then none else some ((n, p, s), t) := by
  have h1 := declName hn (externalId_start p s t)
  unfold Reader.notationDecl
  cases hsp : Reader.space (' ' :: (n ++ (externalId p s ++ '>' :: t))) with
  | none => rw [hsp] at h1; cases h1
  | some s1 =>
    rw [hsp] at h1
    simp only [Option.bind_some] at h1 ⊢
    rw [h1]
    simp only [Option.bind_some]
    unfold Reader.notationIds
    cases s with
    | none =>
      cases p with
      | none =>
        rw [show externalId none none ++ '>' :: t = '>' :: t from rfl]
        have : Reader.external ('>' :: t) = some ((none, none), '>' :: t) := by
          unfold Reader.external
          rw [space_none (by simp; decide)]
        rw [this]
        rfl
      | some x =>
        rw [external_public (pubid_noQuote (hp x rfl))]
        simp only
        rw [publicOnly_print (hp x rfl), if_neg (by simp)]
        simp only [Option.map_some, Option.bind_some]
        rw [skip_cons (by decide), show '>' :: t = ['>'] ++ t from rfl, word_append]
        rfl
    | some y =>
      rw [external_print hp (hs y rfl), if_neg (by simp)]
      simp only
      rw [if_neg (by simp)]
      simp only [Option.bind_some]
      rw [skip_cons (by decide), show '>' :: t = ['>'] ++ t from rfl, word_append]
      rfl

end XmlDom
