import Verif.Lemmas.ParseCalm
import Verif.Lemmas.Value
import Mathlib.Data.List.Forall2

/-!
# The reader on any stream of events
-/

namespace XmlDom
open Spec Props

/-- The outcome is this one. -/
def Ends {α : Type} (v : α) : Outcome α → Verdict → Prop
  | .ok n, .accept => n = v
  | .err er, .refuse er' => er = er'
  | .panic _, .crash => True
  | _, _ => False

theorem Ends.accept {α : Type} {v : α} {o : Outcome α} (h : Ends v o .accept) : o = .ok v := by
  cases o <;> simp_all [Ends]

theorem Ends.refuse {α : Type} {v : α} {o : Outcome α} {er : DomError} (h : Ends v o (.refuse er)) :
    o = .err er := by
  cases o <;> simp_all [Ends]

theorem Ends.crash {α : Type} {v : α} {o : Outcome α} (h : Ends v o .crash) : ∃ k, o = .panic k := by
  cases o <;> simp_all [Ends]

/-! ## Names -/

theorem partSays {s : Str} {o : Verdict} (h : PartSays s o) : Ends s (Name.checkPart s) o := by
  cases h with
  | empty => rfl
  | name hn ha =>
    rcases checkPart_cases s with ⟨rfl, _⟩ | ⟨_, _, h⟩ | ⟨h, _⟩ | ⟨_, h, _⟩
    · exact absurd rfl (IsName.ne_nil hn)
    · rw [h]; rfl
    · exact absurd h (not_wideStart_of_ascii ha)
    · exact absurd hn h
  | wide hw =>
    rcases checkPart_cases s with ⟨rfl, _⟩ | ⟨_, h, _⟩ | ⟨_, h⟩ | ⟨_, _, h, _⟩
    · obtain ⟨_, _, h, _⟩ := hw; cases h
    · exact absurd hw (not_wideStart_of_ascii h)
    · rw [h]; trivial
    · exact absurd hw h
  | other hs hn hw =>
    rcases checkPart_cases s with ⟨h, _⟩ | ⟨h, _⟩ | ⟨h, _⟩ | ⟨_, _, _, h⟩
    · exact absurd h hs
    · exact absurd h hn
    · exact absurd h hw
    · rw [h]; rfl

theorem partSays_total (s : Str) : ∃ o, PartSays s o := by
  rcases checkPart_cases s with ⟨rfl, _⟩ | ⟨h1, h2, _⟩ | ⟨h, _⟩ | ⟨h1, h2, h3, _⟩
  · exact ⟨_, .empty⟩
  · exact ⟨_, .name h1 h2⟩
  · exact ⟨_, .wide h⟩
  · exact ⟨_, .other h1 h2 h3⟩

/-- What parsing a name does. -/
def NameEnds (s : Str) : Verdict → Prop
  | .accept => ∃ nm, Name.fromStr s = .ok nm
  | .refuse er => Name.fromStr s = .err er
  | .crash => ∃ k, Name.fromStr s = .panic k

theorem nameSays {s : Str} {o : Verdict} (h : NameSays s o) : NameEnds s o := by
  have part : ∀ {s : Str}, PartSays s .accept → s ≠ [] := by
    intro s h
    cases h with
    | name h _ => exact IsName.ne_nil h
  cases h with
  | empty => rfl
  | colons hp hq => exact fromStr_many hp hq
  | single hs hc h =>
    have h1 := partSays h
    cases o with
    | accept => exact ⟨_, by rw [fromStr_single hs hc, h1.accept, Outcome.bind_ok, new_ok hs (by simp)]⟩
    | refuse er => show Name.fromStr s = _; rw [fromStr_single hs hc, h1.refuse]; rfl
    | crash =>
      obtain ⟨k, h2⟩ := h1.crash
      exact ⟨k, by rw [fromStr_single hs hc, h2]; rfl⟩
  | @«local» p l _ hp hl hv h =>
    have h1 := partSays h
    cases o with
    | accept => exact absurd rfl hv
    | refuse er => show Name.fromStr (p ++ ':' :: l) = _; rw [fromStr_pair hp hl, h1.refuse]; rfl
    | crash =>
      obtain ⟨k, h2⟩ := h1.crash
      exact ⟨k, by rw [fromStr_pair hp hl, h2]; rfl⟩
  | @pair p l _ hp hl h h' =>
    have h1 := (partSays h).accept
    have h2 := partSays h'
    cases o with
    | accept =>
      exact ⟨_, by
        rw [fromStr_pair hp hl, h1, Outcome.bind_ok, h2.accept, Outcome.bind_ok,
          new_ok (part h) (by simpa using part h')]⟩
    | refuse er =>
      show Name.fromStr (p ++ ':' :: l) = _
      rw [fromStr_pair hp hl, h1, Outcome.bind_ok, h2.refuse]; rfl
    | crash =>
      obtain ⟨k, h2⟩ := h2.crash
      exact ⟨k, by rw [fromStr_pair hp hl, h1, Outcome.bind_ok, h2]; rfl⟩

theorem nameSays_total (s : Str) : ∃ o, NameSays s o := by
  rcases name_forms s with rfl | ⟨h1, h2⟩ | ⟨p, l, rfl, hp, hl⟩ | ⟨p, q, r, rfl, hp, hq⟩
  · exact ⟨_, .empty⟩
  · obtain ⟨o, h⟩ := partSays_total s
    exact ⟨o, .single h1 h2 h⟩
  · obtain ⟨o, h⟩ := partSays_total l
    by_cases ho : o = .accept
    · subst ho
      obtain ⟨o', h'⟩ := partSays_total p
      exact ⟨o', .pair hp hl h h'⟩
    · exact ⟨o, .local hp hl ho h⟩
  · exact ⟨_, .colons hp hq⟩

/-! ## Processing instructions -/

theorem split_space {t r : Str} (ht : ' ' ∉ t) :
    (t ++ ' ' :: r).takeWhile (fun c => decide (c ≠ ' ')) = t ∧
      (t ++ ' ' :: r).dropWhile (fun c => decide (c ≠ ' ')) = ' ' :: r := by
  induction t with
  | nil => simp
  | cons c t ih =>
    obtain ⟨i1, i2⟩ := ih fun hm => ht (by simp [hm])
    have : decide (c ≠ ' ') = true := by
      simp only [decide_eq_true_eq]; rintro rfl; exact ht (by simp)
    constructor
    · rw [List.cons_append, List.takeWhile_cons, if_pos this, i1]
    · rw [List.cons_append, List.dropWhile_cons, if_pos this, i2]

theorem trimWhite_stripped {u : Uni} {r w : Str} (h : Stripped u r w) : trimWhite u r = w := by
  obtain ⟨a, b, rfl, ha, hb, hw⟩ := h
  unfold trimWhite
  rw [List.append_assoc, dropWhile_all ha]
  by_cases hne : w = []
  · subst hne
    have := dropWhile_all (p := u.white) (r := []) hb
    rw [List.append_nil] at this
    rw [List.nil_append, this]; rfl
  · have h1 : (w ++ b).dropWhile u.white = w ++ b := by
      refine dropWhile_stop fun c hc => hw c (Or.inl ?_)
      cases w with
      | nil => exact absurd rfl hne
      | cons x w => exact hc
    rw [h1, List.reverse_append, dropWhile_all (fun c hc => hb c (List.mem_reverse.mp hc)),
      dropWhile_stop, List.reverse_reverse]
    intro c hc
    rw [List.head?_reverse] at hc
    exact hw c (Or.inr hc)

theorem stripped_total (u : Uni) (r : Str) : ∃ w, Stripped u r w := by
  have lead : ∀ r : Str, ∃ a w, r = a ++ w ∧ (∀ c ∈ a, u.white c = true) ∧
      ∀ c, w.head? = some c → u.white c = false := by
    intro r
    induction r with
    | nil => exact ⟨[], [], rfl, by simp, by simp⟩
    | cons c r ih =>
      by_cases hc : u.white c = true
      · obtain ⟨a, w, rfl, h1, h2⟩ := ih
        refine ⟨c :: a, w, rfl, ?_, h2⟩
        intro x hx
        rcases List.mem_cons.mp hx with rfl | hx
        · exact hc
        · exact h1 x hx
      · refine ⟨[], c :: r, rfl, by simp, ?_⟩
        intro x hx
        simp only [List.head?_cons, Option.some.injEq] at hx
        subst hx
        simpa using hc
  obtain ⟨a, v, rfl, h1, h2⟩ := lead r
  obtain ⟨b, w, hv, h3, h4⟩ := lead v.reverse
  have hv' : v = w.reverse ++ b.reverse := by
    have := congrArg List.reverse hv
    simpa using this
  refine ⟨w.reverse, a, b.reverse, by rw [hv', List.append_assoc], h1,
    fun c hc => h3 c (List.mem_reverse.mp hc), ?_⟩
  rintro c (hc | hc)
  · refine h2 c ?_
    rw [hv']
    cases hw : w.reverse with
    | nil => rw [hw] at hc; cases hc
    | cons x y => rw [hw] at hc; exact hc
  · rw [List.getLast?_reverse] at hc
    exact h4 c hc

theorem splitPi_says {u : Uni} {s t : Str} {d : Option Str} (h : PiSplit u s t d) :
    splitPi u s = (t, d) := by
  cases h with
  | bare hs =>
    have : s.dropWhile (fun c => decide (c ≠ ' ')) = [] := by
      have := dropWhile_all (p := fun c => decide (c ≠ ' ')) (w := s) (r := []) (by
        intro c hc
        simp only [decide_eq_true_eq]
        rintro rfl
        exact hs hc)
      simpa using this
    unfold splitPi
    rw [this]
  | blank ht hr =>
    obtain ⟨i1, i2⟩ := split_space (r := _) ht
    unfold splitPi
    rw [i1, i2]
    simp [trimWhite_stripped hr]
  | data ht hr hw =>
    obtain ⟨i1, i2⟩ := split_space (r := _) ht
    unfold splitPi
    rw [i1, i2]
    simp [trimWhite_stripped hr, hw]

theorem piSplit_total (u : Uni) (s : Str) : ∃ t d, PiSplit u s t d := by
  by_cases hs : ' ' ∈ s
  · obtain ⟨t, r, rfl, ht⟩ := List.eq_append_cons_of_mem hs
    obtain ⟨w, hw⟩ := stripped_total u r
    by_cases hne : w = []
    · subst hne; exact ⟨t, none, .blank ht hw⟩
    · exact ⟨t, some w, .data ht hw hne⟩
  · exact ⟨s, none, .bare hs⟩

theorem not_unreserved {t : Str} (ht : ¬ Unreserved t) : t.map asciiLower = Syn.piReserved := by
  unfold Unreserved at ht
  have h1 : ∃ a b c, t = [a, b, c] ∧ (a = 'x' ∨ a = 'X') ∧ (b = 'm' ∨ b = 'M') ∧
      (c = 'l' ∨ c = 'L') := by
    apply Classical.byContradiction
    intro h2
    exact ht fun a b c h3 h4 h5 h6 => h2 ⟨a, b, c, h3, h4, h5, h6⟩
  obtain ⟨a, b, c, rfl, ha, hb, hc⟩ := h1
  rcases ha with rfl | rfl <;> rcases hb with rfl | rfl <;> rcases hc with rfl | rfl <;> decide

theorem pi_bad {e : Env} {d p : NodeId} {h : Heap} {s : Str} (hs : BadPi e.uni s) :
    ∃ k h', handlePi e d p (some s) h = (.panic k, h') := by
  obtain ⟨t, dat, h1, h2⟩ := hs
  unfold handlePi
  simp only [splitPi_says h1]
  by_cases hr : Unreserved t
  · rcases h2 with h2 | ⟨o, h2, ho⟩
    · exact absurd hr h2
    · have hn := nameSays h2
      unfold createProcessingInstruction createNamed
      rw [if_neg (unreserved_map hr)]
      cases o with
      | accept => exact absurd rfl ho
      | refuse er =>
        have hn : Name.fromStr t = .err er := hn
        rw [hn]; exact ⟨_, _, rfl⟩
      | crash =>
        obtain ⟨k, hn⟩ := hn
        rw [hn]; exact ⟨_, _, rfl⟩
  · unfold createProcessingInstruction
    rw [if_pos (not_unreserved hr)]
    exact ⟨_, _, rfl⟩

/-- A processing instruction is a leaf or breaks the reader. -/
theorem pi_total (u : Uni) (s : Str) : (∃ t d, LeafEvent u (.pi (some s)) (.pi t d)) ∨ BadPi u s := by
  obtain ⟨t, d, hs⟩ := piSplit_total u s
  obtain ⟨o, ho⟩ := nameSays_total t
  by_cases hr : Unreserved t
  · by_cases hac : o = .accept
    · subst hac; exact Or.inl ⟨t, d, .pi hs ho hr⟩
    · exact Or.inr ⟨t, d, hs, Or.inr ⟨o, ho, hac⟩⟩
  · exact Or.inr ⟨t, d, hs, Or.inl hr⟩

/-! ## Declarations -/

theorem unquote_says {v : Str} {r : Option Str} (h : Unquoted v r) :
    unquote v = match r with | some w => .ok w | none => .err .syntax := by
  cases h with
  | plain h1 h2 =>
    unfold unquote
    simp [h1, h2]
  | @double s =>
    have h1 : ('"' :: (s ++ ['"'])).getLast? = some '"' := by
      rw [← List.cons_append, List.getLast?_append]; simp
    unfold unquote
    simp only [List.head?_cons, h1, and_self, if_true]
    have : (s ++ ['"']) ≠ [] := by simp
    split
    · rename_i h; cases h
    · rename_i h; simp at h
    · rename_i h; cases h; simp
  | @single s =>
    have h1 : ('\'' :: (s ++ ['\''])).getLast? = some '\'' := by
      rw [← List.cons_append, List.getLast?_append]; simp
    unfold unquote
    simp only [List.head?_cons, h1, and_self, if_true]
    rw [if_neg (by decide)]
    split
    · rename_i h; cases h
    · rename_i h; simp at h
    · rename_i h; cases h; simp
  | @unclosed s q hq hs hne =>
    have h1 : (q :: s).getLast? = s.getLast? := by
      cases s with
      | nil => exact absurd rfl hne
      | cons a s => rw [List.getLast?_cons_cons]
    unfold unquote
    simp only [List.head?_cons, h1, Option.some.injEq]
    rcases hq with rfl | rfl
    · simp [hs]
    · simp [hs]

theorem unquote_total (v : Str) : (∃ r, Unquoted v r) ∨ v = ['"'] ∨ v = ['\''] := by
  have key : ∀ q : Char, ∀ s : Str, s ≠ [] → (∃ t, s = t ++ [q]) ∨ s.getLast? ≠ some q := by
    intro q s hs
    by_cases h : s.getLast? = some q
    · obtain ⟨t, ht⟩ := List.getLast?_eq_some_iff.mp h
      exact Or.inl ⟨t, ht⟩
    · exact Or.inr h
  cases v with
  | nil => exact Or.inl ⟨_, .plain (by simp) (by simp)⟩
  | cons c s =>
    by_cases h1 : c = '"'
    · subst h1
      by_cases hs : s = []
      · subst hs; exact Or.inr (Or.inl rfl)
      · rcases key '"' s hs with ⟨t, rfl⟩ | h
        · exact Or.inl ⟨_, .double⟩
        · exact Or.inl ⟨_, .unclosed (Or.inl rfl) h hs⟩
    · by_cases h2 : c = '\''
      · subst h2
        by_cases hs : s = []
        · subst hs; exact Or.inr (Or.inr rfl)
        · rcases key '\'' s hs with ⟨t, rfl⟩ | h
          · exact Or.inl ⟨_, .single⟩
          · exact Or.inl ⟨_, .unclosed (Or.inr rfl) h hs⟩
      · exact Or.inl ⟨_, .plain (by simpa using h1) (by simpa using h2)⟩

theorem version_text {w : Str} {x : XmlVersion} : XmlVersion.fromStr w = some x ↔ w = versionText x := by
  unfold XmlVersion.fromStr
  constructor
  · split
    · rename_i h; intro h2; cases h2; exact h
    · split
      · rename_i h; intro h2; cases h2; exact h
      · nofun
  · rintro rfl; cases x <;> rfl

/-- The part of `handleDecl` behind the check. -/
def declOf (v : Option Str) (en sa : Option (Option Str)) : Outcome XmlDecl :=
  (makeDecl v en sa).bind fun d =>
    match XmlVersion.fromStr d.1 with
    | none => .panic .unwrap
    | some v => XmlDecl.new v d.2.1 d.2.2

/-- What is made of a declaration. -/
def DeclEnds (o : Outcome XmlDecl) : Option XmlDecl → Verdict → Prop
  | some d, .accept => o = .ok d
  | _, .refuse er => o = .err er
  | _, .crash => ∃ k, o = .panic k
  | _, _ => False

theorem decl_says {v : Option Str} {en sa : Option (Option Str)} {d : Option XmlDecl} {o : Verdict}
    (h : DeclSays en sa v d o) : DeclEnds (declOf v en sa) d o := by
  unfold declOf makeDecl
  cases h with
  | none => exact ⟨_, rfl⟩
  | lone hq => rcases hq with rfl | rfl <;> exact ⟨_, rfl⟩
  | unclosed hv => simp only [unquote_says hv]; rfl
  | undecodable hv h =>
    simp only [unquote_says hv, Outcome.bind_ok]
    rcases h with rfl | rfl
    · exact ⟨_, rfl⟩
    · rcases en with _ | _ | y <;> exact ⟨_, rfl⟩
  | unknown hv h1 =>
    simp only [unquote_says hv, Outcome.bind_ok]
    have : ∀ w, (∀ x, w ≠ versionText x) → XmlVersion.fromStr w = none := by
      intro w hw
      cases hx : XmlVersion.fromStr w with
      | none => rfl
      | some x => exact absurd (version_text.mp hx) (hw x)
    have hn := this _ h1
    rcases en with _ | _ | y <;> rcases sa with _ | _ | z <;>
      simp only [Outcome.bind, hn] <;> exact ⟨_, rfl⟩
  | @badEncoding _ w y hv he hy =>
    subst he
    simp only [unquote_says hv, Outcome.bind_ok]
    have hnew : ∀ x b, ∃ k, XmlDecl.new x (some y) b = .panic k := by
      intro x b
      unfold XmlDecl.new
      rcases isEncoding_iff y with ⟨_, h2⟩ | ⟨h1, _⟩
      · exact absurd h2 hy
      · simp only [h1]; exact ⟨_, rfl⟩
    rcases sa with _ | _ | z <;> simp only [Outcome.bind]
    · cases XmlVersion.fromStr w with
      | none => exact ⟨_, rfl⟩
      | some x => exact hnew x _
    · exact ⟨_, rfl⟩
    · cases XmlVersion.fromStr w with
      | none => exact ⟨_, rfl⟩
      | some x => exact hnew x _
  | @good _ d hv he hy hs =>
    simp only [unquote_says hv, Outcome.bind_ok]
    have hx : XmlVersion.fromStr (versionText d.version) = some d.version := version_text.mpr rfl
    have hd := decl_new hy
    obtain ⟨x, en', sa'⟩ := d
    simp only at he hs hx hd
    subst he
    rcases hs with ⟨rfl, rfl⟩ | ⟨z, rfl, rfl⟩
    · cases en' <;> simp only [Option.map, Outcome.bind, hx] <;> exact hd
    · cases en' <;> simp only [Option.map, Outcome.bind, hx] <;> exact hd

theorem declSays_total (v : Option Str) (en sa : Option (Option Str)) :
    (∃ d, DeclSays en sa v (some d) .accept) ∨ ∃ o, DeclSays en sa v none o := by
  cases v with
  | none => exact Or.inr ⟨_, .none⟩
  | some v =>
    rcases unquote_total v with ⟨r, hr⟩ | rfl | rfl
    · cases r with
      | none => exact Or.inr ⟨_, .unclosed hr⟩
      | some w =>
        by_cases h1 : en = some none ∨ sa = some none
        · exact Or.inr ⟨_, .undecodable hr h1⟩
        by_cases h2 : ∃ x, w = versionText x
        · obtain ⟨x, rfl⟩ := h2
          have hsa : ∃ b, (sa = none ∧ b = none) ∨
              ∃ s, sa = some (some s) ∧ b = some (decide (s = c! "yes")) := by
            rcases sa with _ | _ | z
            · exact ⟨none, Or.inl ⟨rfl, rfl⟩⟩
            · exact absurd (Or.inr rfl) h1
            · exact ⟨_, Or.inr ⟨z, rfl, rfl⟩⟩
          obtain ⟨b, hb⟩ := hsa
          rcases en with _ | _ | y
          · exact Or.inl ⟨⟨x, none, b⟩, .good hr rfl (by nofun) hb⟩
          · exact absurd (Or.inl rfl) h1
          · by_cases hy : IsEncName y
            · exact Or.inl ⟨⟨x, some y, b⟩, .good hr rfl (fun z hz => by cases hz; exact hy) hb⟩
            · exact Or.inr ⟨_, .badEncoding hr rfl hy⟩
        · exact Or.inr ⟨_, .unknown hr fun x hx => h2 ⟨x, hx⟩⟩
    · exact Or.inr ⟨_, .lone (Or.inl rfl)⟩
    · exact Or.inr ⟨_, .lone (Or.inr rfl)⟩

/-! ## Attributes -/

/-- The attributes of the element, one by one. -/
def AttrsKept (h : Heap) (d el : NodeId) (as : List (Str × Str)) (attrs : List (Name × NodeId)) :
    Prop :=
  List.Forall₂ (fun a kb => Name.fromStr a.1 = .ok kb.1 ∧ ∃ t, el < t ∧ t < h.next ∧ el < kb.2 ∧
    kb.2 < h.next ∧ h.get kb.2 = attrNode d kb.1 t (some el) ∧ h.get t = Node.newText d a.2) as attrs

theorem AttrsKept.keep {h h' : Heap} {d el : NodeId} {as : List (Str × Str)}
    {attrs : List (Name × NodeId)} (k : AttrsKept h d el as attrs) (hn : h.next ≤ h'.next)
    (ho : ∀ m, el < m → m < h.next → h'.get m = h.get m) : AttrsKept h' d el as attrs := by
  refine List.Forall₂.imp ?_ k
  rintro a ⟨nm, b⟩ ⟨h1, t, h2, h3, h4, h5, h6, h7⟩
  exact ⟨h1, t, h2, Nat.lt_of_lt_of_le h3 hn, h4, Nat.lt_of_lt_of_le h5 hn,
    (ho b h4 h5).trans h6, (ho t h2 h3).trans h7⟩

theorem AttrsKept.built {h : Heap} {d el : NodeId} {as : List (Str × Str)}
    {attrs : List (Name × NodeId)} (k : AttrsKept h d el as attrs) :
    attrs.length = as.length ∧ AttrsBuilt h d el el as attrs := by
  refine ⟨k.length_eq.symm, ?_⟩
  induction k with
  | nil => intro a ha; cases ha
  | @cons a kb as attrs h1 _ ih =>
    intro x hx
    rcases List.mem_cons.mp hx with rfl | hx
    · obtain ⟨h1, t, h2, h3, h4, h5, h6, h7⟩ := h1
      exact ⟨kb.1, kb.2, t, by simp, C28_display_fromStr _ _ h1, Nat.le_of_lt h2, h3,
        Nat.le_of_lt h4, h5, h6, h7⟩
    · obtain ⟨k', b, t, y1, y2⟩ := ih x hx
      exact ⟨k', b, t, List.mem_cons_of_mem _ y1, y2⟩

theorem AttrsKept.put {h : Heap} {d el : NodeId} {as : List (Str × Str)}
    {attrs : List (Name × NodeId)} (k : AttrsKept h d el as attrs) {s v : Str} {nm : Name}
    {b t : NodeId} (hs : Name.fromStr s = .ok nm) (ht : el < t) (ht' : t < h.next) (hb : el < b)
    (hb' : b < h.next) (gb : h.get b = attrNode d nm t (some el)) (gt : h.get t = Node.newText d v) :
    AttrsKept h d el (put s v as) (mapInsert nm b attrs) := by
  refine .cons ⟨hs, t, ht, ht', hb, hb', gb, gt⟩ ?_
  unfold mapRemove
  induction k with
  | nil => exact .nil
  | @cons a kb as attrs h1 _ ih =>
    have hk : a.1 ≠ s ↔ kb.1 ≠ nm := by
      constructor
      · intro hne he
        apply hne
        rw [← C28_display_fromStr _ _ h1.1, ← C28_display_fromStr _ _ hs, he]
      · intro hne he
        apply hne
        have := h1.1
        rw [he, hs] at this
        cases this
        rfl
    rw [List.filter_cons, List.filter_cons]
    by_cases hne : a.1 ≠ s
    · rw [if_pos (by simpa using hne), if_pos (by simpa using hk.mp hne)]
      exact .cons h1 ih
    · rw [if_neg (by simpa using hne), if_neg (by simpa using fun h => hne (hk.mpr h))]
      exact ih

/-- What a start tag does to the element and the document. -/
structure Tagged (h h' : Heap) (d el : NodeId) (as : List (Str × Str)) : Prop where
  next : h.next ≤ h'.next
  live : ∀ m, m < h.next → h'.live m = h.live m
  others : ∀ m, m < h.next → m ≠ el → m ≠ d → h'.get m = h.get m
  doc : ∃ x ids, (h.get d).ext = .document x ∧
    h'.get d = { h.get d with ext := .document { x with idMap := ids } }
  elem : ∃ attrs nss, h'.get el = { h.get el with ext := .element attrs nss } ∧
    AttrsKept h' d el as attrs

theorem Tagged.after {a b c : Heap} {d el : NodeId} {as as' : List (Str × Str)}
    (x : Tagged a b d el as) (y : Tagged b c d el as') : Tagged a c d el as' := by
  have hl : ∀ m, m < a.next → m < b.next := fun m hm => Nat.lt_of_lt_of_le hm x.next
  refine ⟨Nat.le_trans x.next y.next, fun m hm => (y.live m (hl m hm)).trans (x.live m hm),
    fun m hm h1 h2 => (y.others m (hl m hm) h1 h2).trans (x.others m hm h1 h2), ?_, ?_⟩
  · obtain ⟨v, i, h1, h2⟩ := x.doc
    obtain ⟨w, j, h3, h4⟩ := y.doc
    refine ⟨v, j, h1, ?_⟩
    rw [h2] at h3
    simp only at h3
    cases h3
    rw [h2] at h4
    exact h4
  · obtain ⟨at1, ns1, h1, _⟩ := x.elem
    obtain ⟨at2, ns2, h2, h3⟩ := y.elem
    rw [h1] at h2
    exact ⟨at2, ns2, h2, h3⟩

theorem Tagged.ctx {h h' : Heap} {d el : NodeId} {as : List (Str × Str)} (t : Tagged h h' d el as)
    (c : Ctx h d el) (hne : el ≠ d) : Ctx h' d el := by
  obtain ⟨x, hx, ho⟩ := c.dext
  obtain ⟨y, i, hy, hd⟩ := t.doc
  rw [hx] at hy
  cases hy
  obtain ⟨attrs, nss, h1, _⟩ := t.elem
  refine ⟨Nat.lt_of_lt_of_le c.dlt t.next, (t.live d c.dlt).trans c.dlive, by rw [hd]; exact c.dtype,
    ⟨{ x with idMap := i }, by rw [hd], ho⟩, Nat.lt_of_lt_of_le c.plt t.next,
    (t.live el c.plt).trans c.plive, ?_⟩
  rcases c.where_ with h2 | ⟨_, h3, h4, _⟩
  · exact absurd h2 hne
  · refine Or.inr ⟨hne, ?_⟩
    rw [h1]
    exact ⟨h3, h4, _, _, rfl⟩

/-- The ids of the document are these. -/
def IdsAre (h : Heap) (d : NodeId) (ids : List Str) : Prop := ∀ s, s ∈ idsOf h d ↔ s ∈ ids

/-- One attribute is put on the element, up to the id. -/
theorem attr_put {e : Env} {h : Heap} {d el : NodeId} (c : Ctx h d el) (hde : d < el) {k v : Str}
    {nm : Name} (hk : Name.fromStr k = .ok nm) {as : List (Str × Str)}
    {attrs : List (Name × NodeId)} {nss : List (Option Str × Str)}
    (hx : (h.get el).ext = .element attrs nss) (ka : AttrsKept h d el as attrs) :
    ∃ h1 h3, createAttributeWith h d k v = (.ok (h.next + 1), h1) ∧
      setAttributeNode e h1 el (h.next + 1) = recordId e.uni h3 el (h.next + 1) nm ∧
      Tagged h h3 d el (put k v as) ∧ idsOf h3 d = idsOf h d ∧
      (h3.get (h.next + 1)).owner = some d ∧ (h3.get (h.next + 1)).children ≠ [] ∧
      attrRaw h3 (h.next + 1) = v := by
  have hne : el ≠ d := (Nat.ne_of_lt hde).symm
  obtain ⟨h1, h3, e1, ad, e2⟩ := attr_new (e := e) (v := v) c hne hk
  refine ⟨h1, h3, e1, e2, ⟨?_, ?_, fun m hm h1 _ => ad.others m hm h1, ?_, ?_⟩, ?_, ?_, ?_, ?_⟩
  · rw [ad.next]; exact Nat.le_add_right _ _
  · intro m hm
    rw [ad.live, if_neg (Nat.ne_of_lt (Nat.lt_succ_of_lt hm)), if_neg (Nat.ne_of_lt hm)]
  · obtain ⟨x, hx, _⟩ := c.dext
    exact ⟨x, x.idMap, hx, by rw [ad.others d c.dlt hne.symm, ← hx]⟩
  · obtain ⟨attrs', nss', h4, h5⟩ := ad.elem
    rw [hx] at h4
    cases h4
    refine ⟨_, _, h5, ?_⟩
    have l1 : h.next < h3.next := by
      rw [ad.next]; exact Nat.lt_succ_of_lt (Nat.lt_succ_self _)
    have l2 : h.next + 1 < h3.next := by rw [ad.next]; exact Nat.lt_succ_self _
    exact (ka.keep (Nat.le_of_lt l1) fun m m1 m2 => ad.others m m2 (Nat.ne_of_lt m1).symm).put hk
      c.plt l1 (Nat.lt_succ_of_lt c.plt) l2 ad.attr ad.text
  · unfold idsOf; rw [ad.others d c.dlt hne.symm]
  · rw [ad.attr]; rfl
  · rw [ad.attr]; simp [attrNode]
  · unfold attrRaw
    rw [ad.attr]
    simp only [attrNode, List.flatMap_cons, List.flatMap_nil, List.append_nil, ad.text]
    rfl

theorem recordId_crash {u : Uni} {h : Heap} {d el a : NodeId} (c : Ctx h d el) (hne : el ≠ d)
    {nm : Name} (hk : Name.fromStr (c! "xml:id") = .ok nm) (ho : (h.get a).owner = some d)
    (hv : (attrValue u h a).Panics) : ∃ k h', recordId u h el a nm = (.panic k, h') := by
  obtain ⟨x, hx, hopt⟩ := c.dext
  have hown : ownerDocument h a = some d := Heap.upgrade_some.mpr ⟨ho, c.dlive⟩
  have key : nm.isIdAttribute false = true := by
    have : nm = ⟨none, some Syn.xmlPrefix, Syn.idAttr⟩ := by
      have : Name.fromStr (c! "xml:id") = .ok ⟨none, some Syn.xmlPrefix, Syn.idAttr⟩ := by decide
      rw [this] at hk
      cases hk
      rfl
    rw [this]; decide
  unfold recordId
  rw [hown]
  simp only [if_neg hne.symm, hx, hopt, key, if_true]
  cases ha : attrValue u h a with
  | panic k => exact ⟨_, _, rfl⟩
  | _ => rw [ha] at hv; exact hv.elim

theorem attrs_says {e : Env} (hu : e.uni.Ascii) {d el : NodeId} (hde : d < el)
    {ids ids' : List Str} {as as' : List (Str × Str)} {evs : List AttrEvent} {o : Verdict}
    (ha : Attrs e.uni ids as evs as' ids' o) : ∀ (h : Heap) {attrs : List (Name × NodeId)}
    {nss : List (Option Str × Str)}, Ctx h d el → IdsAre h d ids →
    (h.get el).ext = .element attrs nss → AttrsKept h d el as attrs →
    Ends el (handleAttributes e d el evs h).1 o ∧
      (o ≠ .crash → Tagged h (handleAttributes e d el evs h).2 d el as' ∧
        IdsAre (handleAttributes e d el evs h).2 d ids') := by
  have hne : el ≠ d := (Nat.ne_of_lt hde).symm
  have same : ∀ {h : Heap} {as : List (Str × Str)} {attrs : List (Name × NodeId)}
      {nss : List (Option Str × Str)}, Ctx h d el → (h.get el).ext = .element attrs nss →
      AttrsKept h d el as attrs → Tagged h h d el as := by
    intro h as attrs nss c hx ka
    obtain ⟨y, hy, _⟩ := c.dext
    exact ⟨Nat.le_refl _, fun _ _ => rfl, fun _ _ _ _ => rfl, ⟨y, y.idMap, hy, by rw [← hy]⟩,
      ⟨attrs, nss, by rw [← hx], ka⟩⟩
  induction ha with
  | done => intro h attrs nss c hi hx ka; exact ⟨rfl, fun _ => ⟨same c hx ka, hi⟩⟩
  | bad => intro h attrs nss c hi hx ka; exact ⟨trivial, fun h => absurd rfl h⟩
  | undecodable => intro h attrs nss c hi hx ka; exact ⟨rfl, fun _ => ⟨same c hx ka, hi⟩⟩
  | @name ids as rest k v o hk ho =>
    intro h attrs nss c hi hx ka
    have hn := nameSays hk
    cases o with
    | accept => exact absurd rfl ho
    | refuse er =>
      have hn : Name.fromStr k = .err er := hn
      have : createAttributeWith h d k v = (.err er, h) := by
        unfold createAttributeWith createAttr; rw [hn]
      unfold handleAttributes
      rw [this]
      exact ⟨rfl, fun _ => ⟨same c hx ka, hi⟩⟩
    | crash =>
      obtain ⟨kd, hn⟩ := hn
      have : createAttributeWith h d k v = (.panic kd, h) := by
        unfold createAttributeWith createAttr; rw [hn]
      unfold handleAttributes
      rw [this]
      exact ⟨trivial, fun h => absurd rfl h⟩
  | @plain ids ids' as as' rest k v o hk hxm _ ih =>
    intro h attrs nss c hi hx ka
    obtain ⟨nm, hnm⟩ := nameSays hk
    obtain ⟨h1, h3, e1, e2, t3, i3, o3, _, _⟩ := attr_put (e := e) (v := v) c hde hnm hx ka
    have c3 := t3.ctx c hne
    have r := (recordId_new (u := e.uni) c3 hne hnm o3).1 hxm
    obtain ⟨at3, ns3, g3, k3⟩ := t3.elem
    have x3 : (h3.get el).ext = .element at3 ns3 := by rw [g3]
    obtain ⟨q1, q2⟩ := ih h3 c3 (fun s => by rw [i3]; exact hi s) x3 k3
    have : handleAttributes e d el (.good k v :: rest) h = handleAttributes e d el rest h3 := by
      simp only [handleAttributes, e1, e2, r]
    rw [this]
    exact ⟨q1, fun ho => ⟨t3.after (q2 ho).1, (q2 ho).2⟩⟩
  | @badId ids as rest v hv =>
    intro h attrs nss c hi hx ka
    obtain ⟨nm, hnm⟩ : ∃ nm, Name.fromStr (c! "xml:id") = .ok nm :=
      ⟨⟨none, some Syn.xmlPrefix, Syn.idAttr⟩, by decide⟩
    obtain ⟨h1, h3, e1, e2, t3, i3, o3, n3, a3⟩ := attr_put (e := e) (v := v) c hde hnm hx ka
    have c3 := t3.ctx c hne
    obtain ⟨kd, h4, r⟩ := recordId_crash c3 hne hnm o3 (attrValue_gives hu n3 a3 hv)
    have : handleAttributes e d el (.good (c! "xml:id") v :: rest) h = (.panic kd, h4) := by
      unfold handleAttributes
      simp only [e1, e2, r]
    rw [this]
    exact ⟨trivial, fun h => absurd rfl h⟩
  | @taken ids as rest v w hv hw =>
    intro h attrs nss c hi hx ka
    obtain ⟨nm, hnm⟩ : ∃ nm, Name.fromStr (c! "xml:id") = .ok nm :=
      ⟨⟨none, some Syn.xmlPrefix, Syn.idAttr⟩, by decide⟩
    obtain ⟨h1, h3, e1, e2, t3, i3, o3, n3, a3⟩ := attr_put (e := e) (v := v) c hde hnm hx ka
    have c3 := t3.ctx c hne
    have r := ((recordId_new (u := e.uni) c3 hne hnm o3).2 rfl w (attrValue_gives hu n3 a3 hv)).1
      (by rw [i3]; exact (hi w).mpr hw)
    have : handleAttributes e d el (.good (c! "xml:id") v :: rest) h = (.err .syntax, h3) := by
      unfold handleAttributes
      simp only [e1, e2, r]
    rw [this]
    exact ⟨rfl, fun _ => ⟨t3, fun s => by rw [i3]; exact hi s⟩⟩
  | @id ids ids' as as' rest v w o hv hw _ ih =>
    intro h attrs nss c hi hx ka
    obtain ⟨nm, hnm⟩ : ∃ nm, Name.fromStr (c! "xml:id") = .ok nm :=
      ⟨⟨none, some Syn.xmlPrefix, Syn.idAttr⟩, by decide⟩
    obtain ⟨h1, h3, e1, e2, t3, i3, o3, n3, a3⟩ := attr_put (e := e) (v := v) c hde hnm hx ka
    have c3 := t3.ctx c hne
    obtain ⟨y, hy, r⟩ := ((recordId_new (u := e.uni) c3 hne hnm o3).2 rfl w
      (attrValue_gives hu n3 a3 hv)).2 (by rw [i3]; exact fun h => hw ((hi w).mp h))
    obtain ⟨at3, ns3, g3, k3⟩ := t3.elem
    generalize h4' : h3.set d { h3.get d with
      ext := .document { y with idMap := mapInsert w el y.idMap } } = h4 at r
    have gd : h4.get d = { h3.get d with
        ext := .document { y with idMap := mapInsert w el y.idMap } } := by
      rw [← h4']; exact Heap.get_set_self _ _ _
    have go : ∀ m, m ≠ d → h4.get m = h3.get m := fun m hm => by
      rw [← h4']; exact Heap.get_set_ne _ _ hm
    have hn4 : h4.next = h3.next := by rw [← h4']; rfl
    have hl4 : h4.live = h3.live := by rw [← h4']; rfl
    have k4 : AttrsKept h4 d el (put (c! "xml:id") v as) at3 :=
      k3.keep (Nat.le_of_eq hn4.symm) fun m m1 _ => go m (Nat.ne_of_lt (Nat.lt_trans hde m1)).symm
    have t4 : Tagged h3 h4 d el (put (c! "xml:id") v as) := by
      refine ⟨Nat.le_of_eq hn4.symm, fun m _ => by rw [hl4], fun m _ _ hm => go m hm,
        ⟨y, _, hy, gd⟩, ⟨at3, ns3, ?_, k4⟩⟩
      rw [go el hne, g3]
    have c4 := t4.ctx c3 hne
    have x4 : (h4.get el).ext = .element at3 ns3 := by rw [go el hne, g3]
    have i4 : IdsAre h4 d (w :: ids) := by
      intro s
      have : ∀ (hh : Heap) (z : DocExt), (hh.get d).ext = .document z →
          idsOf hh d = z.idMap.map (·.1) := by
        intro hh z hz; unfold idsOf; rw [hz]
      have j3 := this h3 y hy
      rw [this h4 _ (by rw [gd])]
      simp only [mapInsert_fresh (k := w) (v := el) (m := y.idMap) (by
        rintro ⟨i, z⟩ hm rfl
        refine hw ((hi i).mp ?_)
        rw [← i3, j3]
        exact List.mem_map.mpr ⟨_, hm, rfl⟩), List.map_cons, List.mem_cons]
      rw [← j3, i3, hi s]
    obtain ⟨q1, q2⟩ := ih h4 c4 i4 x4 k4
    have : handleAttributes e d el (.good (c! "xml:id") v :: rest) h =
        handleAttributes e d el rest h4 := by
      simp only [handleAttributes, e1, e2, r]
    rw [this]
    exact ⟨q1, fun ho => ⟨(t3.after t4).after (q2 ho).1, (q2 ho).2⟩⟩

theorem attrs_total (u : Uni) (evs : List AttrEvent) : ∀ (ids : List Str) (as : List (Str × Str)),
    ∃ as' ids' o, Attrs u ids as evs as' ids' o := by
  induction evs with
  | nil => intro ids as; exact ⟨_, _, _, .done⟩
  | cons a rest ih =>
    intro ids as
    cases a with
    | bad => exact ⟨_, _, _, .bad⟩
    | undecodable => exact ⟨_, _, _, .undecodable⟩
    | good k v =>
      obtain ⟨o, ho⟩ := nameSays_total k
      by_cases hac : o = .accept
      · subst hac
        by_cases hx : k = c! "xml:id"
        · subst hx
          obtain ⟨r, hr⟩ := valueOf_total u v
          cases r with
          | none => exact ⟨_, _, _, .badId hr⟩
          | some w =>
            by_cases hw : w ∈ ids
            · exact ⟨_, _, _, .taken hr hw⟩
            · obtain ⟨_, _, _, h⟩ := ih (w :: ids) (put (c! "xml:id") v as)
              exact ⟨_, _, _, .id hr hw h⟩
        · obtain ⟨_, _, _, h⟩ := ih ids (put k v as)
          exact ⟨_, _, _, .plain ho hx h⟩
      · exact ⟨_, _, _, .name ho hac⟩

/-! ## Start tags -/

theorem Tagged.grow {h h' : Heap} {d el : NodeId} {as : List (Str × Str)}
    (g : Tagged h h' d el as) {a : Heap} {p : NodeId} (x : Grow a h d p) (hd : d < a.next)
    (hp : p < a.next) (hel : a.next ≤ el) :
    Grow a h' d p ∧ (h'.get p).children = (h.get p).children := by
  have hl : ∀ m, m < a.next → m < h.next := fun m hm => Nat.lt_of_lt_of_le hm x.next
  have hne : ∀ m, m < a.next → m ≠ el := fun m hm => Nat.ne_of_lt (Nat.lt_of_lt_of_le hm hel)
  obtain ⟨y, i, hy, gd⟩ := g.doc
  have hk : (h'.get p).children = (h.get p).children := by
    by_cases hpd : p = d
    · subst hpd; rw [gd]
    · rw [g.others p (hl p hp) (hne p hp) hpd]
  refine ⟨⟨Nat.le_trans x.next g.next, fun m hm => (g.live m (hl m hm)).trans (x.live m hm),
    fun m hm h1 h2 => (g.others m (hl m hm) (hne m hm) h2).trans (x.others m hm h1 h2), ?_, ?_, ?_⟩, hk⟩
  · intro hpd
    rw [g.others p (hl p hp) (hne p hp) hpd]
    exact x.par hpd
  · obtain ⟨v, j, h1, h2⟩ := x.doc
    refine ⟨v, i, h1, ?_⟩
    rw [h2] at hy gd
    simp only at hy gd
    cases hy
    rw [gd]
  · intro hpd
    rw [gd]; exact x.docKids hpd

theorem start_says {e : Env} (hu : e.uni.Ascii) {d p : NodeId} {h : Heap} (c : Ctx h d p) {n : Str}
    (hn : NameSays n .accept) (hr : p = d → Rootless h d) {ids ids' : List Str}
    {as' : List (Str × Str)} {evs : List AttrEvent} {o : Verdict}
    (ha : Attrs e.uni ids [] evs as' ids' o) (hi : IdsAre h d ids) :
    Ends h.next (handleStart e d p (some n) evs h).1 o ∧
      (o ≠ .crash → Begun h (handleStart e d p (some n) evs h).2 d p n as' ∧
        IdsAre (handleStart e d p (some n) evs h).2 d ids') := by
  obtain ⟨nm, hnm⟩ := nameSays hn
  have hallow : isChildAllowed (h.get p).ntype (Node.newElement d nm).ntype = true := by
    rcases c.where_ with h1 | ⟨_, h2, _⟩
    · subst h1; rw [c.dtype]; rfl
    · rw [h2]; rfl
  obtain ⟨h1, e1, a1⟩ := append_new (x := Node.newElement d nm) c rfl rfl hallow
    (fun hpd _ m hm => by
      obtain ⟨h5, h6⟩ := hr hpd m hm
      have : m ≠ h.next := Nat.ne_of_lt h5
      simpa [this] using h6)
  have c1 := a1.ctx c rfl rfl ⟨_, _, rfl⟩
  have hne : h.next ≠ d := (Nat.ne_of_lt c.dlt).symm
  obtain ⟨g1, id1⟩ := a1.grow c
  have hst : handleStart e d p (some n) evs h = handleAttributes e d h.next evs h1 := by
    unfold handleStart
    have : createElement h d n = (.ok h.next, (h.alloc (Node.newElement d nm)).2) := by
      unfold createElement createNamed
      rw [hnm]; rfl
    simp only [this, e1]
  rw [hst]
  obtain ⟨q1, q2⟩ := attrs_says hu c.dlt ha h1 (attrs := []) (nss := []) c1
    (fun s => by rw [id1]; exact hi s) (by rw [a1.node]; rfl) .nil
  refine ⟨q1, fun ho => ?_⟩
  obtain ⟨g, gi⟩ := q2 ho
  refine ⟨?_, gi⟩
  generalize (handleAttributes e d h.next evs h1).2 = h' at g gi
  obtain ⟨g2, k2⟩ := g.grow g1 c.dlt c.plt (Nat.le_refl _)
  obtain ⟨attrs, nss, x2, x3⟩ := g.elem
  rw [a1.node] at x2
  refine ⟨g2, by rw [k2, a1.par], g.ctx c1 hne, ?_, ?_, ?_, ?_, ?_, ?_⟩
  · rw [x2]; rfl
  · rw [x2]; exact C28_display_fromStr n nm hnm
  · rw [x2]
  · rw [x2]; rfl
  · rw [x2]; rfl
  · exact ⟨attrs, nss, by rw [x2], x3.built⟩

theorem start_bad {e : Env} {d p : NodeId} {h : Heap} {n : Str} {o : Verdict} (hn : NameSays n o)
    (ho : o ≠ .accept) (as : List AttrEvent) :
    ∃ k h', handleStart e d p (some n) as h = (.panic k, h') := by
  have hn := nameSays hn
  unfold handleStart createElement createNamed
  cases o with
  | accept => exact absurd rfl ho
  | refuse er =>
    have hn : Name.fromStr n = .err er := hn
    simp only [hn]; exact ⟨_, _, rfl⟩
  | crash =>
    obtain ⟨k, hn⟩ := hn
    simp only [hn]; exact ⟨_, _, rfl⟩

theorem leaf_says {e : Env} {d p : NodeId} {h : Heap} (c : Ctx h d p) {ev : Event} {l : Spec.Leaf}
    (hl : LeafEvent e.uni ev l) (hp : p ≠ d ∨ ¬ Stops ev) : ∃ h', LeafAdded h h' d p l ∧
      (p ≠ d → ∀ f rest, parseElement e d (f + 1) p (ev :: rest) h = parseElement e d f p rest h') ∧
      (p = d → ∀ f rest, parseLoop e d (f + 1) (ev :: rest) h = parseLoop e d f rest h') := by
  cases hl with
  | @text s =>
    have hne : p ≠ d := hp.resolve_right fun h => h .text
    obtain ⟨h', e1, a⟩ := text_read c hne s
    exact ⟨h', a, fun _ f rest => by simp only [parseElement, e1], fun h => absurd h hne⟩
  | @cdata s =>
    have hne : p ≠ d := hp.resolve_right fun h => h .cdata
    obtain ⟨h', e1, a⟩ := cdata_read c hne s
    exact ⟨h', a, fun _ f rest => by simp only [parseElement, e1], fun h => absurd h hne⟩
  | @comment s =>
    obtain ⟨h', e1, a⟩ := comment_read c s
    refine ⟨h', a, fun _ f rest => by simp only [parseElement, e1], fun h f rest => ?_⟩
    subst h
    simp only [parseLoop, e1]
  | @pi s t dat hs ht hr =>
    obtain ⟨h', e1, a⟩ := pi_made c (splitPi_says hs) ⟨nameSays ht, hr⟩
    refine ⟨h', a, fun _ f rest => by simp only [parseElement, e1], fun h f rest => ?_⟩
    subst h
    simp only [parseLoop, e1]

/-! ## Content -/

theorem content_length {u : Uni} {ids ids' : List Str} {evs rest : List Event} {x : Xml} {o : Verdict}
    (hc : Content u ids evs x rest ids' o) : rest.length ≤ evs.length := by
  induction hc with
  | close => simp
  | nil => simp
  | breaks => simp
  | leaf _ _ ih => exact Nat.le_succ_of_le ih
  | badPi => simp
  | badName => simp
  | badAttrs => simp
  | empty _ _ _ ih => exact Nat.le_succ_of_le ih
  | broken _ _ _ _ ih => exact Nat.le_succ_of_le ih
  | element _ _ _ _ ih1 ih2 => exact Nat.le_succ_of_le (Nat.le_trans ih2 ih1)

/-- The result of reading content. -/
structure ContentEnds (h : Heap) (d p : NodeId) (r : ParseResult) (x : Xml) (rest : List Event)
    (ids : List Str) (o : Verdict) : Prop where
  out : Ends p r.out o
  state : o ≠ .crash → r.rest = rest ∧ IdsAre r.heap d ids ∧ ∃ ns, Grown h r.heap d p ns x

theorem content_says {e : Env} (hu : e.uni.Ascii) {d : NodeId} {ids ids' : List Str}
    {evs rest : List Event} {x : Xml} {o : Verdict} (hc : Content e.uni ids evs x rest ids' o) :
    ∀ (fuel : Nat) (h : Heap) (p : NodeId), Ctx h d p → p ≠ d → IdsAre h d ids →
      evs.length < fuel → ContentEnds h d p (parseElement e d fuel p evs h) x rest ids' o := by
  have out : ∀ {h : Heap} {p : NodeId} {k : PanicKind} {r : List Event} {h' : Heap} {x : Xml}
      {rest : List Event} {ids : List Str},
      ContentEnds h d p ⟨.panic k, r, h'⟩ x rest ids .crash :=
    fun {_ _ _ _ _ _ _ _} => ⟨trivial, fun h => absurd rfl h⟩
  induction hc with
  | close =>
    intro fuel h p c hne hi hf
    cases fuel with
    | zero => exact absurd hf (Nat.not_lt_zero _)
    | succ f => exact ⟨rfl, fun _ => ⟨rfl, hi, [], .nil c⟩⟩
  | nil =>
    intro fuel h p c hne hi hf
    cases fuel with
    | zero => exact absurd hf (Nat.not_lt_zero _)
    | succ f => exact ⟨rfl, fun _ => ⟨rfl, hi, [], .nil c⟩⟩
  | breaks hb =>
    intro fuel h p c hne hi hf
    cases fuel with
    | zero => exact absurd hf (Nat.not_lt_zero _)
    | succ f =>
      cases hb <;> exact ⟨rfl, fun _ => ⟨rfl, hi, [], .nil c⟩⟩
  | @leaf ids ids' ev evs rest l x o hl _ ih =>
    intro fuel h p c hne hi hf
    cases fuel with
    | zero => exact absurd hf (Nat.not_lt_zero _)
    | succ f =>
      obtain ⟨h1, a, s1, _⟩ := leaf_says c hl (Or.inl hne)
      rw [s1 hne]
      obtain ⟨q1, q2⟩ := ih f h1 p (c.grow a.grow) hne (fun s => by rw [a.ids]; exact hi s)
        (Nat.lt_of_succ_lt_succ hf)
      refine ⟨q1, fun ho => ?_⟩
      obtain ⟨r1, r2, ns, r3⟩ := q2 ho
      exact ⟨r1, r2, _, r3.leaf c a⟩
  | @badPi ids s rest hs =>
    intro fuel h p c hne hi hf
    cases fuel with
    | zero => exact absurd hf (Nat.not_lt_zero _)
    | succ f =>
      obtain ⟨k, h', e1⟩ := pi_bad (d := d) (p := p) (h := h) hs
      simp only [parseElement, e1]
      exact out
  | @badName ids n as rest ev o he hn ho =>
    intro fuel h p c hne hi hf
    cases fuel with
    | zero => exact absurd hf (Nat.not_lt_zero _)
    | succ f =>
      obtain ⟨k, h', e1⟩ := start_bad (e := e) (d := d) (p := p) (h := h) hn ho as
      rcases he with rfl | rfl <;> simp only [parseElement, e1] <;> exact out
  | @badAttrs ids ids' n as as' rest ev o he hn ha ho =>
    intro fuel h p c hne hi hf
    cases fuel with
    | zero => exact absurd hf (Nat.not_lt_zero _)
    | succ f =>
      obtain ⟨q1, q2⟩ := start_says hu c hn (fun h => absurd h hne) ha hi
      generalize hr : handleStart e d p (some n) as h = r at q1 q2
      obtain ⟨ro, rh⟩ := r
      cases o with
      | accept => exact absurd rfl ho
      | crash =>
        obtain ⟨k, hk⟩ := q1.crash
        simp only at hk
        subst hk
        rcases he with rfl | rfl <;> simp only [parseElement, hr] <;> exact out
      | refuse er =>
        have hk := q1.refuse
        simp only at hk
        subst hk
        obtain ⟨b, hi'⟩ := q2 (by simp)
        have : ContentEnds h d p ⟨.err er, rest, rh⟩ (.element n as' .nil .nil) rest ids'
            (.refuse er) :=
          ⟨rfl, fun _ => ⟨rfl, hi', _, .element c b (.nil b.ctx) (.nil (c.grow b.grow))⟩⟩
        rcases he with rfl | rfl <;> simp only [parseElement, hr] <;> exact this
  | @empty ids ids1 ids2 n as as' evs rest x o hn ha _ ih =>
    intro fuel h p c hne hi hf
    cases fuel with
    | zero => exact absurd hf (Nat.not_lt_zero _)
    | succ f =>
      obtain ⟨q1, q2⟩ := start_says hu c hn (fun h => absurd h hne) ha hi
      generalize hr : handleStart e d p (some n) as h = r at q1 q2
      obtain ⟨ro, rh⟩ := r
      have hk := q1.accept
      simp only at hk
      subst hk
      obtain ⟨b, hi'⟩ := q2 (by simp)
      obtain ⟨s1, s2⟩ := ih f rh p (c.grow b.grow) hne hi' (Nat.lt_of_succ_lt_succ hf)
      simp only [parseElement, hr]
      refine ⟨s1, fun ho => ?_⟩
      obtain ⟨r1, r2, ns, r3⟩ := s2 ho
      exact ⟨r1, r2, _, .element c b (.nil b.ctx) r3⟩
  | @broken ids ids1 ids2 n as as' evs rest k o hn ha hk ho ih =>
    intro fuel h p c hne hi hf
    cases fuel with
    | zero => exact absurd hf (Nat.not_lt_zero _)
    | succ f =>
      obtain ⟨q1, q2⟩ := start_says hu c hn (fun h => absurd h hne) ha hi
      generalize hr : handleStart e d p (some n) as h = r at q1 q2
      obtain ⟨ro, rh⟩ := r
      have hk := q1.accept
      simp only at hk
      subst hk
      obtain ⟨b, hi'⟩ := q2 (by simp)
      obtain ⟨s1, s2⟩ := ih f rh h.next b.ctx (Nat.ne_of_lt c.dlt).symm hi'
        (Nat.lt_of_succ_lt_succ hf)
      simp only [parseElement, hr]
      generalize parseElement e d f h.next evs rh = r at s1 s2
      obtain ⟨ro, rr, rh'⟩ := r
      cases o with
      | accept => exact absurd rfl ho
      | crash =>
        obtain ⟨k, hk⟩ := s1.crash
        simp only at hk
        subst hk
        exact out
      | refuse er =>
        have hk := s1.refuse
        simp only at hk
        subst hk
        obtain ⟨r1, r2, ns, r3⟩ := s2 (by simp)
        obtain ⟨gb, _⟩ := b.grow.below r3.grow c.dlt c.plt (Nat.le_refl _)
        exact ⟨rfl, fun _ => ⟨r1, r2, _, .element c b r3 (.nil (c.grow gb))⟩⟩
  | @element ids ids1 ids2 ids3 n as as' evs evs2 rest k x o hn ha hk _ ihk ihr =>
    intro fuel h p c hne hi hf
    cases fuel with
    | zero => exact absurd hf (Nat.not_lt_zero _)
    | succ f =>
      have hlen := content_length hk
      obtain ⟨q1, q2⟩ := start_says hu c hn (fun h => absurd h hne) ha hi
      generalize hr : handleStart e d p (some n) as h = r at q1 q2
      obtain ⟨ro, rh⟩ := r
      have hk := q1.accept
      simp only at hk
      subst hk
      obtain ⟨b, hi'⟩ := q2 (by simp)
      have hf' := Nat.lt_of_succ_lt_succ hf
      obtain ⟨s1, s2⟩ := ihk f rh h.next b.ctx (Nat.ne_of_lt c.dlt).symm hi' hf'
      simp only [parseElement, hr]
      generalize parseElement e d f h.next evs rh = r at s1 s2
      obtain ⟨ro, rr, rh'⟩ := r
      have hk := s1.accept
      simp only at hk
      subst hk
      obtain ⟨r1, r2, ns, r3⟩ := s2 (by simp)
      simp only at r1 r2 r3
      subst r1
      obtain ⟨gb, _⟩ := b.grow.below r3.grow c.dlt c.plt (Nat.le_refl _)
      obtain ⟨t1, t2⟩ := ihr f rh' p (c.grow gb) hne r2 (Nat.lt_of_le_of_lt hlen hf')
      refine ⟨t1, fun ho => ?_⟩
      obtain ⟨u1, u2, ns', u3⟩ := t2 ho
      exact ⟨u1, u2, _, .element c b r3 u3⟩

theorem content_total (u : Uni) : ∀ (n : Nat) (evs : List Event), evs.length ≤ n →
    ∀ ids : List Str, ∃ x rest ids' o, Content u ids evs x rest ids' o := by
  intro n
  induction n with
  | zero =>
    intro evs hn ids
    cases evs with
    | nil => exact ⟨_, _, _, _, .nil⟩
    | cons => simp at hn
  | succ n ih =>
    intro evs hn ids
    cases evs with
    | nil => exact ⟨_, _, _, _, .nil⟩
    | cons ev evs =>
      have hn' : evs.length ≤ n := Nat.le_of_succ_le_succ hn
      have leaf : ∀ {l : Spec.Leaf}, LeafEvent u ev l →
          ∃ x rest ids' o, Content u ids (ev :: evs) x rest ids' o := by
        intro l hl
        obtain ⟨_, _, _, _, h⟩ := ih evs hn' ids
        exact ⟨_, _, _, _, .leaf hl h⟩
      cases ev with
      | decl v en sa => exact ⟨_, _, _, _, .breaks .decl⟩
      | other => exact ⟨_, _, _, _, .breaks .other⟩
      | eof => exact ⟨_, _, _, _, .breaks .eof⟩
      | readError => exact ⟨_, _, _, _, .breaks .readError⟩
      | close => exact ⟨_, _, _, _, .close⟩
      | text t =>
        cases t with
        | none => exact ⟨_, _, _, _, .breaks .text⟩
        | some s => exact leaf .text
      | cdata t =>
        cases t with
        | none => exact ⟨_, _, _, _, .breaks .cdata⟩
        | some s => exact leaf .cdata
      | comment t =>
        cases t with
        | none => exact ⟨_, _, _, _, .breaks .comment⟩
        | some s => exact leaf .comment
      | pi t =>
        cases t with
        | none => exact ⟨_, _, _, _, .breaks .pi⟩
        | some s =>
          rcases pi_total u s with ⟨t, d, h⟩ | h
          · exact leaf h
          · exact ⟨_, _, _, _, .badPi h⟩
      | empty m as =>
        cases m with
        | none => exact ⟨_, _, _, _, .breaks .empty⟩
        | some m =>
          obtain ⟨o, hm⟩ := nameSays_total m
          by_cases ho : o = .accept
          · subst ho
            obtain ⟨as', ids1, o, ha⟩ := attrs_total u as ids []
            by_cases ho : o = .accept
            · subst ho
              obtain ⟨_, _, _, _, h⟩ := ih evs hn' ids1
              exact ⟨_, _, _, _, .empty hm ha h⟩
            · exact ⟨_, _, _, _, .badAttrs (Or.inr rfl) hm ha ho⟩
          · exact ⟨_, _, _, _, .badName (Or.inr rfl) hm ho⟩
      | start m as =>
        cases m with
        | none => exact ⟨_, _, _, _, .breaks .start⟩
        | some m =>
          obtain ⟨o, hm⟩ := nameSays_total m
          by_cases ho : o = .accept
          · subst ho
            obtain ⟨as', ids1, o, ha⟩ := attrs_total u as ids []
            by_cases ho : o = .accept
            · subst ho
              obtain ⟨k, rest, ids2, o, hk⟩ := ih evs hn' ids1
              by_cases ho : o = .accept
              · subst ho
                obtain ⟨_, _, _, _, h⟩ := ih rest (Nat.le_trans (content_length hk) hn') ids2
                exact ⟨_, _, _, _, .element hm ha hk h⟩
              · exact ⟨_, _, _, _, .broken hm ha hk ho⟩
            · exact ⟨_, _, _, _, .badAttrs (Or.inl rfl) hm ha ho⟩
          · exact ⟨_, _, _, _, .badName (Or.inl rfl) hm ho⟩

/-! ## The document -/

/-- There is an element at the top. -/
def Rooted (h : Heap) (d : NodeId) : Prop :=
  ∃ m ∈ (h.get d).children, m < h.next ∧ (h.get m).ntype = .element

theorem Rooted.grow {h h' : Heap} {d : NodeId} {ns : List NodeId} (r : Rooted h d)
    (g : Kept h h' d d) (hdt : (h.get d).ntype = .document)
    (hk : (h'.get d).children = (h.get d).children ++ ns) : Rooted h' d := by
  obtain ⟨m, m1, m2, m3⟩ := r
  have hmd : m ≠ d := by rintro rfl; rw [hdt] at m3; cases m3
  exact ⟨m, by rw [hk]; simp [m1], Nat.lt_of_lt_of_le m2 g.next,
    by rw [g.others m m2 hmd hmd]; exact m3⟩

/-- What the document is in the middle of reading. -/
structure Stage (h : Heap) (d : NodeId) (dc : Option XmlDecl) (b : Bool) (ids : List Str) : Prop where
  ctx : Ctx h d d
  decl : ∃ y, (h.get d).ext = .document y ∧ y.xmlDecl = dc
  root : if b then Rooted h d else Rootless h d
  ids : IdsAre h d ids

/-- What reading the rest of a document does to it. -/
structure Filled (h h' : Heap) (d : NodeId) (x : Xml) (dc : Option XmlDecl) : Prop where
  kept : Kept h h' d d
  kids : ∃ ns, (h'.get d).children = (h.get d).children ++ ns ∧ Built h' d h.next d ns x
  doc : ∃ y ids, (h.get d).ext = .document y ∧
    h'.get d = { h.get d with
        children := (h'.get d).children
        ext := .document { y with idMap := ids, xmlDecl := dc } }

theorem doc_chain {a b c : Heap} {d : NodeId} {dc : Option XmlDecl}
    (x : ∃ y ids dc', (a.get d).ext = .document y ∧
      b.get d = { a.get d with
        children := (b.get d).children
        ext := .document { y with idMap := ids, xmlDecl := dc' } })
    (z : ∃ y ids, (b.get d).ext = .document y ∧
      c.get d = { b.get d with
        children := (c.get d).children
        ext := .document { y with idMap := ids, xmlDecl := dc } }) :
    ∃ y ids, (a.get d).ext = .document y ∧
      c.get d = { a.get d with
        children := (c.get d).children
        ext := .document { y with idMap := ids, xmlDecl := dc } } := by
  obtain ⟨v, i, dc', h1, h2⟩ := x
  obtain ⟨w, j, h3, h4⟩ := z
  refine ⟨v, j, h1, ?_⟩
  rw [h2] at h3
  simp only at h3
  cases h3
  rw [h2] at h4
  exact h4

theorem Grow.docDecl {h h' : Heap} {d p : NodeId} (g : Grow h h' d p) :
    ∃ y ids dc', (h.get d).ext = .document y ∧
      h'.get d = { h.get d with
        children := (h'.get d).children
        ext := .document { y with idMap := ids, xmlDecl := dc' } } := by
  obtain ⟨y, i, h1, h2⟩ := g.doc
  exact ⟨y, i, y.xmlDecl, h1, h2⟩

theorem Grow.decl {h h' : Heap} {d p : NodeId} {dc : Option XmlDecl} (g : Grow h h' d p)
    (hd : ∃ y, (h.get d).ext = .document y ∧ y.xmlDecl = dc) :
    ∃ y, (h'.get d).ext = .document y ∧ y.xmlDecl = dc := by
  obtain ⟨y, i, h1, h2⟩ := g.doc
  obtain ⟨z, h3, h4⟩ := hd
  rw [h1] at h3
  cases h3
  exact ⟨{ y with idMap := i }, by rw [h2], h4⟩

theorem Stage.nil {h : Heap} {d : NodeId} {dc : Option XmlDecl} {b : Bool} {ids : List Str}
    (s : Stage h d dc b ids) : Filled h h d .nil dc := by
  refine ⟨⟨Nat.le_refl _, fun _ _ => rfl, fun _ _ _ _ => rfl⟩, ⟨[], by simp, .nil⟩, ?_⟩
  obtain ⟨y, h1, rfl⟩ := s.decl
  exact ⟨y, y.idMap, h1, by rw [← h1]⟩

theorem Stage.leaf {h h1 : Heap} {d : NodeId} {dc : Option XmlDecl} {b : Bool} {ids : List Str}
    {l : Spec.Leaf} (s : Stage h d dc b ids) (a : LeafAdded h h1 d d l) : Stage h1 d dc b ids := by
  refine ⟨s.ctx.grow a.grow, a.grow.decl s.decl, ?_, fun v => by rw [a.ids]; exact s.ids v⟩
  have hr := s.root
  cases b with
  | true => exact Rooted.grow hr a.grow.toKept s.ctx.dtype a.kids
  | false =>
    refine a.grow.rootless hr s.ctx.dtype a.kids (by rw [a.next]; exact Nat.lt_succ_self _) ?_
    have := a.leaf
    intro ht
    cases l <;> simp only [LeafNode] at this
    all_goals rw [this.1] at ht; cases ht

theorem Filled.leaf {h h1 h2 : Heap} {d : NodeId} {dc : Option XmlDecl} {x : Xml} {l : Spec.Leaf}
    (c : Ctx h d d) (a : LeafAdded h h1 d d l) (f : Filled h1 h2 d x dc) :
    Filled h h2 d (.leaf l x) dc := by
  obtain ⟨ns, k1, k2⟩ := f.kids
  exact ⟨a.grow.toKept.trans f.kept,
    ⟨h.next :: ns, by rw [k1, a.kids, List.append_assoc]; rfl, k2.afterLeaf c a f.kept⟩,
    doc_chain a.grow.docDecl f.doc⟩

theorem Filled.element {h h1 h2 h3 : Heap} {d : NodeId} {dc : Option XmlDecl} {n : Str}
    {as : List (Str × Str)} {ks : List NodeId} {k x : Xml} (c : Ctx h d d)
    (b : Begun h h1 d d n as) (g : Grown h1 h2 d h.next ks k) (f : Filled h2 h3 d x dc) :
    Filled h h3 d (.element n as k x) dc := by
  obtain ⟨ns, k1, k2⟩ := f.kids
  obtain ⟨gb, hk⟩ := b.grow.below g.grow c.dlt c.plt (Nat.le_refl _)
  exact ⟨gb.toKept.trans f.kept,
    ⟨h.next :: ns, by rw [k1, hk, b.kids, List.append_assoc]; rfl, k2.afterElement c b g f.kept⟩,
    doc_chain gb.docDecl f.doc⟩

theorem Stage.element {h h1 h2 : Heap} {d : NodeId} {dc : Option XmlDecl} {b : Bool}
    {ids ids' : List Str} {n : Str} {as : List (Str × Str)} {ks : List NodeId} {k : Xml}
    (s : Stage h d dc b ids) (t : Begun h h1 d d n as) (g : Grown h1 h2 d h.next ks k)
    (hi : IdsAre h2 d ids') : Stage h2 d dc true ids' := by
  have c := s.ctx
  obtain ⟨gb, hk⟩ := t.grow.below g.grow c.dlt c.plt (Nat.le_refl _)
  refine ⟨c.grow gb, gb.decl s.decl, ?_, hi⟩
  refine ⟨h.next, by rw [hk, t.kids]; simp, Nat.lt_of_lt_of_le t.ctx.plt g.grow.next, ?_⟩
  rw [g.grow.par (Nat.ne_of_lt c.dlt).symm]
  exact t.ntype

theorem handleDecl_says {h : Heap} {d : NodeId} {b : Bool} {ids : List Str}
    (s : Stage h d none b ids) (v : Option Str) (en sa : Option (Option Str)) :
    ∃ y, (h.get d).ext = .document y ∧ handleDecl d v en sa h = match declOf v en sa with
      | .ok x => (.ok (), h.set d { h.get d with ext := .document { y with xmlDecl := some x } })
      | .err er => (.err er, h)
      | .panic k => (.panic k, h)
      | .diverge => (.diverge, h) := by
  obtain ⟨y, h1, h2⟩ := s.decl
  refine ⟨y, h1, ?_⟩
  unfold handleDecl declOf
  rw [h1]
  simp only [h2]
  rfl

theorem Stage.declare {h : Heap} {d : NodeId} {dc : Option XmlDecl} {b : Bool} {ids : List Str}
    (s : Stage h d dc b ids) {y : DocExt} (hy : (h.get d).ext = .document y) (x : XmlDecl) :
    Stage (h.set d { h.get d with ext := .document { y with xmlDecl := some x } }) d (some x) b ids := by
  have c := s.ctx
  obtain ⟨z, z1, z2⟩ := c.dext
  rw [hy] at z1
  cases z1
  refine ⟨⟨c.dlt, c.dlive, by simp [c.dtype], ⟨{ y with xmlDecl := some x }, by simp, z2⟩, c.plt,
    c.plive, Or.inl rfl⟩, ⟨{ y with xmlDecl := some x }, by simp, rfl⟩, ?_, ?_⟩
  · have hr := s.root
    have ty : ∀ m, ((h.set d { h.get d with ext := .document { y with xmlDecl := some x } }).get
        m).ntype = (h.get m).ntype := by
      intro m
      by_cases hm : m = d
      · subst hm; simp
      · rw [Heap.get_set_ne _ _ hm]
    cases b with
    | true =>
      obtain ⟨m, m1, m2, m3⟩ := hr
      exact ⟨m, by simpa using m1, m2, by rw [ty]; exact m3⟩
    | false =>
      intro m hm
      obtain ⟨m1, m2⟩ := hr m (by simpa using hm)
      exact ⟨m1, by rw [ty]; exact m2⟩
  · intro v
    rw [← s.ids v]
    unfold idsOf
    rw [Heap.get_set_self, hy]

theorem whole_says {e : Env} (hu : e.uni.Ascii) {d : NodeId} {dc dc' : Option XmlDecl} {b : Bool}
    {ids : List Str} {evs : List Event} {x : Xml} {o : Verdict}
    (hw : Whole e.uni dc b ids evs x dc' o) : ∀ (fuel : Nat) (h : Heap), Stage h d dc b ids →
      evs.length < fuel → Ends d (parseLoop e d fuel evs h).1 o ∧
        (o = .accept → Filled h (parseLoop e d fuel evs h).2 d x dc') := by
  induction hw with
  | nil =>
    intro fuel h s hf
    cases fuel with
    | zero => exact absurd hf (Nat.not_lt_zero _)
    | succ f => exact ⟨rfl, fun _ => s.nil⟩
  | eof =>
    intro fuel h s hf
    cases fuel with
    | zero => exact absurd hf (Nat.not_lt_zero _)
    | succ f => exact ⟨rfl, fun _ => s.nil⟩
  | stops hs =>
    intro fuel h s hf
    cases fuel with
    | zero => exact absurd hf (Nat.not_lt_zero _)
    | succ f => cases hs <;> exact ⟨rfl, nofun⟩
  | close _ ih =>
    intro fuel h s hf
    cases fuel with
    | zero => exact absurd hf (Nat.not_lt_zero _)
    | succ f =>
      simp only [parseLoop]
      exact ih f h s (Nat.lt_of_succ_lt_succ hf)
  | @decl dc' x b ids v en sa evs xs o hd _ ih =>
    intro fuel h s hf
    cases fuel with
    | zero => exact absurd hf (Nat.not_lt_zero _)
    | succ f =>
      obtain ⟨y, y1, y2⟩ := handleDecl_says s v en sa
      have hx : declOf v en sa = .ok x := decl_says hd
      rw [hx] at y2
      simp only at y2
      simp only [parseLoop, y2]
      have s' := s.declare y1 x
      obtain ⟨q1, q2⟩ := ih f _ s' (Nat.lt_of_succ_lt_succ hf)
      refine ⟨q1, fun ho => ?_⟩
      have q := q2 ho
      generalize (parseLoop e d f evs (h.set d { h.get d with
        ext := .document { y with xmlDecl := some x } })).2 = h' at q
      obtain ⟨ns, k1, k2⟩ := q.kids
      refine ⟨?_, ⟨ns, by rw [k1]; simp, k2⟩, doc_chain ⟨y, y.idMap, some x, y1, by simp⟩ q.doc⟩
      exact ⟨q.kept.next, q.kept.live, fun m hm h1 h2 => by
        rw [q.kept.others m hm h1 h2, Heap.get_set_ne _ _ h1]⟩
  | @badDecl b ids v en sa rest o hd =>
    intro fuel h s hf
    cases fuel with
    | zero => exact absurd hf (Nat.not_lt_zero _)
    | succ f =>
      obtain ⟨y, y1, y2⟩ := handleDecl_says s v en sa
      have hx := decl_says hd
      cases o with
      | accept => exact hx.elim
      | refuse er =>
        have hx : declOf v en sa = .err er := hx
        rw [hx] at y2
        simp only at y2
        simp only [parseLoop, y2]
        exact ⟨rfl, nofun⟩
      | crash =>
        obtain ⟨k, hx⟩ := hx
        rw [hx] at y2
        simp only at y2
        simp only [parseLoop, y2]
        exact ⟨trivial, nofun⟩
  | @secondDecl x b ids v en sa rest =>
    intro fuel h s hf
    cases fuel with
    | zero => exact absurd hf (Nat.not_lt_zero _)
    | succ f =>
      obtain ⟨y, y1, y2⟩ := s.decl
      have : handleDecl d v en sa h = (.err .syntax, h) := by
        unfold handleDecl
        rw [y1]
        simp [y2]
      simp only [parseLoop, this]
      exact ⟨rfl, nofun⟩
  | @leaf dc dc' b ids ev evs l x o hl hs _ ih =>
    intro fuel h s hf
    cases fuel with
    | zero => exact absurd hf (Nat.not_lt_zero _)
    | succ f =>
      obtain ⟨h1, a, _, s1⟩ := leaf_says s.ctx hl (Or.inr hs)
      rw [s1 rfl]
      obtain ⟨q1, q2⟩ := ih f h1 (s.leaf a) (Nat.lt_of_succ_lt_succ hf)
      exact ⟨q1, fun ho => (q2 ho).leaf s.ctx a⟩
  | @badPi dc b ids s rest hs =>
    intro fuel h st hf
    cases fuel with
    | zero => exact absurd hf (Nat.not_lt_zero _)
    | succ f =>
      obtain ⟨k, h', e1⟩ := pi_bad (d := d) (p := d) (h := h) hs
      simp only [parseLoop, e1]
      exact ⟨trivial, nofun⟩
  | @badName dc b ids n as rest ev o he hn ho =>
    intro fuel h st hf
    cases fuel with
    | zero => exact absurd hf (Nat.not_lt_zero _)
    | succ f =>
      obtain ⟨k, h', e1⟩ := start_bad (e := e) (d := d) (p := d) (h := h) hn ho as
      rcases he with rfl | rfl <;> simp only [parseLoop, e1] <;> exact ⟨trivial, nofun⟩
  | @second dc ids n as rest ev he hn =>
    intro fuel h s hf
    cases fuel with
    | zero => exact absurd hf (Nat.not_lt_zero _)
    | succ f =>
      obtain ⟨h', e1⟩ := start_second (e := e) s.ctx (nameSays hn) as s.root
      rcases he with rfl | rfl <;> simp only [parseLoop, e1] <;> exact ⟨rfl, nofun⟩
  | @badAttrs dc ids ids' n as as' rest ev o he hn ha ho =>
    intro fuel h s hf
    cases fuel with
    | zero => exact absurd hf (Nat.not_lt_zero _)
    | succ f =>
      obtain ⟨q1, _⟩ := start_says hu s.ctx hn (fun _ => s.root) ha s.ids
      generalize hr : handleStart e d d (some n) as h = r at q1
      obtain ⟨ro, rh⟩ := r
      cases o with
      | accept => exact absurd rfl ho
      | crash =>
        obtain ⟨k, hk⟩ := q1.crash
        simp only at hk
        subst hk
        rcases he with rfl | rfl <;> simp only [parseLoop, hr] <;> exact ⟨trivial, nofun⟩
      | refuse er =>
        have hk := q1.refuse
        simp only at hk
        subst hk
        rcases he with rfl | rfl <;> simp only [parseLoop, hr] <;> exact ⟨rfl, nofun⟩
  | @empty dc dc' ids ids1 n as as' evs x o hn ha _ ih =>
    intro fuel h s hf
    cases fuel with
    | zero => exact absurd hf (Nat.not_lt_zero _)
    | succ f =>
      obtain ⟨q1, q2⟩ := start_says hu s.ctx hn (fun _ => s.root) ha s.ids
      generalize hr : handleStart e d d (some n) as h = r at q1 q2
      obtain ⟨ro, rh⟩ := r
      have hk := q1.accept
      simp only at hk
      subst hk
      obtain ⟨b, hi'⟩ := q2 (by simp)
      simp only [parseLoop, hr]
      obtain ⟨t1, t2⟩ := ih f rh (s.element b (.nil b.ctx) hi') (Nat.lt_of_succ_lt_succ hf)
      exact ⟨t1, fun ho => .element s.ctx b (.nil b.ctx) (t2 ho)⟩
  | @crashed dc ids ids1 ids2 n as as' evs rest k hn ha hk =>
    intro fuel h s hf
    cases fuel with
    | zero => exact absurd hf (Nat.not_lt_zero _)
    | succ f =>
      obtain ⟨q1, q2⟩ := start_says hu s.ctx hn (fun _ => s.root) ha s.ids
      generalize hr : handleStart e d d (some n) as h = r at q1 q2
      obtain ⟨ro, rh⟩ := r
      have hk' := q1.accept
      simp only at hk'
      subst hk'
      obtain ⟨b, hi'⟩ := q2 (by simp)
      obtain ⟨s1, _⟩ := content_says hu hk (evs.length + 1) rh h.next b.ctx
        (Nat.ne_of_lt s.ctx.dlt).symm hi' (Nat.lt_succ_self _)
      simp only [parseLoop, hr]
      generalize parseElement e d (evs.length + 1) h.next evs rh = r at s1
      obtain ⟨ro, rr, rh'⟩ := r
      obtain ⟨k, hk⟩ := s1.crash
      simp only at hk
      subst hk
      exact ⟨trivial, nofun⟩
  | @element dc dc' ids ids1 ids2 n as as' evs evs2 k x o o' hn ha hk ho _ ih =>
    intro fuel h s hf
    cases fuel with
    | zero => exact absurd hf (Nat.not_lt_zero _)
    | succ f =>
      obtain ⟨q1, q2⟩ := start_says hu s.ctx hn (fun _ => s.root) ha s.ids
      generalize hr : handleStart e d d (some n) as h = r at q1 q2
      obtain ⟨ro, rh⟩ := r
      have hk' := q1.accept
      simp only at hk'
      subst hk'
      obtain ⟨b, hi'⟩ := q2 (by simp)
      obtain ⟨s1, s2⟩ := content_says hu hk (evs.length + 1) rh h.next b.ctx
        (Nat.ne_of_lt s.ctx.dlt).symm hi' (Nat.lt_succ_self _)
      simp only [parseLoop, hr]
      generalize parseElement e d (evs.length + 1) h.next evs rh = r at s1 s2
      obtain ⟨ro, rr, rh'⟩ := r
      obtain ⟨r1, r2, ns, r3⟩ := s2 ho
      simp only at r1 r2 r3
      subst r1
      obtain ⟨t1, t2⟩ := ih f rh' (s.element b r3 r2)
        (Nat.lt_of_le_of_lt (content_length hk) (Nat.lt_of_succ_lt_succ hf))
      have fin : Ends d (parseLoop e d f rr rh').1 o ∧
          (o = .accept → Filled h (parseLoop e d f rr rh').2 d (.element n as' k x) dc') :=
        ⟨t1, fun ho => .element s.ctx b r3 (t2 ho)⟩
      cases o' with
      | accept =>
        have hk := s1.accept
        simp only at hk
        subst hk
        exact fin
      | refuse er =>
        have hk := s1.refuse
        simp only at hk
        subst hk
        exact fin
      | crash => exact absurd rfl ho

theorem whole_total (u : Uni) : ∀ (n : Nat) (evs : List Event), evs.length ≤ n →
    ∀ (dc : Option XmlDecl) (b : Bool) (ids : List Str), ∃ x dc' o, Whole u dc b ids evs x dc' o := by
  intro n
  induction n with
  | zero =>
    intro evs hn dc b ids
    cases evs with
    | nil => exact ⟨_, _, _, .nil⟩
    | cons => simp at hn
  | succ n ih =>
    intro evs hn dc b ids
    cases evs with
    | nil => exact ⟨_, _, _, .nil⟩
    | cons ev evs =>
      have hn' : evs.length ≤ n := Nat.le_of_succ_le_succ hn
      have leaf : ∀ {l : Spec.Leaf}, LeafEvent u ev l → ¬ Stops ev →
          ∃ x dc' o, Whole u dc b ids (ev :: evs) x dc' o := by
        intro l hl hs
        obtain ⟨_, _, _, h⟩ := ih evs hn' dc b ids
        exact ⟨_, _, _, .leaf hl hs h⟩
      cases ev with
      | decl v en sa =>
        cases dc with
        | some d => exact ⟨_, _, _, .secondDecl⟩
        | none =>
          rcases declSays_total v en sa with ⟨d, hd⟩ | ⟨o, hd⟩
          · obtain ⟨_, _, _, h⟩ := ih evs hn' (some d) b ids
            exact ⟨_, _, _, .decl hd h⟩
          · exact ⟨_, _, _, .badDecl hd⟩
      | other => exact ⟨_, _, _, .stops .other⟩
      | eof => exact ⟨_, _, _, .eof⟩
      | readError => exact ⟨_, _, _, .stops .readError⟩
      | close =>
        obtain ⟨_, _, _, h⟩ := ih evs hn' dc b ids
        exact ⟨_, _, _, .close h⟩
      | text t => exact ⟨_, _, _, .stops .text⟩
      | cdata t => exact ⟨_, _, _, .stops .cdata⟩
      | comment t =>
        cases t with
        | none => exact ⟨_, _, _, .stops .comment⟩
        | some s => exact leaf .comment nofun
      | pi t =>
        cases t with
        | none => exact ⟨_, _, _, .stops .pi⟩
        | some s =>
          rcases pi_total u s with ⟨t, d, h⟩ | h
          · exact leaf h nofun
          · exact ⟨_, _, _, .badPi h⟩
      | empty m as =>
        cases m with
        | none => exact ⟨_, _, _, .stops .empty⟩
        | some m =>
          obtain ⟨o, hm⟩ := nameSays_total m
          by_cases ho : o = .accept
          · subst ho
            cases b with
            | true => exact ⟨_, _, _, .second (Or.inr rfl) hm⟩
            | false =>
              obtain ⟨as', ids1, o, ha⟩ := attrs_total u as ids []
              by_cases ho : o = .accept
              · subst ho
                obtain ⟨_, _, _, h⟩ := ih evs hn' dc true ids1
                exact ⟨_, _, _, .empty hm ha h⟩
              · exact ⟨_, _, _, .badAttrs (Or.inr rfl) hm ha ho⟩
          · exact ⟨_, _, _, .badName (Or.inr rfl) hm ho⟩
      | start m as =>
        cases m with
        | none => exact ⟨_, _, _, .stops .start⟩
        | some m =>
          obtain ⟨o, hm⟩ := nameSays_total m
          by_cases ho : o = .accept
          · subst ho
            cases b with
            | true => exact ⟨_, _, _, .second (Or.inl rfl) hm⟩
            | false =>
              obtain ⟨as', ids1, o, ha⟩ := attrs_total u as ids []
              by_cases ho : o = .accept
              · subst ho
                obtain ⟨k, rest, ids2, o', hk⟩ := content_total u evs.length evs (Nat.le_refl _) ids1
                by_cases ho : o' = .crash
                · subst ho; exact ⟨_, _, _, .crashed hm ha hk⟩
                · obtain ⟨_, _, _, h⟩ := ih rest (Nat.le_trans (content_length hk) hn') dc true ids2
                  exact ⟨_, _, _, .element hm ha hk ho h⟩
              · exact ⟨_, _, _, .badAttrs (Or.inl rfl) hm ha ho⟩
          · exact ⟨_, _, _, .badName (Or.inl rfl) hm ho⟩

theorem readXml_says {e : Env} (hu : e.uni.Ascii) (h : Heap) {evs : List Event} {x : Xml}
    {dc : Option XmlDecl} {o : Verdict} (hm : Means e.uni evs x dc o) :
    Ends h.next (readXml e h evs).1 o ∧
      (o = .accept → IsDocument e (readXml e h evs).2 h.next dc x) := by
  have op := opened_new h
  have hr : readXml e h evs = parseLoop e h.next (evs.length + 1) evs
    (h.alloc (Node.newDocument none Options.new.setAddNamespaces)).2 := rfl
  rw [hr]
  generalize (h.alloc (Node.newDocument none Options.new.setAddNamespaces)).2 = h0 at op
  obtain ⟨y, y1, y2, y3⟩ := op.ext
  have s : Stage h0 h.next none false [] := by
    refine ⟨op.ctx, ⟨y, y1, y2⟩, ?_, fun v => by rw [op.ids]⟩
    intro m hm; rw [op.children] at hm; cases hm
  obtain ⟨q1, q2⟩ := whole_says hu hm (evs.length + 1) h0 s (Nat.lt_succ_self _)
  refine ⟨q1, fun ho => ?_⟩
  have f := q2 ho
  generalize (parseLoop e h.next (evs.length + 1) evs h0).2 = h2 at f
  obtain ⟨ns, k1, k2⟩ := f.kids
  obtain ⟨z, i, z1, z2⟩ := f.doc
  rw [y1] at z1
  cases z1
  have hk : (h2.get h.next).children = ns := by rw [k1, op.children, List.nil_append]
  have lv : h2.live h.next = true := by rw [f.kept.live _ op.ctx.dlt]; exact op.ctx.dlive
  have hx : (h2.get h.next).ext = .document { y with idMap := i, xmlDecl := dc } := by rw [z2]
  refine ⟨?_, ?_, ?_, ?_, ?_⟩
  · unfold nodeType; rw [z2]; exact op.ctx.dtype
  · unfold parentNode
    rw [z2]
    show (if (h0.get h.next).ntype = _ then none else h2.upgrade (h0.get h.next).parent) = none
    rw [op.parent]
    split <;> rfl
  · unfold xmlDeclaration; rw [hx]
  · unfold docType; rw [hx]; exact y3
  · unfold childNodes
    rw [hk]
    exact k2.held lv lv

end XmlDom
