import Verif.CellText.Lemmas3
/-!
# Geometry and parameters are separated
-/
namespace Geouned.CellText

variable {V : Type}

/-- no line that looks like a comment -/
def NoC (s : List Char) : Prop := ∀ a b, s = a ++ b → commentHead b = none

theorem commentHead_append {p g b : List Char} (h : commentHead p = some g) : ∃ g', commentHead (p ++ b) = some g' := by
  unfold commentHead at h
  split at h
  · next r =>
    split at h
    · next c q heq =>
      split at h
      · next hc =>
        refine ⟨'\n' :: (r ++ b).takeWhile (· = ' ') ++ [c], ?_⟩
        have : (r ++ b).dropWhile (· = ' ') = c :: (q ++ b) := by
          rw [List.dropWhile_append, heq]
          simp
        unfold commentHead
        rw [List.cons_append]
        simp only [this]
        rw [if_pos hc]
      · cases h
    · cases h
  · cases h

theorem matchGline_append {st : Bool} {s m r : List Char} (h : matchGline st s = some (m, r)) : s = m ++ r := by
  unfold matchGline at h
  split at h
  · cases h
    rw [List.takeWhile_append_dropWhile]
  · split at h
    · next r' heq =>
      split at h
      · cases h
      · cases h
        unfold afterLine at heq
        split at heq
        · cases heq
          simp [List.takeWhile_append_dropWhile]
        · cases heq
    · cases h

theorem splitG_pieces (n : Nat) (st : Bool) (cur s : List Char) :
    (splitG n st cur s).flatten = cur ++ s ∧ ∀ p ∈ splitG n st cur s, ∃ a b, cur ++ s = a ++ (p ++ b) := by
  induction n generalizing st cur s with
  | zero =>
    refine ⟨by simp [splitG], fun p hp => ?_⟩
    rw [splitG, List.mem_singleton] at hp
    exact ⟨[], [], by simp [hp]⟩
  | succ n ih =>
    unfold splitG
    split
    · next m r heq =>
      have hs := matchGline_append heq
      obtain ⟨h1, h2⟩ := ih false [] r
      refine ⟨by rw [List.flatten_cons, List.flatten_cons, h1, hs]; simp, fun p hp => ?_⟩
      rcases List.mem_cons.mp hp with rfl | hp
      · exact ⟨[], s, by simp⟩
      · rcases List.mem_cons.mp hp with rfl | hp
        · exact ⟨cur, r, by rw [hs]⟩
        · obtain ⟨a, b, h3⟩ := h2 p hp
          exact ⟨cur ++ m ++ a, b, by rw [hs]; simp only [List.nil_append] at h3; rw [h3]; simp⟩
    · split
      · exact ⟨by simp, fun p hp => ⟨[], [], by rw [List.mem_singleton.mp hp]; simp⟩⟩
      · next c r _ =>
        obtain ⟨h1, h2⟩ := ih false (cur ++ [c]) r
        refine ⟨by rw [h1]; simp, fun p hp => ?_⟩
        obtain ⟨a, b, h3⟩ := h2 p hp
        exact ⟨a, b, by rw [← h3]; simp⟩

theorem filter_flatten (l : List (List Char)) : (l.filter (fun x => decide (x ≠ []))).flatten = l.flatten := by
  induction l with
  | nil => rfl
  | cons x l ih =>
    rw [List.filter_cons]
    by_cases h : x = []
    · subst h; simp at ih ⊢; exact ih
    · rw [if_pos (by simpa using h), List.flatten_cons, List.flatten_cons, ih]

theorem removeComments_id {s : List Char} (h : NoC s) : removeComments s = s := by
  obtain ⟨h1, h2⟩ := splitG_pieces (s.length + 1) true [] s
  unfold removeComments
  have : ((splitG (s.length + 1) true [] s).filter (· ≠ [])).map (fun p => (commentHead p).getD p) = (splitG (s.length + 1) true [] s).filter (· ≠ []) := by
    conv => rhs; rw [← List.map_id ((splitG (s.length + 1) true [] s).filter (· ≠ []))]
    refine List.map_congr_left (fun p hp => ?_)
    obtain ⟨a, b, h3⟩ := h2 p (List.mem_filter.mp hp).1
    rw [List.nil_append] at h3
    cases hc : commentHead p with
    | none => rfl
    | some g =>
      obtain ⟨g', hg'⟩ := commentHead_append (b := b) hc
      rw [h a _ h3] at hg'
      cases hg'
  rw [this, filter_flatten, h1, List.nil_append]

theorem noC_nil : NoC [] := by
  intro a b h
  rw [(List.append_eq_nil_iff.mp h.symm).2]
  rfl

theorem noC_cons {c : Char} {s : List Char} (h : NoC s) (hc : commentHead (c :: s) = none) : NoC (c :: s) := by
  intro a b he
  cases a with
  | nil => rw [List.nil_append] at he; rw [← he]; exact hc
  | cons x a => exact h a b (List.cons.inj he).2

theorem commentHead_other {c : Char} (s : List Char) (hc : c ≠ '\n') : commentHead (c :: s) = none := by
  unfold commentHead
  split
  · next r heq => exact absurd (List.cons.inj heq).1 hc
  · rfl

theorem noC_char {c : Char} {s : List Char} (h : NoC s) (hc : c ≠ '\n') : NoC (c :: s) := noC_cons h (commentHead_other s hc)

theorem noC_text {u s : List Char} (hu : '\n' ∉ u) (h : NoC s) : NoC (u ++ s) := by
  induction u with
  | nil => exact h
  | cons c u ih =>
    refine noC_char (ih (fun h0 => hu (List.mem_cons_of_mem _ h0))) (fun h0 => hu (by rw [h0]; simp))

theorem noC_suffix {u s : List Char} (h : NoC (u ++ s)) : NoC s := by
  intro a b he
  exact h (u ++ a) b (by rw [he]; simp)

/-- after blanks comes no `c` -/
def NoHead (s : List Char) : Prop := ∀ c, (s.dropWhile (· = ' ')).head? = some c → c ≠ 'c' ∧ c ≠ 'C'

theorem noHead_blank {s : List Char} (h : NoHead s) : NoHead (' ' :: s) := by
  unfold NoHead
  rw [List.dropWhile_cons, if_pos (by simp)]
  exact h


theorem noHead_char {c : Char} (s : List Char) (h : c ≠ 'c' ∧ c ≠ 'C' ∧ c ≠ ' ') : NoHead (c :: s) := by
  unfold NoHead
  rw [List.dropWhile_cons, if_neg (by simpa using h.2.2)]
  intro x hx
  cases Option.some.inj hx
  exact ⟨h.1, h.2.1⟩

theorem noHead_nil : NoHead [] := by
  intro c hc
  cases hc

theorem noC_line {s : List Char} (h : NoC s) (hh : NoHead s) : NoC ('\n' :: s) := by
  refine noC_cons h ?_
  unfold commentHead
  simp only
  split
  · next c q heq =>
    have := hh c (by rw [heq]; rfl)
    rw [if_neg (by tauto)]
  · rfl

theorem gap_safe {g s : List Char} (hg : Gap g) (h : NoC s) (hh : NoHead s) : NoC (g ++ s) ∧ NoHead (g ++ s) := by
  induction hg with
  | nil => exact ⟨h, hh⟩
  | blank g _ ih => exact ⟨noC_char ih.1 (by decide), noHead_blank ih.2⟩
  | line g _ ih =>
    have h1 : NoC (' ' :: ' ' :: ' ' :: ' ' :: ' ' :: (g ++ s)) :=
      noC_char (noC_char (noC_char (noC_char (noC_char ih.1 (by decide)) (by decide)) (by decide)) (by decide)) (by decide)
    have h2 : NoHead (' ' :: ' ' :: ' ' :: ' ' :: ' ' :: (g ++ s)) := noHead_blank (noHead_blank (noHead_blank (noHead_blank (noHead_blank ih.2))))
    exact ⟨noC_line h1 h2, noHead_char _ (by decide)⟩

/-- a nonempty text without line ends and without `c` or blank at its beginning -/
theorem text_safe {u s : List Char} (hu : '\n' ∉ u) (h0 : ∀ c, u.head? = some c → c ≠ 'c' ∧ c ≠ 'C' ∧ c ≠ ' ') (h : NoC s) (hh : NoHead s) : NoC (u ++ s) ∧ NoHead (u ++ s) := by
  refine ⟨noC_text hu h, ?_⟩
  cases u with
  | nil => exact hh
  | cons c u => exact noHead_char _ (h0 c rfl)

theorem number_safe {P : Prop} {t s : List Char} (ht : Number P t) (h : NoC s) (hh : NoHead s) : NoC (t ++ s) ∧ NoHead (t ++ s) := by
  refine text_safe (fun h0 => (numChar_ne (number_mem ht _ h0)).2.2.1 rfl) (fun c hc => ?_) h hh
  have := numChar_ne (number_mem ht c (List.mem_of_head? hc))
  exact ⟨this.2.2.2.2.2.2.2.2.2.1, this.2.2.2.2.2.2.2.2.2.2.1, this.2.1⟩

theorem words_safe {P : Prop} {w : Words} (hn : ∀ x ∈ w, Number P x.1) (hg : ∀ x ∈ w, Gap x.2) {s : List Char} (h : NoC s) (hh : NoHead s) :
    NoC (wordsText w ++ s) ∧ NoHead (wordsText w ++ s) := by
  induction w with
  | nil => exact ⟨h, hh⟩
  | cons x w ih =>
    obtain ⟨h1, h2⟩ := ih (fun y hy => hn y (List.mem_cons_of_mem _ hy)) (fun y hy => hg y (List.mem_cons_of_mem _ hy))
    obtain ⟨h3, h4⟩ := gap_safe (hg x List.mem_cons_self) h1 h2
    have := number_safe (hn x List.mem_cons_self) h3 h4
    rw [wordsText_cons]
    simpa only [List.append_assoc] using this

theorem parens_safe {P : Prop} {g : List Char} {w : Words} (ho : Gap g) (hn : ∀ x ∈ w, Number P x.1) (hg : ∀ x ∈ w, Gap x.2) {s : List Char} (h : NoC s) :
    NoC (parens g w ++ s) ∧ NoHead (parens g w ++ s) := by
  have h1 : NoC (')' :: s) ∧ NoHead (')' :: s) := ⟨noC_char h (by decide), noHead_char _ (by decide)⟩
  have h2 := words_safe hn hg h1.1 h1.2
  have h3 := gap_safe ho h2.1 h2.2
  have e : parens g w ++ s = '(' :: (g ++ (wordsText w ++ ')' :: s)) := by simp [parens]
  rw [e]
  exact ⟨noC_char h3.1 (by decide), noHead_char _ (by decide)⟩

theorem val_safe {P : Prop} {p : Param} (hp : p.ValOk P) {s : List Char} (h : NoC s) (hh : NoHead s) : NoC (p.val.text ++ s) ∧ NoHead (p.val.text ++ s) := by
  unfold Param.ValOk at hp
  cases hv : p.val with
  | uni t =>
    rw [hv] at hp
    obtain ⟨_, _, a, d, rfl, hs, hd⟩ := hp
    exact number_safe (number_signed True hs hd) h hh
  | fill t tr =>
    rw [hv] at hp
    obtain ⟨_, hd, ht⟩ := hp
    cases tr with
    | none => exact number_safe (number_digits True hd) h hh
    | some x =>
      obtain ⟨h1, h2, h3, _⟩ := ht x rfl
      obtain ⟨g, o, w⟩ := x
      have h4 := parens_safe h2 h3.number h3.gap h
      have h5 := gap_safe h1 h4.1 h4.2
      have h6 := number_safe (number_digits True hd) h5.1 h5.2
      simpa only [PVal.text, List.append_assoc] using h6
  | trcl tr =>
    rw [hv] at hp
    cases tr with
    | number t => exact number_safe (number_digits True hp.2) h hh
    | entries g w => exact parens_safe hp.2.1 hp.2.2.number hp.2.2.gap h
  | mat t =>
    rw [hv] at hp
    exact number_safe (number_digits True hp.2.2) h hh
  | other w =>
    rw [hv] at hp
    exact words_safe hp.2.1.number hp.2.1.gap h hh

theorem param_safe {p : Param} (hp : Nice p) (hk : ∀ c, p.key.head? = some c → c ≠ 'c' ∧ c ≠ 'C') {s : List Char} (h : NoC s) (hh : NoHead s) :
    NoC (p.text ++ s) ∧ NoHead (p.text ++ s) := by
  obtain ⟨a, b, h2, h3, h4⟩ := hp.eq
  have h5 := gap_safe hp.gap h hh
  have h6 := val_safe hp.val h5.1 h5.2
  have h7 := gap_safe h4 h6.1 h6.2
  have h8 : NoC (a ++ '=' :: (b ++ (p.val.text ++ (p.gap ++ s)))) := noC_text (fun h0 => absurd (h3 _ h0) (by decide)) (noC_char h7.1 (by decide))
  have h9 : NoHead (a ++ '=' :: (b ++ (p.val.text ++ (p.gap ++ s)))) := by
    unfold NoHead
    rw [List.dropWhile_append_of_pos (by simpa [Blanks] using h3), List.dropWhile_cons]
    intro c hc
    have : c = '=' := by simpa using hc.symm
    rw [this]
    decide
  obtain ⟨hne, hc⟩ := key_chars hp.val
  have h10 := text_safe (u := p.key) (fun h0 => (hc _ h0).2.2.1 rfl) (fun c h0 => ⟨(hk c h0).1, (hk c h0).2, (hc c (List.mem_of_head? h0)).1⟩) h8 h9
  have h11 := text_safe (u := p.starText) (by unfold Param.starText; split <;> decide) (fun c h0 => by
    unfold Param.starText at h0
    split at h0
    · cases Option.some.inj h0; decide
    · cases h0) h10.1 h10.2
  have e : p.text ++ s = p.starText ++ (p.key ++ (a ++ '=' :: (b ++ (p.val.text ++ (p.gap ++ s))))) := by
    rw [Param.text_eq h2]
    unfold Param.tail
    simp
  rw [e]
  exact h11

theorem params_safe {ps : List Param} (h : NiceAll ps) (hk : ∀ p ∈ ps, ∀ c, p.key.head? = some c → c ≠ 'c' ∧ c ≠ 'C') : NoC (paramsText ps) ∧ NoHead (paramsText ps) := by
  induction ps with
  | nil => exact ⟨noC_nil, noHead_nil⟩
  | cons p ps ih =>
    obtain ⟨h1, h2⟩ := ih h.tail (fun q hq => hk q (List.mem_cons_of_mem _ hq))
    rw [paramsText_cons]
    exact param_safe (h.nice p List.mem_cons_self) (hk p List.mem_cons_self) h1 h2

theorem geometry_safe {g s : List Char} (hg : Geometry g) (h : NoC s) (hh : NoHead s) : NoC (g ++ s) ∧ NoHead (g ++ s) := by
  induction hg with
  | nil => exact ⟨h, hh⟩
  | char c g hc _ ih =>
    have hn : c ≠ '\n' ∧ c ≠ 'c' ∧ c ≠ 'C' := by
      refine ⟨?_, ?_, ?_⟩ <;> (rintro rfl; revert hc; decide)
    refine ⟨noC_char ih.1 hn.1, ?_⟩
    by_cases hb : c = ' '
    · subst hb; exact noHead_blank ih.2
    · exact noHead_char _ ⟨hn.2.1, hn.2.2, hb⟩
  | line g _ ih =>
    have h1 : NoC (' ' :: ' ' :: ' ' :: ' ' :: ' ' :: (g ++ s)) :=
      noC_char (noC_char (noC_char (noC_char (noC_char ih.1 (by decide)) (by decide)) (by decide)) (by decide)) (by decide)
    have h2 : NoHead (' ' :: ' ' :: ' ' :: ' ' :: ' ' :: (g ++ s)) := noHead_blank (noHead_blank (noHead_blank (noHead_blank (noHead_blank ih.2))))
    exact ⟨noC_line h1 h2, noHead_char _ (by decide)⟩

/-! ## where the parameters begin -/

/-- nothing, or a star or letter -/
def StartL (p : List Char) : Prop := ∀ c, p.head? = some c → c = '*' ∨ c.isAlpha = true

theorem startL_not {c : Char} (h : c = '*' ∨ c.isAlpha = true) : inClass c = false ∧ c ≠ '\n' := by
  rcases h with rfl | h
  · decide
  · refine ⟨?_, by rintro rfl; revert h; decide⟩
    cases hc : inClass c with
    | false => rfl
    | true =>
      exfalso
      unfold inClass at hc
      rw [Bool.or_eq_true] at hc
      rcases hc with hc | hc
      · simp only [List.mem_cons, List.not_mem_nil, or_false, decide_eq_true_eq] at hc
        rcases hc with rfl | rfl | rfl | rfl | rfl | rfl | rfl | rfl <;> exact absurd h (by decide)
      · unfold Char.isDigit at hc
        unfold Char.isAlpha Char.isUpper Char.isLower at h
        simp only [Bool.and_eq_true, decide_eq_true_eq, Bool.or_eq_true, UInt32.le_iff_toNat_le] at hc h
        have e1 : ('A' : Char).val.toNat = 65 := rfl
        have e2 : ('a' : Char).val.toNat = 97 := rfl
        have e3 : ('9' : Char).val.toNat = 57 := rfl
        rcases h with ⟨h, _⟩ | ⟨h, _⟩ <;> simp_all <;> omega

/-- the part of a line that belongs to the geometry -/
theorem geometry_span {g p : List Char} (hg : Geometry g) (hp : StartL p) :
    (∃ u, (g ++ p).dropWhile inClass = p ∧ (g ++ p).takeWhile inClass = u ∧ g = u) ∨
    ∃ u g', Geometry g' ∧ g = u ++ '\n' :: ' ' :: ' ' :: ' ' :: ' ' :: ' ' :: g' ∧ (∀ c ∈ u, c ≠ '\n') ∧
      (g ++ p).dropWhile inClass = '\n' :: ' ' :: ' ' :: ' ' :: ' ' :: ' ' :: (g' ++ p) := by
  induction hg with
  | nil =>
    left
    cases p with
    | nil => exact ⟨[], rfl, rfl, rfl⟩
    | cons c p =>
      have := (startL_not (hp c rfl)).1
      refine ⟨[], ?_, ?_, rfl⟩
      · simp [List.dropWhile_cons, this]
      · simp [List.takeWhile_cons, this]
  | char c g hc _ ih =>
    have hcl : inClass c = true := by
      unfold inClass
      rw [Bool.or_eq_true]
      rcases hc with hc | hc
      · exact Or.inl (by simpa using hc)
      · exact Or.inr hc
    have hn : c ≠ '\n' := by rintro rfl; revert hc; decide
    rcases ih with ⟨u, h1, h2, h3⟩ | ⟨u, g', h1, h2, h3, h4⟩
    · left
      refine ⟨c :: u, ?_, ?_, by rw [h3]⟩
      · rw [List.cons_append, List.dropWhile_cons, if_pos hcl, h1]
      · rw [List.cons_append, List.takeWhile_cons, if_pos hcl, h2]
    · right
      refine ⟨c :: u, g', h1, by rw [h2]; rfl, ?_, ?_⟩
      · intro x hx
        rcases List.mem_cons.mp hx with rfl | hx
        · exact hn
        · exact h3 x hx
      · rw [List.cons_append, List.dropWhile_cons, if_pos hcl, h4]
  | line g hg _ =>
    right
    refine ⟨[], g, hg, rfl, by simp, ?_⟩
    rw [List.cons_append, List.dropWhile_cons, if_neg (by decide)]
    rfl

theorem afterLine_none {c : Char} (hc : c ≠ '\n') (s : List Char) : afterLine (c :: s) = none := by
  unfold afterLine
  split
  · next heq => exact absurd (List.cons.inj heq).1 hc
  · rfl

/-- on from a place that is not at the beginning of a line -/
theorem searchParam_skip {u s : List Char} (hu : ∀ c ∈ u, c ≠ '\n') : searchParam false (u ++ s) = (searchParam false s).map (fun x => (u ++ x.1, x.2)) := by
  induction u with
  | nil => simp
  | cons c u ih =>
    have hc := hu c List.mem_cons_self
    rw [List.cons_append]
    conv => lhs; unfold searchParam
    rw [afterLine_none hc, ih (fun x hx => hu x (List.mem_cons_of_mem _ hx))]
    cases searchParam false s <;> simp

/-- what the search finds after a geometry -/
def Found (g p : List Char) : Option (List Char × List Char) := if p = [] then none else some (g, p)

theorem searchParam_none {s : List Char} (h : '\n' ∉ s) : searchParam false s = none := by
  have := searchParam_skip (u := s) (s := []) (fun c hc h0 => h (by rw [← h0]; exact hc))
  rw [List.append_nil] at this
  rw [this]
  rfl

/-- one line of the geometry -/
theorem paramHere_geometry {g p : List Char} (pre : List Char) (hg : Geometry g) (hp : StartL p) :
    ('\n' ∉ g ∧ paramHere pre (g ++ p) = Found (pre ++ g) p) ∨
    ∃ u g', Geometry g' ∧ g = u ++ '\n' :: ' ' :: ' ' :: ' ' :: ' ' :: ' ' :: g' ∧ (∀ c ∈ u, c ≠ '\n') ∧ paramHere pre (g ++ p) = none := by
  rcases geometry_span hg hp with ⟨u, h1, h2, h3⟩ | ⟨u, g', h1, h2, h3, h4⟩
  · left
    refine ⟨?_, ?_⟩
    · intro h0
      rw [h3, ← h2] at h0
      exact absurd (List.mem_takeWhile_imp h0) (by decide)
    · unfold paramHere
      rw [h1, h2, ← h3]
      cases p with
      | nil => rfl
      | cons c p =>
        dsimp only
        rw [if_pos (hp c rfl), Found, if_neg (by simp)]
  · right
    refine ⟨u, g', h1, h2, h3, ?_⟩
    unfold paramHere
    rw [h4]
    dsimp only
    rw [if_neg (by decide)]

theorem found_or {g p : List Char} (hp : StartL p) (x : Option (List Char × List Char)) (hx : p = [] → x = none) : (Found g p).or x = Found g p := by
  unfold Found
  split
  · next h => rw [hx h]; rfl
  · rfl

theorem searchParam_line {g p : List Char} (n : Nat) (hn : g.length ≤ n) (hg : Geometry g) (hp : StartL p) :
    searchParam false ('\n' :: ' ' :: ' ' :: ' ' :: ' ' :: ' ' :: (g ++ p)) = Found ('\n' :: ' ' :: ' ' :: ' ' :: ' ' :: ' ' :: g) p := by
  induction n generalizing g with
  | zero =>
    have : g = [] := List.length_eq_zero_iff.mp (by omega)
    subst this
    unfold searchParam
    simp only [Bool.false_eq_true, if_false, afterLine, Option.bind_some, Option.none_or]
    rcases paramHere_geometry ['\n', ' ', ' ', ' ', ' ', ' '] (g := []) .nil hp with ⟨h1, h2⟩ | ⟨u, g', _, h2, _⟩
    · rw [h2]
      refine found_or hp _ (fun h0 => ?_)
      subst h0
      decide +kernel
    · simp at h2
  | succ n ih =>
    unfold searchParam
    simp only [Bool.false_eq_true, if_false, afterLine, Option.bind_some, Option.none_or]
    rcases paramHere_geometry ['\n', ' ', ' ', ' ', ' ', ' '] hg hp with ⟨h1, h2⟩ | ⟨u, g', h1, h2, h3, h4⟩
    · rw [h2]
      refine found_or hp _ (fun h0 => ?_)
      subst h0
      rw [List.append_nil, searchParam_none (by simpa using h1)]
      rfl
    · rw [h4, Option.none_or]
      have hlen : g'.length ≤ n := by
        have := congrArg List.length h2
        simp at this
        omega
      have h5 := ih hlen h1
      have h6 := searchParam_skip (u := ' ' :: ' ' :: ' ' :: ' ' :: ' ' :: u) (s := '\n' :: ' ' :: ' ' :: ' ' :: ' ' :: ' ' :: (g' ++ p)) (by
        intro c hc
        simp only [List.mem_cons] at hc
        rcases hc with rfl | rfl | rfl | rfl | rfl | hc
        all_goals first | exact h3 c hc | decide)
      have h7 : ' ' :: ' ' :: ' ' :: ' ' :: ' ' :: (g ++ p) = (' ' :: ' ' :: ' ' :: ' ' :: ' ' :: u) ++ ('\n' :: ' ' :: ' ' :: ' ' :: ' ' :: ' ' :: (g' ++ p)) := by
        rw [h2]
        simp
      rw [h7, h6, h5]
      unfold Found
      split
      · rfl
      · rw [h2]
        simp

/-- from the first line end on -/
theorem searchParam_after {u g' p : List Char} (hg : Geometry g') (hp : StartL p) (hu : ∀ c ∈ u, c ≠ '\n') :
    searchParam false (u ++ '\n' :: ' ' :: ' ' :: ' ' :: ' ' :: ' ' :: (g' ++ p)) = Found (u ++ '\n' :: ' ' :: ' ' :: ' ' :: ' ' :: ' ' :: g') p := by
  rw [searchParam_skip hu, searchParam_line _ (Nat.le_refl _) hg hp]
  unfold Found
  split
  · rfl
  · rfl

theorem searchParam_start {c : Char} {s : List Char} (h : paramHere [] (c :: s) = none) : searchParam true (c :: s) = searchParam false (c :: s) := by
  unfold searchParam
  simp only [if_true, h, Bool.false_eq_true, if_false]

theorem searchParam_geometry {g p : List Char} (hg : Geometry g) (hp : StartL p) : searchParam true (g ++ p) = Found g p := by
  cases hs : g ++ p with
  | nil =>
    rw [(List.append_eq_nil_iff.mp hs).1, (List.append_eq_nil_iff.mp hs).2]
    rfl
  | cons c s =>
    rcases paramHere_geometry [] hg hp with ⟨h1, h2⟩ | ⟨u, g', h1, h2, h3, h4⟩
    · unfold searchParam
      rw [← hs, if_pos rfl, h2]
      refine found_or hp _ (fun h0 => ?_)
      subst h0
      have hno : '\n' ∉ c :: s := by rw [← hs, List.append_nil]; exact h1
      have hc : c ≠ '\n' := fun h0 => hno (by rw [h0]; simp)
      rw [hs, afterLine_none hc, searchParam_none (fun h0 => hno (List.mem_cons_of_mem _ h0))]
      rfl
    · rw [hs] at h4
      rw [searchParam_start h4, ← hs]
      have e : g ++ p = u ++ '\n' :: ' ' :: ' ' :: ' ' :: ' ' :: ' ' :: (g' ++ p) := by rw [h2]; simp
      rw [e, searchParam_after h1 hp h3, h2]

theorem dropWhile_line {u s : List Char} (hu : ∀ c ∈ u, c ≠ '\n') : (u ++ '\n' :: s).dropWhile (· ≠ '\n') = '\n' :: s ∧ (u ++ '\n' :: s).takeWhile (· ≠ '\n') = u :=
  dropWhile_to (fun h => hu _ h rfl)

/-- the geometry and the parameters -/
theorem splitCard_ok {g p : List Char} (hg : Geometry g) (hp : StartL p) (hc : NoC (g ++ p)) :
    splitCard (g ++ p) = (g, p, if p = [] then true else !hasTrcl p) := by
  unfold splitCard
  simp only [removeComments_id hc, searchParam_geometry hg hp]
  have hcp : NoC p := noC_suffix hc
  by_cases hn : '\n' ∈ g
  · rcases paramHere_geometry [] hg hp with ⟨h1, _⟩ | ⟨u, g', h1, h2, h3, _⟩
    · exact absurd hn h1
    · have e : g ++ p = u ++ '\n' :: ' ' :: ' ' :: ' ' :: ' ' :: ' ' :: (g' ++ p) := by rw [h2]; simp
      have h6 : searchParam false ((g ++ p).dropWhile (· ≠ '\n')) = Found ('\n' :: ' ' :: ' ' :: ' ' :: ' ' :: ' ' :: g') p := by
        rw [e, (dropWhile_line h3).1]
        exact searchParam_after (u := []) h1 hp (by simp)
      have h7 : (g ++ p).takeWhile (· ≠ '\n') = u := by rw [e, (dropWhile_line h3).2]
      have hcount : 0 < g.count '\n' := List.count_pos_iff.mpr hn
      by_cases h0 : p = []
      · subst h0
        simp only [Found, if_true, List.append_nil]
        rw [if_pos (by omega)]
        rw [List.append_nil] at h6
        rw [h6]
        simp [Found]
      · simp only [Found, if_neg h0] at h6 ⊢
        rw [if_pos (by omega), h6, h7]
        simp only [Option.map_some, removeComments_id hcp, h2]
  · have hcount : g.count '\n' = 0 := List.count_eq_zero.mpr hn
    by_cases h0 : p = []
    · subst h0
      simp [Found, hcount]
    · simp [Found, h0, hcount, removeComments_id hcp]

end Geouned.CellText
