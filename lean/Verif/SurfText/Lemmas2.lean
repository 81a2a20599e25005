import Verif.SurfText.Lemmas
/-! Lemmas for C81: the words of cards -/
namespace Geouned.SurfText
open Geouned.CellText

variable {V : Type}

theorem plus_notRI : isRI '+' = false := by decide

theorem digits_notRI {d : List Char} (h : ∀ c ∈ d, c.isDigit = true) : ∀ c ∈ d, isRI c = false := fun c hc => digit_notRI (h c hc)

theorem sign_notRI {s : List Char} (h : Sign s) : ∀ c ∈ s, isRI c = false := by
  intro c hc
  rcases h with rfl | rfl | rfl
  · cases hc
  · rw [List.mem_singleton.mp hc]; decide
  · rw [List.mem_singleton.mp hc]; decide

theorem mantissa_notRI {m : List Char} (h : Mantissa m) : ∀ c ∈ m, isRI c = false := by
  cases h with
  | int _ h => exact digits_notRI h.2
  | point a b ha hb _ =>
    intro c hc
    rcases List.mem_append.mp hc with hc | hc
    · exact digits_notRI ha c hc
    · rcases List.mem_cons.mp hc with rfl | hc
      · decide
      · exact digits_notRI hb c hc

theorem number_notRI {P : Prop} {t : List Char} (h : Number P t) : ∀ c ∈ t, isRI c = false := by
  cases h with
  | plain s m hs hm =>
    intro c hc
    rcases List.mem_append.mp hc with hc | hc
    · exact sign_notRI hs c hc
    · exact mantissa_notRI hm c hc
  | exp s m e g d hs hm he hg hd _ =>
    intro c hc
    rcases List.mem_append.mp hc with hc | hc
    · rcases List.mem_append.mp hc with hc | hc
      · exact sign_notRI hs c hc
      · exact mantissa_notRI hm c hc
    · rcases List.mem_cons.mp hc with rfl | hc
      · rcases he with rfl | rfl <;> decide
      · rcases List.mem_append.mp hc with hc | hc
        · exact sign_notRI hg c hc
        · exact digits_notRI hd.2 c hc

/-- all entries are numbers in the usual form -/
def AllNum (es : List Entry) : Prop := ∀ e ∈ es, ∃ t, e = .num t

theorem numbers_num : ∀ (es : List Entry) (p : Option (List Char)), AllNum es → numbers p es = some (es.map Entry.text)
  | [], _, _ => rfl
  | e :: es, p, h => by
    obtain ⟨t, rfl⟩ := h e List.mem_cons_self
    rw [numbers, numbers_num es _ (fun e he => h e (List.mem_cons_of_mem _ he))]
    rfl

theorem entries_flt (F : Arith V) (hF : ∀ t, Number False t → ∃ v, F.flt t = some v) : ∀ (es : List Entry), AllNum es → (∀ e ∈ es, e.Ok) →
    ∃ l, (es.map Entry.text).mapM F.flt = some l
  | [], _, _ => ⟨[], rfl⟩
  | e :: es, h, hok => by
    obtain ⟨l, hl⟩ := entries_flt F hF es (fun e he => h e (List.mem_cons_of_mem _ he)) (fun e he => hok e (List.mem_cons_of_mem _ he))
    obtain ⟨t, rfl⟩ := h e List.mem_cons_self
    obtain ⟨v, hv⟩ := hF t (hok _ List.mem_cons_self)
    refine ⟨v :: l, ?_⟩
    rw [List.map_cons, List.mapM_cons, hl, show (Entry.num t).text = t from rfl, hv]
    rfl

theorem entries_free {es : List Entry} (h : AllNum es) (hok : ∀ e ∈ es, e.Ok) : ∀ w ∈ es.map Entry.text, PairFree false w := by
  intro w hw
  obtain ⟨e, he, rfl⟩ := List.mem_map.mp hw
  obtain ⟨t, rfl⟩ := h e he
  exact free_of_notRI (number_notRI (hok _ he)) false

theorem alpha_notDigit {c : Char} (h : c.isAlpha = true) : c.isDigit = false := by
  cases hd : c.isDigit with
  | false => rfl
  | true =>
    exfalso
    simp only [Char.isDigit, Bool.and_eq_true, decide_eq_true_eq] at hd
    simp only [Char.isAlpha, Char.isUpper, Char.isLower, Bool.or_eq_true, Bool.and_eq_true, decide_eq_true_eq] at h
    have a1 : c.val.toNat ≤ 57 := UInt32.le_iff_toNat_le.mp hd.2
    rcases h with h | h
    · have a2 : 65 ≤ c.val.toNat := UInt32.le_iff_toNat_le.mp h.1
      omega
    · have a2 : 97 ≤ c.val.toNat := UInt32.le_iff_toNat_le.mp h.1
      omega

/-! ### surface cards -/

theorem surface_free {c : SurfCard} (h : c.Ok) (hn : AllNum c.entries) : ∀ w ∈ c.words, PairFree false w := by
  intro w hw
  unfold SurfCard.words at hw
  rw [List.mem_append, List.mem_cons, List.mem_cons] at hw
  rcases hw with (rfl | hw) | rfl | hw
  · refine free_of_notRI (fun x hx => ?_) false
    rcases List.mem_append.mp hx with hx | hx
    · rcases h.flag with e | e | e <;> rw [e] at hx
      · cases hx
      · rw [List.mem_singleton.mp hx]; decide
      · rw [List.mem_singleton.mp hx]; decide
    · exact digits_notRI h.name.2 x hx
  · refine free_of_notRI (fun x hx => ?_) false
    cases hl : c.link with
    | none => rw [hl] at hw; cases hw
    | some y =>
      obtain ⟨b, t⟩ := y
      have hd := h.link _ hl
      rw [hl] at hw
      cases b with
      | false => rw [List.mem_singleton.mp hw] at hx; exact digits_notRI hd.2 x hx
      | true =>
        rw [List.mem_singleton.mp hw] at hx
        rcases List.mem_cons.mp hx with rfl | hx
        · decide
        · exact digits_notRI hd.2 x hx
  · refine free_of_notDigit (fun x hx => ?_)
    rcases h.mn.2 x hx with h1 | rfl
    · exact alpha_notDigit h1
    · decide
  · exact entries_free hn h.entries w hw

theorem digits_cons {d : List Char} (h : Digits d) : ∃ x r, d = x :: r ∧ x.isDigit = true := by
  cases d with
  | nil => exact absurd rfl h.1
  | cons x r => exact ⟨x, r, rfl, h.2 x List.mem_cons_self⟩

theorem surface_read (F : Arith V) (hF : ∀ t, Number False t → ∃ v, F.flt t = some v) {c : SurfCard} (h : c.Ok) (hn : AllNum c.entries)
    {s : List Char} (hs : pySplit s = c.words) : ∃ r, splitSurface F (protect s) = .ok r ∧ c.Says F r := by
  rw [protect_free (split_free (by rw [hs]; exact surface_free h hn))]
  obtain ⟨l, hl⟩ := entries_flt F hF c.entries hn h.entries
  have hfl := floats_ok F hl
  have hjs : bareName (c.flag ++ c.name) = c.name := by
    unfold bareName
    obtain ⟨x, r, hx, hd⟩ := digits_cons h.name
    rcases h.flag with e | e | e <;> rw [e, hx]
    · simp [hd]
    · simp [show Char.isDigit '*' = false from by decide]
    · simp [show Char.isDigit '+' = false from by decide]
  obtain ⟨⟨x, q, hx, hxa⟩, _⟩ := h.mn
  have hxd := alpha_notDigit hxa
  have hxm : x ≠ '-' := by rintro rfl; exact absurd hxa (by decide)
  have hnum : numbers none c.entries = some (c.entries.map Entry.text) := numbers_num _ _ hn
  unfold splitSurface
  rw [hs]
  unfold SurfCard.words
  cases hk : c.link with
  | none =>
    dsimp only [List.cons_append, List.nil_append]
    rw [hjs, pyInt_digits h.name]
    dsimp only
    rw [hx]
    dsimp only
    rw [if_neg (by simp [hxd]), if_neg hxm, if_pos hxa, hfl]
    refine ⟨_, rfl, rfl, ?_, ?_, _, hnum, hl⟩
    · rw [hk]
    · rw [hx]; rfl
  | some y =>
    obtain ⟨b, t⟩ := y
    have hd := h.link _ hk
    obtain ⟨z, v, hz, hzd⟩ := digits_cons hd
    have hz' : t = z :: v := hz
    cases b with
    | false =>
      dsimp only [List.cons_append, List.nil_append]
      rw [hjs, pyInt_digits h.name]
      dsimp only
      have hd' : Digits (z :: v) := hz' ▸ hd
      rw [hz']
      dsimp only
      rw [if_pos hzd, pyInt_digits hd']
      dsimp only
      rw [hfl]
      refine ⟨_, rfl, rfl, ?_, rfl, _, hnum, hl⟩
      rw [hk, hz']
    | true =>
      dsimp only [List.cons_append, List.nil_append]
      rw [hjs, pyInt_digits h.name]
      dsimp only
      rw [if_neg (by decide), if_pos rfl, pyInt_digits hd]
      dsimp only
      rw [hfl]
      refine ⟨_, rfl, rfl, ?_, rfl, _, hnum, hl⟩
      rw [hk]

/-! ### transformation cards -/

theorem getInt_skip {a : List Char} (h : ∀ c ∈ a, c.isDigit = false) (s : List Char) : getInt [] (a ++ s) = getInt [] s := by
  induction a with
  | nil => rfl
  | cons c a ih =>
    rw [List.cons_append, getInt, if_neg (by simp), if_neg (by simp [h c List.mem_cons_self]), ih (fun d hd => h d (List.mem_cons_of_mem _ hd))]

theorem getInt_digits {d : List Char} (h : ∀ c ∈ d, c.isDigit = true) : ∀ r, getInt r d = r ++ d := by
  induction d with
  | nil => intro r; simp [getInt]
  | cons c d ih =>
    intro r
    have hc := h c List.mem_cons_self
    have ha : c.isAlpha = false := by
      cases ha : c.isAlpha with
      | false => rfl
      | true => rw [alpha_notDigit ha] at hc; cases hc
    rw [getInt, if_neg (by simp [ha]), if_pos hc, ih (fun d hd => h d (List.mem_cons_of_mem _ hd))]
    simp

theorem toLower_notDigit {c y : Char} (h : c.toLower = y) (hy : y.isDigit = false) : c.isDigit = false := by
  cases hd : c.isDigit with
  | false => rfl
  | true => rw [digit_toLower hd] at h; rw [h, hy] at hd; cases hd

theorem same_tr {w : List Char} (h : Same ['t', 'r'] w) : ∃ a b, w = [a, b] ∧ a.toLower = 't' ∧ b.toLower = 'r' := by
  unfold Same at h
  match w, h with
  | [a, b], h => exact ⟨a, b, rfl, by simpa using h⟩
  | [], h => simp at h
  | [_], h => simp at h
  | _ :: _ :: _ :: _, h => simp at h

theorem toLower_notWhite {c : Char} (h : c.toLower = 't' ∨ c.toLower = 'r') : isWhite c = false ∧ c ≠ '*' ∧ c ≠ '_' := by
  refine ⟨?_, ?_, ?_⟩
  · cases hw : isWhite c with
    | false => rfl
    | true =>
      simp only [isWhite, Bool.or_eq_true, decide_eq_true_eq] at hw
      rcases hw with rfl | rfl <;> exact absurd h (by decide)
  · rintro rfl; exact absurd h (by decide)
  · rintro rfl; exact absurd h (by decide)

theorem fmt_chars (s : List Char) : ∀ c ∈ fmtD s, isWhite c = false ∧ c ≠ '*' := by
  intro c hc
  unfold fmtD at hc
  rcases List.mem_append.mp hc with hc | hc
  · rcases List.mem_append.mp hc with hc | hc
    · simp only [List.mem_cons, List.not_mem_nil, or_false] at hc
      rcases hc with rfl | rfl | rfl <;> decide
    · have hd := Nat.isDigit_of_mem_toDigits (by decide) (by decide) hc
      refine ⟨?_, ?_⟩
      · cases hw : isWhite c with
        | false => rfl
        | true => rw [(white_notRI hw).2] at hd; cases hd
      · rintro rfl; exact absurd hd (by decide)
  · rw [List.mem_singleton.mp hc]; decide

/-- the part of the word before the number -/
def starText (star : Bool) : List Char := if star then ['*'] else []

theorem starText_chars {star : Bool} : ∀ c ∈ starText star, c = '*' := by
  intro c hc
  cases star
  · cases hc
  · exact List.mem_singleton.mp hc

theorem digit_notWhite {c : Char} (h : c.isDigit = true) : isWhite c = false := by
  cases hw : isWhite c with
  | false => rfl
  | true => rw [(white_notRI hw).2] at h; cases h

theorem tr_read (F : Arith V) (hF : ∀ t, Number False t → ∃ v, F.flt t = some v) {star : Bool} {word num : List Char} {es : List Entry}
    (h : (DataCard.tr star word num es).Ok) (hn : AllNum es) {s : List Char} (hs : pySplit s = (DataCard.tr star word num es).words) :
    ∃ r, dataValues F (protect s) = .ok (some r) ∧ SaysTr F star num es r := by
  obtain ⟨hw, hd, hes, hok, _⟩ := h
  obtain ⟨a, b, rfl, ha, hb⟩ := same_tr hw
  have hs' : pySplit s = (starText star ++ [a, b] ++ num) :: es.map Entry.text := hs
  have hab : ∀ c ∈ starText star ++ [a, b], c.isDigit = false := by
    intro c hc
    rcases List.mem_append.mp hc with hc | hc
    · rw [starText_chars c hc]; decide
    · rcases List.mem_cons.mp hc with rfl | hc
      · exact toLower_notDigit ha (by decide)
      · rw [List.mem_singleton.mp hc]; exact toLower_notDigit hb (by decide)
  have hfree : ∀ w ∈ pySplit s, PairFree false w := by
    rw [hs']
    intro w hw
    rcases List.mem_cons.mp hw with rfl | hw
    · have h1 := free_of_notDigit hab
      rw [pairFree_append]
      exact ⟨h1, free_of_notRI (digits_notRI hd.2) _⟩
    · exact entries_free hn hok w hw
  rw [protect_free (split_free hfree)]
  obtain ⟨l, hl⟩ := entries_flt F hF es hn hok
  have hfl := floats_ok F hl
  obtain ⟨g, t, hst, hg, hw0, hww, ht, hrest⟩ := split_first hs'
  obtain ⟨x, q, hx, hxd⟩ := digits_cons hd
  have hgi : getInt [] (starText star ++ [a, b] ++ num) = num := by
    rw [getInt_skip hab, getInt_digits hd.2]; rfl
  have hinf : hasInfix ['t', 'r'] (low ((starText star ++ [a, b] ++ num).take 3)) = true := by
    cases star
    · rw [hx]
      simp [starText, low, ha, hb, hasInfix, List.isPrefixOf]
    · simp [starText, low, ha, hb, hasInfix, List.isPrefixOf]
  -- the template
  have hne : num ≠ [] := hd.1
  have hpre : ∀ y r, num = y :: r → y ∉ g ++ (starText star ++ [a, b]) := by
    intro y r hy hmem
    have hyd : y.isDigit = true := hd.2 y (by rw [hy]; exact List.mem_cons_self)
    rcases List.mem_append.mp hmem with hm | hm
    · rw [(white_notRI (hg y hm)).2] at hyd; cases hyd
    · rw [hab y hm] at hyd; cases hyd
  have htemp : replaceFirst ['_'] (fmtD num) (replaceFirst num ['_'] s) = g ++ ((starText star ++ [a, b] ++ fmtD num) ++ t) := by
    rw [hst, show g ++ (starText star ++ [a, b] ++ num ++ t) = (g ++ (starText star ++ [a, b])) ++ (num ++ t) by simp,
      replace_skip hpre hne, replace_here hne, replace_skip _ (by simp), replace_here (by simp)]
    · simp
    · intro y r hy hmem
      have hy' : '_' = y := (List.cons.inj hy).1
      subst hy'
      rcases List.mem_append.mp hmem with hm | hm
      · exact absurd (hg _ hm) (by decide)
      · rcases List.mem_append.mp hm with hm | hm
        · exact absurd (starText_chars _ hm) (by decide)
        · simp only [List.mem_cons, List.not_mem_nil, or_false] at hm
          rcases hm with hm | hm
          · exact (toLower_notWhite (Or.inl ha)).2.2 hm.symm
          · exact (toLower_notWhite (Or.inr hb)).2.2 hm.symm
  have hsplit2 : pySplit (g ++ ((starText star ++ [a, b] ++ fmtD num) ++ t)) = (starText star ++ [a, b] ++ fmtD num) :: es.map Entry.text := by
    rw [split_glue hg (by simp) _ ht, hrest]
    intro c hc
    rcases List.mem_append.mp hc with hc | hc
    · exact hww c (List.mem_append_left _ hc)
    · exact (fmt_chars num c hc).1
  have hstar : decide ('*' ∈ starText star ++ [a, b] ++ fmtD num) = star := by
    cases star
    · rw [decide_eq_false_iff_not]
      intro hm
      rcases List.mem_append.mp hm with hm | hm
      · simp only [starText, Bool.false_eq_true, if_false, List.nil_append, List.mem_cons, List.not_mem_nil, or_false] at hm
        rcases hm with hm | hm
        · exact (toLower_notWhite (Or.inl ha)).2.1 hm.symm
        · exact (toLower_notWhite (Or.inr hb)).2.1 hm.symm
      · exact (fmt_chars num _ hm).2 rfl
    · simp [starText]
  have hsd : splitData s = .ok (some ((value num : Int), g ++ ((starText star ++ [a, b] ++ fmtD num) ++ t))) := by
    unfold splitData
    rw [hs']
    dsimp only
    rw [if_pos hinf, hgi, pyInt_digits hd, htemp]
  have hpt : parseTr F (g ++ ((starText star ++ [a, b] ++ fmtD num) ++ t)) = .ok (star, l) := by
    unfold parseTr
    rw [hsplit2]
    cases es with
    | nil => exact absurd rfl hes
    | cons e es =>
      rw [List.map_cons] at hfl ⊢
      dsimp only
      rw [hfl, hstar]
  refine ⟨⟨(value num : Int), star, l⟩, ?_, rfl, rfl, _, numbers_num es none hn, hl⟩
  unfold dataValues
  rw [hsd]
  dsimp only
  rw [hpt]

/-! ### other data cards -/

theorem getInt_some : ∀ (w r : List Char), (r ≠ [] ∨ ∃ c ∈ w, c.isDigit = true) → (∀ c ∈ r, c.isDigit = true) → Digits (getInt r w)
  | [], r, h, hr => by
    rcases h with h | ⟨c, hc, _⟩
    · exact ⟨h, hr⟩
    · cases hc
  | c :: s, r, h, hr => by
    rw [getInt]
    split
    · rename_i h1; exact ⟨h1.1, hr⟩
    · split
      · rename_i _ h2
        refine getInt_some s _ (Or.inl (by simp)) ?_
        intro x hx
        rcases List.mem_append.mp hx with hx | hx
        · exact hr x hx
        · rw [List.mem_singleton.mp hx]; exact h2
      · rename_i _ h2
        refine getInt_some s _ ?_ hr
        rcases h with h | ⟨x, hx, hxd⟩
        · exact Or.inl h
        · rcases List.mem_cons.mp hx with rfl | hx
          · exact absurd hxd h2
          · exact Or.inr ⟨x, hx, hxd⟩

end Geouned.SurfText
