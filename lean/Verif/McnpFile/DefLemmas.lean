import Verif.Text.CharProps
/-!
# Lemmas for C102: no line of a wrapped cell definition is blank
-/
namespace Geouned.Wrap

/-! ## no two blanks in a row -/

theorem noDouble_cons {c : Char} {s : List Char} (h1 : ¬ Adj ' ' ' ' s) (h2 : c = ' ' → s.head? ≠ some ' ') : ¬ Adj ' ' ' ' (c :: s) := by
  intro h
  rcases adj_cons h with ⟨h3, h4⟩ | h
  · exact h2 h3 h4
  · exact h1 h

theorem noDouble_nil : ¬ Adj ' ' ' ' [] := by
  rintro ⟨x, y, h⟩
  cases x <;> simp at h

theorem noDouble_suffix {a s : List Char} (h : ¬ Adj ' ' ' ' (a ++ s)) : ¬ Adj ' ' ' ' s := by
  rintro ⟨x, y, rfl⟩
  exact h ⟨a ++ x, y, by simp⟩

theorem squeeze_head : ∀ s : List Char, (squeeze s).head? = s.head?
  | [] => rfl
  | c :: s => by
    unfold squeeze
    split
    · next h => rw [squeeze_head s, h.2, h.1]; rfl
    · rfl

theorem squeeze_noDouble : ∀ s : List Char, ¬ Adj ' ' ' ' (squeeze s)
  | [] => noDouble_nil
  | c :: s => by
    unfold squeeze
    split
    · exact squeeze_noDouble s
    · next h =>
      refine noDouble_cons (squeeze_noDouble s) (fun hc hh => h ⟨hc, ?_⟩)
      rw [← squeeze_head s]; exact hh

theorem absorb_head {c : Char} : ∀ {s : List Char}, ¬ Adj ' ' ' ' (' ' :: s) → c ≠ ' ' → (absorb c s).head? ≠ some ' '
  | [], _, _ => by simp [absorb]
  | y :: s, h, hc => by
    unfold absorb
    have hy : y ≠ ' ' := by
      rintro rfl
      exact h ⟨[], s, rfl⟩
    split
    · simpa using hc
    · split
      · next h2 => exact absurd h2.1 hy
      · simpa using hy

theorem absorb_noDouble {c : Char} (hc : c ≠ ' ') : ∀ {s : List Char}, ¬ Adj ' ' ' ' s → ¬ Adj ' ' ' ' (absorb c s)
  | [], _ => noDouble_nil
  | x :: s, h => by
    have hs : ¬ Adj ' ' ' ' s := fun h' => h h'.tail
    have ih := absorb_noDouble hc hs
    unfold absorb
    split
    · refine noDouble_cons ?_ (fun he => absurd he hc)
      obtain ⟨a, ha⟩ := List.dropWhile_suffix (p := fun x => decide (x = ' ')) (l := absorb c s)
      rw [← ha] at ih
      exact noDouble_suffix ih
    · split
      · exact ih
      · refine noDouble_cons ih (fun he => ?_)
        subst he
        exact absorb_head h hc

theorem sepIf_noDouble {p : Char → Char → Bool} (hp : ∀ a b, p a b = true → a ≠ ' ' ∧ b ≠ ' ') : ∀ {s : List Char}, ¬ Adj ' ' ' ' s → ¬ Adj ' ' ' ' (sepIf p s)
  | [], h => h
  | [a], h => h
  | a :: b :: s, h => by
    have hs : ¬ Adj ' ' ' ' (b :: s) := fun h' => h h'.tail
    have ih := sepIf_noDouble hp hs
    obtain ⟨t, ht⟩ := sepIf_cons p b s
    unfold sepIf
    split
    · next hab =>
      obtain ⟨h1, h2⟩ := hp a b hab
      refine noDouble_cons (noDouble_cons ih (fun _ => ?_)) (fun he => absurd he h1)
      rw [ht]; simpa using h2
    · refine noDouble_cons ih (fun he => ?_)
      rw [ht]
      subst he
      rintro he
      cases he
      exact h ⟨[], s, rfl⟩

/-! ## the last character is no blank -/

theorem squeeze_last : ∀ s : List Char, (squeeze s).getLast? = s.getLast?
  | [] => rfl
  | c :: s => by
    have ih := squeeze_last s
    unfold squeeze
    split
    · next h =>
      rw [ih]
      cases s with
      | nil => simp at h
      | cons d s => rw [List.getLast?_cons_cons]
    · cases s with
      | nil => rfl
      | cons d s =>
        have hne : squeeze (d :: s) ≠ [] := by
          intro he
          rw [he] at ih
          simp [List.getLast?_cons] at ih
        obtain ⟨e, l, hl⟩ := List.exists_cons_of_ne_nil hne
        rw [hl] at ih ⊢
        rw [List.getLast?_cons_cons, List.getLast?_cons_cons, ih]

theorem dropBlank_last {l : List Char} {z : Char} (h : l.getLast? = some z) (hz : z ≠ ' ') : (l.dropWhile (· = ' ')).getLast? = some z := by
  induction l with
  | nil => cases h
  | cons a l ih =>
    rw [List.dropWhile_cons]
    split
    · next ha =>
      cases l with
      | nil =>
        rw [List.getLast?_singleton] at h
        cases h
        exact absurd (by simpa using ha) hz
      | cons b l =>
        rw [List.getLast?_cons_cons] at h
        exact ih h
    · exact h

theorem cons_last {c z : Char} {l : List Char} (h : l.getLast? = some z) : (c :: l).getLast? = some z := by
  cases l with
  | nil => cases h
  | cons b l => rw [List.getLast?_cons_cons]; exact h

theorem absorb_last {c : Char} : ∀ {s : List Char} {z : Char}, s.getLast? = some z → z ≠ ' ' → (absorb c s).getLast? = some z
  | [], z, h, _ => by cases h
  | [x], z, h, hz => by
    rw [List.getLast?_singleton] at h
    cases h
    unfold absorb
    split
    · next hx => subst hx; simp [absorb]
    · split
      · next h => exact absurd h.1 hz
      · simp [absorb]
  | x :: y :: s, z, h, hz => by
    rw [List.getLast?_cons_cons] at h
    have ih := absorb_last (c := c) h hz
    unfold absorb
    split
    · exact cons_last (dropBlank_last ih hz)
    · split
      · exact ih
      · exact cons_last ih

theorem sepIf_last (p : Char → Char → Bool) : ∀ {s : List Char} {z : Char}, s.getLast? = some z → (sepIf p s).getLast? = some z
  | [], z, h => by cases h
  | [a], z, h => h
  | a :: b :: s, z, h => by
    rw [List.getLast?_cons_cons] at h
    have ih := sepIf_last p h
    unfold sepIf
    split
    · exact cons_last (cons_last ih)
    · exact cons_last ih

theorem dropWhile_head {α : Type} {p : α → Bool} {l : List α} {a : α} (h : (l.dropWhile p).head? = some a) : p a = false := by
  induction l with
  | nil => cases h
  | cons b l ih =>
    rw [List.dropWhile_cons] at h
    split at h
    · exact ih h
    · next hb =>
      cases h
      simpa using hb

theorem strip_last {s : List Char} {z : Char} (h : (strip s).getLast? = some z) : z ≠ ' ' := by
  unfold strip at h
  rw [List.getLast?_reverse] at h
  have := dropWhile_head h
  rintro rfl
  rw [ws_blank] at this
  cases this

theorem normalise_noDouble (s : List Char) : ¬ Adj ' ' ' ' (normalise s) := by
  unfold normalise
  refine sepIf_noDouble ?_ (sepIf_noDouble ?_ (sepIf_noDouble ?_ (sepIf_noDouble ?_ (absorb_noDouble (by decide) (absorb_noDouble (by decide)
    (absorb_noDouble (by decide) (squeeze_noDouble _)))))))
  all_goals
    intro a b h
    simp only [Bool.and_eq_true, decide_eq_true_eq] at h
    constructor
    · rintro rfl
      exact absurd h.1 (by decide)
    · rintro rfl
      exact absurd h.2 (by decide)

theorem squeeze_ne {s : List Char} (h : s ≠ []) : squeeze s ≠ [] := by
  intro he
  have := squeeze_last s
  rw [he] at this
  exact h (List.getLast?_eq_none_iff.mp this.symm)

theorem normalise_last (s : List Char) {z : Char} (h : (normalise s).getLast? = some z) : z ≠ ' ' := by
  cases hs : (strip s).getLast? with
  | none =>
    have : strip s = [] := List.getLast?_eq_none_iff.mp hs
    unfold normalise at h
    rw [this] at h
    simp [squeeze, absorb, sepIf] at h
  | some y =>
    have hy := strip_last hs
    have h1 : (squeeze (strip s)).getLast? = some y := by rw [squeeze_last, hs]
    have h2 := absorb_last (c := ':') (absorb_last (c := ')') (absorb_last (c := '(') h1 hy) hy) hy
    have h3 := sepIf_last (fun a b => a = ')' && b = '-') (sepIf_last (fun a b => a = ')' && b.isDigit)
      (sepIf_last (fun a b => a.isDigit && b = '(') (sepIf_last (fun a b => a = ')' && b = '(') h2)))
    unfold normalise at h
    dsimp only at h
    rw [h3] at h
    cases h
    exact hy

/-! ## the loop -/

/-- the lines of `rest` and its characters -/
structure Filled (tab : Nat) (s rest : List Char) : Prop where
  lines : ∃ l ls, linesOf rest = l :: ls ∧ (∃ c ∈ l, c ≠ ' ') ∧ ∀ m ∈ ls, ∃ r, m = List.replicate tab ' ' ++ r ∧ ∃ c ∈ r, c ≠ ' '
  chars : ∀ c ∈ rest, c ∈ s ∨ c = ' ' ∨ c = '\n'

theorem wrapLoop_filled {size tab n : Nat} {s : List Char} (hnl : '\n' ∉ s) (hr : Room n s) (htab : tab ≤ size) (hn : n < size - tab)
    (hd : ¬ Adj ' ' ' ' s) (hl : ∀ z, s.getLast? = some z → z ≠ ' ') :
    ∀ (f init icount : Nat) (newline out : List Char), icount < s.length → n < icount + 1 - init →
    wrapLoop size tab s f init icount ((s.length : Int) - init) newline = .ok out →
    ∃ rest, out = newline ++ rest ∧ Filled tab s rest := by
  intro f
  induction f with
  | zero => intro init icount newline out _ _ h; cases h
  | succ f ih =>
    intro init icount newline out hic hni hout
    have hn1 : 1 ≤ n := hr [] (List.nil_infix) (by simp)
    have hki : icount < ((icount : Int) + s.length + 2).toNat := by omega
    obtain ⟨j, c, h1, h2, h3, h4, h5⟩ := scanBack_spec (a := init + 1) _ icount hki hic (exists_break hr hic (by omega))
    have hj : j < s.length := (List.getElem?_eq_some_iff.1 h4).1
    have e1 : ((j : Int) + 1) = ((j + 1 : Nat) : Int) := by omega
    have hnlL : '\n' ∉ (s.take (j + 1)).drop init := fun h => hnl (List.mem_of_mem_take (List.mem_of_mem_drop h))
    have hmem : ∀ x ∈ (s.take (j + 1)).drop init, x ∈ s := fun x h => List.mem_of_mem_take (List.mem_of_mem_drop h)
    have hfill : ∃ x ∈ (s.take (j + 1)).drop init, x ≠ ' ' := by
      refine Classical.byContradiction fun hno => ?_
      have hall : ∀ x ∈ (s.take (j + 1)).drop init, x = ' ' := fun x hx => Classical.byContradiction fun h => hno ⟨x, hx, h⟩
      have g : ∀ i, init ≤ i → i ≤ j → s[i]? = some ' ' := by
        intro i hi1 hi2
        have hi3 : i < s.length := by omega
        have : s[i] ∈ (s.take (j + 1)).drop init := by
          refine List.mem_iff_getElem?.mpr ⟨i - init, ?_⟩
          rw [List.getElem?_drop, List.getElem?_take, if_pos (by omega), show init + (i - init) = i by omega]
          exact List.getElem?_eq_getElem hi3
        rw [List.getElem?_eq_getElem hi3, hall _ this]
      apply hd
      have ha := g init (by omega) (by omega)
      have hb := g (init + 1) (by omega) (by omega)
      obtain ⟨l1, l2⟩ := List.getElem?_eq_some_iff.1 ha
      obtain ⟨l3, l4⟩ := List.getElem?_eq_some_iff.1 hb
      refine ⟨s.take init, s.drop (init + 2), ?_⟩
      conv => lhs; rw [← List.take_append_drop init s]
      rw [List.drop_eq_getElem_cons l1, List.drop_eq_getElem_cons l3, l2, l4]
    unfold wrapLoop at hout
    rw [h1] at hout
    simp only [bind, Except.bind] at hout
    rw [e1, pySlice_nat] at hout
    split at hout
    · cases hout
      refine ⟨_, rfl, ⟨_, [], linesOf_single hnlL, hfill, by simp⟩, fun x hx => Or.inl (hmem x hx)⟩
    · next h0 =>
      split at hout
      · next hlt =>
        have e2 : (j : Int) + ((size : Int) - tab) = ((j + (size - tab) : Nat) : Int) := by omega
        have e3 : (s.length : Int) - init - ((j : Int) - init + 1) = (s.length : Int) - ((j + 1 : Nat) : Int) := by omega
        rw [e2, e3] at hout
        obtain ⟨rest, g1, ⟨l, ls, g2, g3, g4⟩, g5⟩ := ih (j + 1) (j + (size - tab)) _ _ (by omega) (by omega) hout
        refine ⟨(s.take (j + 1)).drop init ++ '\n' :: (List.replicate tab ' ' ++ rest), by rw [g1]; simp, ⟨_, _, linesOf_nl _ hnlL _, hfill, ?_⟩, ?_⟩
        · rw [linesOf_append (nl_replicate tab) g2]
          intro m hm
          rcases List.mem_cons.1 hm with rfl | hm
          · exact ⟨l, rfl, g3⟩
          · exact g4 m hm
        · intro x hx
          rcases List.mem_append.mp hx with hx | hx
          · exact Or.inl (hmem x hx)
          · rcases List.mem_cons.mp hx with rfl | hx
            · exact Or.inr (Or.inr rfl)
            · rcases List.mem_append.mp hx with hx | hx
              · exact Or.inr (Or.inl (List.eq_of_mem_replicate hx))
              · exact g5 x hx
      · cases hout
        rw [pySlice_nat]
        have hlast : ∃ x ∈ s.drop (j + 1), x ≠ ' ' := by
          have hne : s.drop (j + 1) ≠ [] := by
            intro he
            have := congrArg List.length he
            rw [List.length_drop, List.length_nil] at this
            omega
          refine ⟨_, List.getLast_mem hne, ?_⟩
          apply hl
          rw [List.getLast_drop, List.getLast?_eq_some_getLast (by rintro rfl; simp at hj)]
        refine ⟨(s.take (j + 1)).drop init ++ '\n' :: (List.replicate tab ' ' ++ s.drop (j + 1)), by simp, ⟨_, _, linesOf_nl _ hnlL _, hfill, ?_⟩, ?_⟩
        · rw [linesOf_append (nl_replicate tab) (linesOf_single (a := s.drop (j + 1)) (fun h => hnl (List.mem_of_mem_drop h)))]
          intro m hm
          rcases List.mem_cons.1 hm with rfl | hm
          · exact ⟨_, rfl, hlast⟩
          · simp at hm
        · intro x hx
          rcases List.mem_append.mp hx with hx | hx
          · exact Or.inl (hmem x hx)
          · rcases List.mem_cons.mp hx with rfl | hx
            · exact Or.inr (Or.inr rfl)
            · rcases List.mem_append.mp hx with hx | hx
              · exact Or.inr (Or.inl (List.eq_of_mem_replicate hx))
              · exact Or.inl (List.mem_of_mem_drop hx)

theorem wrapLine_filled {size tab offset n f : Nat} {s out : List Char} (hnl : '\n' ∉ s) (hr : Room n (normalise s)) (h1 : n < size - tab)
    (h2 : n < size - offset) (h : wrapLine size tab offset f s = .ok out) :
    (∀ m ∈ (linesOf out).tail, ∃ r, m = List.replicate tab ' ' ++ r ∧ ∃ c ∈ r, c ≠ ' ') ∧ ∀ c ∈ out, c ∈ s ∨ c = ' ' ∨ c = '\n' := by
  have hnl' : '\n' ∉ normalise s := fun h => hnl (mem_normalise (by decide) h)
  have hmem : ∀ c ∈ normalise s, c ∈ s ∨ c = ' ' ∨ c = '\n' := by
    intro c hc
    by_cases hb : c = ' '
    · exact Or.inr (Or.inl hb)
    · exact Or.inl (mem_normalise hb hc)
  unfold wrapLine at h
  dsimp only at h
  split at h
  · cases h
    rw [linesOf_single hnl']
    exact ⟨by simp, hmem⟩
  · next hlen =>
    have e1 : (size : Int) - 1 - offset = ((size - 1 - offset : Nat) : Int) := by omega
    have e2 : ((normalise s).length : Int) = ((normalise s).length : Int) - ((0 : Nat) : Int) := by omega
    rw [e1, e2] at h
    obtain ⟨rest, g1, ⟨l, ls, g2, _, g4⟩, g5⟩ := wrapLoop_filled (size := size) (tab := tab) hnl' hr (by omega) h1 (normalise_noDouble s)
      (fun z hz => normalise_last s hz) f 0 (size - 1 - offset) [] out (by omega) (by omega) h
    rw [List.nil_append] at g1
    subst g1
    refine ⟨?_, fun c hc => ?_⟩
    · rw [g2]; exact g4
    · rcases g5 c hc with h | h
      · exact hmem c h
      · exact Or.inr h

end Geouned.Wrap
