import Verif.Rev.RenumModel
import Verif.Text.CharLemmas
/-!
# C132: surfaces are renumbered in the text of a card, and nothing else is changed
-/
namespace Geouned.Renum

theorem takeWhile_mem {q : Char → Bool} {l : List Char} {c : Char} (h : c ∈ l.takeWhile q) : q c = true := by
  induction l with
  | nil => cases h
  | cons d l ih =>
    rw [List.takeWhile_cons] at h
    split_ifs at h with hd
    · rcases List.mem_cons.1 h with rfl | h
      · exact hd
      · exact ih h
    · cases h

theorem dropWhile_nil {q : Char → Bool} {l : List Char} (h : ∀ c ∈ l, q c = true) : l.dropWhile q = [] := by
  induction l with
  | nil => rfl
  | cons d l ih => rw [List.dropWhile_cons_of_pos (h d (by simp)), ih fun c hc => h c (List.mem_cons_of_mem _ hc)]

theorem hashed_iff (a : List Char) : hashed a = true ↔ AfterHash a := by
  unfold hashed AfterHash
  have key : a = (a.reverse.dropWhile Char.isWhitespace).reverse ++ (a.reverse.takeWhile Char.isWhitespace).reverse := by
    rw [← List.reverse_append, List.takeWhile_append_dropWhile, List.reverse_reverse]
  constructor
  · intro h
    cases hd : a.reverse.dropWhile Char.isWhitespace with
    | nil => rw [hd] at h; cases h
    | cons c l =>
      rw [hd] at h key
      have hc : c = '#' := by simpa using h
      subst hc
      refine ⟨l.reverse, (a.reverse.takeWhile Char.isWhitespace).reverse, ?_, ?_⟩
      · rw [List.reverse_cons] at key; simpa using key
      · intro c hc
        rw [List.mem_reverse] at hc
        exact takeWhile_mem hc
  · rintro ⟨u, w, rfl, hw⟩
    have : (u ++ '#' :: w).reverse.dropWhile Char.isWhitespace = '#' :: u.reverse := by
      rw [List.reverse_append, List.reverse_cons, List.append_assoc, List.dropWhile_append_of_pos (by simpa using hw)]
      rw [List.singleton_append, List.dropWhile_cons_of_neg (by decide)]
    rw [this]
    simp

theorem digit_split (a ds b : List Char) (ha : ∀ c ∈ a, c.isDigit = false) (hd : ∀ c ∈ ds, c.isDigit = true) (hn : ds ≠ []) (hb : ∀ c ∈ b.head?, c.isDigit = false) :
    (a ++ (ds ++ b)).takeWhile (fun c => !c.isDigit) = a ∧ (a ++ (ds ++ b)).dropWhile (fun c => !c.isDigit) = ds ++ b ∧
      (ds ++ b).takeWhile Char.isDigit = ds ∧ (ds ++ b).dropWhile Char.isDigit = b := by
  have hx : ∀ x ∈ a, (!x.isDigit) = true := fun x hx => by rw [ha x hx]; rfl
  obtain ⟨d, l, rfl⟩ := List.exists_cons_of_ne_nil hn
  have hdd : (!d.isDigit) = false := by rw [hd d (by simp)]; rfl
  refine ⟨?_, ?_, ?_, ?_⟩
  · rw [List.takeWhile_append_of_pos hx, List.cons_append, List.takeWhile_cons_of_neg (by simp [hdd]), List.append_nil]
  · rw [List.dropWhile_append_of_pos hx, List.cons_append, List.dropWhile_cons_of_neg (by simp [hdd])]
  · rw [List.takeWhile_append_of_pos hd]
    cases b with
    | nil => simp
    | cons c b => rw [List.takeWhile_cons_of_neg (by rw [hb c (by simp)]; simp), List.append_nil]
  · rw [List.dropWhile_append_of_pos hd]
    cases b with
    | nil => rfl
    | cons c b => rw [List.dropWhile_cons_of_neg (by rw [hb c (by simp)]; simp)]

theorem decimal_digits (n : Nat) : ∀ c ∈ decimal n, c.isDigit = true := fun _ hc => Nat.isDigit_of_mem_toDigits (by decide) (by decide) hc

theorem loop_end (brk : Bool) (new : Nat → Option Nat) (f : Nat) (pre last : List Char) (h : ∀ c ∈ last, c.isDigit = false) : loop brk new (f + 1) pre last = some (.done (pre ++ last)) := by
  have e : last.dropWhile (fun c => !c.isDigit) = [] := by
    exact dropWhile_nil fun c hc => by rw [h c hc]; rfl
  simp only [loop, e, if_true]

/-- one round, at a number without superfluous zeros -/
theorem loop_round (brk : Bool) (new : Nat → Option Nat) (f : Nat) (pre a b : List Char) (n : Nat) (ha : ∀ c ∈ a, c.isDigit = false) (hb : ∀ c ∈ b.head?, c.isDigit = false) :
    (AfterHash a → loop brk new (f + 1) pre (a ++ (decimal n ++ b)) = loop brk new f (pre ++ a ++ decimal n) b) ∧
    (¬ AfterHash a → ∀ k, new n = some k → loop brk new (f + 1) pre (a ++ (decimal n ++ b)) = loop brk new f (pre ++ a ++ decimal k) b) ∧
    (¬ AfterHash a → new n = none → loop brk new (f + 1) pre (a ++ (decimal n ++ b)) = some .keyError) := by
  have hne : decimal n ≠ [] := Nat.toDigits_ne_nil
  obtain ⟨e1, e2, e3, e4⟩ := digit_split a (decimal n) b ha (decimal_digits n) hne hb
  have hr : decimal n ++ b ≠ [] := by simp [hne]
  have hv : Nat.ofDigitChars 10 (decimal n) 0 = n := Nat.ofDigitChars_ten_toDigits
  refine ⟨fun h => ?_, fun h k hk => ?_, fun h hk => ?_⟩
  · simp only [loop, e1, e2, e3, e4, if_neg hr, (hashed_iff a).2 h, if_true]
  · have hf : hashed a = false := by
      cases hh : hashed a with
      | false => rfl
      | true => exact absurd ((hashed_iff a).1 hh) h
    simp only [loop, e1, e2, e3, e4, if_neg hr, hf, hv, hk, Bool.false_eq_true, if_false]
    by_cases hnk : n = k
    · subst hnk
      rw [if_pos rfl]
      have t1 : (decimal n ++ b).take (Nat.toDigits 10 n).length = decimal n := by rw [show (Nat.toDigits 10 n) = decimal n from rfl]; simp
      have t2 : (decimal n ++ b).drop (Nat.toDigits 10 n).length = b := by rw [show (Nat.toDigits 10 n) = decimal n from rfl]; simp
      rw [t1, t2]
    · rw [if_neg hnk, if_pos (show decimal n = Nat.toDigits 10 n from rfl)]
      rfl
  · have hf : hashed a = false := by
      cases hh : hashed a with
      | false => rfl
      | true => exact absurd ((hashed_iff a).1 hh) h
    simp only [loop, e1, e2, e3, e4, if_neg hr, hf, hv, hk, Bool.false_eq_true, if_false]

theorem between_cons {s : List Char} {seps : List (List Char)} {last : List Char} (h : Between (s :: seps) last) : Between seps last :=
  ⟨fun x hx => h.1 x (List.mem_cons_of_mem _ hx), fun x hx => h.2.1 x (List.mem_of_mem_tail hx), h.2.2⟩

theorem head_between {ps : List (List Char × List Char)} {s : List Char} {last : List Char} (h : Between (s :: ps.map Prod.fst) last) : ∀ c ∈ (textOf ps last).head?, c.isDigit = false := by
  intro c hc
  cases ps with
  | nil => exact h.2.2 c (List.mem_of_mem_head? hc)
  | cons p ps =>
    have hp : p.1 ≠ [] := h.2.1 p.1 (by simp)
    obtain ⟨d, l, hd⟩ := List.exists_cons_of_ne_nil hp
    have : c = d := by
      simp only [textOf, List.flatMap_cons, hd, List.cons_append, List.head?_cons, Option.mem_def, Option.some.injEq] at hc
      exact hc.symm
    subst this
    exact h.1 p.1 (by simp) c (by rw [hd]; simp)

theorem textOf_cons (p : List Char × List Char) (ps : List (List Char × List Char)) (last : List Char) : textOf (p :: ps) last = p.1 ++ (p.2 ++ textOf ps last) := by
  simp [textOf, List.append_assoc]

/-- the pieces with their numbers in decimal notation -/
def written (ps : List (List Char × Nat)) : List (List Char × List Char) := ps.map fun p => (p.1, decimal p.2)

open Classical in
theorem loop_all (brk : Bool) (new : Nat → Option Nat) (g : Nat → Nat) : ∀ (ps : List (List Char × Nat)) (last pre : List Char) (f : Nat), Between (ps.map Prod.fst) last →
    (∀ p ∈ ps, ¬ AfterHash p.1 → new p.2 = some (g p.2)) → ps.length < f →
    loop brk new f pre (textOf (written ps) last) = some (.done (pre ++ textOf (renumbered g ps) last)) := by
  intro ps
  induction ps with
  | nil =>
    intro last pre f hb _ hf
    obtain ⟨f, rfl⟩ : ∃ k, f = k + 1 := ⟨f - 1, by simp at hf; omega⟩
    simpa [textOf, written, renumbered] using loop_end brk new f pre last hb.2.2
  | cons p ps ih =>
    intro last pre f hb hg hf
    obtain ⟨f, rfl⟩ : ∃ k, f = k + 1 := ⟨f - 1, by simp at hf; omega⟩
    have hb' : Between (p.1 :: (written ps).map Prod.fst) last := by simpa [written, Function.comp_def] using hb
    have hhead := head_between hb'
    have hp : ∀ c ∈ p.1, c.isDigit = false := hb.1 p.1 (by simp)
    obtain ⟨r1, r2, -⟩ := loop_round brk new f pre p.1 (textOf (written ps) last) p.2 hp hhead
    have hih := fun pre' => ih last pre' f (between_cons hb) (fun q hq => hg q (List.mem_cons_of_mem _ hq)) (by simp at hf; omega)
    rw [show written (p :: ps) = (p.1, decimal p.2) :: written ps from rfl, textOf_cons]
    rw [show renumbered g (p :: ps) = (p.1, if AfterHash p.1 then decimal p.2 else decimal (g p.2)) :: renumbered g ps from rfl, textOf_cons]
    by_cases h : AfterHash p.1
    · rw [r1 h, hih, if_pos h]; simp
    · rw [r2 h _ (hg p (by simp) h), hih, if_neg h]; simp

/-- **C132**: in the text of a card every number of a surface is replaced by its new number, all at once (a new number is never replaced again, whatever the table), and nothing else changes: neither the numbers
of cells after `#`, nor signs, operators, blanks. The loop ends after one round for each number. -/
theorem C132_renumbers_partial (brk : Bool) (new : Nat → Option Nat) (g : Nat → Nat) (ps : List (List Char × Nat)) (last : List Char) (hb : Between (ps.map Prod.fst) last)
    (hg : ∀ p ∈ ps, ¬ AfterHash p.1 → new p.2 = some (g p.2)) (f : Nat) (hf : ps.length < f) :
    loop brk new f [] (textOf (ps.map fun p => (p.1, decimal p.2)) last) = some (.done (textOf (renumbered g ps) last)) := by
  have := loop_all brk new g ps last [] f hb hg hf
  rw [List.nil_append] at this
  exact this

/-- **C132**: a surface that is not in the table is a `KeyError`: no card is left with a number of another surface -/
theorem C132_unknown (brk : Bool) (new : Nat → Option Nat) : ∀ (ps : List (List Char × Nat)) (last pre : List Char) (f : Nat), Between (ps.map Prod.fst) last →
    (∃ p ∈ ps, ¬ AfterHash p.1 ∧ new p.2 = none) → ps.length < f → loop brk new f pre (textOf (ps.map fun p => (p.1, decimal p.2)) last) = some .keyError := by
  intro ps
  induction ps with
  | nil => rintro last pre f _ ⟨p, hp, _⟩; cases hp
  | cons p ps ih =>
    intro last pre f hb hex hf
    obtain ⟨f, rfl⟩ : ∃ k, f = k + 1 := ⟨f - 1, by simp at hf; omega⟩
    have hb' : Between (p.1 :: (written ps).map Prod.fst) last := by simpa [written, Function.comp_def] using hb
    obtain ⟨r1, r2, r3⟩ := loop_round brk new f pre p.1 (textOf (written ps) last) p.2 (hb.1 p.1 (by simp)) (head_between hb')
    rw [List.map_cons, textOf_cons]
    have later : (∃ q ∈ ps, ¬ AfterHash q.1 ∧ new q.2 = none) → ∀ pre', loop brk new f pre' (textOf (written ps) last) = some .keyError :=
      fun h pre' => ih last pre' f (between_cons hb) h (by simp at hf; omega)
    by_cases h : AfterHash p.1
    · refine (r1 h).trans (later ?_ _)
      obtain ⟨q, hq, h1, h2⟩ := hex
      rcases List.mem_cons.1 hq with rfl | hq
      · exact absurd h h1
      · exact ⟨q, hq, h1, h2⟩
    · cases hk : new p.2 with
      | none => exact r3 h hk
      | some k =>
        refine (r2 h k hk).trans (later ?_ _)
        obtain ⟨q, hq, h1, h2⟩ := hex
        rcases List.mem_cons.1 hq with rfl | hq
        · rw [hk] at h2; cases h2
        · exact ⟨q, hq, h1, h2⟩

/-- every text is numbers with something between them; only the zeros in front of a number are left out of `C132_renumbers_partial` -/
theorem C132_all_texts : ∀ t : List Char, ∃ (ps : List (List Char × List Char)) (last : List Char), t = textOf ps last ∧ Between (ps.map Prod.fst) last ∧ ∀ p ∈ ps, p.2 ≠ [] ∧ ∀ c ∈ p.2, c.isDigit = true := by
  have gen : ∀ n : Nat, ∀ t : List Char, t.length ≤ n → ∃ (ps : List (List Char × List Char)) (last : List Char), t = textOf ps last ∧ Between (ps.map Prod.fst) last ∧
      (∀ p ∈ ps, p.2 ≠ [] ∧ ∀ c ∈ p.2, c.isDigit = true) ∧ ((∀ c ∈ t.head?, c.isDigit = false) → ∀ s ∈ (ps.map Prod.fst).head?, s ≠ []) := by
    intro n
    induction n with
    | zero =>
      intro t ht
      obtain rfl : t = [] := List.length_eq_zero_iff.1 (by omega)
      exact ⟨[], [], rfl, ⟨by simp, by simp, by simp⟩, by simp, by simp⟩
    | succ n ih =>
      intro t ht
      have hta := List.takeWhile_append_dropWhile (p := fun c : Char => !c.isDigit) (l := t)
      have ha : ∀ c ∈ t.takeWhile (fun c => !c.isDigit), c.isDigit = false := fun c hc => by simpa using takeWhile_mem hc
      cases hr : t.dropWhile (fun c => !c.isDigit) with
      | nil =>
        refine ⟨[], t, by simp [textOf], ⟨by simp, by simp, ?_⟩, by simp, by simp⟩
        rw [hr, List.append_nil] at hta
        rw [← hta]; exact ha
      | cons d r =>
        have hd : d.isDigit = true := by
          have := List.head_dropWhile_not (fun c : Char => !c.isDigit) (l := t) (by rw [hr]; simp)
          simp only [hr, List.head_cons] at this
          simpa using this
        have hrb := List.takeWhile_append_dropWhile (p := Char.isDigit) (l := d :: r)
        have hds : (d :: r).takeWhile Char.isDigit ≠ [] := by rw [List.takeWhile_cons_of_pos hd]; simp
        have hdig : ∀ c ∈ (d :: r).takeWhile Char.isDigit, c.isDigit = true := fun c hc => takeWhile_mem hc
        have hlen : ((d :: r).dropWhile Char.isDigit).length ≤ n := by
          have h1 := congrArg List.length hrb
          have h2 := congrArg List.length hta
          rw [hr] at h2
          have h3 := List.length_pos_iff.2 hds
          rw [List.length_append] at h1 h2
          omega
        have hbh : ∀ c ∈ ((d :: r).dropWhile Char.isDigit).head?, c.isDigit = false := by
          intro c hc
          cases hx : (d :: r).dropWhile Char.isDigit with
          | nil => rw [hx] at hc; cases hc
          | cons x l =>
            rw [hx] at hc
            obtain rfl : x = c := by simpa using hc
            have := List.head_dropWhile_not Char.isDigit (l := d :: r) (by rw [hx]; simp)
            simpa [hx] using this
        obtain ⟨ps, last, e, hb, hp, hh⟩ := ih _ hlen
        refine ⟨(t.takeWhile (fun c => !c.isDigit), (d :: r).takeWhile Char.isDigit) :: ps, last, ?_, ⟨?_, ?_, hb.2.2⟩, ?_, ?_⟩
        · rw [textOf_cons, ← e, hrb, ← hr, hta]
        · intro s hs
          rcases List.mem_cons.1 hs with rfl | hs
          · exact ha
          · exact hb.1 s hs
        · intro s hs
          rw [List.map_cons, List.tail_cons] at hs
          cases ps with
          | nil => cases hs
          | cons p ps =>
            rcases List.mem_cons.1 hs with rfl | hs
            · exact hh hbh _ (by simp)
            · exact hb.2.1 s (by simpa using hs)
        · intro p hp'
          rcases List.mem_cons.1 hp' with rfl | hp'
          · exact ⟨hds, hdig⟩
          · exact hp p hp'
        · intro hth s hs
          obtain rfl : t.takeWhile (fun c => !c.isDigit) = s := by simpa using hs
          intro h0
          rw [h0, List.nil_append, hr] at hta
          rw [← hta] at hth
          have := hth d (by simp)
          rw [hd] at this; cases this
  intro t
  obtain ⟨ps, last, e, hb, hp, -⟩ := gen t.length t (Nat.le_refl _)
  exact ⟨ps, last, e, hb, hp⟩

/-- the loop over the numbers of a card ends, for all texts and all tables that have its surfaces -/
def C132_statement : Prop := ∀ (new : Nat → Option Nat) (t : List Char), (∀ n, (new n).isSome) → ∃ f, loop false new f [] t ≠ none

/-- **C132** is false of numbers with a zero in front: `-01` is written to be surface 1 and is read as surface 1, but is never found as `1`, and reading of the file does not end;
in a card with TRCL the loop is left, and all numbers after it stay those of the surfaces that were not moved -/
theorem C132_zero_violated : ¬ C132_statement ∧ ∀ f, 0 < f → loop true (fun n => some (n + 10)) f [] "-01 2".toList = some (.done "-01 2".toList) := by
  constructor
  · intro h
    obtain ⟨f, hf⟩ := h (fun n => some (n + 10)) "-01".toList (fun _ => rfl)
    apply hf
    clear hf
    induction f with
    | zero => rfl
    | succ f ih =>
      have : loop false (fun n => some (n + 10)) (f + 1) [] "-01".toList = loop false (fun n => some (n + 10)) f [] "-01".toList := by
        rw [loop]
        simp only [show ("-01".toList.dropWhile fun c => !c.isDigit) = ['0', '1'] by decide, show ("-01".toList.takeWhile fun c => !c.isDigit) = ['-'] by decide,
          show hashed ['-'] = false by decide, show List.takeWhile Char.isDigit ['0', '1'] = ['0', '1'] by decide, show Nat.ofDigitChars 10 ['0', '1'] 0 = 1 by decide]
        rw [if_neg (by decide), if_neg (by decide), if_neg (by decide), if_neg (by decide), if_neg (by decide)]
        rfl
      rw [this, ih]
  · intro f hf
    obtain ⟨f, rfl⟩ : ∃ k, f = k + 1 := ⟨f - 1, by omega⟩
    rfl

/-! ### non-vacuity: the numbers 1 and 2 exchanged, a cell after `#`, a number that becomes longer -/

example : loop false (fun n => if n = 1 then some 2 else if n = 2 then some 1 else some 31) 9 [] "-1 2 #3:(-2 3)".toList = some (.done "-2 1 #3:(-1 31)".toList) := by decide

example : Between ((([("-".toList, 1), (" ".toList, 2), (" # ".toList, 3), (":(-".toList, 2)] : List (List Char × Nat))).map Prod.fst) ")".toList := by
  refine ⟨?_, ?_, ?_⟩ <;> decide

example : AfterHash " # ".toList := ⟨[' '], [' '], rfl, by decide⟩

/-- the written text of these pieces -/
example : textOf (([("-".toList, 1), (" ".toList, 2), (" # ".toList, 3), (":(-".toList, 2)] : List (List Char × Nat)).map fun p => (p.1, decimal p.2)) ")".toList = "-1 2 # 3:(-2)".toList := by decide

/-- a surface that is missing -/
example : loop false (fun n => if n = 1 then some 2 else none) 9 [] "-1 7".toList = some .keyError := by decide

end Geouned.Renum
