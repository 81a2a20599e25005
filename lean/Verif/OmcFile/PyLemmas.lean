import Verif.OmcFile.PySpec
import Verif.OmcFile.Lemmas2
/-! # Lemmas for C107: tokens -/
namespace Geouned.OmcFile

open Geouned.Text

/-- no word goes on into the text -/
def Starts (b : List Char) : Prop := ∀ c, b.head? = some c → wordChar c = false

abbrev Lx (a : List Char) (ts : List PyTok) : Prop := lexGo none [] a = some ts

theorem lexGo_end {b : List Char} (h : Starts b) (cur : List Char) : lexGo none cur b = (lexGo none [] b).map (flush cur ++ ·) := by
  cases b with
  | nil => simp [lexGo, flush]
  | cons c s =>
    have hc := h c rfl
    unfold lexGo
    simp only [hc, Bool.false_eq_true, if_false]
    split
    · rw [Option.map_map]; congr 1
    · split
      · rw [Option.map_map]; congr 1
      · split
        · rw [Option.map_map]; congr 1
        · rfl

theorem lexGo_append {b : List Char} (h : Starts b) : ∀ (a : List Char) (q : Option Char) (cur : List Char) (ts : List PyTok), lexGo q cur a = some ts →
    lexGo q cur (a ++ b) = (lexGo none [] b).map (ts ++ ·)
  | [], none, cur, ts, ha => by
    obtain rfl : flush cur = ts := by simpa [lexGo] using ha
    exact lexGo_end h cur
  | [], some q, cur, ts, ha => by simp [lexGo] at ha
  | c :: a, none, cur, ts, ha => by
    have ih := fun q cur ts => lexGo_append h a q cur ts
    generalize lexGo none [] b = z at ih ⊢
    rw [List.cons_append]
    unfold lexGo at ha ⊢
    split at ha
    · rename_i hc
      rw [if_pos hc]
      exact ih _ _ _ ha
    · rename_i hc
      rw [if_neg hc]
      split at ha
      · rename_i hc
        rw [if_pos hc]
        obtain ⟨l, hl, rfl⟩ := Option.map_eq_some_iff.mp ha
        rw [ih _ _ _ hl, Option.map_map]
        congr 1
        funext x
        simp
      · rename_i hc
        rw [if_neg hc]
        split at ha
        · rename_i hc
          rw [if_pos hc]
          obtain ⟨l, hl, rfl⟩ := Option.map_eq_some_iff.mp ha
          rw [ih _ _ _ hl, Option.map_map]
          congr 1
          funext x
          simp
        · rename_i hc
          rw [if_neg hc]
          split at ha
          · rename_i hc
            rw [if_pos hc]
            obtain ⟨l, hl, rfl⟩ := Option.map_eq_some_iff.mp ha
            rw [ih _ _ _ hl, Option.map_map]
            congr 1
            funext x
            simp
          · cases ha
  | c :: a, some q, cur, ts, ha => by
    have ih := fun q cur ts => lexGo_append h a q cur ts
    generalize lexGo none [] b = z at ih ⊢
    rw [List.cons_append]
    unfold lexGo at ha ⊢
    split at ha
    · rename_i hc
      rw [if_pos hc]
      obtain ⟨l, hl, rfl⟩ := Option.map_eq_some_iff.mp ha
      rw [ih _ _ _ hl, Option.map_map]
      congr 1
    · rename_i hc
      rw [if_neg hc]
      split at ha
      · cases ha
      · rename_i hc
        rw [if_neg hc]
        exact ih _ _ _ ha

theorem Lx_append {a b : List Char} {ts us : List PyTok} (ha : Lx a ts) (h : Starts b) (hb : Lx b us) : Lx (a ++ b) (ts ++ us) := by
  unfold Lx
  rw [lexGo_append h a _ _ _ ha, hb]
  rfl

/-- a sign ends a word -/
theorem Lx_sign {c : Char} (hw : wordChar c = false) (h1 : c ≠ ' ') (h2 : c ≠ '"') (h3 : c ≠ '\'') (hs : signChar c = true) {a b : List Char} {ts us : List PyTok} (ha : Lx a ts)
    (hb : Lx b us) : Lx (a ++ c :: b) (ts ++ .sign c :: us) := by
  refine Lx_append ha (fun x hx => by simp at hx; rw [← hx]; exact hw) ?_
  unfold Lx
  unfold lexGo
  rw [if_neg (by simp [hw]), if_neg h1, if_neg (by simp [h2, h3]), if_pos hs, hb]
  simp [flush]

theorem Lx_blank {b : List Char} {us : List PyTok} (hb : Lx b us) : Lx (' ' :: b) us := by
  unfold Lx lexGo
  rw [if_neg (by decide), if_pos rfl, hb]
  simp [flush]

theorem lexGo_word : ∀ (w cur : List Char), (∀ c ∈ w, wordChar c = true) → lexGo none cur w = some (flush (cur ++ w))
  | [], cur, _ => by simp [lexGo]
  | c :: w, cur, h => by
    unfold lexGo
    rw [if_pos (h c List.mem_cons_self), lexGo_word w _ (fun c hc => h c (List.mem_cons_of_mem _ hc))]
    simp

theorem Lx_word {w : List Char} (hw : w ≠ []) (h : ∀ c ∈ w, wordChar c = true) : Lx w [.word w] := by
  unfold Lx
  rw [lexGo_word w [] h]
  simp [flush, hw]

/-- the characters of a string -/
def StrChars (q : Char) (s : List Char) : Prop := ∀ c ∈ s, c ≠ q ∧ c ≠ '\\' ∧ c ≠ '\n' ∧ c ≠ '\r' ∧ c.toNat ≠ 0

theorem lexGo_str (q : Char) : ∀ (s cur : List Char), StrChars q s → lexGo (some q) cur (s ++ [q]) = some [.str (cur ++ s)]
  | [], cur, _ => by simp [lexGo, flush]
  | c :: s, cur, h => by
    have h1 := h c List.mem_cons_self
    rw [List.cons_append]
    unfold lexGo
    rw [if_neg h1.1, if_neg (by simp [h1.2]), lexGo_str q s _ (fun c hc => h c (List.mem_cons_of_mem _ hc))]
    simp

theorem Lx_str {q : Char} (hq : q = '"' ∨ q = '\'') {s : List Char} (h : StrChars q s) : Lx (q :: (s ++ [q])) [.str s] := by
  unfold Lx lexGo
  rw [if_neg (by rcases hq with rfl | rfl <;> decide), if_neg (by rcases hq with rfl | rfl <;> decide), if_pos hq, lexGo_str q s [] h]
  simp [flush]

theorem lexGo_line : ∀ (l : List Char) (q : Option Char) (cur : List Char) (ts : List PyTok), q ≠ some '\n' → lexGo q cur l = some ts → '\n' ∉ l
  | [], _, _, _, _, _ => by simp
  | c :: l, none, cur, ts, _, h => by
    unfold lexGo at h
    have key : (∃ q cur ts, q ≠ some '\n' ∧ lexGo q cur l = some ts) ∧ c ≠ '\n' := by
      split at h
      · rename_i hc
        exact ⟨⟨_, _, _, by simp, h⟩, by rintro rfl; exact absurd hc (by decide)⟩
      · split at h
        · rename_i hc
          obtain ⟨t, ht, -⟩ := Option.map_eq_some_iff.mp h
          exact ⟨⟨_, _, _, by simp, ht⟩, by rw [hc]; decide⟩
        · split at h
          · rename_i hc
            obtain ⟨t, ht, -⟩ := Option.map_eq_some_iff.mp h
            have hcn : c ≠ '\n' := by rintro rfl; exact absurd hc (by decide)
            exact ⟨⟨_, _, _, by simpa using hcn, ht⟩, hcn⟩
          · split at h
            · rename_i hc
              obtain ⟨t, ht, -⟩ := Option.map_eq_some_iff.mp h
              exact ⟨⟨_, _, _, by simp, ht⟩, by rintro rfl; exact absurd hc (by decide)⟩
            · cases h
    obtain ⟨⟨q, cur, ts, hq, h⟩, hc⟩ := key
    have := lexGo_line l q cur ts hq h
    simp [this, Ne.symm hc]
  | c :: l, some q, cur, ts, hq, h => by
    unfold lexGo at h
    split at h
    · rename_i hc
      obtain ⟨t, ht, -⟩ := Option.map_eq_some_iff.mp h
      have := lexGo_line l none [] _ (by simp) ht
      have hcn : c ≠ '\n' := by rw [hc]; simpa using hq
      simp [this, Ne.symm hcn]
    · split at h
      · cases h
      · rename_i hc
        have := lexGo_line l (some q) _ _ hq h
        have hcn : c ≠ '\n' := fun e => hc (Or.inr (Or.inl e))
        simp [this, Ne.symm hcn]

/-! ## files -/

theorem pyFile_nil : PyFile [] [] := ⟨[], [], by simp, rfl, .nil, rfl⟩

theorem pyFile_append {a b : List Char} {x y : List (List PyTok)} (ha : PyFile a x) (hb : PyFile b y) : PyFile (a ++ b) (x ++ y) := by
  obtain ⟨ls, ts, h1, h2, h3, h4⟩ := ha
  obtain ⟨ls', ts', h1', h2', h3', h4'⟩ := hb
  refine ⟨ls ++ ls', ts ++ ts', ?_, by rw [h2, h2', List.flatMap_append], List.rel_append h3 h3', by rw [h4, h4', List.filter_append]⟩
  intro l hl
  rcases List.mem_append.mp hl with hl | hl
  · exact h1 l hl
  · exact h1' l hl

/-- one statement -/
theorem pyFile_line {l : List Char} {ts : List PyTok} (h : Lx l ts) (hs : ∃ c, l.head? = some c ∧ wordChar c = true) (hne : ts ≠ []) : PyFile (l ++ ['\n']) [ts] := by
  obtain ⟨c, hc, hw⟩ := hs
  refine ⟨[l], [ts], by simpa using lexGo_line l none [] ts (by simp) h, by simp, .cons ?_ .nil, by simp [hne]⟩
  unfold lexLine
  rw [hc, if_neg (by rintro ⟨rfl⟩; exact absurd hw (by decide)), if_neg (by rintro ⟨rfl⟩; exact absurd hw (by decide))]
  exact h

theorem pyFile_comment {l : List Char} (h : l = [] ∨ l.head? = some '#') (hn : '\n' ∉ l) : PyFile (l ++ ['\n']) [] := by
  refine ⟨[l], [[]], by simpa using hn, by simp, .cons ?_ .nil, by simp⟩
  rcases h with rfl | h
  · rfl
  · unfold lexLine
    rw [if_pos h]

/-! ## names -/

theorem digit_word {c : Char} (h : c.isDigit = true) : wordChar c = true := by simp [wordChar, Char.isAlphanum, h]

theorem strInt_nat {n : Int} (h : 0 ≤ n) : strInt n = Nat.toDigits 10 n.natAbs := by
  unfold strInt
  rw [if_neg (by omega)]

theorem strInt_digits {n : Int} (h : 0 ≤ n) : ∀ c ∈ strInt n, c.isDigit = true := fun c hc => by
  rw [strInt_nat h] at hc
  exact Nat.isDigit_of_mem_toDigits (by decide) (by decide) hc

theorem name_lx {x : Char} (hx : wordChar x = true) {n : Int} (h : 0 ≤ n) : Lx (x :: strInt n) [.word (x :: strInt n)] :=
  Lx_word (by simp) (fun c hc => by
    rcases List.mem_cons.mp hc with rfl | hc
    · exact hx
    · exact digit_word (strInt_digits h c hc))

theorem name_named (x : Char) {n : Int} (h : 0 ≤ n) : Named x n (x :: strInt n) := by
  refine ⟨strInt n, n.natAbs, rfl, ?_, by omega⟩
  rw [strInt_nat h]
  exact natOf_digits _

/-! ## regions -/

/-- the text of a token -/
def pyText : PTok → List Char
  | .lp => ['(']
  | .rp => [')']
  | .amp => [' ', '&', ' ']
  | .bar => [' ', '|', ' ']
  | .surf neg k => (if neg then '-' else '+') :: 'S' :: Nat.toDigits 10 k

/-- its tokens -/
def pyToks : PTok → List PyTok
  | .lp => [.sign '(']
  | .rp => [.sign ')']
  | .amp => [.sign '&']
  | .bar => [.sign '|']
  | .surf neg k => [.sign (if neg then '-' else '+'), .word ('S' :: Nat.toDigits 10 k)]

theorem py_finer : Finer pyStyle pyChars pyText where
  num n := by
    simp only [pyStyle, pyChars, pyText, List.flatMap_cons, List.flatMap_nil, List.append_nil]
    by_cases h : n < 0 <;> simp [h]
  sep op := by cases op <;> rfl
  lp := rfl
  rp := rfl

theorem region_starts (ps : List PTok) : Starts (ps.flatMap pyText) := by
  intro c hc
  cases ps with
  | nil => simp at hc
  | cons p ps =>
    cases p with
    | surf neg k =>
      simp [pyText] at hc
      rw [← hc]
      cases neg <;> decide
    | _ => simp [pyText] at hc; rw [← hc]; decide

theorem region_lx : ∀ ps : List PTok, Lx (ps.flatMap pyText) (ps.flatMap pyToks)
  | [] => rfl
  | p :: ps => by
    have ih := region_lx ps
    rw [List.flatMap_cons, List.flatMap_cons]
    refine Lx_append ?_ (region_starts ps) ih
    cases p with
    | surf neg k =>
      have hw : Lx ('S' :: Nat.toDigits 10 k) [.word ('S' :: Nat.toDigits 10 k)] := Lx_word (by simp) (fun c hc => by
        rcases List.mem_cons.mp hc with rfl | hc
        · decide
        · exact digit_word (Nat.isDigit_of_mem_toDigits (by decide) (by decide) hc))
      cases neg
      · exact Lx_sign (c := '+') (by decide) (by decide) (by decide) (by decide) (by decide) (a := []) (ts := []) rfl hw
      · exact Lx_sign (c := '-') (by decide) (by decide) (by decide) (by decide) (by decide) (a := []) (ts := []) rfl hw
    | _ => decide

theorem region_decode : ∀ ps : List PTok, decode (ps.flatMap pyToks) = some ps
  | [] => rfl
  | p :: ps => by
    have ih := region_decode ps
    rw [List.flatMap_cons]
    cases p with
    | surf neg k =>
      cases neg
      · simp only [pyToks, List.cons_append, List.nil_append]
        unfold decode
        simp [natOf_digits, ih]
      · simp only [pyToks, List.cons_append, List.nil_append]
        unfold decode
        simp [natOf_digits, ih]
    | _ =>
      simp only [pyToks, List.cons_append, List.nil_append]
      unfold decode
      simp [ih]

end Geouned.OmcFile
