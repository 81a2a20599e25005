import Verif.Text.Char
import Verif.Text.Lemmas5
import Verif.Text.WrapLemmas2
/-! The character model follows the token model -/
namespace Geouned.Text

/-! ### numbers -/

theorem strInt_word (n : Int) : strInt n ≠ [] ∧ ∀ c ∈ strInt n, c.isDigit = true ∨ c = '-' := by
  unfold strInt
  split
  · refine ⟨by simp, fun c hc => ?_⟩
    rcases List.mem_cons.1 hc with rfl | hc
    · exact .inr rfl
    · exact .inl (Nat.isDigit_of_mem_toDigits (by decide) (by decide) hc)
  · exact ⟨Nat.toDigits_ne_nil, fun c hc => .inl (Nat.isDigit_of_mem_toDigits (by decide) (by decide) hc)⟩

theorem digit_ne {c d : Char} (h : c.isDigit = true ∨ c = '-') (hd : d.isDigit = false) (hd' : d ≠ '-') : c ≠ d := by
  rintro rfl
  rcases h with h | h
  · rw [hd] at h; cases h
  · exact hd' h

theorem natOf_digits (n : Nat) : natOf (Nat.toDigits 10 n) = some n := by
  unfold natOf
  rw [if_pos, Nat.ofDigitChars_ten_toDigits]
  refine ⟨Nat.toDigits_ne_nil, List.all_eq_true.2 fun c hc => Nat.isDigit_of_mem_toDigits (by decide) (by decide) hc⟩

theorem tokOf_strInt (n : Int) : tokOf (strInt n) = some (.num n) := by
  unfold strInt
  split
  · next h =>
    have : (-((n.natAbs : Nat) : Int)) = n := by omega
    simp only [tokOf, natOf_digits, Option.map_some, this]
  · next h =>
    have hn : ((n.natAbs : Nat) : Int) = n := by omega
    have hd : ∀ c ∈ Nat.toDigits 10 n.natAbs, c.isDigit = true := fun c hc => Nat.isDigit_of_mem_toDigits (by decide) (by decide) hc
    have h0 := natOf_digits n.natAbs
    cases hl : Nat.toDigits 10 n.natAbs with
    | nil => exact absurd hl Nat.toDigits_ne_nil
    | cons c w =>
      rw [hl] at hd h0
      have hc := hd c (by simp)
      unfold tokOf
      split
      · next heq => cases heq; exact absurd hc (by decide)
      · next heq => cases heq; exact absurd hc (by decide)
      · next heq => cases heq; exact absurd hc (by decide)
      · next heq => cases heq; exact absurd hc (by decide)
      · rw [h0, Option.map_some, hn]

/-! ### rendering -/

/-- a token as characters -/
def renderTok : Tok → List Char
  | .lp => ['(']
  | .rp => [')']
  | .colon => [':']
  | .blank => [' ']
  | .num n => strInt n

def render (ts : List Tok) : List Char := ts.flatMap renderTok

@[simp] theorem render_nil : render [] = [] := rfl
@[simp] theorem render_cons (t : Tok) (ts : List Tok) : render (t :: ts) = renderTok t ++ render ts := by simp [render]
@[simp] theorem render_append (a b : List Tok) : render (a ++ b) = render a ++ render b := by simp [render]

/-- masked characters -/
def hide (c : Char) : Char := if c = '(' then '[' else if c = ')' then ']' else if c = ':' then ';' else c

/-- an item as it stands in the text of the loop -/
def renderItem : Item → List Char
  | .tok t => renderTok t
  | .gone _ => [' ']
  | .block ts => (render ts).map hide

def renders (w : List Item) : List Char := w.flatMap renderItem

@[simp] theorem renders_nil : renders [] = [] := rfl
@[simp] theorem renders_cons (x : Item) (w : List Item) : renders (x :: w) = renderItem x ++ renders w := by simp [renders]
@[simp] theorem renders_append (a b : List Item) : renders (a ++ b) = renders a ++ renders b := by simp [renders]

theorem renders_tok (ts : List Tok) : renders (ts.map .tok) = render ts := by
  induction ts with
  | nil => rfl
  | cons t ts ih => simp only [List.map_cons, renders_cons, ih, render_cons, renderItem]

/-! ### the search -/

/-- text without parentheses and `^` -/
def Quiet (s : List Char) : Prop := ∀ c ∈ s, c ≠ '(' ∧ c ≠ ')' ∧ c ≠ '^'

theorem spanC_quiet {a : List Char} (ha : Quiet a) (r : List Char) : spanC (a ++ r) = (spanC r).map fun p => (a ++ p.1, p.2) := by
  induction a with
  | nil => simp
  | cons c a ih =>
    have hc := ha c (by simp)
    have := ih (fun d hd => ha d (by simp [hd]))
    simp only [List.cons_append, spanC, hc.1, hc.2.1, hc.2.2, if_false, this, or_self]
    cases spanC r <;> simp

theorem findC_quiet {a : List Char} (ha : Quiet a) (r : List Char) : findC (a ++ r) = (findC r).map fun q => (a ++ q.1, q.2.1, q.2.2) := by
  induction a with
  | nil => simp
  | cons c a ih =>
    have hc := ha c (by simp)
    have := ih (fun d hd => ha d (by simp [hd]))
    simp only [List.cons_append, findC, hc.1, if_false, this]
    cases findC r <;> simp

theorem num_quiet (n : Int) : Quiet (strInt n) := fun c hc =>
  have h := (strInt_word n).2 c hc
  ⟨digit_ne h (by decide) (by decide), digit_ne h (by decide) (by decide), digit_ne h (by decide) (by decide)⟩

theorem render_chars (ts : List Tok) : ∀ c ∈ render ts, c = '(' ∨ c = ')' ∨ c = ':' ∨ c = ' ' ∨ c.isDigit = true ∨ c = '-' := by
  intro c hc
  obtain ⟨t, -, h⟩ := List.mem_flatMap.1 hc
  cases t <;> simp only [renderTok, List.mem_singleton] at h
  · exact .inl h
  · exact .inr (.inl h)
  · exact .inr (.inr (.inl h))
  · exact .inr (.inr (.inr (.inl h)))
  · exact .inr (.inr (.inr (.inr ((strInt_word _).2 c h))))

theorem hide_quiet (ts : List Tok) : Quiet ((render ts).map hide) := by
  intro c hc
  obtain ⟨d, hd, rfl⟩ := List.mem_map.1 hc
  rcases render_chars ts d hd with rfl | rfl | rfl | rfl | h
  · decide
  · decide
  · decide
  · decide
  · have h1 := digit_ne h (d := '(') (by decide) (by decide)
    have h2 := digit_ne h (d := ')') (by decide) (by decide)
    have h3 := digit_ne h (d := ':') (by decide) (by decide)
    have h4 := digit_ne h (d := '^') (by decide) (by decide)
    simp only [hide, h1, h2, h3, if_false]
    exact ⟨h1, h2, h4⟩

theorem item_quiet {x : Item} (h1 : x ≠ .tok .lp) (h2 : x ≠ .tok .rp) : Quiet (renderItem x) := by
  match x with
  | .tok .lp => exact absurd rfl h1
  | .tok .rp => exact absurd rfl h2
  | .tok .blank => exact fun c hc => by simp only [renderItem, renderTok, List.mem_singleton] at hc; subst hc; decide
  | .tok .colon => exact fun c hc => by simp only [renderItem, renderTok, List.mem_singleton] at hc; subst hc; decide
  | .tok (.num n) => exact num_quiet n
  | .gone _ => exact fun c hc => by simp only [renderItem, List.mem_singleton] at hc; subst hc; decide
  | .block ts => exact hide_quiet ts

theorem spanC_renders : ∀ w : List Item, spanC (renders w) = (spanInner w).map fun p => (renders p.1, renders p.2)
  | [] => rfl
  | x :: w => by
    have ih := spanC_renders w
    by_cases h1 : x = .tok .lp
    · subst h1; simp [renderItem, renderTok, spanC, spanInner]
    · by_cases h2 : x = .tok .rp
      · subst h2; simp [renderItem, renderTok, spanC, spanInner]
      · have hs : spanInner (x :: w) = (spanInner w).map fun p => (x :: p.1, p.2) := by
          match x, h1, h2 with
          | .tok .lp, h1, _ => exact absurd rfl h1
          | .tok .rp, _, h2 => exact absurd rfl h2
          | .tok .blank, _, _ => simp [spanInner]
          | .tok .colon, _, _ => simp [spanInner]
          | .tok (.num _), _, _ => simp [spanInner]
          | .gone _, _, _ => simp [spanInner]
          | .block _, _, _ => simp [spanInner]
        rw [renders_cons, spanC_quiet (item_quiet h1 h2), ih, hs]
        cases spanInner w <;> simp

theorem findC_renders : ∀ w : List Item, findC (renders w) = (findInner w).map fun q => (renders q.1, renders q.2.1, renders q.2.2)
  | [] => rfl
  | x :: w => by
    have ih := findC_renders w
    by_cases h1 : x = .tok .lp
    · subst h1
      simp only [renders_cons, renderItem, renderTok, List.cons_append, List.nil_append, findC, if_true, findInner, spanC_renders]
      cases spanInner w with
      | none =>
        simp only [Option.map_none, ih]
        cases findInner w <;> simp [renderItem, renderTok]
      | some p => simp
    · by_cases h2 : x = .tok .rp
      · subst h2
        simp only [renders_cons, renderItem, renderTok, List.cons_append, List.nil_append, findC, findInner, ih]
        cases findInner w <;> simp [renderItem, renderTok]
      · have hs : findInner (x :: w) = (findInner w).map fun q => (x :: q.1, q.2.1, q.2.2) := by
          match x, h1, h2 with
          | .tok .lp, h1, _ => exact absurd rfl h1
          | .tok .rp, _, h2 => exact absurd rfl h2
          | .tok .blank, _, _ => simp [findInner]
          | .tok .colon, _, _ => simp [findInner]
          | .tok (.num _), _, _ => simp [findInner]
          | .gone _, _, _ => simp [findInner]
          | .block _, _, _ => simp [findInner]
        rw [renders_cons, findC_quiet (item_quiet h1 h2), ih, hs]
        cases findInner w <;> simp

end Geouned.Text
