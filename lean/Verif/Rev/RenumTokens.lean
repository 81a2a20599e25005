import Verif.Rev.RenumProps
import Verif.Rev.Cards
/-!
# C132: the loop on characters does what the loop on tokens does

`Rev/Cards.lean` models the renaming of surfaces on tokens, and C68 and C127 rest on it. Here: on the characters of the tokens, the loop of `RenumModel.lean` gives the characters of the result.
-/
namespace Geouned.Renum
open Geouned.Rev

/-- a token of the geometry of a card as characters -/
def charsOf : HTok → List Char
  | .lp => ['(']
  | .rp => [')']
  | .colon => [':']
  | .blank => [' ']
  | .hash => ['#']
  | .amp => ['&']
  | .num n => if n < 0 then '-' :: decimal n.natAbs else decimal n.natAbs

/-- the text of these tokens -/
def charsOfAll (ts : List HTok) : List Char := ts.flatMap charsOf

/-- no number without sign follows a number at once: written down, they would be one number -/
def Apart : List HTok → Prop
  | .num _ :: .num m :: ts => m < 0 ∧ Apart (.num m :: ts)
  | _ :: ts => Apart ts
  | [] => True

theorem apart_tail {t : HTok} {ts : List HTok} (h : Apart (t :: ts)) : Apart ts := by
  cases t with
  | num n =>
    cases ts with
    | nil => exact h
    | cons u ts =>
      cases u with
      | num m => exact h.2
      | _ => exact h
  | _ => exact h

theorem apart_head {n : Int} {ts : List HTok} (h : Apart (.num n :: ts)) : ∀ c ∈ (charsOfAll ts).head?, c.isDigit = false := by
  intro c hc
  cases ts with
  | nil => simp [charsOfAll] at hc
  | cons u ts =>
    cases u with
    | num m =>
      have hm : m < 0 := h.1
      simp only [charsOfAll, List.flatMap_cons, charsOf, if_pos hm, List.cons_append, List.head?_cons, Option.mem_def, Option.some.injEq] at hc
      subst hc; rfl
    | _ =>
      simp only [charsOfAll, List.flatMap_cons, charsOf, List.cons_append, List.head?_cons, Option.mem_def, Option.some.injEq] at hc
      subst hc; decide

theorem afterHash_snoc (s : List Char) (c : Char) : AfterHash (s ++ [c]) ↔ c = '#' ∨ (AfterHash s ∧ c.isWhitespace = true) := by
  constructor
  · rintro ⟨u, w, e, hw⟩
    rcases List.eq_nil_or_concat w with rfl | ⟨w', d, rfl⟩
    · left
      have := congrArg List.getLast? e
      simpa using this
    · right
      have e' : s ++ [c] = (u ++ '#' :: w') ++ [d] := by rw [e]; simp
      obtain ⟨h1, h2⟩ := List.append_inj' e' rfl
      obtain rfl : c = d := by simpa using h2
      exact ⟨⟨u, w', h1, fun x hx => hw x (by simp [hx])⟩, hw c (by simp)⟩
  · rintro (rfl | ⟨⟨u, w, rfl, hw⟩, hc⟩)
    · exact ⟨s, [], rfl, by simp⟩
    · refine ⟨u, w ++ [c], by simp, fun x hx => ?_⟩
      rcases List.mem_append.1 hx with hx | hx
      · exact hw x hx
      · obtain rfl : x = c := by simpa using hx
        exact hc

theorem not_afterHash_nil : ¬ AfterHash [] := by
  rintro ⟨u, w, e, _⟩
  have := congrArg List.length e
  simp at this

/-- what the two loops give, compared -/
def agree (pre : List Char) : R (List HTok) → Option Outcome
  | .ok r => some (.done (pre ++ charsOfAll r))
  | .error _ => some .keyError

theorem agree_cons (pre : List Char) (t : HTok) (x : R (List HTok)) : agree pre (do let r ← x; .ok (t :: r)) = agree (pre ++ charsOf t) x := by
  cases x with
  | error e => rfl
  | ok r =>
    change some (Outcome.done (pre ++ charsOfAll (t :: r))) = some (Outcome.done ((pre ++ charsOf t) ++ charsOfAll r))
    simp [charsOfAll]

theorem loop_tokens (brk : Bool) (new : Nat → R Nat) (hpos : ∀ n k, new n = .ok k → 0 < k) : ∀ (ts : List HTok) (s pre : List Char) (h : Bool) (f : Nat), Apart ts →
    (∀ c ∈ s, c.isDigit = false) → (h = true ↔ AfterHash s) → ts.length < f →
    loop brk (fun n => (new n).toOption) f pre (s ++ charsOfAll ts) = agree (pre ++ s) (renameLoop new h ts) := by
  intro ts
  induction ts with
  | nil =>
    intro s pre h f _ hs _ hf
    obtain ⟨f, rfl⟩ : ∃ k, f = k + 1 := ⟨f - 1, by simp at hf; omega⟩
    simp only [charsOfAll, List.flatMap_nil, List.append_nil, renameLoop]
    rw [loop_end _ _ _ _ _ hs]
    simp [agree, charsOfAll]
  | cons t ts ih =>
    intro s pre h f ha hs hh hf
    have hf' : ts.length < f - 1 := by simp at hf; omega
    -- a token that is no number
    have one : ∀ c : Char, charsOf t = [c] → c.isDigit = false → (∀ n, t ≠ .num n) → (c = '#' ↔ t = .hash) → (c.isWhitespace = true ↔ t = .blank) →
        loop brk (fun n => (new n).toOption) f pre (s ++ charsOfAll (t :: ts)) = agree (pre ++ s) (renameLoop new h (t :: ts)) := by
      intro c hc hd hn h1 h2
      have e : s ++ charsOfAll (t :: ts) = (s ++ [c]) ++ charsOfAll ts := by simp [charsOfAll, hc]
      have hren : renameLoop new h (t :: ts) = (do let r ← renameLoop new (t = .hash || (h && t = .blank)) ts; .ok (t :: r)) := by
        cases t with
        | num n => exact absurd rfl (hn n)
        | _ => rfl
      rw [e, hren, agree_cons]
      rw [ih (s ++ [c]) pre (t = .hash || (h && t = .blank)) f (apart_tail ha) (fun x hx => by
        rcases List.mem_append.1 hx with hx | hx
        · exact hs x hx
        · obtain rfl : x = c := by simpa using hx
          exact hd) (by rw [afterHash_snoc, h1, h2, ← hh]; simp) (by omega)]
      rw [hc, List.append_assoc]
    cases t with
    | lp => exact one '(' rfl (by decide) (by simp) (by simp) (by simp)
    | rp => exact one ')' rfl (by decide) (by simp) (by simp) (by simp)
    | colon => exact one ':' rfl (by decide) (by simp) (by simp) (by simp)
    | blank => exact one ' ' rfl (by decide) (by simp) (by simp) (by simp)
    | hash => exact one '#' rfl (by decide) (by simp) (by simp) (by simp)
    | amp => exact one '&' rfl (by decide) (by simp) (by simp) (by simp)
    | num n =>
      obtain ⟨f, rfl⟩ : ∃ k, f = k + 1 := ⟨f - 1, by simp at hf; omega⟩
      have hhd := apart_head ha
      have hih := fun pre' => ih [] pre' false f (apart_tail ha) (by simp) ⟨fun h => (by cases h), fun h => absurd h not_afterHash_nil⟩ (by simpa using hf')
      simp only [List.nil_append, List.append_nil] at hih
      -- the characters between the numbers: with the sign
      by_cases hn : n < 0
      · have e : s ++ charsOfAll (.num n :: ts) = (s ++ ['-']) ++ (decimal n.natAbs ++ charsOfAll ts) := by simp [charsOfAll, charsOf, hn]
        have hs' : ∀ c ∈ s ++ ['-'], c.isDigit = false := fun x hx => by
          rcases List.mem_append.1 hx with hx | hx
          · exact hs x hx
          · obtain rfl : x = '-' := by simpa using hx
            rfl
        have hnh : ¬ AfterHash (s ++ ['-']) := by
          rw [afterHash_snoc]
          rintro (h | ⟨-, h⟩)
          · cases h
          · revert h; decide
        obtain ⟨-, r2, r3⟩ := loop_round brk (fun n => (new n).toOption) f pre (s ++ ['-']) (charsOfAll ts) n.natAbs hs' hhd
        rw [e]
        have hren : renameLoop new h (.num n :: ts) = (do let k ← new n.natAbs; let r ← renameLoop new false ts; .ok (.num (if n < 0 then -(k : Int) else k) :: r)) := by
          rw [renameLoop, if_neg (by rintro ⟨-, h⟩; omega)]
        rw [hren]
        cases hk : new n.natAbs with
        | error e => rw [r3 hnh (by rw [hk]; rfl)]; rfl
        | ok k =>
          rw [r2 hnh k (by rw [hk]; rfl), hih]
          change _ = agree (pre ++ s) (do let r ← renameLoop new false ts; .ok (.num (if n < 0 then -(k : Int) else k) :: r))
          rw [agree_cons, if_pos hn]
          have hkp := hpos _ _ hk
          have : charsOf (.num (-(k : Int))) = '-' :: decimal k := by
            rw [charsOf, if_pos (by omega)]; simp
          rw [this]; simp
      · have e : s ++ charsOfAll (.num n :: ts) = s ++ (decimal n.natAbs ++ charsOfAll ts) := by simp [charsOfAll, charsOf, hn]
        obtain ⟨r1, r2, r3⟩ := loop_round brk (fun n => (new n).toOption) f pre s (charsOfAll ts) n.natAbs hs hhd
        rw [e]
        by_cases hah : AfterHash s
        · have hren : renameLoop new h (.num n :: ts) = (do let r ← renameLoop new false ts; .ok (.num n :: r)) := by
            rw [renameLoop, if_pos ⟨hh.2 hah, by omega⟩]
          rw [r1 hah, hih, hren, agree_cons]
          simp [charsOf, hn]
        · have hren : renameLoop new h (.num n :: ts) = (do let k ← new n.natAbs; let r ← renameLoop new false ts; .ok (.num (if n < 0 then -(k : Int) else k) :: r)) := by
            rw [renameLoop, if_neg (by rintro ⟨h1, -⟩; exact hah (hh.1 h1))]
          rw [hren]
          cases hk : new n.natAbs with
          | error e => rw [r3 hah (by rw [hk]; rfl)]; rfl
          | ok k =>
            rw [r2 hah k (by rw [hk]; rfl), hih]
            change _ = agree (pre ++ s) (do let r ← renameLoop new false ts; .ok (.num (if n < 0 then -(k : Int) else k) :: r))
            rw [agree_cons, if_neg hn]
            have : charsOf (.num (k : Int)) = decimal k := by
              rw [charsOf, if_neg (by omega)]; simp
            rw [this]

/-- **C132**: on the characters of a card whose numbers are apart, renaming ends with the characters of the renamed tokens, and with `KeyError` exactly when the renaming of the tokens fails: what C68 and C127
prove about tokens holds for the text. New numbers are positive, as those of surfaces are. -/
theorem C132_tokens (brk : Bool) (new : Nat → R Nat) (hpos : ∀ n k, new n = .ok k → 0 < k) (ts : List HTok) (ha : Apart ts) (f : Nat) (hf : ts.length < f) :
    loop brk (fun n => (new n).toOption) f [] (charsOfAll ts) = match renameLoop new false ts with
      | .ok r => some (.done (charsOfAll r))
      | .error _ => some .keyError := by
  have := loop_tokens brk new hpos ts [] [] false f ha (by simp) ⟨fun h => (by cases h), fun h => absurd h not_afterHash_nil⟩ hf
  simp only [List.nil_append] at this
  rw [this]
  cases renameLoop new false ts <;> rfl

/-! ### non-vacuity -/

example : Apart [.num (-1), .blank, .num 2, .num (-3), .hash, .num 4] := by simp [Apart]

example : charsOfAll [.num (-1), .blank, .num 2, .num (-3), .hash, .num 4] = "-1 2-3#4".toList := by decide

end Geouned.Renum
