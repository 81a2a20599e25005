import Verif.Decom.Model
import Mathlib.Algebra.Order.Field.Basic
import Mathlib.Tactic.Linarith
import Mathlib.Tactic.Ring
import Mathlib.Tactic.NormNum
import Mathlib.Tactic.FieldSimp
/-!
# Lemmas on `split_bop`
-/
namespace Geouned.Decom

variable {α : Type} (slice : ℚ → Option α) (o : Options)

/-- going up: scale 10 -/
theorem bop_up : ∀ (n : Nat) (t : ℚ) (m : Nat), 1 / 10 ^ 12 ≤ t → 1 / 10 ≤ t * 10 ^ n → n + 1 ≤ m →
    (∃ (k : Nat) (c : α), (k = 0 ∨ t * 10 ^ k < 1) ∧ slice (t * 10 ^ k) = some c ∧ splitBop slice o m t 10 = .ok c ∧
      ∀ j < k, slice (t * 10 ^ j) = none) ∨
    (splitBop slice o m t 10 = .error .kernel ∧ ∀ k : Nat, (k = 0 ∨ t * 10 ^ k < 1) → slice (t * 10 ^ k) = none) := by
  intro n
  induction n with
  | zero =>
    intro t m h1 h2 hm
    obtain ⟨m', rfl⟩ : ∃ m', m = m' + 1 := ⟨m - 1, by omega⟩
    have h3 : t ≥ 1 / 10 := by simpa using h2
    cases hs : slice t with
    | some c =>
      exact Or.inl ⟨0, c, Or.inl rfl, by simpa using hs, by rw [splitBop, if_pos h3, hs], fun j hj => by omega⟩
    | none =>
      refine Or.inr ⟨by rw [splitBop, if_pos h3, hs], fun k hk => ?_⟩
      rcases hk with rfl | hk
      · simpa using hs
      · rcases Nat.eq_zero_or_pos k with rfl | hp
        · simpa using hs
        · exfalso
          have : (10 : ℚ) ≤ 10 ^ k := by
            calc (10 : ℚ) = 10 ^ 1 := by norm_num
              _ ≤ 10 ^ k := pow_le_pow_right₀ (by norm_num) hp
          nlinarith
  | succ n ih =>
    intro t m h1 h2 hm
    obtain ⟨m', rfl⟩ : ∃ m', m = m' + 1 := ⟨m - 1, by omega⟩
    by_cases h3 : t ≥ 1 / 10
    · cases hs : slice t with
      | some c =>
        exact Or.inl ⟨0, c, Or.inl rfl, by simpa using hs, by rw [splitBop, if_pos h3, hs], fun j hj => by omega⟩
      | none =>
        refine Or.inr ⟨by rw [splitBop, if_pos h3, hs], fun k hk => ?_⟩
        rcases hk with rfl | hk
        · simpa using hs
        · rcases Nat.eq_zero_or_pos k with rfl | hp
          · simpa using hs
          · exfalso
            have : (10 : ℚ) ≤ 10 ^ k := by
              calc (10 : ℚ) = 10 ^ 1 := by norm_num
                _ ≤ 10 ^ k := pow_le_pow_right₀ (by norm_num) hp
            nlinarith
    · have h4 : ¬ t < 1 / 10 ^ 12 := not_lt.mpr h1
      cases hs : slice t with
      | some c =>
        exact Or.inl ⟨0, c, Or.inl rfl, by simpa using hs, by rw [splitBop, if_neg h3, if_neg h4, hs], fun j hj => by omega⟩
      | none =>
        have e : splitBop slice o (m' + 1) t 10 = splitBop slice o m' (t * 10) 10 := by
          rw [splitBop, if_neg h3, if_neg h4, hs]
        have e2 : ∀ k : Nat, t * 10 * 10 ^ k = t * 10 ^ (k + 1) := fun k => by ring
        have h1' : 1 / 10 ^ 12 ≤ t * 10 := by
          have : (0 : ℚ) < 1 / 10 ^ 12 := by norm_num
          linarith
        rcases ih (t * 10) m' h1' (by rw [e2]; exact h2) (by omega) with ⟨k, c, hk, hc, hr, hj⟩ | ⟨hr, hk⟩
        · refine Or.inl ⟨k + 1, c, Or.inr ?_, by rw [← e2]; exact hc, by rw [e]; exact hr, fun j hj' => ?_⟩
          · rcases hk with rfl | hk
            · have : t < 1 / 10 := not_le.mp h3
              norm_num
              linarith
            · rw [← e2]; exact hk
          · rcases Nat.eq_zero_or_pos j with rfl | hp
            · simpa using hs
            · obtain ⟨j', rfl⟩ : ∃ j', j = j' + 1 := ⟨j - 1, by omega⟩
              rw [← e2]
              exact hj j' (by omega)
        · refine Or.inr ⟨by rw [e]; exact hr, fun k hk' => ?_⟩
          rcases Nat.eq_zero_or_pos k with rfl | hp
          · simpa using hs
          · obtain ⟨j', rfl⟩ : ∃ j', k = j' + 1 := ⟨k - 1, by omega⟩
            rw [← e2]
            refine hk j' ?_
            rcases hk' with h | h
            · omega
            · rw [e2]; exact Or.inr h

/-- going down: scale 0.1 -/
theorem bop_down : ∀ (n : Nat) (t : ℚ) (m : Nat), t < 1 / 10 → t / 10 ^ n < 1 / 10 ^ 12 → n + 1 ≤ m → 
    (∃ (k : Nat) (c : α), 1 / 10 ^ 12 ≤ t / 10 ^ k ∧ slice (t / 10 ^ k) = some c ∧ splitBop slice o m t (1 / 10) = .ok c ∧
      ∀ j < k, slice (t / 10 ^ j) = none) ∨
    (∃ (i : Nat) (m' : Nat), t / 10 ^ i < 1 / 10 ^ 12 ∧ (1 / 10 ^ 13 ≤ t → 1 / 10 ^ 13 ≤ t / 10 ^ i) ∧ m ≤ m' + n ∧ m' ≤ m ∧
      splitBop slice o m t (1 / 10) = splitBop slice o m' (t / 10 ^ i) (1 / 10) ∧ (∀ j < i, 1 / 10 ^ 12 ≤ t / 10 ^ j) ∧
      ∀ k : Nat, 1 / 10 ^ 12 ≤ t / 10 ^ k → slice (t / 10 ^ k) = none) := by
  intro n
  induction n with
  | zero =>
    intro t m h0 h1 hm
    have h1' : t < 1 / 10 ^ 12 := by simpa using h1
    refine Or.inr ⟨0, m, by simpa using h1, by simp, by omega, le_refl _, by simp, fun j hj => by omega, fun k hk => ?_⟩
    exfalso
    have hp : (1 : ℚ) ≤ 10 ^ k := one_le_pow₀ (by norm_num)
    have : t < 1 / 10 ^ 12 := h1'
    rcases le_or_gt t 0 with h | h
    · have h2 : t / 10 ^ k ≤ 0 := div_nonpos_of_nonpos_of_nonneg h (by positivity)
      have : (0 : ℚ) < 1 / 10 ^ 12 := by norm_num
      linarith
    · have h2 : t / 10 ^ k ≤ t := div_le_self h.le hp
      linarith
  | succ n ih =>
    intro t m h0 h1 hm
    obtain ⟨m', rfl⟩ : ∃ m', m = m' + 1 := ⟨m - 1, by omega⟩
    have h3 : ¬ t ≥ 1 / 10 := not_le.mpr h0
    by_cases h4 : t < 1 / 10 ^ 12
    · refine Or.inr ⟨0, m' + 1, by simpa using h4, by simp, by omega, le_refl _, by simp, fun j hj => by omega, fun k hk => ?_⟩
      exfalso
      have hp : (1 : ℚ) ≤ 10 ^ k := one_le_pow₀ (by norm_num)
      rcases le_or_gt t 0 with h | h
      · have h2 : t / 10 ^ k ≤ 0 := div_nonpos_of_nonpos_of_nonneg h (by positivity)
        have : (0 : ℚ) < 1 / 10 ^ 12 := by norm_num
        linarith
      · have h2 : t / 10 ^ k ≤ t := div_le_self h.le hp
        linarith
    · cases hs : slice t with
      | some c =>
        exact Or.inl ⟨0, c, by simpa using h4, by simpa using hs, by rw [splitBop, if_neg h3, if_neg h4, hs], fun j hj => by omega⟩
      | none =>
        have e : splitBop slice o (m' + 1) t (1 / 10) = splitBop slice o m' (t * (1 / 10)) (1 / 10) := by
          rw [splitBop, if_neg h3, if_neg h4, hs]
        have e2 : ∀ k : Nat, t * (1 / 10) / 10 ^ k = t / 10 ^ (k + 1) := fun k => by
          field_simp
          ring
        have h0' : t * (1 / 10) < 1 / 10 := by linarith
        have hge : 1 / 10 ^ 12 ≤ t := not_lt.mp h4
        rcases ih (t * (1 / 10)) m' h0' (by rw [e2]; exact h1) (by omega) with ⟨k, c, hk, hc, hr, hj⟩ | ⟨i, m2, hi, hi2, hm2, hm3, hr, hij, hk⟩
        · refine Or.inl ⟨k + 1, c, by rw [← e2]; exact hk, by rw [← e2]; exact hc, by rw [e]; exact hr, fun j hj' => ?_⟩
          rcases Nat.eq_zero_or_pos j with rfl | hp
          · simpa using hs
          · obtain ⟨j', rfl⟩ : ∃ j', j = j' + 1 := ⟨j - 1, by omega⟩
            rw [← e2]
            exact hj j' (by omega)
        · refine Or.inr ⟨i + 1, m2, by rw [← e2]; exact hi, fun _ => ?_, by omega, by omega, by rw [e, hr, e2], fun j hj => ?_, fun k hk' => ?_⟩
          · rw [← e2]
            refine hi2 ?_
            have : (1 : ℚ) / 10 ^ 13 = 1 / 10 ^ 12 * (1 / 10) := by norm_num
            rw [this]
            exact mul_le_mul_of_nonneg_right hge (by norm_num)
          · rcases Nat.eq_zero_or_pos j with rfl | hp
            · simpa using hge
            · obtain ⟨j', rfl⟩ : ∃ j', j = j' + 1 := ⟨j - 1, by omega⟩
              rw [← e2]
              exact hij j' (by omega)
          · rcases Nat.eq_zero_or_pos k with rfl | hp
            · simpa using hs
            · obtain ⟨j', rfl⟩ : ∃ j', k = j' + 1 := ⟨k - 1, by omega⟩
              rw [← e2]
              exact hk j' (by rw [e2]; exact hk')

/-- below the smallest tolerance, scaling up -/
theorem bop_switch {t : ℚ} {m : Nat} (hu : o.scaleUp = true) (h : t < 1 / 10 ^ 12) :
    splitBop slice o (m + 1) t (1 / 10) =
      splitBop slice o m ((if o.splitTolerance = 0 then 1 / 10 ^ 13 else o.splitTolerance) * 10) 10 := by
  have h3 : ¬ t ≥ 1 / 10 := by
    intro h'
    norm_num at h h'
    linarith
  rw [splitBop, if_neg h3, if_pos h, if_pos hu]
  norm_num [div_eq_mul_inv]

/-- the endless recursion -/
theorem bop_endless (hu : o.scaleUp = true) (h0 : 0 < o.splitTolerance) (h1 : o.splitTolerance < 1 / 10 ^ 13) :
    ∀ (m : Nat) (t : ℚ) (up : Bool), t < 1 / 10 ^ 12 → splitBop slice o m t (if up then 10 else 1 / 10) = .error .depth := by
  intro m
  induction m with
  | zero => intro t up _; rfl
  | succ m ih =>
    intro t up ht
    have h3 : ¬ t ≥ 1 / 10 := by
      intro h'
      norm_num at ht h'
      linarith
    rw [splitBop, if_neg h3, if_pos ht, if_pos hu, if_neg h0.ne']
    have e : (1 : ℚ) / (if up then 10 else 1 / 10) = if (!up) then 10 else 1 / 10 := by
      cases up <;> norm_num
    rw [e]
    refine ih _ _ ?_
    norm_num at h1 ⊢
    cases up
    · norm_num
      linarith
    · norm_num
      linarith

end Geouned.Decom
