import Verif.Decom.BopLemmas
import Mathlib.Tactic.Positivity
/-!
# C82: the tolerances at which a solid is cut

`slice tol` is the cut by the CAD kernel at tolerance `tol` (`none`: it raises); `splitBop slice o n o.splitTolerance (1/10)` is the call made by every
user of `split_bop`, with `n` free stack frames.
-/
namespace Geouned.Decom

variable {α : Type}

/-- the property in full: for every accepted tolerance and every behaviour of the kernel, the cut ends (given enough stack) -/
def C82_statement : Prop :=
  ∀ (α : Type) (slice : ℚ → Option α) (o : Options), 0 ≤ o.splitTolerance →
    ∃ n₀, ∀ n ≥ n₀, splitBop slice o n o.splitTolerance (1 / 10) ≠ .error .depth

/-- the tolerance 0 stands for 10⁻¹³ -/
def Options.nominal (o : Options) : ℚ := if o.splitTolerance = 0 then 1 / 10 ^ 13 else o.splitTolerance

/-- the order in which the tolerances `t·10ᵏ` are tried: 0, -1, -2, …, then 1, 2, … -/
def Before (j k : ℤ) : Prop := (j ≤ 0 ∧ (0 < k ∨ k < j)) ∨ (0 < j ∧ j < k)

/-- a positive tolerance below 10⁻¹³, which the option accepts, never reaches the kernel when scaling up is on (the default) -/
theorem C82_endless (slice : ℚ → Option α) (o : Options) (hu : o.scaleUp = true) (h0 : 0 < o.splitTolerance) (h1 : o.splitTolerance < 1 / 10 ^ 13)
    (n : Nat) : splitBop slice o n o.splitTolerance (1 / 10) = .error .depth := by
  have := bop_endless slice o hu h0 h1 n o.splitTolerance false (by norm_num at h1 ⊢; linarith)
  simpa using this

example : (⟨1 / 10 ^ 14, true, 0⟩ : Options).scaleUp = true ∧ (0 : ℚ) < (⟨1 / 10 ^ 14, true, 0⟩ : Options).splitTolerance ∧
    (⟨1 / 10 ^ 14, true, 0⟩ : Options).splitTolerance < 1 / 10 ^ 13 := by
  refine ⟨rfl, ?_, ?_⟩ <;> norm_num

/-- the property fails: `splitTolerance = 10⁻¹⁴` -/
theorem C82_violated : ¬ C82_statement := by
  intro h
  obtain ⟨n₀, hn⟩ := h Unit (fun _ => some ()) ⟨1 / 10 ^ 14, true, 0⟩ (by norm_num)
  exact hn n₀ (le_refl _) (C82_endless _ _ rfl (by norm_num) (by norm_num) n₀)

/-- a tolerance of 0.1 or more: the kernel is called once, at that tolerance -/
theorem C82_coarse_partial (slice : ℚ → Option α) (o : Options) (h : 1 / 10 ≤ o.splitTolerance) (n : Nat) (hn : 1 ≤ n) :
    (∀ c, splitBop slice o n o.splitTolerance (1 / 10) = .ok c ↔ slice o.splitTolerance = some c) ∧
    (slice o.splitTolerance = none → splitBop slice o n o.splitTolerance (1 / 10) = .error .kernel) := by
  obtain ⟨n, rfl⟩ : ∃ n', n = n' + 1 := ⟨n - 1, by omega⟩
  rw [splitBop, if_pos h]
  cases slice o.splitTolerance <;> simp

example : (1 : ℚ) / 10 ≤ (⟨1 / 2, true, 0⟩ : Options).splitTolerance := by norm_num

theorem before_total {j k : ℤ} (h : j ≠ k) : Before j k ∨ Before k j := by
  unfold Before
  omega

/-- the first success in the order `Before` decides -/
theorem first_of_disj {slice : ℚ → Option α} {t : ℚ} {tried : ℤ → Prop} {r : Except Exc α}
    (h : (∃ k c, tried k ∧ slice (t * (10 : ℚ) ^ k) = some c ∧ r = .ok c ∧ ∀ j, tried j → Before j k → slice (t * (10 : ℚ) ^ j) = none) ∨
      (r = .error .kernel ∧ ∀ k, tried k → slice (t * (10 : ℚ) ^ k) = none)) :
    (∀ c, r = .ok c ↔ ∃ k, tried k ∧ slice (t * (10 : ℚ) ^ k) = some c ∧ ∀ j, tried j → Before j k → slice (t * (10 : ℚ) ^ j) = none) ∧
    ((∀ k, tried k → slice (t * (10 : ℚ) ^ k) = none) → r = .error .kernel) := by
  rcases h with ⟨k, c, hk, hc, hr, hj⟩ | ⟨hr, hk⟩
  · refine ⟨fun c' => ⟨fun h => ?_, fun ⟨k', hk', hc', hj'⟩ => ?_⟩, fun h => ?_⟩
    · rw [hr] at h
      have hx : c = c' := Except.ok.inj h
      rw [← hx]
      exact ⟨k, hk, hc, hj⟩
    · by_cases e : k = k'
      · rw [← e, hc] at hc'
        have hx : c = c' := Option.some.inj hc'
        rw [hr, hx]
      · rcases before_total e with h | h
        · rw [hj' k hk h] at hc
          cases hc
        · rw [hj k' hk' h] at hc'
          cases hc'
    · rw [h k hk] at hc
      cases hc
  · refine ⟨fun c' => ⟨fun h => ?_, fun ⟨k', hk', hc', _⟩ => ?_⟩, fun _ => hr⟩
    · rw [hr] at h
      cases h
    · rw [hk k' hk'] at hc'
      cases hc'

theorem zpow_neg_nat (t : ℚ) (k : Nat) : t * (10 : ℚ) ^ (-(k : ℤ)) = t / 10 ^ k := by
  rw [zpow_neg, zpow_natCast, div_eq_mul_inv]

theorem zpow_succ_nat (t : ℚ) (k : Nat) : t * (10 : ℚ) ^ ((k : ℤ) + 1) = t * 10 * 10 ^ k := by
  rw [zpow_add₀ (by norm_num), zpow_natCast, zpow_one]
  ring

theorem int_cases (j : ℤ) : (∃ n : Nat, j = -(n : ℤ)) ∨ ∃ n : Nat, j = (n : ℤ) + 1 := by
  rcases le_or_gt j 0 with h | h
  · exact Or.inl ⟨j.natAbs, by omega⟩
  · exact Or.inr ⟨j.natAbs - 1, by omega⟩

/-- with scaling up, and a tolerance that is 0 or between 10⁻¹³ and 0.1: the tolerances `t·10ᵏ` between 10⁻¹² and 1 are tried, first `t` and below, then
above `t`; the first at which the kernel does not raise decides, and an exception comes out only if it raises at all of them -/
theorem C82_scaleUp_partial (slice : ℚ → Option α) (o : Options) (hu : o.scaleUp = true) (h0 : 1 / 10 ^ 13 ≤ o.nominal) (h1 : o.nominal < 1 / 10)
    (n : Nat) (hn : 30 ≤ n) :
    let tried : ℤ → Prop := fun k => 1 / 10 ^ 12 ≤ o.nominal * (10 : ℚ) ^ k ∧ o.nominal * (10 : ℚ) ^ k < 1
    (∀ c, splitBop slice o n o.splitTolerance (1 / 10) = .ok c ↔
      ∃ k, tried k ∧ slice (o.nominal * (10 : ℚ) ^ k) = some c ∧ ∀ j, tried j → Before j k → slice (o.nominal * (10 : ℚ) ^ j) = none) ∧
    ((∀ k, tried k → slice (o.nominal * (10 : ℚ) ^ k) = none) → splitBop slice o n o.splitTolerance (1 / 10) = .error .kernel) := by
  intro tried
  refine first_of_disj ?_
  have hlt : o.splitTolerance < 1 / 10 := by
    unfold Options.nominal at h1
    split at h1
    · next h => rw [h]; norm_num
    · exact h1
  have hsm : o.splitTolerance / 10 ^ 12 < 1 / 10 ^ 12 := by
    rw [div_lt_div_iff_of_pos_right (by norm_num)]
    linarith
  -- the exponents at most 0 in terms of the tolerance given
  have hdown : ∀ k : Nat, 1 / 10 ^ 12 ≤ o.nominal * (10 : ℚ) ^ (-(k : ℤ)) →
      1 / 10 ^ 12 ≤ o.splitTolerance / 10 ^ k ∧ o.nominal * (10 : ℚ) ^ (-(k : ℤ)) = o.splitTolerance / 10 ^ k := by
    intro k hk
    rw [zpow_neg_nat] at hk ⊢
    unfold Options.nominal at hk ⊢
    split
    · next h =>
      rw [if_pos h] at hk
      exfalso
      have hp : (1 : ℚ) ≤ 10 ^ k := one_le_pow₀ (by norm_num)
      have h2 : (1 : ℚ) / 10 ^ 13 / 10 ^ k ≤ 1 / 10 ^ 13 := div_le_self (by norm_num) hp
      norm_num at hk h2
      linarith
    · next h =>
      rw [if_neg h] at hk
      exact ⟨hk, rfl⟩
  have hup : 1 / 10 ^ 12 ≤ o.nominal * 10 := by
    norm_num at h0 ⊢
    linarith
  have hend : 1 / 10 ≤ o.nominal * 10 * 10 ^ 11 := by
    norm_num at h0 ⊢
    linarith
  rcases bop_down slice o 12 o.splitTolerance n hlt hsm (by omega) with ⟨k, c, hk, hc, hr, hj⟩ | ⟨i, m', hi, -, hm, -, hr, -, hk⟩
  · have hpos : o.splitTolerance ≠ 0 := by
      intro h
      rw [h] at hk
      norm_num at hk
    have hnom : o.nominal = o.splitTolerance := by
      unfold Options.nominal
      rw [if_neg hpos]
    refine Or.inl ⟨-(k : ℤ), c, ⟨?_, ?_⟩, ?_, hr, ?_⟩
    · rw [zpow_neg_nat, hnom]; exact hk
    · rw [zpow_neg_nat]
      have hp : (1 : ℚ) ≤ 10 ^ k := one_le_pow₀ (by norm_num)
      have : o.nominal / 10 ^ k ≤ o.nominal := div_le_self (by norm_num at h0; linarith) hp
      linarith
    · rw [zpow_neg_nat, hnom]; exact hc
    · intro j _ hb
      rcases int_cases j with ⟨a, rfl⟩ | ⟨a, rfl⟩
      · rw [zpow_neg_nat, hnom]
        refine hj a ?_
        unfold Before at hb
        omega
      · unfold Before at hb
        omega
  · obtain ⟨m'', rfl⟩ : ∃ m'', m' = m'' + 1 := ⟨m' - 1, by omega⟩
    rw [bop_switch slice o hu hi] at hr
    have hr' : splitBop slice o n o.splitTolerance (1 / 10) = splitBop slice o m'' (o.nominal * 10) 10 := hr
    rw [hr']
    have hd0 : ∀ a : Nat, tried (-(a : ℤ)) → slice (o.nominal * (10 : ℚ) ^ (-(a : ℤ))) = none := by
      intro a ha
      obtain ⟨h2, h3⟩ := hdown a ha.1
      rw [h3]
      exact hk a h2
    rcases bop_up slice o 11 (o.nominal * 10) m'' hup hend (by omega) with ⟨k, c, hk', hc, hr2, hj⟩ | ⟨hr2, hk'⟩
    · refine Or.inl ⟨(k : ℤ) + 1, c, ⟨?_, ?_⟩, ?_, hr2, ?_⟩
      · rw [zpow_succ_nat]
        have hp : (1 : ℚ) ≤ 10 ^ k := one_le_pow₀ (by norm_num)
        have : o.nominal * 10 ≤ o.nominal * 10 * 10 ^ k := le_mul_of_one_le_right (by norm_num at hup; linarith) hp
        linarith
      · rw [zpow_succ_nat]
        rcases hk' with rfl | h
        · norm_num
          linarith
        · exact h
      · rw [zpow_succ_nat]; exact hc
      · intro j hj' hb
        rcases int_cases j with ⟨a, rfl⟩ | ⟨a, rfl⟩
        · exact hd0 a hj'
        · rw [zpow_succ_nat]
          refine hj a ?_
          unfold Before at hb
          omega
    · refine Or.inr ⟨hr2, fun k hk2 => ?_⟩
      rcases int_cases k with ⟨a, rfl⟩ | ⟨a, rfl⟩
      · exact hd0 a hk2
      · have h3 := hk2.2
        rw [zpow_succ_nat] at h3 ⊢
        exact hk' a (Or.inr h3)

/-- the defaults: `splitTolerance = 0`, `scaleUp = True`. A kernel that raises below 10⁻⁸ is called at 10⁻⁸ -/
example : 1 / 10 ^ 13 ≤ ({} : Options).nominal ∧ ({} : Options).nominal < 1 / 10 ∧ ({} : Options).scaleUp = true ∧
    splitBop (fun t => if t < 1 / 10 ^ 8 then none else some t) {} 30 ({} : Options).splitTolerance (1 / 10) = .ok (1 / 10 ^ 8) := by
  refine ⟨?_, ?_, rfl, by decide +kernel⟩ <;> norm_num [Options.nominal]

/-- without scaling up, and a tolerance between 10⁻¹³ and 0.1: the tolerances `t, t/10, …` down to 10⁻¹³ are tried -/
theorem C82_noScaleUp_partial (slice : ℚ → Option α) (o : Options) (hu : o.scaleUp = false) (h0 : 1 / 10 ^ 13 ≤ o.splitTolerance)
    (h1 : o.splitTolerance < 1 / 10) (n : Nat) (hn : 30 ≤ n) :
    let tried : ℤ → Prop := fun k => k ≤ 0 ∧ 1 / 10 ^ 13 ≤ o.splitTolerance * (10 : ℚ) ^ k
    (∀ c, splitBop slice o n o.splitTolerance (1 / 10) = .ok c ↔
      ∃ k, tried k ∧ slice (o.splitTolerance * (10 : ℚ) ^ k) = some c ∧
        ∀ j, tried j → Before j k → slice (o.splitTolerance * (10 : ℚ) ^ j) = none) ∧
    ((∀ k, tried k → slice (o.splitTolerance * (10 : ℚ) ^ k) = none) → splitBop slice o n o.splitTolerance (1 / 10) = .error .kernel) := by
  intro tried
  refine first_of_disj ?_
  have hsm : o.splitTolerance / 10 ^ 12 < 1 / 10 ^ 12 := by
    rw [div_lt_div_iff_of_pos_right (by norm_num)]
    linarith
  rcases bop_down slice o 12 o.splitTolerance n h1 hsm (by omega) with ⟨k, c, hk, hc, hr, hj⟩ | ⟨i, m', hi, hi2, hm, -, hr, hij, hk⟩
  · refine Or.inl ⟨-(k : ℤ), c, ⟨by omega, ?_⟩, ?_, hr, ?_⟩
    · rw [zpow_neg_nat]
      norm_num at hk ⊢
      linarith
    · rw [zpow_neg_nat]; exact hc
    · intro j hj' hb
      rcases int_cases j with ⟨a, rfl⟩ | ⟨a, rfl⟩
      · rw [zpow_neg_nat]
        refine hj a ?_
        unfold Before at hb
        omega
      · have := hj'.1
        omega
  · obtain ⟨m'', rfl⟩ : ∃ m'', m' = m'' + 1 := ⟨m' - 1, by omega⟩
    have h3 : ¬ o.splitTolerance / 10 ^ i ≥ 1 / 10 := by
      intro h'
      norm_num at hi h'
      linarith
    rw [splitBop, if_neg h3, if_pos hi, if_neg (by rw [hu]; decide)] at hr
    -- every exponent tried is above `-i`
    have hge : ∀ a : Nat, tried (-(a : ℤ)) → a ≤ i := by
      intro a ha
      by_contra hlt
      have h2 := ha.2
      rw [zpow_neg_nat] at h2
      obtain ⟨b, rfl⟩ : ∃ b, a = i + 1 + b := ⟨a - i - 1, by omega⟩
      have hp : (1 : ℚ) ≤ 10 ^ b := one_le_pow₀ (by norm_num)
      have hp' : (0 : ℚ) ≤ o.splitTolerance / 10 ^ i / 10 := by
        have : (0 : ℚ) ≤ o.splitTolerance := by norm_num at h0; linarith
        positivity
      have e : o.splitTolerance / 10 ^ (i + 1 + b) = o.splitTolerance / 10 ^ i / 10 / 10 ^ b := by
        rw [pow_add, pow_succ]
        field_simp
      rw [e] at h2
      have := div_le_self hp' hp
      norm_num at hi h2 this
      linarith
    have hlast : tried (-(i : ℤ)) := ⟨by omega, by rw [zpow_neg_nat]; exact hi2 h0⟩
    cases hs : slice (o.splitTolerance / 10 ^ i) with
    | some c =>
      rw [hs] at hr
      refine Or.inl ⟨-(i : ℤ), c, hlast, by rw [zpow_neg_nat]; exact hs, hr, fun j hj' hb => ?_⟩
      rcases int_cases j with ⟨a, rfl⟩ | ⟨a, rfl⟩
      · rw [zpow_neg_nat]
        have : a < i := by
          unfold Before at hb
          omega
        exact hk a (hij a this)
      · have := hj'.1
        omega
    | none =>
      rw [hs] at hr
      refine Or.inr ⟨hr, fun k hk2 => ?_⟩
      rcases int_cases k with ⟨a, rfl⟩ | ⟨a, rfl⟩
      · rw [zpow_neg_nat]
        rcases Nat.lt_or_ge a i with h | h
        · exact hk a (hij a h)
        · have : a = i := Nat.le_antisymm (hge a hk2) h
          rw [this]; exact hs
      · have := hk2.1
        omega

example : splitBop (fun t => if t < 1 / 10 ^ 6 then some t else none) ⟨1 / 10 ^ 4, false, 0⟩ 30 (1 / 10 ^ 4) (1 / 10) = .ok (1 / 10 ^ 7) ∧
    (1 : ℚ) / 10 ^ 13 ≤ (⟨1 / 10 ^ 4, false, 0⟩ : Options).splitTolerance ∧ (⟨1 / 10 ^ 4, false, 0⟩ : Options).splitTolerance < 1 / 10 := by
  refine ⟨by decide +kernel, ?_, ?_⟩ <;> norm_num

/-- without scaling up, a tolerance below 10⁻¹² is the only one tried -/
theorem C82_fine_partial (slice : ℚ → Option α) (o : Options) (hu : o.scaleUp = false) (h : o.splitTolerance < 1 / 10 ^ 12) (n : Nat) (hn : 1 ≤ n) :
    (∀ c, splitBop slice o n o.splitTolerance (1 / 10) = .ok c ↔ slice o.splitTolerance = some c) ∧
    (slice o.splitTolerance = none → splitBop slice o n o.splitTolerance (1 / 10) = .error .kernel) := by
  obtain ⟨n, rfl⟩ : ∃ n', n = n' + 1 := ⟨n - 1, by omega⟩
  have h3 : ¬ o.splitTolerance ≥ 1 / 10 := by
    intro h'
    norm_num at h h'
    linarith
  rw [splitBop, if_neg h3, if_pos h, if_neg (by rw [hu]; decide)]
  cases slice o.splitTolerance <;> simp

example : (⟨0, false, 0⟩ : Options).scaleUp = false ∧ (⟨0, false, 0⟩ : Options).splitTolerance < 1 / 10 ^ 12 := ⟨rfl, by norm_num⟩

/-- the cut ends for every accepted tolerance other than those between 0 and 10⁻¹³ with scaling up -/
theorem C82_ends_partial (slice : ℚ → Option α) (o : Options) (h0 : 0 ≤ o.splitTolerance)
    (h : o.scaleUp = false ∨ o.splitTolerance = 0 ∨ 1 / 10 ^ 13 ≤ o.splitTolerance) (n : Nat) (hn : 30 ≤ n) :
    splitBop slice o n o.splitTolerance (1 / 10) ≠ .error .depth := by
  intro hd
  rcases le_or_gt (1 / 10) o.splitTolerance with hc | hc
  · have := C82_coarse_partial slice o hc n (by omega)
    cases hs : slice o.splitTolerance with
    | some c => rw [(this.1 c).mpr hs] at hd; cases hd
    | none => rw [this.2 hs] at hd; cases hd
  · cases hu : o.scaleUp with
    | false =>
      rcases lt_or_ge o.splitTolerance (1 / 10 ^ 12) with hf | hf
      · have := C82_fine_partial slice o hu hf n (by omega)
        cases hs : slice o.splitTolerance with
        | some c => rw [(this.1 c).mpr hs] at hd; cases hd
        | none => rw [this.2 hs] at hd; cases hd
      · have hsm : o.splitTolerance / 10 ^ 12 < 1 / 10 ^ 12 := by
          rw [div_lt_div_iff_of_pos_right (by norm_num)]
          linarith
        rcases bop_down slice o 12 o.splitTolerance n hc hsm (by omega) with ⟨k, c, hk, -, hr, -⟩ | ⟨i, m', hi, -, hm, -, hr, -, -⟩
        · rw [hr] at hd; cases hd
        · obtain ⟨m'', rfl⟩ : ∃ m'', m' = m'' + 1 := ⟨m' - 1, by omega⟩
          have h3 : ¬ o.splitTolerance / 10 ^ i ≥ 1 / 10 := by
            intro h'
            norm_num at hi h'
            linarith
          rw [splitBop, if_neg h3, if_pos hi, if_neg (by rw [hu]; decide)] at hr
          rw [hr] at hd
          split at hd <;> cases hd
    | true =>
      have hnom : 1 / 10 ^ 13 ≤ o.nominal ∧ o.nominal < 1 / 10 := by
        unfold Options.nominal
        rcases h with h | h | h
        · rw [hu] at h; cases h
        · rw [if_pos h]; norm_num
        · split
          · norm_num
          · exact ⟨h, hc⟩
      have hsm : o.splitTolerance / 10 ^ 12 < 1 / 10 ^ 12 := by
        rw [div_lt_div_iff_of_pos_right (by norm_num)]
        linarith
      rcases bop_down slice o 12 o.splitTolerance n hc hsm (by omega) with ⟨k, c, hk, -, hr, -⟩ | ⟨i, m', hi, -, hm, -, hr, -, -⟩
      · rw [hr] at hd; cases hd
      · obtain ⟨m'', rfl⟩ : ∃ m'', m' = m'' + 1 := ⟨m' - 1, by omega⟩
        rw [bop_switch slice o hu hi] at hr
        have hr' : splitBop slice o n o.splitTolerance (1 / 10) = splitBop slice o m'' (o.nominal * 10) 10 := hr
        have hup : 1 / 10 ^ 12 ≤ o.nominal * 10 := by
          have := hnom.1
          norm_num at this ⊢
          linarith
        have hend : 1 / 10 ≤ o.nominal * 10 * 10 ^ 11 := by
          have := hnom.1
          norm_num at this ⊢
          linarith
        rcases bop_up slice o 11 (o.nominal * 10) m'' hup hend (by omega) with ⟨k, c, _, _, hr2, _⟩ | ⟨hr2, _⟩
        · rw [hr', hr2] at hd; cases hd
        · rw [hr', hr2] at hd; cases hd

example : (0 : ℚ) ≤ ({} : Options).splitTolerance ∧ ({} : Options).splitTolerance = 0 := ⟨le_refl _, rfl⟩

end Geouned.Decom
