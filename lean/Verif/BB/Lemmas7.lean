import Verif.BB.Lemmas6
import Verif.BB.Fine
/-!
# Lemmas: the box of a level-0 definition, before it is enlarged
-/
namespace Geouned.BB
open Geouned Geouned.Rev.Solid

variable {F : Type} [Field F] [LinearOrder F] [IsStrictOrderedRing F]

theorem Fine.mem {c : Comp F} {op : Op} {lits : List Int} (h : Fine c op lits) : ∀ n ∈ lits, n.natAbs ∈ c.nums :=
  fun n hn => (h.surfaces _).2 ⟨n, hn, rfl⟩

theorem intersection_near (c : Comp F) (lits : List Int) (h : Fine c .and lits) (hin : ∀ x, AllOf c.planes lits x → c.out.Mem x)
    (hw : Wide (AllOf c.planes lits))
    (hfar : ∃ k, c.univ.Corner k ∧ ∃ n ∈ lits, (0 < n → (c.planes n.natAbs).ev k ≤ -c.tol) ∧ (n < 0 → c.tol ≤ (c.planes n.natAbs).ev k)) :
    ∃ b, component c = some ⟨some b, .fwd⟩ ∧ ∀ x, AllOf c.planes lits x → b.Near (3 / 10) x := by
  obtain ⟨k, hk, n, hn, h1, h2⟩ := hfar
  have htol : 0 < c.tol := lt_trans (by norm_num) h.tol
  have hor := orientation_not_rev hk (clear_and h.definition h.mem h.nonzero htol hn h1 h2)
  obtain ⟨b, hb, hall⟩ := component_near (Q := AllOf c.planes lits) (boxOri_fwd hor)
    (fun cut _ x hx f => vertex_bounded h.nonzero h.mem hin cut hx f)
    (fun v hv p hp => by
      simp only [decide_true]
      exact near_and h.definition h.mem h.nonzero h.unit h.tol hv hp) hw
  exact ⟨b, hb, hall⟩

theorem intersection_cut_near (c : Comp F) (lits : List Int) (h : Fine c .and lits)
    (hw : Wide (fun x => AllOf c.planes lits x ∧ c.out.Mem x))
    (hfar : ∃ k, c.univ.Corner k ∧ ∃ n ∈ lits, (0 < n → (c.planes n.natAbs).ev k ≤ -c.tol) ∧ (n < 0 → c.tol ≤ (c.planes n.natAbs).ev k))
    (hnear : ∃ k, c.univ.Corner k ∧ ∀ n ∈ lits, (0 < n → -c.tol < (c.planes n.natAbs).ev k) ∧ (n < 0 → (c.planes n.natAbs).ev k < c.tol))
    (hedge : ∀ m ∈ lits, ∀ n ∈ lits, cross (c.planes m.natAbs).nrm (c.planes n.natAbs).nrm ≠ ⟨0, 0, 0⟩ →
      ∀ p, c.out.Edge p → ¬ ((c.planes m.natAbs).ev p = 0 ∧ (c.planes n.natAbs).ev p = 0)) :
    ∃ b, component c = some ⟨some b, .fwd⟩ ∧ ∀ x, AllOf c.planes lits x → c.out.Mem x → b.Near (3 / 10) x := by
  obtain ⟨k, hk, n, hn, h1, h2⟩ := hfar
  obtain ⟨k', hk', hall'⟩ := hnear
  have htol : 0 < c.tol := lt_trans (by norm_num) h.tol
  have hor : orientation c = .und := by
    refine orientation_und hk (clear_and h.definition h.mem h.nonzero htol hn h1 h2) hk' ?_
    rw [inside_true, h.definition]
    simp only [evaluate]
    rw [Ne, evaluate_and_false]
    rintro ⟨n, hm, hf⟩
    rw [litVal_false (h.mem n hm) htol] at hf
    have := hall' n hm
    split at hf
    · rename_i hneg; exact absurd (this.2 hneg) (not_lt.2 hf)
    · rename_i hneg; exact absurd (this.1 (by have := h.nonzero n hm; omega)) (not_lt.2 hf)
  obtain ⟨b, hb, hall⟩ := component_near (Q := fun x => AllOf c.planes lits x ∧ c.out.Mem x) (o := .fwd) (by rw [hor]; rfl)
    (fun cut hcut x hx f => by
      rw [hcut hor]
      obtain ⟨v, q1, q2, q3, q4⟩ := vertex_cut h.out h.nonzero h.mem (fun m hm n hn hl p hp e1 e2 =>
        hedge m hm n hn (by unfold hasLine at hl; simpa using hl) p hp ⟨e1, e2⟩) hx.1 hx.2 f
      exact ⟨v, q1, ⟨q2, q3⟩, q4⟩)
    (fun v hv p hp => by
      simp only [decide_true]
      exact near_and h.definition h.mem h.nonzero h.unit h.tol hv.1 hp) hw
  exact ⟨b, hb, fun x h1 h2 => hall x ⟨h1, h2⟩⟩

theorem union_near (c : Comp F) (lits : List Int) (h : Fine c .or lits)
    (hw : Wide (fun x => OneOf c.planes lits x ∧ c.out.Mem x))
    (hfar : ∃ k, c.univ.Corner k ∧ ∀ n ∈ lits, (0 < n → (c.planes n.natAbs).ev k ≤ -c.tol) ∧ (n < 0 → c.tol ≤ (c.planes n.natAbs).ev k))
    (hnear : ∃ k, c.univ.Corner k ∧ OneOf c.planes lits k) :
    ∃ b, component c = some ⟨some b, .fwd⟩ ∧ ∀ x, OneOf c.planes lits x → c.out.Mem x → b.Near (3 / 10) x := by
  obtain ⟨k, hk, hkf⟩ := hfar
  obtain ⟨k', hk', hkn⟩ := hnear
  have htol : 0 < c.tol := lt_trans (by norm_num) h.tol
  have hor : orientation c = .und :=
    orientation_und hk (clear_or h.definition h.mem h.nonzero htol hkf) hk'
      (near_or h.definition h.mem h.nonzero h.unit h.tol hkn (dev_mono (by norm_num) (dev_refl k')))
  obtain ⟨b, hb, hall⟩ := component_near (Q := fun x => OneOf c.planes lits x ∧ c.out.Mem x) (o := .fwd) (by rw [hor]; rfl)
    (fun cut hcut x hx f => by
      rw [hcut hor]
      obtain ⟨⟨n, hn, hside⟩, hm⟩ := hx
      obtain ⟨v, q1, q2, q3, q4⟩ := vertex_cut (nums := c.nums) (pl := c.planes) (lits := [n]) h.out (by simpa using h.nonzero n hn)
        (by simpa using h.mem n hn) (by
          intro m hm m' hm' hl
          simp only [List.mem_singleton] at hm hm'
          subst hm; subst hm'
          simp [hasLine, cross, mul_comm] at hl) (x := x) (by intro m hm; simp only [List.mem_singleton] at hm; subst hm; exact hside) hm f
      exact ⟨v, q1, ⟨⟨n, hn, q2 n (by simp)⟩, q3⟩, q4⟩)
    (fun v hv p hp => by
      simp only [decide_true]
      exact near_or h.definition h.mem h.nonzero h.unit h.tol hv.1 hp) hw
  exact ⟨b, hb, fun x h1 h2 => hall x ⟨h1, h2⟩⟩

theorem outside_near (c : Comp F) (lits : List Int) (h : Fine c .or lits)
    (hin : ∀ x, AllOf c.planes (lits.map (fun n => -n)) x → c.out.Mem x) (hw : Wide (AllOf c.planes (lits.map (fun n => -n))))
    (hnear : ∀ k, c.univ.Corner k → OneOf c.planes lits k) :
    ∃ b, component c = some ⟨some b, .rev⟩ ∧ ∀ x, AllOf c.planes (lits.map (fun n => -n)) x → b.Near (3 / 10) x := by
  have hor : orientation c = .rev := orientation_rev (fun k hk =>
    near_or h.definition h.mem h.nonzero h.unit h.tol (hnear k hk) (dev_mono (by norm_num) (dev_refl k)))
  obtain ⟨b, hb, hall⟩ := component_near (Q := AllOf c.planes (lits.map (fun n => -n))) (o := .rev) (by rw [hor]; rfl)
    (fun cut _ x hx f => vertex_bounded (by
        intro m hm
        obtain ⟨n, hn, rfl⟩ := List.mem_map.1 hm
        exact neg_ne_zero.2 (h.nonzero n hn)) (by
        intro m hm
        obtain ⟨n, hn, rfl⟩ := List.mem_map.1 hm
        rw [Int.natAbs_neg]; exact h.mem n hn) hin cut hx f)
    (fun v hv p hp => by
      have : decide (Ori.rev = Ori.fwd) = false := by decide
      rw [this]
      exact near_or_out h.definition h.mem h.nonzero h.unit h.tol hv hp) hw
  exact ⟨b, hb, hall⟩

theorem everywhere_near (c : Comp F) (lits : List Int) (h : Fine c .and lits) (hu : ∀ x, c.out.Mem x → c.univ.Mem x)
    (hin : ∀ k, c.univ.Corner k → ∀ n ∈ lits, (0 < n → 0 < (c.planes n.natAbs).ev k) ∧ (n < 0 → (c.planes n.natAbs).ev k < 0)) :
    ∃ b, component c = some ⟨b, .rev⟩ ∧ ∀ x, c.out.Mem x → Region c.planes c.definition x := by
  have hor : orientation c = .rev := orientation_rev (fun k hk => by
    refine near_and h.definition h.mem h.nonzero h.unit h.tol (v := k) ?_ (dev_mono (by norm_num) (dev_refl k))
    exact fun n hn => ⟨fun hp => ((hin k hk n hn).1 hp).le, fun hp => ((hin k hk n hn).2 hp).le⟩)
  obtain ⟨b, hb⟩ := component_total c
  rw [hor] at hb
  refine ⟨b, hb, ?_⟩
  have hall : ∀ x, c.out.Mem x → Region c.planes c.definition x := by
    intro x hx
    rw [h.definition, region_and]
    intro n hn
    unfold lit
    by_cases hneg : n < 0
    · rw [if_pos hneg]
      obtain ⟨k, hk, hle⟩ := corner_min (b := c.univ) ⟨-(c.planes n.natAbs).nrm.x, -(c.planes n.natAbs).nrm.y, -(c.planes n.natAbs).nrm.z⟩ (hu x hx)
      have h1 := (hin k hk n hn).2 hneg
      simp only [Bool.not_eq_true', decide_eq_false_iff_not, not_lt]
      simp only [Plane.ev, dot, sub] at h1 hle ⊢
      linarith
    · rw [if_neg hneg]
      obtain ⟨k, hk, hle⟩ := corner_min (b := c.univ) (c.planes n.natAbs).nrm (hu x hx)
      have h1 := (hin k hk n hn).1 (by have := h.nonzero n hn; omega)
      rw [decide_eq_true_iff]
      simp only [Plane.ev, dot, sub] at h1 hle ⊢
      linarith
  exact hall

theorem nowhere_near (c : Comp F) (lits : List Int) (h : Fine c .or lits) (hu : ∀ x, c.out.Mem x → c.univ.Mem x)
    (hin : ∀ k, c.univ.Corner k → ∀ n ∈ lits, (0 < n → (c.planes n.natAbs).ev k ≤ -c.tol) ∧ (n < 0 → c.tol ≤ (c.planes n.natAbs).ev k)) :
    ∃ b, component c = some ⟨b, .fwd⟩ ∧ ∀ x, c.out.Mem x → ¬ Region c.planes c.definition x := by
  have htol : 0 < c.tol := lt_trans (by norm_num) h.tol
  have hor : orientation c = .fwd := orientation_fwd (fun k hk => clear_or h.definition h.mem h.nonzero htol (hin k hk))
  obtain ⟨b, hb⟩ := component_total c
  rw [hor] at hb
  refine ⟨b, hb, ?_⟩
  have hall : ∀ x, c.out.Mem x → ¬ Region c.planes c.definition x := by
    intro x hx
    rw [h.definition, region_or]
    rintro ⟨n, hn, ht⟩
    unfold lit at ht
    by_cases hneg : n < 0
    · rw [if_pos hneg] at ht
      obtain ⟨k, hk, hle⟩ := corner_min (b := c.univ) (c.planes n.natAbs).nrm (hu x hx)
      have h1 := (hin k hk n hn).2 hneg
      simp only [Bool.not_eq_true', decide_eq_false_iff_not, not_lt] at ht
      simp only [Plane.ev, dot, sub] at h1 hle ht
      linarith
    · rw [if_neg hneg] at ht
      obtain ⟨k, hk, hle⟩ := corner_min (b := c.univ) ⟨-(c.planes n.natAbs).nrm.x, -(c.planes n.natAbs).nrm.y, -(c.planes n.natAbs).nrm.z⟩ (hu x hx)
      have h1 := (hin k hk n hn).1 (by have := h.nonzero n hn; omega)
      rw [decide_eq_true_iff] at ht
      simp only [Plane.ev, dot, sub] at h1 hle ht
      linarith
  exact hall

end Geouned.BB
