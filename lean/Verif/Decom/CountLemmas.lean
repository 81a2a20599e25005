import Verif.Decom.Spec
import Verif.Decom.Lemmas
import Mathlib.Algebra.BigOperators.Group.List.Basic
import Mathlib.Algebra.Group.Pi.Basic
import Mathlib.Algebra.Group.Prod
import Mathlib.Data.List.Count
import Mathlib.Tactic.SplitIfs
/-!
# Counting the pieces around a point
-/
namespace Geouned.Decom

variable {S T Pt : Type}

open Classical in
/-- 1 at the points of `s`, together with the volume -/
noncomputable def weight (k : Cad S T) (mem : S → Pt → Prop) (s : S) : (Pt → ℕ) × ℚ := (fun x => if mem s x then 1 else 0, k.vol s)

open Classical in
theorem weight_sum (k : Cad S T) (mem : S → Pt → Prop) (l : List S) :
    (l.map (weight k mem)).sum = (fun x => l.countP (fun s => decide (mem s x)), (l.map k.vol).sum) := by
  induction l with
  | nil => rfl
  | cons s l ih =>
    rw [List.map_cons, List.sum_cons, ih]
    refine Prod.ext ?_ ?_
    · funext x
      simp only [weight, Prod.fst_add, Pi.add_apply]
      rw [List.countP_cons]
      simp only [decide_eq_true_eq]
      rw [Nat.add_comm]
    · simp [weight]

open Classical in
theorem apart_iff (mem : S → Pt → Prop) (l : List S) :
    l.Pairwise (Apart mem) ↔ ∀ x, l.countP (fun s => decide (mem s x)) ≤ 1 := by
  induction l with
  | nil => simp
  | cons s l ih =>
    rw [List.pairwise_cons]
    constructor
    · rintro ⟨h1, h2⟩ x
      rw [List.countP_cons]
      have := ih.mp h2 x
      by_cases hs : mem s x
      · have h0 : l.countP (fun s => decide (mem s x)) = 0 := by
          rw [List.countP_eq_zero]
          intro q hq hm
          exact h1 q hq x ⟨hs, by simpa using hm⟩
        simp only [h0, hs, decide_true, if_true]
        omega
      · simp only [hs, decide_false, Bool.false_eq_true, if_false]
        omega
    · intro h
      refine ⟨fun q hq x hx => ?_, ih.mpr fun x => ?_⟩
      · have := h x
        rw [List.countP_cons] at this
        simp only [hx.1, decide_true, if_true] at this
        have hp : 0 < l.countP (fun s => decide (mem s x)) := by
          rw [List.countP_pos_iff]
          exact ⟨q, hq, by simpa using hx.2⟩
        omega
      · have := h x
        rw [List.countP_cons] at this
        omega

open Classical in
/-- a division of solids that have no point in common: the weights agree -/
theorem divides_iff (k : Cad S T) (mem : S → Pt → Prop) {ps l : List S} (hl : l.Pairwise (Apart mem)) :
    Divides k mem ps l ↔ (ps.map (weight k mem)).sum = (l.map (weight k mem)).sum := by
  rw [weight_sum, weight_sum]
  have hl1 := (apart_iff mem l).mp hl
  constructor
  · intro h
    refine Prod.ext ?_ h.volume
    funext x
    have h1 := (apart_iff mem ps).mp h.apart x
    have h2 := hl1 x
    have h3 := h.same x
    by_cases hx : ∃ s ∈ l, mem s x
    · obtain ⟨p, hp, hm⟩ := h3.mpr hx
      obtain ⟨s, hs, hsm⟩ := hx
      have a : 0 < ps.countP (fun s => decide (mem s x)) := List.countP_pos_iff.mpr ⟨p, hp, by simpa using hm⟩
      have b : 0 < l.countP (fun s => decide (mem s x)) := List.countP_pos_iff.mpr ⟨s, hs, by simpa using hsm⟩
      change ps.countP _ = l.countP _
      omega
    · have a : ps.countP (fun s => decide (mem s x)) = 0 := by
        rw [List.countP_eq_zero]
        intro p hp hm
        exact hx (h3.mp ⟨p, hp, by simpa using hm⟩)
      have b : l.countP (fun s => decide (mem s x)) = 0 := by
        rw [List.countP_eq_zero]
        intro p hp hm
        exact hx ⟨p, hp, by simpa using hm⟩
      change ps.countP _ = l.countP _
      omega
  · intro h
    have h1 : ∀ x, ps.countP (fun s => decide (mem s x)) = l.countP (fun s => decide (mem s x)) :=
      fun x => congrFun (congrArg Prod.fst h) x
    refine ⟨fun x => ?_, (apart_iff mem ps).mpr fun x => ?_, congrArg Prod.snd h⟩
    · have a : (∃ p ∈ ps, mem p x) ↔ 0 < ps.countP (fun s => decide (mem s x)) := by
        rw [List.countP_pos_iff]; simp
      have b : (∃ p ∈ l, mem p x) ↔ 0 < l.countP (fun s => decide (mem s x)) := by
        rw [List.countP_pos_iff]; simp
      rw [a, b, h1]
    · rw [h1]; exact hl1 x

theorem exact_cons {k : Cad S T} {mem : S → Pt → Prop} (h : Exact k mem) : Cons k (weight k mem) := by
  intro s ts tol ps hs
  have := (divides_iff k mem (by simp)).mp (h s ts tol ps hs)
  simpa using this

end Geouned.Decom
