import Verif.RSurf.QuadLemmas
namespace Geouned.RSurf
open Geouned.Geom

theorem f01 : (0 : Fin 3) + 1 = 1 := rfl
theorem f02 : (0 : Fin 3) + 2 = 2 := rfl
theorem f11 : (1 : Fin 3) + 1 = 2 := rfl
theorem f12 : (1 : Fin 3) + 2 = 0 := rfl
theorem f21 : (2 : Fin 3) + 1 = 0 := rfl
theorem f22 : (2 : Fin 3) + 2 = 1 := rfl

/-- an eigenvalue counts as zero only if it is -/
def ClearZero (l : ℝ) : Prop := l = 0 ∨ 1 / 10 ^ 8 ≤ |l|

theorem clear_lt {l : ℝ} (h : ClearZero l) (h' : |l| < 1 / 10 ^ 8) : l = 0 := h.resolve_right (not_le.mpr h')

theorem gqTD_eq {q : GQ} {E : Eig} {c : Vec} {i : Fin 3} (hx : gqXD q E i = -(E.e i * (E.u i).dot c)) (hc : ClearZero (E.e i)) :
    (E.e i ≠ 0 → gqTD q E i = (E.u i).dot c) ∧ gqTD q E i * gqXD q E i = -(E.e i * (E.u i).dot c ^ 2) := by
  unfold gqTD
  rw [hx]
  by_cases h : |E.e i| < 1 / 10 ^ 8
  · have h0 := clear_lt hc h
    rw [if_pos h, h0]
    simp
  · have h0 : E.e i ≠ 0 := by rintro e; rw [e] at h; norm_num at h
    rw [if_neg h]
    constructor
    · intro _; field_simp
    · field_simp

theorem dot_gqT {E : Eig} (hu : Orthonormal3 E.u) (TD : Fin 3 → ℝ) (i : Fin 3) : (E.u i).dot (gqT E TD) = TD i := by
  simp only [gqT, dot_add, dot_smul]
  fin_cases i <;> simp [hu 0 0, hu 0 1, hu 0 2, hu 1 0, hu 1 1, hu 1 2, hu 2 0, hu 2 1, hu 2 2]

/-- how a quadric with a centre is read -/
theorem gq_read {q : GQ} {w : Fin 3 → Vec} {c : Vec} {l0 l1 l2 K : ℝ} (h : Principal q w c l0 l1 l2 K) {E : Eig} (hE : IsEigh q E)
    (c0 : ClearZero l0) (c1 : ClearZero l1) (c2 : ClearZero l2) :
    ∃ T, gq2params q E = conicSurface E T K none ∧ ∀ i, E.e i ≠ 0 → (E.u i).dot T = (E.u i).dot c := by
  obtain ⟨e0, e1, e2, hx, hK, _⟩ := eigh_facts h hE
  have hcl : ∀ i, ClearZero (E.e i) := by
    intro i; fin_cases i
    · rw [← e0] at c0; exact c0
    · rw [← e1] at c1; exact c1
    · rw [← e2] at c2; exact c2
  have hk : gqK q E = K := by
    unfold gqK
    rw [(gqTD_eq (hx 0) (hcl 0)).2, (gqTD_eq (hx 1) (hcl 1)).2, (gqTD_eq (hx 2) (hcl 2)).2, ← hK, eval_split, hE.2.2.2]
    have : (⟨q.G / 2, q.H / 2, q.J / 2⟩ : Vec).dot c = (E.u 0).dot c * gqXD q E 0 + (E.u 1).dot c * gqXD q E 1 + (E.u 2).dot c * gqXD q E 2 := by
      rw [orth_complete hE.1]
      simp only [gqXD, dot_comm' (E.u 0) ⟨_, _, _⟩, dot_comm' (E.u 1) ⟨_, _, _⟩, dot_comm' (E.u 2) ⟨_, _, _⟩]
      ring
    rw [this, hx, hx, hx]
    ring
  refine ⟨gqT E (gqTD q E), ?_, fun i hi => by rw [dot_gqT hE.1]; exact (gqTD_eq (hx i) (hcl i)).1 hi⟩
  unfold gq2params
  rw [hk]
  cases hz : gqZero E with
  | none => rfl
  | some iz =>
    have h0 : E.e iz = 0 := by
      unfold gqZero at hz
      split at hz
      · rename_i hh; simp only [Option.some.injEq] at hz; subst hz; exact clear_lt (hcl 0) hh
      · split at hz
        · rename_i hh; simp only [Option.some.injEq] at hz; subst hz; exact clear_lt (hcl 1) hh
        · split at hz
          · rename_i hh; simp only [Option.some.injEq] at hz; subst hz; exact clear_lt (hcl 2) hh
          · simp at hz
    have : ¬ (1 : ℝ) / 10 ^ 6 < |2 * gqXD q E iz| := by rw [hx, h0]; norm_num
    simp only [if_neg this]

theorem mm_sub (p T : Vec) (v : Vec) : ((mm p).sub (Vec.smul 10 T)).dot v = 10 * (v.dot p - v.dot T) := by
  simp only [mm, Vec.dot, Vec.sub, Vec.smul]; ring

theorem eq_of_dots {u : Fin 3 → Vec} (hu : Orthonormal3 u) {a b : Vec} (h : ∀ i, (u i).dot a = (u i).dot b) : a = b := by
  have k : ∀ v : Vec, v.dot a = v.dot b := fun v => by rw [orth_complete hu v a, orth_complete hu v b, h 0, h 1, h 2]
  have x := k ⟨1, 0, 0⟩; have y := k ⟨0, 1, 0⟩; have z := k ⟨0, 0, 1⟩
  simp [Vec.dot] at x y z
  ext <;> assumption

theorem sign_pos' {x : ℝ} (h : 0 < x) : SignType.sign x = 1 := sign_pos h
theorem sign_neg' {x : ℝ} (h : x < 0) : SignType.sign x = -1 := sign_neg h

end Geouned.RSurf
