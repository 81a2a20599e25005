import Verif.RSurf.QuadLemmas
import Mathlib.Analysis.Matrix.Spectrum
import Mathlib.Data.Fin.Tuple.Sort
/-! The contract `IsEigh` can be met for every quadric (spectral theorem). -/
namespace Geouned.RSurf
open Geouned.Geom

/-- the symmetric matrix of the second-degree terms -/
noncomputable def quadMat (q : GQ) : Matrix (Fin 3) (Fin 3) ℝ := !![q.A, q.D / 2, q.F / 2; q.D / 2, q.B, q.E / 2; q.F / 2, q.E / 2, q.C]

theorem quadMat_herm (q : GQ) : (quadMat q).IsHermitian := by
  ext i j
  fin_cases i <;> fin_cases j <;> simp [quadMat]

theorem isEigh_exists (q : GQ) : ∃ E, IsEigh q E := by
  classical
  let hA := quadMat_herm q
  let σ := Tuple.sort hA.eigenvalues
  let v : Fin 3 → Fin 3 → ℝ := fun i k => hA.eigenvectorBasis (σ i) k
  let E : Eig := ⟨fun i => hA.eigenvalues (σ i), fun i => ⟨v i 0, v i 1, v i 2⟩⟩
  have hmono := Tuple.monotone_sort hA.eigenvalues
  have hu : Orthonormal3 E.u := by
    intro i j
    have ho := hA.eigenvectorBasis.orthonormal
    rw [orthonormal_iff_ite] at ho
    have := ho (σ i) (σ j)
    rw [PiLp.inner_apply, Fin.sum_univ_three] at this
    simp only [RCLike.inner_apply, conj_trivial, σ.injective.eq_iff] at this
    simp only [E, v, Vec.dot]
    rw [← this]
    ring
  have hev : ∀ i, (quadMat q).mulVec (v i) = fun k => E.e i * v i k := by
    intro i
    have := hA.mulVec_eigenvectorBasis (σ i)
    funext k
    have := congrFun this k
    simpa [v, E] using this
  refine ⟨E, hu, hmono (by decide : (0 : Fin 3) ≤ 1), hmono (by decide : (1 : Fin 3) ≤ 2), fun p => ?_⟩
  let Ap : Vec := ⟨q.A * p.x + q.D / 2 * p.y + q.F / 2 * p.z, q.D / 2 * p.x + q.B * p.y + q.E / 2 * p.z, q.F / 2 * p.x + q.E / 2 * p.y + q.C * p.z⟩
  have h1 : quadPart q p = p.dot Ap := by simp only [quadPart, Ap, Vec.dot]; ring
  have h2 : ∀ i, (E.u i).dot Ap = E.e i * (E.u i).dot p := by
    intro i
    have e0 := congrFun (hev i) 0; have e1 := congrFun (hev i) 1; have e2 := congrFun (hev i) 2
    simp [quadMat, Matrix.mulVec, dotProduct, Fin.sum_univ_three] at e0 e1 e2
    simp only [E, Ap, Vec.dot] at *
    linear_combination p.x * e0 + p.y * e1 + p.z * e2
  rw [h1, orth_complete hu p Ap, h2, h2, h2]
  ring

/-- a function with the contract of `eigh` exists -/
theorem eigh_exists : ∃ eigh : GQ → Eig, ∀ q, IsEigh q (eigh q) := ⟨fun q => (isEigh_exists q).choose, fun q => (isEigh_exists q).choose_spec⟩

end Geouned.RSurf
