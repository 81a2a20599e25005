import Verif.RSurf.Quad
import Verif.RSurf.LoopLemmas
import Mathlib.LinearAlgebra.Matrix.NonsingularInverse
/-! Helper lemmas for the quadrics (C74). -/
namespace Geouned.RSurf
open Geouned.Geom

theorem orth_complete {u : Fin 3 → Vec} (h : Orthonormal3 u) (p q : Vec) :
    p.dot q = (u 0).dot p * (u 0).dot q + (u 1).dot p * (u 1).dot q + (u 2).dot p * (u 2).dot q := by
  let M : Matrix (Fin 3) (Fin 3) ℝ := Matrix.of fun i j => Vec.comp (u i) j
  have hM : M * M.transpose = 1 := by
    ext i j
    have := h i j
    simp only [Matrix.mul_apply, Fin.sum_univ_three, Matrix.transpose_apply, M, Matrix.of_apply, Vec.comp, Matrix.one_apply]
    simp only [Vec.dot] at this
    rw [← this]
    simp
  have hM' : M.transpose * M = 1 := mul_eq_one_comm.mp hM
  have g : ∀ i j, M 0 i * M 0 j + M 1 i * M 1 j + M 2 i * M 2 j = if i = j then 1 else 0 := by
    intro i j
    have := congrFun (congrFun hM' i) j
    simpa [Matrix.mul_apply, Fin.sum_univ_three, Matrix.one_apply] using this
  have g00 := g 0 0; have g11 := g 1 1; have g22 := g 2 2; have g01 := g 0 1; have g02 := g 0 2; have g12 := g 1 2
  simp [M, Vec.comp] at g00 g11 g22 g01 g02 g12
  simp only [Vec.dot]
  linear_combination (-p.x * q.x) * g00 - p.y * q.y * g11 - p.z * q.z * g22 - (p.x * q.y + p.y * q.x) * g01 - (p.x * q.z + p.z * q.x) * g02 - (p.y * q.z + p.z * q.y) * g12

theorem dot_comm' (a b : Vec) : a.dot b = b.dot a := by simp only [Vec.dot]; ring
theorem dot_add (a b c : Vec) : a.dot (b.add c) = a.dot b + a.dot c := by simp only [Vec.dot, Vec.add]; ring
theorem dot_sub (a b c : Vec) : a.dot (b.sub c) = a.dot b - a.dot c := by simp only [Vec.dot, Vec.sub]; ring
theorem dot_smul (k : ℝ) (a b : Vec) : a.dot (Vec.smul k b) = k * a.dot b := by simp only [Vec.dot, Vec.smul]; ring

theorem quadPart_polar (q : GQ) (a b : Vec) : quadPart q (a.add b) - quadPart q (a.sub b) = 4 * (q.A * a.x * b.x + q.B * a.y * b.y + q.C * a.z * b.z +
    q.D / 2 * (a.x * b.y + a.y * b.x) + q.E / 2 * (a.y * b.z + a.z * b.y) + q.F / 2 * (a.z * b.x + a.x * b.z)) := by
  simp only [quadPart, Vec.add, Vec.sub]; ring

/-- the bilinear form -/
theorem eig_bilin {q : GQ} {e : Fin 3 → ℝ} {u : Fin 3 → Vec}
    (h : ∀ p, quadPart q p = e 0 * (u 0).dot p ^ 2 + e 1 * (u 1).dot p ^ 2 + e 2 * (u 2).dot p ^ 2) (a b : Vec) :
    quadPart q (a.add b) - quadPart q (a.sub b) = 4 * (e 0 * (u 0).dot a * (u 0).dot b + e 1 * (u 1).dot a * (u 1).dot b + e 2 * (u 2).dot a * (u 2).dot b) := by
  rw [h, h]; simp only [dot_add, dot_sub]; ring

theorem orth_col {u : Fin 3 → Vec} (h : Orthonormal3 u) (f : Fin 3 → ℝ) (a : Vec) (i : Fin 3) :
    f 0 * (u 0).dot a * (u 0).dot (u i) + f 1 * (u 1).dot a * (u 1).dot (u i) + f 2 * (u 2).dot a * (u 2).dot (u i) = f i * (u i).dot a := by
  fin_cases i <;> simp [h 0 0, h 0 1, h 0 2, h 1 0, h 1 1, h 1 2, h 2 0, h 2 1, h 2 2]

/-- two orthonormal decompositions of the same form: related vectors belong to the same value -/
theorem eig_match {q : GQ} {e l : Fin 3 → ℝ} {u w : Fin 3 → Vec} (hu : Orthonormal3 u) (hw : Orthonormal3 w)
    (h1 : ∀ p, quadPart q p = e 0 * (u 0).dot p ^ 2 + e 1 * (u 1).dot p ^ 2 + e 2 * (u 2).dot p ^ 2)
    (h2 : ∀ p, quadPart q p = l 0 * (w 0).dot p ^ 2 + l 1 * (w 1).dot p ^ 2 + l 2 * (w 2).dot p ^ 2) (i j : Fin 3) :
    e i * (u i).dot (w j) = l j * (u i).dot (w j) := by
  have a := eig_bilin h1 (w j) (u i)
  have b := eig_bilin h2 (w j) (u i)
  rw [orth_col hu] at a
  have b' : l 0 * (w 0).dot (w j) * (w 0).dot (u i) + l 1 * (w 1).dot (w j) * (w 1).dot (u i) + l 2 * (w 2).dot (w j) * (w 2).dot (u i) = l j * (w j).dot (u i) := by
    have := orth_col hw l (u i) j
    linarith
  rw [b'] at b
  rw [dot_comm' (u i) (w j)]
  rw [dot_comm' (u i) (w j)] at a
  linarith

theorem some_comp {w : Fin 3 → Vec} (hw : Orthonormal3 w) {a : Vec} (ha : a.dot a = 1) : ∃ j, a.dot (w j) ≠ 0 := by
  by_contra hc
  push Not at hc
  have := orth_complete hw a a
  have g : ∀ j, (w j).dot a = 0 := fun j => by rw [dot_comm']; exact hc j
  rw [g 0, g 1, g 2, ha] at this
  simp at this

theorem eig_mem {q : GQ} {e l : Fin 3 → ℝ} {u w : Fin 3 → Vec} (hu : Orthonormal3 u) (hw : Orthonormal3 w)
    (h1 : ∀ p, quadPart q p = e 0 * (u 0).dot p ^ 2 + e 1 * (u 1).dot p ^ 2 + e 2 * (u 2).dot p ^ 2)
    (h2 : ∀ p, quadPart q p = l 0 * (w 0).dot p ^ 2 + l 1 * (w 1).dot p ^ 2 + l 2 * (w 2).dot p ^ 2) (i : Fin 3) : ∃ j, e i = l j := by
  have h0 := hu i i
  simp at h0
  obtain ⟨j, hj⟩ := some_comp hw h0
  exact ⟨j, mul_right_cancel₀ hj (eig_match hu hw h1 h2 i j)⟩

theorem eig_trace {q : GQ} {e : Fin 3 → ℝ} {u : Fin 3 → Vec} (hu : Orthonormal3 u)
    (h1 : ∀ p, quadPart q p = e 0 * (u 0).dot p ^ 2 + e 1 * (u 1).dot p ^ 2 + e 2 * (u 2).dot p ^ 2) : q.A + q.B + q.C = e 0 + e 1 + e 2 := by
  have a := h1 ⟨1, 0, 0⟩; have b := h1 ⟨0, 1, 0⟩; have c := h1 ⟨0, 0, 1⟩
  have n0 := hu 0 0; have n1 := hu 1 1; have n2 := hu 2 2
  simp [quadPart, Vec.dot] at a b c n0 n1 n2
  linear_combination a + b + c + e 0 * n0 + e 1 * n1 + e 2 * n2

/-- the eigenvalues are those of the principal axes -/
theorem eig_unique {q : GQ} {e l : Fin 3 → ℝ} {u w : Fin 3 → Vec} (hu : Orthonormal3 u) (hw : Orthonormal3 w)
    (h1 : ∀ p, quadPart q p = e 0 * (u 0).dot p ^ 2 + e 1 * (u 1).dot p ^ 2 + e 2 * (u 2).dot p ^ 2)
    (h2 : ∀ p, quadPart q p = l 0 * (w 0).dot p ^ 2 + l 1 * (w 1).dot p ^ 2 + l 2 * (w 2).dot p ^ 2)
    (he : e 0 ≤ e 1 ∧ e 1 ≤ e 2) (hl : l 0 ≤ l 1 ∧ l 1 ≤ l 2) : e 0 = l 0 ∧ e 1 = l 1 ∧ e 2 = l 2 := by
  have low : ∀ {f : Fin 3 → ℝ}, f 0 ≤ f 1 ∧ f 1 ≤ f 2 → ∀ j, f 0 ≤ f j ∧ f j ≤ f 2 := by
    intro f hf j
    have := hf.1; have := hf.2
    fin_cases j <;> simp <;> (try constructor) <;> linarith
  obtain ⟨j, hj⟩ := eig_mem hu hw h1 h2 0
  obtain ⟨j', hj'⟩ := eig_mem hw hu h2 h1 0
  obtain ⟨k, hk⟩ := eig_mem hu hw h1 h2 2
  obtain ⟨k', hk'⟩ := eig_mem hw hu h2 h1 2
  have t1 := eig_trace hu h1
  have t2 := eig_trace hw h2
  have a := low hl j; have b := low he j'; have c := low hl k; have d := low he k'
  have e0 : e 0 = l 0 := by linarith [a.1, b.1]
  have e2 : e 2 = l 2 := by linarith [c.2, d.2]
  exact ⟨e0, by linarith, e2⟩

/-- the quadric in terms of its quadratic and linear parts -/
theorem eval_split (q : GQ) (p : Vec) : q.eval p = quadPart q p + 2 * (⟨q.G / 2, q.H / 2, q.J / 2⟩ : Vec).dot p + q.K := by
  simp only [GQ.eval, quadPart, Vec.dot]; ring

theorem principal_quad {q : GQ} {w : Fin 3 → Vec} {c : Vec} {l0 l1 l2 K : ℝ} (h : Principal q w c l0 l1 l2 K) (p : Vec) :
    quadPart q p = l0 * (w 0).dot p ^ 2 + l1 * (w 1).dot p ^ 2 + l2 * (w 2).dot p ^ 2 := by
  have h0 := h.2.2.2 ⟨0, 0, 0⟩
  have h1 := h.2.2.2 p
  have h2 := h.2.2.2 (Vec.smul (-1) p)
  simp only [eval_split, dot_sub, dot_smul] at h0 h1 h2
  have e1 : quadPart q (Vec.smul (-1) p) = quadPart q p := by simp only [quadPart, Vec.smul]; ring
  have e2 : quadPart q ⟨0, 0, 0⟩ = 0 := by simp [quadPart]
  have e3 : ∀ a : Vec, a.dot ⟨0, 0, 0⟩ = 0 := fun a => by simp [Vec.dot]
  rw [e1] at h2
  rw [e2] at h0
  simp only [e3] at h0
  linarith

/-- half the gradient of the quadric in direction `a` at the centre vanishes -/
theorem principal_lin {q : GQ} {w : Fin 3 → Vec} {c : Vec} {l0 l1 l2 K : ℝ} (h : Principal q w c l0 l1 l2 K) (a : Vec) :
    (⟨q.G / 2, q.H / 2, q.J / 2⟩ : Vec).dot a = -(l0 * (w 0).dot c * (w 0).dot a + l1 * (w 1).dot c * (w 1).dot a + l2 * (w 2).dot c * (w 2).dot a) := by
  have h1 := h.2.2.2 a
  have h0 := h.2.2.2 ⟨0, 0, 0⟩
  simp only [eval_split, dot_sub] at h0 h1
  rw [principal_quad h a] at h1
  have e2 : quadPart q ⟨0, 0, 0⟩ = 0 := by simp [quadPart]
  have e3 : ∀ a : Vec, a.dot ⟨0, 0, 0⟩ = 0 := fun a => by simp [Vec.dot]
  rw [e2] at h0
  simp only [e3] at h0
  linarith

/-- What the reader knows of a quadric with principal axes, for any decomposition that `eigh` can give. -/
theorem eigh_facts {q : GQ} {w : Fin 3 → Vec} {c : Vec} {l0 l1 l2 K : ℝ} (h : Principal q w c l0 l1 l2 K) {E : Eig} (hE : IsEigh q E) :
    E.e 0 = l0 ∧ E.e 1 = l1 ∧ E.e 2 = l2 ∧ (∀ i, gqXD q E i = -(E.e i * (E.u i).dot c)) ∧
      q.eval c = K ∧ ∀ p, q.eval p = E.e 0 * (E.u 0).dot (p.sub c) ^ 2 + E.e 1 * (E.u 1).dot (p.sub c) ^ 2 + E.e 2 * (E.u 2).dot (p.sub c) ^ 2 + K := by
  obtain ⟨hu, he0, he1, hq⟩ := hE
  obtain ⟨e0, e1, e2⟩ := eig_unique (l := ![l0, l1, l2]) hu h.1 hq (fun p => by simpa using principal_quad h p) ⟨he0, he1⟩ (by simpa using ⟨h.2.1, h.2.2.1⟩)
  simp at e0 e1 e2
  have hx : ∀ i, gqXD q E i = -(E.e i * (E.u i).dot c) := by
    intro i
    rw [gqXD, principal_lin h]
    have b1 := eig_bilin hq c (E.u i)
    have b2 := eig_bilin (e := ![l0, l1, l2]) (fun p => by simpa using principal_quad h p) c (E.u i)
    rw [orth_col hu] at b1
    simp at b2
    linarith
  have hK : q.eval c = K := by
    rw [h.2.2.2 c]
    have : ∀ a : Vec, a.dot (c.sub c) = 0 := fun a => by rw [dot_sub]; ring
    simp [this]
  refine ⟨e0, e1, e2, hx, hK, fun p => ?_⟩
  have e := eval_split q p
  have ec := eval_split q c
  have g : quadPart q p = quadPart q (p.sub c) + (quadPart q (c.add (p.sub c)) - quadPart q (c.sub (p.sub c))) / 2 + quadPart q c := by
    simp only [quadPart, Vec.add, Vec.sub]; ring
  rw [eig_bilin hq] at g
  have x : (⟨q.G / 2, q.H / 2, q.J / 2⟩ : Vec).dot p = (⟨q.G / 2, q.H / 2, q.J / 2⟩ : Vec).dot c + (⟨q.G / 2, q.H / 2, q.J / 2⟩ : Vec).dot (p.sub c) := by
    rw [dot_sub]; ring
  have y : (⟨q.G / 2, q.H / 2, q.J / 2⟩ : Vec).dot (p.sub c) = -(E.e 0 * (E.u 0).dot c * (E.u 0).dot (p.sub c) + E.e 1 * (E.u 1).dot c * (E.u 1).dot (p.sub c) +
      E.e 2 * (E.u 2).dot c * (E.u 2).dot (p.sub c)) := by
    have z0 := hx 0; have z1 := hx 1; have z2 := hx 2
    simp only [gqXD] at z0 z1 z2
    rw [orth_complete hu, dot_comm' (E.u 0) ⟨_, _, _⟩, dot_comm' (E.u 1) ⟨_, _, _⟩, dot_comm' (E.u 2) ⟨_, _, _⟩, z0, z1, z2]
    ring
  have hq' := hq (p.sub c)
  rw [e, g, x, y, hq']
  linarith

end Geouned.RSurf
