import Verif.Geom.Spec
/-!
# Model of `src/geouned/GEOUNED/utils/q_form.py` and of `points_to_coeffs`
(`src/geouned/GEOUNED/utils/basic_functions_part1.py` 69-98), in exact real arithmetic.
-/
namespace Geouned.Geom

/-- `Vector.Length` -/
noncomputable def Vec.len (a : Vec) : ℝ := Real.sqrt a.sq

/-- `Vector.normalize()`; FreeCAD raises on a null vector -/
noncomputable def Vec.normalize (a : Vec) : Option Vec :=
  if a.len = 0 then none else some (Vec.smul (1 / a.len) a)

/-- `FreeCAD.Matrix` (rotation part) -/
structure Mat where
  (A11 A12 A13 A21 A22 A23 A31 A32 A33 : ℝ)

/-- q_form.py 12-46 `rotation_matrix` -/
noncomputable def rotationMatrix (u v : Vec) : Option Mat := do
  let Axis ← (u.cross v).normalize
  let u ← u.normalize
  let v ← v.normalize
  let cose := u.dot v
  let seno := (u.cross v).len
  let onecos := 1 - cose
  some {
    A11 := cose + Axis.x ^ 2 * onecos
    A12 := Axis.x * Axis.y * onecos - Axis.z * seno
    A13 := Axis.x * Axis.z * onecos + Axis.y * seno
    A21 := Axis.x * Axis.y * onecos + Axis.z * seno
    A22 := cose + Axis.y ^ 2 * onecos
    A23 := Axis.y * Axis.z * onecos - Axis.x * seno
    A31 := Axis.z * Axis.x * onecos - Axis.y * seno
    A32 := Axis.z * Axis.y * onecos + Axis.x * seno
    A33 := cose + Axis.z ^ 2 * onecos }

/-- `Matrix.transpose()` -/
def Mat.transpose (m : Mat) : Mat :=
  ⟨m.A11, m.A21, m.A31, m.A12, m.A22, m.A32, m.A13, m.A23, m.A33⟩

/-- `Matrix.multiply(Vector)` -/
def Mat.mulVec (m : Mat) (p : Vec) : Vec :=
  ⟨m.A11 * p.x + m.A12 * p.y + m.A13 * p.z, m.A21 * p.x + m.A22 * p.y + m.A23 * p.z,
   m.A31 * p.x + m.A32 * p.y + m.A33 * p.z⟩

/-- q_form.py 49-70 `q_form_cyl` -/
noncomputable def qFormCyl (axis pos : Vec) (rad : ℝ) : Option GQ := do
  let R0 ← rotationMatrix ⟨1, 0, 0⟩ axis
  let R := R0.transpose
  let Pos2 := Vec.smul (-1) (R.mulVec pos)
  some {
    A := R.A21 ^ 2 + R.A31 ^ 2
    B := R.A22 ^ 2 + R.A32 ^ 2
    C := R.A23 ^ 2 + R.A33 ^ 2
    D := 2 * (R.A21 * R.A22 + R.A31 * R.A32)
    E := 2 * (R.A22 * R.A23 + R.A32 * R.A33)
    F := 2 * (R.A23 * R.A21 + R.A33 * R.A31)
    G := 2 * (Pos2.y * R.A21 + Pos2.z * R.A31)
    H := 2 * (Pos2.y * R.A22 + Pos2.z * R.A32)
    J := 2 * (Pos2.y * R.A23 + Pos2.z * R.A33)
    K := Pos2.y ^ 2 + Pos2.z ^ 2 - rad ^ 2 }

/-- q_form.py 72-92 `q_form_cone` -/
noncomputable def qFormCone (axis pos : Vec) (tan : ℝ) : Option GQ := do
  let R0 ← rotationMatrix ⟨1, 0, 0⟩ axis
  let R := R0.transpose
  let Pos2 := Vec.smul (-1) (R.mulVec pos)
  some {
    A := R.A21 ^ 2 + R.A31 ^ 2 - (tan * R.A11) ^ 2
    B := R.A22 ^ 2 + R.A32 ^ 2 - (tan * R.A12) ^ 2
    C := R.A23 ^ 2 + R.A33 ^ 2 - (tan * R.A13) ^ 2
    D := 2 * (R.A21 * R.A22 + R.A31 * R.A32 - tan ^ 2 * R.A11 * R.A12)
    E := 2 * (R.A22 * R.A23 + R.A32 * R.A33 - tan ^ 2 * R.A12 * R.A13)
    F := 2 * (R.A23 * R.A21 + R.A33 * R.A31 - tan ^ 2 * R.A13 * R.A11)
    G := 2 * (Pos2.y * R.A21 + Pos2.z * R.A31 - tan ^ 2 * Pos2.x * R.A11)
    H := 2 * (Pos2.y * R.A22 + Pos2.z * R.A32 - tan ^ 2 * Pos2.x * R.A12)
    J := 2 * (Pos2.y * R.A23 + Pos2.z * R.A33 - tan ^ 2 * Pos2.x * R.A13)
    K := Pos2.y ^ 2 + Pos2.z ^ 2 - (tan * Pos2.x) ^ 2 }

/-- basic_functions_part1.py 71: the tuple `scf` -/
def scf (p1 p2 p3 : Vec) : Nat → ℝ
  | 0 => p1.x | 1 => p1.y | 2 => p1.z
  | 3 => p2.x | 4 => p2.y | 5 => p2.z
  | 6 => p3.x | 7 => p3.y | _ => p3.z

/-- 82-84: `tpp[i-1]` with the (0-based) indices `j`, `k` of 78-81 -/
def tppTerm (s : Nat → ℝ) (j k : Nat) : ℝ :=
  s j * (s (k + 3) - s (k + 6)) + s (j + 3) * (s (k + 6) - s k) + s (j + 6) * (s k - s (k + 3))

/-- 85: the term added to `tpp[3]` -/
def tppDet (s : Nat → ℝ) (i j k : Nat) : ℝ := s i * (s (j + 3) * s (k + 6) - s (j + 6) * s (k + 3))

/-- 76-85: the loop `i = 1, 2, 3` (`j = i % 3 + 1`, `k = 6 - i - j`, both then decremented) -/
def tpp (s : Nat → ℝ) : ℝ × ℝ × ℝ × ℝ :=
  let idx := fun i : Nat => (i % 3 + 1 - 1, 6 - i - (i % 3 + 1) - 1)
  (tppTerm s (idx 1).1 (idx 1).2, tppTerm s (idx 2).1 (idx 2).2, tppTerm s (idx 3).1 (idx 3).2,
   tppDet s 0 (idx 1).1 (idx 1).2 + tppDet s 1 (idx 2).1 (idx 2).2 + tppDet s 2 (idx 3).1 (idx 3).2)

open Classical in
/-- 87-92: one step of the normalisation loop; returns the new `xm` and the coefficient -/
noncomputable def normStep (xm t : ℝ) : ℝ × ℝ :=
  let xm' := if xm = 0 ∧ t ≠ 0 then 1 / t else xm
  (xm', t * xm')

/-- 69-98 `points_to_coeffs`: axis and distance, `none` when the division by `axis.Length` fails -/
noncomputable def pointsToCoeffs (p1 p2 p3 : Vec) : Option (Vec × ℝ) :=
  let (t0, t1, t2, t3) := tpp (scf p1 p2 p3)
  let (xm, c3) := normStep 0 t3
  let (xm, c2) := normStep xm t2
  let (xm, c1) := normStep xm t1
  let (_, c0) := normStep xm t0
  let axis : Vec := ⟨c0, c1, c2⟩
  if axis.len = 0 then none
  else
    let distance := c3 / axis.len
    (axis.normalize).map (fun a => (a, distance))

end Geouned.Geom
