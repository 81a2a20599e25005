import Verif.RSurf.Quad
/-!
# Model of the surfaces of an OpenMC XML file in GEOReverse

`src/geouned/GEOReverse/Modules/XMLinput.py`: `GetSurfaces` (164-174), `Get_primitive_surfaces` (314-449), `gq2cyl` (452-533).

`numpy.linalg.eigh` is an argument, a function `eigh` of the quadric (`RSurf/QuadSpec.lean`, `IsEigh`). Real arithmetic as in `RSurf/Quad.lean`; the eigenvalues are ascending, so
`sw` is `w`.
-/
namespace Geouned.RSurf
open Geouned.Geom

/-- an element `surface`: attributes `id`, `type` and `coeffs` (XMLParser.py 33-42) -/
structure XSurf where
  id : Nat
  ty : String
  coeffs : List ℝ

/-- row `j` of the matrix `P` of eigenvectors -/
def Eig.row (E : Eig) (j : Fin 3) : Vec := ⟨Vec.comp (E.u 0) j, Vec.comp (E.u 1) j, Vec.comp (E.u 2) j⟩

/-- the smallest, middle and largest absolute value of an eigenvalue (`asw`) -/
noncomputable def asw0 (E : Eig) : ℝ := min |E.e 0| (min |E.e 1| |E.e 2|)
noncomputable def asw1 (E : Eig) : ℝ := max (min |E.e 0| |E.e 1|) (min (max |E.e 0| |E.e 1|) |E.e 2|)
noncomputable def asw2 (E : Eig) : ℝ := max |E.e 0| (max |E.e 1| |E.e 2|)

open Classical in
/-- 476: `np.where(aw == asw[0])[0][0]` -/
noncomputable def cylAxis (E : Eig) : Fin 3 := if |E.e 0| = asw0 E then 0 else if |E.e 1| = asw0 E then 1 else 2

open Classical in
/-- 484-489: the point of the axis; `Pb = P b` is divided by the two eigenvalues and multiplied by `P.T` -/
noncomputable def cylPoint (E : Eig) (b : Vec) (i : Fin 3) : Vec :=
  let Pb : Fin 3 → ℝ := fun j => if j = i then (E.row j).dot b else (E.row j).dot b / E.e j
  let v : Vec := ⟨Pb 0, Pb 1, Pb 2⟩
  Vec.smul (-(1 / 2)) ⟨(E.u 0).dot v, (E.u 1).dot v, (E.u 2).dot v⟩

/-- 511: `-0.5 * P (P.T b / w)` -/
noncomputable def conePoint (E : Eig) (b : Vec) : Vec :=
  Vec.smul (-(1 / 2)) (((Vec.smul ((E.u 0).dot b / E.e 0) (E.u 0)).add (Vec.smul ((E.u 1).dot b / E.e 1) (E.u 1))).add (Vec.smul ((E.u 2).dot b / E.e 2) (E.u 2)))

open Classical in
/-- 452-533 `gq2cyl`: cylinder or cone in cm; `none`: "not found". 513-529: both branches return the same values. 500-503: the eigenvalues are ascending, so the index is 2 or 0. -/
noncomputable def gq2cyl (q : GQ) (E : Eig) : Option Surf :=
  let b : Vec := ⟨q.G, q.H, q.J⟩
  if asw0 E < 5 / 100 * asw1 E then
    let i := cylAxis E
    if 1 / 10 ^ 3 * asw2 E < |E.e (i + 1) - E.e (i + 2)| then none
    else
      let x0 := cylPoint E b i
      let k := -(1 / 2) * x0.dot b - q.K
      some (.cyl x0 (E.u i) (Real.sqrt (k / E.e 1)))
  else if SignType.sign (E.e 0) ≠ SignType.sign (E.e 2) then
    let i : Fin 3 := if SignType.sign (E.e 0) = SignType.sign (E.e 1) then 2 else 0
    if 1 / 10 ^ 3 * asw2 E < |E.e (i + 1) - E.e (i + 2)| then none
    else some (.cone (conePoint E b) (E.u i) (Real.sqrt (-E.e (i + 1) / E.e i)) true)
  else none

/-- 373: `math.sqrt` raises for a negative number -/
noncomputable def xmlCone (P v : Vec) (t2 : ℝ) : Option (Option Surf) :=
  open Classical in if t2 < 0 then none else some (some (.cone (Vec.smul 10 P) v (Real.sqrt t2) true))

/-- 321-447, one pass of the loop with `scale = 10`. Outer `none`: the code raises (IndexError, ValueError); inner `none`: "Undefined", no surface is stored. -/
noncomputable def makeXml (eigh : GQ → Eig) : String → List ℝ → Option (Option Surf)
  | "plane", a :: b :: c :: d :: _ => some (some (.plane ⟨a, b, c⟩ (d * 10)))
  | "x-plane", d :: _ => some (some (.plane vX (d * 10)))
  | "y-plane", d :: _ => some (some (.plane vY (d * 10)))
  | "z-plane", d :: _ => some (some (.plane vZ (d * 10)))
  | "sphere", x :: y :: z :: r :: _ => some (some (.sphere (Vec.smul 10 ⟨x, y, z⟩) (r * 10)))
  | "x-cylinder", x1 :: x2 :: r :: _ => some (some (.cyl (Vec.smul 10 ⟨0, x1, x2⟩) vX (r * 10)))
  | "y-cylinder", x1 :: x2 :: r :: _ => some (some (.cyl (Vec.smul 10 ⟨x1, 0, x2⟩) vY (r * 10)))
  | "z-cylinder", x1 :: x2 :: r :: _ => some (some (.cyl (Vec.smul 10 ⟨x1, x2, 0⟩) vZ (r * 10)))
  | "x-cone", x :: y :: z :: t2 :: _ => xmlCone ⟨x, y, z⟩ vX t2
  | "y-cone", x :: y :: z :: t2 :: _ => xmlCone ⟨x, y, z⟩ vY t2
  | "z-cone", x :: y :: z :: t2 :: _ => xmlCone ⟨x, y, z⟩ vZ t2
  | "x-torus", x :: y :: z :: a :: b :: c :: _ => some (some (.torus (Vec.smul 10 ⟨x, y, z⟩) vX (a * 10) (b * 10) (c * 10)))
  | "y-torus", x :: y :: z :: a :: b :: c :: _ => some (some (.torus (Vec.smul 10 ⟨x, y, z⟩) vY (a * 10) (b * 10) (c * 10)))
  | "z-torus", x :: y :: z :: a :: b :: c :: _ => some (some (.torus (Vec.smul 10 ⟨x, y, z⟩) vZ (a * 10) (b * 10) (c * 10)))
  | "quadric", a :: b :: c :: d :: e :: f :: g :: h :: j :: k :: _ =>
    let q : GQ := ⟨a, b, c, d, e, f, g, h, j, k⟩
    some ((gq2cyl q (eigh q)).map quadScale)
  | ty, _ =>
    if ty ∈ ["plane", "x-plane", "y-plane", "z-plane", "sphere", "x-cylinder", "y-cylinder", "z-cylinder", "x-cone", "y-cone", "z-cone", "x-torus", "y-torus", "z-torus", "quadric"]
    then none else some none

/-- 164-174 and 314-449: the dictionary of the surfaces: id of the element, number, surface. The numbers count all elements `surface`. -/
noncomputable def xmlSurfaces (eigh : GQ → Eig) : Nat → List XSurf → Option (List (Nat × Nat × Surf))
  | _, [] => some []
  | n, c :: cs => do
    let m ← makeXml eigh c.ty c.coeffs
    let rest ← xmlSurfaces eigh (n + 1) cs
    some ((m.map fun s => (c.id, n, s)).toList ++ rest)

end Geouned.RSurf
