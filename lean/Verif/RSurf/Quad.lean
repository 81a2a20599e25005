import Verif.RSurf.Model
import Verif.RSurf.QuadSpec
import Mathlib.Data.Sign.Basic
/-!
# Model of the cards GQ and SQ of GEOReverse

`src/geouned/GEOReverse/Modules/MCNPinput.py`: `get_parabola_parameters`, `get_cylinder_parameters`, `get_cone_parameters`, `get_hyperboloid_parameters`,
`get_ellipsoid_parameters`, `getGQAxis`, `sq2params`, `gq2params`, `conicSurface` (997-1330), and the branch GQ/SQ of `Get_primitive_surfaces` (678-758).

The result of `numpy.linalg.eigh` is an argument (`Eig`); `E.u i` is column `i` of the matrix of eigenvectors. Real arithmetic; a division by zero, which gives `inf` or `nan` in
numpy, gives 0 here, and so does the square root of a negative number (`nan` in numpy). Lengths in cm until `quadSurface` multiplies them by the scale.
-/
namespace Geouned.RSurf
open Geouned.Geom

/-- `vect[i]` for a `FreeCAD.Vector` -/
def Vec.comp (v : Vec) (i : Fin 3) : ℝ := if i = 0 then v.x else if i = 1 then v.y else v.z

/-- 997-1006 `get_parabola_parameters`. `eVect[iaxis]` is a row of the matrix of eigenvectors. -/
noncomputable def getParabola (E : Eig) (T : Vec) (iaxis : Fin 3) (comp : ℝ) : Surf :=
  let axis : Vec := ⟨Vec.comp (E.u 0) iaxis, Vec.comp (E.u 1) iaxis, Vec.comp (E.u 2) iaxis⟩
  let focal := comp / (4 * E.e (iaxis + 1))
  open Classical in
  if focal < 0 then .para T (Vec.smul (-1) axis) (-focal) else .para T axis focal

open Classical in
/-- 1009-1054 `get_cylinder_parameters` -/
noncomputable def getCylinder (E : Eig) (T : Vec) (k : ℝ) (iaxis : Fin 3) : Surf :=
  let other1 := iaxis + 1
  let other2 := iaxis + 2
  if |E.e other1 - E.e other2| < 1 / 10 ^ 5 then .cyl T (E.u iaxis) (Real.sqrt (k / E.e other2))
  else
    let iMin := if |E.e other1| < |E.e other2| then other2 else other1
    let iMaj := if |E.e other1| < |E.e other2| then other1 else other2
    let majorRad := Real.sqrt |k / E.e iMaj|
    let minorRad := Real.sqrt |k / E.e iMin|
    if SignType.sign (E.e iMaj) = SignType.sign (E.e iMin) then .ecyl T (E.u iaxis) minorRad majorRad (E.u iMin) (E.u iMaj) false
    else if SignType.sign k = SignType.sign (E.e iMaj) then .hcyl T (E.u iaxis) minorRad majorRad (E.u iMin) (E.u iMaj)
    else .hcyl T (E.u iaxis) majorRad minorRad (E.u iMaj) (E.u iMin)

open Classical in
/-- 1068-1073: the first `i` such that the two others have the same sign, or the given index -/
noncomputable def coneIndex (E : Eig) (iaxis : Fin 3) : Fin 3 :=
  if SignType.sign (E.e 1) = SignType.sign (E.e 2) then 0
  else if SignType.sign (E.e 2) = SignType.sign (E.e 0) then 1
  else if SignType.sign (E.e 0) = SignType.sign (E.e 1) then 2
  else iaxis

open Classical in
/-- 1057-1086 `get_cone_parameters` -/
noncomputable def getCone (E : Eig) (T : Vec) (iaxis : Fin 3) : Surf :=
  if |E.e (iaxis + 1) - E.e (iaxis + 2)| < 1 / 10 ^ 5 then .cone T (E.u iaxis) (Real.sqrt (-E.e (iaxis + 1) / E.e iaxis)) true
  else
    let i := coneIndex E iaxis
    let Ra := |1 / E.e i|
    let Rmin := |1 / E.e (i + 1)|
    let Rmaj := |1 / E.e (i + 2)|
    if Rmaj < Rmin then .econe T (E.u i) Ra Rmaj Rmin (E.u (i + 2)) (E.u (i + 1)) true
    else .econe T (E.u i) Ra Rmin Rmaj (E.u (i + 1)) (E.u (i + 2)) true

open Classical in
/-- 1089-1129 `get_hyperboloid_parameters`. `iaxis` is never `None` (`getGQAxis` returns an index), the messages are left out. -/
noncomputable def getHyperboloid (E : Eig) (T : Vec) (k : ℝ) (iaxis : Fin 3) : Surf :=
  let Rad1 := Real.sqrt |k / E.e (iaxis + 1)|
  let Rad2 := Real.sqrt |k / E.e (iaxis + 2)|
  let other := if Rad2 < Rad1 then iaxis + 1 else iaxis + 2
  let majorRad := Real.sqrt |k / E.e iaxis|
  let minorRad := Real.sqrt |k / E.e other|
  let oneSheet : Bool := decide (SignType.sign k ≠ SignType.sign (E.e iaxis))
  let t := majorRad / minorRad
  if 10 ^ 3 < t ∧ oneSheet = true then getCylinder E T k iaxis
  else if minorRad < 1 / 10 then getCone E T iaxis
  else .hyp T (E.u iaxis) minorRad majorRad (E.u other) (E.u iaxis) oneSheet

open Classical in
/-- 1132-1167 `get_ellipsoid_parameters`. `none`: three different radii, no surface is made. -/
noncomputable def getEllipsoid (E : Eig) (T : Vec) (k : ℝ) : Option Surf := do
  let iaxis ← (if |E.e 0 - E.e 1| < 1 / 10 ^ 3 then some (2 : Fin 3) else if |E.e 1 - E.e 2| < 1 / 10 ^ 3 then some 0 else if |E.e 2 - E.e 0| < 1 / 10 ^ 3 then some 1 else none)
  let iMaj := if E.e (iaxis + 1) < E.e iaxis then iaxis + 1 else iaxis
  let iMin := if E.e (iaxis + 1) < E.e iaxis then iaxis else iaxis + 1
  let RMaj := Real.sqrt |k / E.e iMaj|
  let RMin := Real.sqrt |k / E.e iMin|
  if 10 ^ 3 < RMaj / RMin then some (getCylinder E T k iMaj)
  else some (.ell T iaxis RMin RMaj (E.u iMin) (E.u iMaj))

/-- the values of `ek`: `None`, `(0, -1)`, `(-1, 0)`, `(-1, 1)`, `(1, -1)` -/
inductive EK | none | cyl | cone | hyp | ell
  deriving DecidableEq

open Classical in
/-- `np.argmin(np.abs(eVal))`: the first of the smallest -/
noncomputable def argminAbs (E : Eig) : Fin 3 :=
  if |E.e 0| ≤ |E.e 1| ∧ |E.e 0| ≤ |E.e 2| then 0 else if |E.e 1| ≤ |E.e 2| then 1 else 2

open Classical in
/-- 1173-1180: the axis -/
noncomputable def gqIndex (E : Eig) : Fin 3 :=
  if |E.e 0 - E.e 1| < 1 / 10 ^ 5 then 2
  else if |E.e 1 - E.e 2| < 1 / 10 ^ 5 then 0
  else if |E.e 2 - E.e 0| < 1 / 10 ^ 5 then 1
  else argminAbs E

open Classical in
/-- 1182-1215: `ek` for the eigenvalue of the axis and the two others -/
noncomputable def gqKind (e0 e1 e2 k : ℝ) : EK :=
  if k = 0 then
    if e0 = 0 then .none
    else if SignType.sign e0 = SignType.sign e1 ∧ SignType.sign e1 = SignType.sign e2 then .none
    else .cone
  else if SignType.sign k = SignType.sign e1 then
    if e0 = 0 then if SignType.sign e1 = SignType.sign e2 then .none else .cyl
    else if SignType.sign e0 = SignType.sign e1 ∧ SignType.sign e1 = SignType.sign e2 then .none
    else .hyp
  else
    if e0 = 0 then .cyl
    else if SignType.sign e0 = SignType.sign e1 ∧ SignType.sign e1 = SignType.sign e2 then .ell
    else .hyp

/-- 1303-1332 `conicSurface`. `none`: no surface is made ("No 2nd order or real surfaces") -/
noncomputable def conicSurface (E : Eig) (T : Vec) (k : ℝ) (par : Option (Fin 3 × ℝ)) : Option Surf :=
  match par with
  | some (iaxis, comp) => some (getParabola E T iaxis comp)
  | none =>
    let i := gqIndex E
    match gqKind (E.e i) (E.e (i + 1)) (E.e (i + 2)) k with
    | .cyl => some (getCylinder E T (-k) i)
    | .cone => some (getCone E T i)
    | .hyp => some (getHyperboloid E T (-k) i)
    | .ell => getEllipsoid E T (-k)
    | .none => none

/-- 1276: the linear terms, halved, in the base of the eigenvectors -/
noncomputable def gqXD (q : GQ) (E : Eig) (i : Fin 3) : ℝ := (⟨q.G / 2, q.H / 2, q.J / 2⟩ : Vec).dot (E.u i)

open Classical in
/-- 1278-1281: translation in the base of the eigenvectors, before the correction 1291 -/
noncomputable def gqTD (q : GQ) (E : Eig) (i : Fin 3) : ℝ := -gqXD q E i * (if |E.e i| < 1 / 10 ^ 8 then E.e i else 1 / E.e i)

/-- 1283 -/
noncomputable def gqK (q : GQ) (E : Eig) : ℝ := gqTD q E 0 * gqXD q E 0 + gqTD q E 1 * gqXD q E 1 + gqTD q E 2 * gqXD q E 2 + q.K

open Classical in
/-- 1279-1280 and 1285-1286: the first vanishing eigenvalue -/
noncomputable def gqZero (E : Eig) : Option (Fin 3) :=
  if |E.e 0| < 1 / 10 ^ 8 then some 0 else if |E.e 1| < 1 / 10 ^ 8 then some 1 else if |E.e 2| < 1 / 10 ^ 8 then some 2 else none

/-- `TD` in the global base -/
noncomputable def gqT (E : Eig) (TD : Fin 3 → ℝ) : Vec := ((Vec.smul (TD 0) (E.u 0)).add (Vec.smul (TD 1) (E.u 1))).add (Vec.smul (TD 2) (E.u 2))

open Classical in
/-- 1235-1300 `gq2params` -/
noncomputable def gq2params (q : GQ) (E : Eig) : Option Surf :=
  match gqZero E with
  | some iz =>
    let comp := 2 * gqXD q E iz
    if 1 / 10 ^ 6 < |comp| then
      conicSurface E (gqT E fun i => if i = iz then -gqK q E / comp else gqTD q E i) (gqK q E) (some (iz, comp))
    else conicSurface E (gqT E (gqTD q E)) (gqK q E) none
  | none => conicSurface E (gqT E (gqTD q E)) (gqK q E) none

/-- 1220-1232 `sq2params`: the coefficients given to `gq2params` -/
def sq2gq (a b c d e f g x y z : ℝ) : GQ :=
  ⟨a, b, c, 0, 0, 0, 2 * (d - a * x), 2 * (e - b * y), 2 * (f - c * z), g + a * x * x + b * y * y + c * z * z - 2 * d * x - 2 * e * y - 2 * f * z⟩

/-- 678-758: `scale` is applied -/
noncomputable def quadScale : Surf → Surf
  | .cyl P v R => .cyl (Vec.smul 10 P) v (R * 10)
  | .ecyl P v r0 r1 a0 a1 t => .ecyl (Vec.smul 10 P) v (r0 * 10) (r1 * 10) a0 a1 t
  | .hcyl P v r0 r1 a0 a1 => .hcyl (Vec.smul 10 P) v (r0 * 10) (r1 * 10) a0 a1
  | .cone P v t d => .cone (Vec.smul 10 P) v t d
  | .econe P v Ra r0 r1 a0 a1 d => .econe (Vec.smul 10 P) v (Ra * 10) (r0 * 10) (r1 * 10) a0 a1 d
  | .hyp P v r0 r1 a0 a1 o => .hyp (Vec.smul 10 P) v (r0 * 10) (r1 * 10) a0 a1 o
  | .ell P a r0 r1 a0 a1 => .ell (Vec.smul 10 P) a (r0 * 10) (r1 * 10) a0 a1
  | .para P v f => .para (Vec.smul 10 P) v (f * 10)
  | s => s

/-- the card GQ with coefficients `q`, when `eigh` gives `E` -/
noncomputable def readGQ (q : GQ) (E : Eig) : Option Surf := (gq2params q E).map quadScale

/-- the card SQ -/
noncomputable def readSQ (a b c d e f g x y z : ℝ) (E : Eig) : Option Surf := readGQ (sq2gq a b c d e f g x y z) E

end Geouned.RSurf
