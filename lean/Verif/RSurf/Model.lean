import Verif.RSurf.Spec
import Verif.Geom.Card
import Mathlib.Analysis.SpecialFunctions.Trigonometric.Arctan
/-!
# Model of the surfaces of GEOReverse

`src/geouned/GEOReverse/Modules/MCNPinput.py`: `Get_primitive_surfaces` (495-967, without the cards SQ and GQ), `points_to_coeffs` (970-994), `GetSurfaces` (212-225),
`getTransMatrix` (240-278), `TransformationMatrix` (446-455); `src/geouned/GEOReverse/Modules/Objects.py`: the surface classes with `transform` and `copy` (196-705);
`src/geouned/GEOReverse/Modules/splitFunction.py`: `surface_side` (261-412), `btwPPlanes` (415-425).

Real arithmetic instead of floating point. `none` is a raised exception.
-/
namespace Geouned.RSurf
open Geouned.Geom

/-- The surface objects (Objects.py 196-705), with their `params`. `ell`: `axis` is an integer (MCNPinput.py 1149). `bad`: `params` is an empty list. -/
inductive Surf
  | plane (n : Vec) (d : ℝ)
  | sphere (P : Vec) (R : ℝ)
  | cyl (P v : Vec) (R : ℝ)
  | can (P v : Vec) (R : ℝ)
  | cone (P v : Vec) (t : ℝ) (dbl : Bool)
  | tcone (P v : Vec) (R1 R2 : ℝ)
  | econe (P v : Vec) (Ra r0 r1 : ℝ) (a0 a1 : Vec) (dbl : Bool)
  | hyp (P v : Vec) (r0 r1 : ℝ) (a0 a1 : Vec) (onesht : Bool)
  | ell (P : Vec) (axis : Nat) (r0 r1 : ℝ) (a0 a1 : Vec)
  | ecyl (P v : Vec) (r0 r1 : ℝ) (a0 a1 : Vec) (trunc : Bool)
  | hcyl (P v : Vec) (r0 r1 : ℝ) (a0 a1 : Vec)
  | para (P v : Vec) (f : ℝ)
  | torus (P v : Vec) (Ra Rb Rc : ℝ)
  | box (P v1 v2 v3 : Vec)
  | bad

/-! ## `surface_side` -/

open Classical in
/-- splitFunction.py 415-425 -/
noncomputable def btwPPlanes (p p0 v : Vec) : ℝ :=
  let p1 := p0.add v
  let inP0 := v.dot (p.sub p0)
  let inP1 := v.dot (p.sub p1)
  if 0 < inP0 ∧ inP1 < 0 then -1 else 1

/-- `max(-1, min(1, dprod))` -/
noncomputable def clip (x : ℝ) : ℝ := max (-1) (min 1 x)

/-- division: `ZeroDivisionError` -/
noncomputable def div? (a b : ℝ) : Option ℝ := open Classical in if b = 0 then none else some (a / b)

open Classical in
/-- splitFunction.py 261-410: the number `inout`. 334-357: an ellipsoid calls `r.dot` with an integer (TypeError). An object without parameters cannot be unpacked. -/
noncomputable def inout (p : Vec) : Surf → Option ℝ
  | .sphere P R => some ((p.sub P).len - R)
  | .plane n d => some (p.dot n - d)
  | .cyl P v R => some (((p.sub P).cross v).len - R)
  | .can P v R => do
    let inCyl ← div? ((p.sub P).cross v).len v.len
    if inCyl - R < 0 ∧ btwPPlanes p P v < 0 then some (-1) else some 1
  | .cone P v t dbl => do
    let X ← (p.sub P).normalize
    let dprod := clip (X.dot v)
    let a := if dbl then Real.arccos |dprod| else Real.arccos dprod
    some (a - Real.arctan t)
  | .tcone P v R1 R2 => do
    let q ← div? R1 (R1 - R2)
    let apex := P.add (Vec.smul q v)
    let X ← (p.sub apex).normalize
    let c ← div? (X.dot (Vec.smul (-1) v)) v.len
    let a := Real.arccos (clip c)
    let t ← div? (R1 - R2) v.len
    if a - Real.arctan t < 0 ∧ btwPPlanes p P v < 0 then some (-1) else some 1
  | .econe P v Ra r0 r1 a0 a1 dbl => do
    let r := p.sub P
    let x ← div? (r.dot a1) r1
    let y ← div? (r.dot a0) r0
    let z ← div? (if dbl then |r.dot v| else r.dot v) Ra
    some (x ^ 2 + y ^ 2 - z)
  | .hyp P _ r0 r1 _ a1 onesht => do
    let r := p.sub P
    let rX := r.dot a1
    let w := r.sub ((Vec.smul rX a1).add P)
    let d := w.len
    let x ← div? rX r1
    let radical := x ^ 2 + (if onesht then 1 else -1)
    if 0 < radical then some (d - r0 * Real.sqrt radical) else some 1
  | .ell .. => none
  | .ecyl P v r0 r1 a0 a1 trunc => do
    let r := p.sub P
    let x ← div? (r.dot a1) r1
    let y ← div? (r.dot a0) r0
    let io := x ^ 2 + y ^ 2 - 1
    if trunc = true ∧ io < 0 then some (btwPPlanes p P v) else some io
  | .hcyl P _ r0 r1 a0 a1 => do
    let r := p.sub P
    let x ← div? (r.dot a1) r1
    let y ← div? (r.dot a0) r0
    some (x ^ 2 - y ^ 2 - 1)
  | .para P v f =>
    let r := p.sub P
    let X := r.dot v
    if X < 0 then some 1
    else if 4 * f * X < 0 then none
    else some ((r.sub (Vec.smul X v)).len - Real.sqrt (4 * f * X))
  | .torus P v Ra Rb Rc => do
    let d := p.sub P
    let z := d.dot v
    let rz := d.sub (Vec.smul z v)
    let a ← div? z Rb
    let b ← div? (rz.len - Ra) Rc
    some (a ^ 2 + b ^ 2 - 1)
  | .box P v1 v2 v3 =>
    if 0 < btwPPlanes p P v1 then some (btwPPlanes p P v1)
    else if 0 < btwPPlanes p P v2 then some (btwPPlanes p P v2)
    else some (btwPPlanes p P v3)
  | .bad => none

open Classical in
/-- splitFunction.py 412: `return inout > 0` -/
noncomputable def surfaceSide (p : Vec) (s : Surf) : Option Bool := (inout p s).map fun x => decide (0 < x)

/-! ## Transformations -/

/-- `FreeCAD.Matrix` with last row 0 0 0 1 -/
structure Tr where
  A : Mat
  b : Vec

/-- `matrix.multVec(p)` -/
def Tr.mul (m : Tr) (p : Vec) : Vec := (m.A.mulVec p).add m.b
/-- `matrix.submatrix(3).multVec(v)` -/
def Tr.rot (m : Tr) (v : Vec) : Vec := m.A.mulVec v

/-- The methods `transform` (Objects.py 211-217, 274-277, 300-304, 351-361, 409-415, 450-456, 489-495, 522-528, 573-579, 614-618, 664-668, 698-704). -/
noncomputable def transform (m : Tr) : Surf → Option Surf
  | .plane v d => do
    let p := Vec.smul d v
    let v' ← (m.rot v).normalize
    some (.plane v' ((m.mul p).dot v'))
  | .sphere P R => some (.sphere (m.mul P) R)
  | .cyl P v R => some (.cyl (m.mul P) (m.rot v) R)
  | .can P v R => some (.can (m.mul P) (m.rot v) R)
  | .cone P v t dbl => some (.cone (m.mul P) (m.rot v) t dbl)
  | .tcone P v R1 R2 => some (.tcone (m.mul P) (m.rot v) R1 R2)
  | .econe P v Ra r0 r1 a0 a1 dbl => some (.econe (m.mul P) (m.rot v) Ra r0 r1 (m.rot a0) (m.rot a1) dbl)
  | .hyp P v r0 r1 a0 a1 o => some (.hyp (m.mul P) (m.rot v) r0 r1 (m.rot a0) (m.rot a1) o)
  | .ell .. => none
  | .ecyl P v r0 r1 a0 a1 tr => some (.ecyl (m.mul P) (m.rot v) r0 r1 (m.rot a0) (m.rot a1) tr)
  | .hcyl P v r0 r1 a0 a1 => some (.hcyl (m.mul P) (m.rot v) r0 r1 (m.rot a0) (m.rot a1))
  | .para P v f => some (.para (m.mul P) (m.rot v) f)
  | .torus P v Ra Rb Rc => some (.torus (m.mul P) (m.rot v) Ra Rb Rc)
  | .box P v1 v2 v3 => some (.box (m.mul P) (m.mul v1) (m.mul v2) (m.mul v3))
  | .bad => none

/-- What is left of the original after `copy()` and `transform` of the copy (MCNPinput.py 301-303): `copy` shares the tuple `params`, and the assignments `raxes[0] = …`,
`raxes[1] = …` (Objects.py 412-413, 453-454, 492-493, 525-526, 576-577) change the list that is in it. -/
def originalAfter (m : Tr) : Surf → Surf
  | .econe P v Ra r0 r1 a0 a1 dbl => .econe P v Ra r0 r1 (m.rot a0) (m.rot a1) dbl
  | .hyp P v r0 r1 a0 a1 o => .hyp P v r0 r1 (m.rot a0) (m.rot a1) o
  | .ecyl P v r0 r1 a0 a1 tr => .ecyl P v r0 r1 (m.rot a0) (m.rot a1) tr
  | .hcyl P v r0 r1 a0 a1 => .hcyl P v r0 r1 (m.rot a0) (m.rot a1)
  | s => s

/-! ## Transformation cards -/

/-- `math.cos(math.radians(x))` -/
noncomputable def cosd (x : ℝ) : ℝ := Real.cos (x * Real.pi / 180)

/-- MCNPinput.py 240-278 `getTransMatrix` with `scale=10`. The values are a list, and 256 adds a tuple to `coeff`: a TypeError unless `coeff` is a tuple (unit `*`). An index past
the end: IndexError. -/
noncomputable def getTransMatrix (trsf : List ℝ) (star : Bool) : Option Tr :=
  match trsf with
  | [o1, o2, o3] => some ⟨⟨1, 0, 0, 0, 1, 0, 0, 0, 1⟩, ⟨o1 * 10, o2 * 10, o3 * 10⟩⟩
  | [o1, o2, o3, b1, b2, b3, b4, b5, b6] =>
    if star then
      let x : Vec := ⟨cosd b1, cosd b2, cosd b3⟩
      let y : Vec := ⟨cosd b4, cosd b5, cosd b6⟩
      let axis := x.cross y
      some ⟨⟨x.x, y.x, axis.x, x.y, y.y, axis.y, x.z, y.z, axis.z⟩, ⟨o1 * 10, o2 * 10, o3 * 10⟩⟩
    else none
  | o1 :: o2 :: o3 :: b1 :: b2 :: b3 :: b4 :: b5 :: b6 :: b7 :: b8 :: b9 :: _ =>
    let c := fun x => if star then cosd x else x
    some ⟨⟨c b1, c b4, c b7, c b2, c b5, c b8, c b3, c b6, c b9⟩, ⟨o1 * 10, o2 * 10, o3 * 10⟩⟩
  | _ => none

/-! ## Surface cards -/

/-- What one pass of the loop 506-965 makes: a surface, with the marks "variable `p` is bound to the point of this surface" and "variable `R` is bound"; or the cylinder
of a card X, Y or Z (796-801), for which the point and the radius in the variables `p` and `R` of an earlier pass are used. -/
inductive Made
  | surf (s : Surf) (bindsP bindsR : Bool)
  | stale (axis : Vec) (R : ℝ)

def nX : Vec := ⟨-1, 0, 0⟩
def nY : Vec := ⟨0, -1, 0⟩
def nZ : Vec := ⟨0, 0, -1⟩

open Classical in
/-- 516-526, a plane through three points -/
noncomputable def threePlane (p1 p2 p3 : Vec) : Option Surf :=
  let (t0, t1, t2, t3) := tpp (scf p1 p2 p3)
  let (xm, c3) := normStep 0 t3
  let (xm, c2) := normStep xm t2
  let (xm, c1) := normStep xm t1
  let (_, c0) := normStep xm t0
  let normal : Vec := ⟨c0, c1, c2⟩
  do
    let point ← div? c3 normal.len
    let n ← normal.normalize
    some (.plane n (point * 10))

open Classical in
/-- 605-612 and 643-650: `dblsht` and the axis; `e`, `ne`: the axis and its opposite -/
noncomputable def coneAxis (e ne : Vec) : List ℝ → Bool × Vec
  | [sht] => if sht = 0 then (true, e) else if sht < 0 then (false, ne) else (false, e)
  | _ => (true, e)

open Classical in
/-- 600-636 (`KX`, `KY`, `KZ`) and 638-668: cone with apex `p` (in cm); `math.sqrt` raises for a negative number -/
noncomputable def coneMade (p e ne : Vec) (t2 : ℝ) (rest : List ℝ) : Option Made :=
  if t2 < 0 then none
  else
    let (dbl, v) := coneAxis e ne rest
    some (.surf (.cone (Vec.smul 10 p) v (Real.sqrt t2) dbl) true false)

open Classical in
/-- 774-803 (`X`), 805-834 (`Y`), 836-865 (`Z`); `e`, `ne`: the axis and its opposite. Other numbers of entries: nothing is defined -/
noncomputable def pointsMade (e ne : Vec) : List ℝ → Option Made
  | [x1, _] => some (.surf (.plane e (x1 * 10)) false false)
  | [x1, r1, x2, r2] =>
    if 1 / 10 ^ 12 < |r1 - r2| then do
      let t ← div? (r2 - r1) (x2 - x1)
      let q ← div? r1 t
      let x := x1 - q
      if 0 < (x1 - x) * (x2 - x) then
        let v := if 0 < x1 - x then e else ne
        some (.surf (.cone (Vec.smul 10 (Vec.smul x e)) v |t| false) true false)
      else some (.surf .bad false false)
    else if |r1| < 1 / 10 ^ 12 then
      if |x1 - x2| < 1 / 10 ^ 12 then some (.surf (.plane e (x1 * 10)) false false) else some (.surf .bad false false)
    else some (.stale e r1)
  | _ => none

open Classical in
/-- 905-932 `REC`: the two half axes (unit vectors and lengths, in cm) -/
noncomputable def recMade (P v : Vec) (majAxis : Vec) (majRad : ℝ) (minAxis : Vec) (minRad : ℝ) : Surf :=
  if majRad * 10 < minRad * 10 then .ecyl (Vec.smul 10 P) (Vec.smul 10 v) (majRad * 10) (minRad * 10) majAxis minAxis true
  else .ecyl (Vec.smul 10 P) (Vec.smul 10 v) (minRad * 10) (majRad * 10) minAxis majAxis true

/-- One pass of the loop 506-946, with `scale = 10`: mnemonic in upper case and entries -/
noncomputable def makeSurf : String → List ℝ → Option Made
  | "P", [a, b, c, d] => some (.surf (.plane ⟨a, b, c⟩ (d * 10)) false false)
  | "P", x1 :: y1 :: z1 :: x2 :: y2 :: z2 :: x3 :: y3 :: z3 :: _ =>
    (threePlane ⟨x1, y1, z1⟩ ⟨x2, y2, z2⟩ ⟨x3, y3, z3⟩).map fun s => .surf s false false
  | "PX", d :: _ => some (.surf (.plane vX (d * 10)) false false)
  | "PY", d :: _ => some (.surf (.plane vY (d * 10)) false false)
  | "PZ", d :: _ => some (.surf (.plane vZ (d * 10)) false false)
  | "S", x :: y :: z :: r :: _ => some (.surf (.sphere (Vec.smul 10 ⟨x, y, z⟩) (r * 10)) false false)
  | "SPH", x :: y :: z :: r :: _ => some (.surf (.sphere (Vec.smul 10 ⟨x, y, z⟩) (r * 10)) false false)
  | "SX", x :: r :: _ => some (.surf (.sphere ⟨x * 10, 0, 0⟩ (r * 10)) false false)
  | "SY", y :: r :: _ => some (.surf (.sphere ⟨0, y * 10, 0⟩ (r * 10)) false false)
  | "SZ", z :: r :: _ => some (.surf (.sphere ⟨0, 0, z * 10⟩ (r * 10)) false false)
  | "SO", r :: _ => some (.surf (.sphere ⟨0, 0, 0⟩ (r * 10)) false false)
  | "CX", r :: _ => some (.surf (.cyl ⟨0, 0, 0⟩ vX (r * 10)) true true)
  | "CY", r :: _ => some (.surf (.cyl ⟨0, 0, 0⟩ vY (r * 10)) true true)
  | "CZ", r :: _ => some (.surf (.cyl ⟨0, 0, 0⟩ vZ (r * 10)) true true)
  | "C/X", x1 :: x2 :: r :: _ => some (.surf (.cyl (Vec.smul 10 ⟨0, x1, x2⟩) vX (r * 10)) true true)
  | "C/Y", x1 :: x2 :: r :: _ => some (.surf (.cyl (Vec.smul 10 ⟨x1, 0, x2⟩) vY (r * 10)) true true)
  | "C/Z", x1 :: x2 :: r :: _ => some (.surf (.cyl (Vec.smul 10 ⟨x1, x2, 0⟩) vZ (r * 10)) true true)
  | "KX", x1 :: t2 :: rest => coneMade ⟨x1, 0, 0⟩ vX nX t2 rest
  | "KY", x1 :: t2 :: rest => coneMade ⟨0, x1, 0⟩ vY nY t2 rest
  | "KZ", x1 :: t2 :: rest => coneMade ⟨0, 0, x1⟩ vZ nZ t2 rest
  | "K/X", x :: y :: z :: t2 :: rest => coneMade ⟨x, y, z⟩ vX nX t2 rest
  | "K/Y", x :: y :: z :: t2 :: rest => coneMade ⟨x, y, z⟩ vY nY t2 rest
  | "K/Z", x :: y :: z :: t2 :: rest => coneMade ⟨x, y, z⟩ vZ nZ t2 rest
  | "TX", x :: y :: z :: a :: b :: c :: _ => some (.surf (.torus (Vec.smul 10 ⟨x, y, z⟩) vX (a * 10) (b * 10) (c * 10)) true false)
  | "TY", x :: y :: z :: a :: b :: c :: _ => some (.surf (.torus (Vec.smul 10 ⟨x, y, z⟩) vY (a * 10) (b * 10) (c * 10)) true false)
  | "TZ", x :: y :: z :: a :: b :: c :: _ => some (.surf (.torus (Vec.smul 10 ⟨x, y, z⟩) vZ (a * 10) (b * 10) (c * 10)) true false)
  | "X", l => pointsMade vX nX l
  | "Y", l => pointsMade vY nY l
  | "Z", l => pointsMade vZ nZ l
  | "BOX", x :: y :: z :: a1 :: b1 :: c1 :: a2 :: b2 :: c2 :: a3 :: b3 :: c3 :: _ =>
    some (.surf (.box (Vec.smul 10 ⟨x, y, z⟩) (Vec.smul 10 ⟨a1, b1, c1⟩) (Vec.smul 10 ⟨a2, b2, c2⟩) (Vec.smul 10 ⟨a3, b3, c3⟩)) true false)
  | "RPP", xmin :: xmax :: ymin :: ymax :: zmin :: zmax :: _ =>
    some (.surf (.box (Vec.smul 10 ⟨xmin, ymin, zmin⟩) (Vec.smul 10 ⟨xmax - xmin, 0, 0⟩) (Vec.smul 10 ⟨0, ymax - ymin, 0⟩) (Vec.smul 10 ⟨0, 0, zmax - zmin⟩)) true false)
  | "RCC", x :: y :: z :: a :: b :: c :: r :: _ => some (.surf (.can (Vec.smul 10 ⟨x, y, z⟩) (Vec.smul 10 ⟨a, b, c⟩) (r * 10)) true true)
  | "REC", [x, y, z, a, b, c, a1, b1, c1, a2, b2, c2] => do
    let M : Vec := ⟨a1, b1, c1⟩
    let majAxis ← M.normalize
    let m : Vec := ⟨a2, b2, c2⟩
    let minAxis ← m.normalize
    some (.surf (recMade ⟨x, y, z⟩ ⟨a, b, c⟩ majAxis M.len minAxis m.len) true false)
  | "REC", x :: y :: z :: a :: b :: c :: a1 :: b1 :: c1 :: r :: _ => do
    let v : Vec := ⟨a, b, c⟩
    let M : Vec := ⟨a1, b1, c1⟩
    let majAxis ← M.normalize
    let l ← div? 1 v.len
    let minAxis := Vec.smul l (v.cross majAxis)
    some (.surf (recMade ⟨x, y, z⟩ v majAxis M.len minAxis r) true false)
  | "TRC", x :: y :: z :: a :: b :: c :: r1 :: r2 :: _ =>
    some (.surf (.tcone (Vec.smul 10 ⟨x, y, z⟩) (Vec.smul 10 ⟨a, b, c⟩) (r1 * 10) (r2 * 10)) true false)
  | _, _ => none

/-- `p.multiply(scale)`: the point of a surface is multiplied in place -/
def scalePoint : Surf → Surf
  | .cyl P v R => .cyl (Vec.smul 10 P) v R
  | .can P v R => .can (Vec.smul 10 P) v R
  | .cone P v t d => .cone (Vec.smul 10 P) v t d
  | .tcone P v r1 r2 => .tcone (Vec.smul 10 P) v r1 r2
  | .ecyl P v r0 r1 a0 a1 t => .ecyl (Vec.smul 10 P) v r0 r1 a0 a1 t
  | .torus P v a b c => .torus (Vec.smul 10 P) v a b c
  | .box P v1 v2 v3 => .box (Vec.smul 10 P) v1 v2 v3
  | s => s

/-- a surface card: name, mnemonic, entries and transformation -/
structure SCard where
  name : Nat
  mn : String
  args : List ℝ
  tr : Option Tr

/-- the variables that outlive a pass: `p` is unbound, or bound (to the point of the surface with that name, if it is still the same object); `R` is bound -/
structure Vars where
  p : Option (Option Nat) := none
  R : Bool := false

/-- the constructor's `if tr: self.transform(tr)` -/
noncomputable def place (tr : Option Tr) (s : Surf) : Option Surf :=
  match tr with
  | none => some s
  | some m => transform m s

/-- 506-965, the loop over the cards -/
noncomputable def primLoop : List SCard → Vars → List (Nat × Surf) → Option (List (Nat × Surf))
  | [], _, acc => some acc
  | c :: cs, vars, acc => do
    match (← makeSurf c.mn c.args) with
    | .surf s bp bR =>
      let s' ← place c.tr s
      let vars' : Vars := ⟨if bp then some (if c.tr.isNone then some c.name else none) else vars.p, vars.R || bR⟩
      primLoop cs vars' (acc ++ [(c.name, s')])
    | .stale axis R =>
      match vars.p with
      | none => none
      | some owner =>
        if vars.R then do
          let acc' := acc.map fun (k, s) => if owner = some k then (k, scalePoint s) else (k, s)
          let s' ← place c.tr (.cyl ⟨0, 0, 0⟩ axis R)
          primLoop cs vars (acc' ++ [(c.name, s')])
        else none

/-- 212-225 and 495-967: the surfaces of a file, with names in the order of the cards -/
noncomputable def getSurfaces (cs : List SCard) : Option (List (Nat × Surf)) := primLoop cs {} []

/-! ## Files -/

/-- a surface card of a file: name, mnemonic, entries and number of the transformation card (0 or nothing: no transformation) -/
structure FCard where
  name : Nat
  mn : String
  args : List ℝ
  tr : Option Nat

/-- a card TRn or *TRn: number, star, entries -/
structure TCard where
  num : Nat
  star : Bool
  entries : List ℝ

/-- 225-236 `__getTransList__` -/
noncomputable def transList : List TCard → Option (List (Nat × Tr))
  | [] => some []
  | t :: ts => do
    let m ← getTransMatrix t.entries t.star
    let l ← transList ts
    some ((t.num, m) :: l)

/-- 446-455 `TransformationMatrix`, for a number. A missing number: KeyError -/
def transformationMatrix (l : List (Nat × Tr)) : Option Nat → Option (Option Tr)
  | none => some none
  | some 0 => some none
  | some (k + 1) => (l.lookup (k + 1)).map some

/-- 217-221 -/
def surfCards (l : List (Nat × Tr)) : List FCard → Option (List SCard)
  | [] => some []
  | c :: cs => do
    let t ← transformationMatrix l c.tr
    let r ← surfCards l cs
    some (⟨c.name, c.mn, c.args, t⟩ :: r)

/-- 35 and 211-223: the surfaces of a file with transformation cards `ts` and surface cards `cs` -/
noncomputable def readSurfaces (ts : List TCard) (cs : List FCard) : Option (List (Nat × Surf)) := do
  let l ← transList ts
  let sc ← surfCards l cs
  getSurfaces sc

/-- remh.py 592-602 and 634-637 with MCNPinput.py 446-453: a transformation written in parentheses after TRCL or FILL; `angle`: with a star. The entries 4 to 12 are replaced by
their cosines, and `getTransMatrix` is called without unit. -/
noncomputable def inlineMatrix (entries : List ℝ) (angle : Bool) : Option Tr :=
  if angle = true ∧ 3 < entries.length then getTransMatrix (entries.take 3 ++ ((entries.drop 3).take 9).map cosd ++ entries.drop 12) false
  else getTransMatrix entries false

end Geouned.RSurf
