import Verif.Geom.CardSpec
/-!
# Model of the surface writers `mcnp_surface`, `phits_surface`, `open_mc_surface`, `serpent_surface`
`src/geouned/GEOUNED/write/functions.py` 241-1110.

Numbers are real: the textual formatting with the given number of digits (and `trim`, which only folds lines) is not
modelled. `none` is a raised exception. `math.tan` is `Real.tan`.
-/
namespace Geouned.Geom

/-- the surface objects handed to the writers -/
inductive Surface
  | plane (s : PlaneP)
  | cyl (s : CylP)
  | cone (s : ConeP)
  | sph (s : SphP)
  | tor (s : TorP)

/-- mnemonic and numbers -/
structure Card where
  mn : String
  args : List ℝ

def vX : Vec := ⟨1, 0, 0⟩
def vY : Vec := ⟨0, 1, 0⟩
def vZ : Vec := ⟨0, 0, 1⟩

/-- the ten numbers in the order in which they are written -/
def GQ.toList (q : GQ) : List ℝ := [q.A, q.B, q.C, q.D, q.E, q.F, q.G, q.H, q.J, q.K]

/-- basic_functions_part1.py 191: `Degenerated` -/
noncomputable def TorP.signedMajor (s : TorP) (rad : ℝ) : ℝ :=
  open Classical in if s.minor > s.major then rad * s.aSign else rad

open Classical in
/-- 252-273, planes not printed by three points -/
noncomputable def mcnpPlaneGen (t : Tol) (s : PlaneP) : Card :=
  if s.axis.isEqual vX t.pln_angle then ⟨"PX", [s.pos.x / 10]⟩
  else if s.axis.isEqual vY t.pln_angle then ⟨"PY", [s.pos.y / 10]⟩
  else if s.axis.isEqual vZ t.pln_angle then ⟨"PZ", [s.pos.z / 10]⟩
  else ⟨"P", [s.axis.x, s.axis.y, s.axis.z, s.axis.dot s.pos / 10]⟩

/-- 244-273, planes -/
noncomputable def mcnpPlane (t : Tol) (prnt3P : Bool) (s : PlaneP) : Card :=
  match s.points, prnt3P with
  | some (p1, p2, p3), true =>
    ⟨"P", [p1.x / 10, p1.y / 10, p1.z / 10, p2.x / 10, p2.y / 10, p2.z / 10, p3.x / 10, p3.y / 10, p3.z / 10]⟩
  | _, _ => mcnpPlaneGen t s

open Classical in
/-- 274-325, cylinders -/
noncomputable def mcnpCyl (t : Tol) (s : CylP) : Option Card :=
  match s.axis.normalize with
  | none => none
  | some dir =>
    let pos := Vec.smul (1 / 10) s.center
    let rad := s.radius * (1 / 10)
    if isParallel dir vX t.angle then
      some (if pos.y = 0 ∧ pos.z = 0 then ⟨"CX", [rad]⟩ else ⟨"C/X", [pos.y, pos.z, rad]⟩)
    else if isParallel dir vY t.angle then
      some (if pos.x = 0 ∧ pos.z = 0 then ⟨"CY", [rad]⟩ else ⟨"C/Y", [pos.x, pos.z, rad]⟩)
    else if isParallel dir vZ t.angle then
      some (if pos.y = 0 ∧ pos.x = 0 then ⟨"CZ", [rad]⟩ else ⟨"C/Z", [pos.x, pos.y, rad]⟩)
    else (qFormCyl dir pos rad).map (fun q => ⟨"GQ", q.toList⟩)

open Classical in
/-- 336-337 (and twice more): the number of the sheet -/
noncomputable def sheetOf (t : Tol) (dir e : Vec) : ℝ := if isOpposite dir e t.angle then -1 else 1

open Classical in
/-- 327-418, cones -/
noncomputable def mcnpCone (t : Tol) (s : ConeP) : Option Card :=
  let apex := Vec.smul (1 / 10) s.apex
  let dir := Vec.smul (1 / 10) s.axis
  let tan := Real.tan s.semiAngle
  if isParallel dir vX t.angle then
    some (if apex.y = 0 ∧ apex.z = 0 then ⟨"KX", [apex.x, tan ^ 2, sheetOf t dir vX]⟩
      else ⟨"K/X", [apex.x, apex.y, apex.z, tan ^ 2, sheetOf t dir vX]⟩)
  else if isParallel dir vY t.angle then
    some (if apex.x = 0 ∧ apex.z = 0 then ⟨"KY", [apex.y, tan ^ 2, sheetOf t dir vY]⟩
      else ⟨"K/Y", [apex.x, apex.y, apex.z, tan ^ 2, sheetOf t dir vY]⟩)
  else if isParallel dir vZ t.angle then
    some (if apex.x = 0 ∧ apex.y = 0 then ⟨"KZ", [apex.z, tan ^ 2, sheetOf t dir vZ]⟩
      else ⟨"K/Z", [apex.x, apex.y, apex.z, tan ^ 2, sheetOf t dir vZ]⟩)
  else (qFormCone dir apex tan).map (fun q => ⟨"GQ", q.toList⟩)

open Classical in
/-- 420-435, spheres -/
noncomputable def mcnpSph (t : Tol) (s : SphP) : Card :=
  let rad := s.radius * (1 / 10)
  let pnt := Vec.smul (1 / 10) s.center
  if pnt.isEqual ⟨0, 0, 0⟩ t.sph_distance then ⟨"SO", [rad]⟩ else ⟨"S", [pnt.x, pnt.y, pnt.z, rad]⟩

open Classical in
/-- 437-486, tori; the last case is the empty card -/
noncomputable def mcnpTor (t : Tol) (s : TorP) : Option Card :=
  match s.axis.normalize with
  | none => none
  | some dir =>
    let pos := Vec.smul (1 / 10) s.center
    let radMaj := s.signedMajor (s.major * (1 / 10))
    let radMin := s.minor * (1 / 10)
    some (
      if isParallel dir vX t.angle then ⟨"TX", [pos.x, pos.y, pos.z, radMaj, radMin, radMin]⟩
      else if isParallel dir vY t.angle then ⟨"TY", [pos.x, pos.y, pos.z, radMaj, radMin, radMin]⟩
      else if isParallel dir vZ t.angle then ⟨"TZ", [pos.x, pos.y, pos.z, radMaj, radMin, radMin]⟩
      else ⟨"", []⟩)

/-- 241-488, `mcnp_surface`; 863-1110, `phits_surface` is the same code -/
noncomputable def mcnpSurface (t : Tol) (prnt3P : Bool) : Surface → Option Card
  | .plane s => some (mcnpPlane t prnt3P s)
  | .cyl s => mcnpCyl t s
  | .cone s => mcnpCone t s
  | .sph s => some (mcnpSph t s)
  | .tor s => mcnpTor t s

/-! ## OpenMC, 491-712 -/

open Classical in
/-- 492-530 with `out_xml=True` -/
noncomputable def omcXmlPlane (t : Tol) (s : PlaneP) : Card :=
  if s.axis.isEqual vX t.pln_angle then ⟨"x-plane", [s.pos.x * (1 / 10)]⟩
  else if s.axis.isEqual vY t.pln_angle then ⟨"y-plane", [s.pos.y * (1 / 10)]⟩
  else if s.axis.isEqual vZ t.pln_angle then ⟨"z-plane", [s.pos.z * (1 / 10)]⟩
  else ⟨"plane", [s.axis.x, s.axis.y, s.axis.z, s.axis.dot s.pos * (1 / 10)]⟩

open Classical in
/-- 532-581 -/
noncomputable def omcXmlCyl (t : Tol) (s : CylP) : Option Card :=
  match s.axis.normalize with
  | none => none
  | some dir =>
    let pos := Vec.smul (1 / 10) s.center
    let rad := s.radius * (1 / 10)
    if isParallel dir vX t.angle then some ⟨"x-cylinder", [pos.y, pos.z, rad]⟩
    else if isParallel dir vY t.angle then some ⟨"y-cylinder", [pos.x, pos.z, rad]⟩
    else if isParallel dir vZ t.angle then some ⟨"z-cylinder", [pos.x, pos.y, rad]⟩
    else (qFormCyl dir pos rad).map (fun q => ⟨"quadric", q.toList⟩)

open Classical in
/-- 583-660 -/
noncomputable def omcXmlCone (t : Tol) (s : ConeP) : Option Card :=
  match s.axis.normalize with
  | none => none
  | some dir =>
    let apex := Vec.smul (1 / 10) s.apex
    let tan := Real.tan s.semiAngle
    let tan2 := tan * tan
    if isParallel dir vX t.angle then some ⟨"x-cone", [apex.x, apex.y, apex.z, tan2]⟩
    else if isParallel dir vY t.angle then some ⟨"y-cone", [apex.x, apex.y, apex.z, tan2]⟩
    else if isParallel dir vZ t.angle then some ⟨"z-cone", [apex.x, apex.y, apex.z, tan2]⟩
    else (qFormCone dir apex tan).map (fun q => ⟨"quadric", q.toList⟩)

/-- 662-677 -/
noncomputable def omcXmlSph (s : SphP) : Card :=
  let c := Vec.smul (1 / 10) s.center
  ⟨"sphere", [c.x, c.y, c.z, s.radius * (1 / 10)]⟩

open Classical in
/-- 679-708; the type `None` of the last case is written as the empty string here -/
noncomputable def omcXmlTor (t : Tol) (s : TorP) : Option Card :=
  match s.axis.normalize with
  | none => none
  | some dir =>
    let c := Vec.smul (1 / 10) s.center
    let minRad := s.minor * (1 / 10)
    let majRad := s.signedMajor (s.major * (1 / 10))
    let coeffs := [c.x, c.y, c.z, majRad, minRad, minRad]
    some (
      if isParallel dir vX t.angle then ⟨"x-torus", coeffs⟩
      else if isParallel dir vY t.angle then ⟨"y-torus", coeffs⟩
      else if isParallel dir vZ t.angle then ⟨"z-torus", coeffs⟩
      else ⟨"", coeffs⟩)

/-- 491-712 `open_mc_surface(..., out_xml=True)` -/
noncomputable def omcXmlSurface (t : Tol) : Surface → Option Card
  | .plane s => some (omcXmlPlane t s)
  | .cyl s => omcXmlCyl t s
  | .cone s => omcXmlCone t s
  | .sph s => some (omcXmlSph s)
  | .tor s => omcXmlTor t s

/-- a call of the Python API: class and keyword arguments -/
structure PyCall where
  cls : String
  kws : List (String × ℝ)

/-- 574, 652: `a=..,b=..,...,k=..` -/
def GQ.toKws (q : GQ) : List (String × ℝ) :=
  [("a", q.A), ("b", q.B), ("c", q.C), ("d", q.D), ("e", q.E), ("f", q.F), ("g", q.G), ("h", q.H), ("j", q.J), ("k", q.K)]

open Classical in
/-- 492-530 with `out_xml=False` -/
noncomputable def omcPyPlane (t : Tol) (s : PlaneP) : PyCall :=
  if s.axis.isEqual vX t.pln_angle then ⟨"XPlane", [("x0", s.pos.x * (1 / 10))]⟩
  else if s.axis.isEqual vY t.pln_angle then ⟨"YPlane", [("y0", s.pos.y * (1 / 10))]⟩
  else if s.axis.isEqual vZ t.pln_angle then ⟨"ZPlane", [("z0", s.pos.z * (1 / 10))]⟩
  else ⟨"Plane", [("a", s.axis.x), ("b", s.axis.y), ("c", s.axis.z), ("d", s.axis.dot s.pos * (1 / 10))]⟩

open Classical in
/-- 532-581 with `out_xml=False` -/
noncomputable def omcPyCyl (t : Tol) (quadricForm : Bool) (s : CylP) : Option PyCall :=
  match s.axis.normalize with
  | none => none
  | some dir =>
    let pos := Vec.smul (1 / 10) s.center
    let rad := s.radius * (1 / 10)
    if isParallel dir vX t.angle then some ⟨"XCylinder", [("y0", pos.y), ("z0", pos.z), ("r", rad)]⟩
    else if isParallel dir vY t.angle then some ⟨"YCylinder", [("x0", pos.x), ("z0", pos.z), ("r", rad)]⟩
    else if isParallel dir vZ t.angle then some ⟨"ZCylinder", [("x0", pos.x), ("y0", pos.y), ("r", rad)]⟩
    else if quadricForm then (qFormCyl dir pos rad).map (fun q => ⟨"Quadric", q.toKws⟩)
    else some ⟨"Cylinder", [("x0", pos.x), ("y0", pos.y), ("z0", pos.z), ("r", rad), ("dx", dir.x), ("dy", dir.y),
      ("dz", dir.z)]⟩

open Classical in
/-- 583-660 with `out_xml=False` -/
noncomputable def omcPyCone (t : Tol) (quadricForm : Bool) (s : ConeP) : Option PyCall :=
  match s.axis.normalize with
  | none => none
  | some dir =>
    let apex := Vec.smul (1 / 10) s.apex
    let tan := Real.tan s.semiAngle
    let tan2 := tan * tan
    let kws := [("x0", apex.x), ("y0", apex.y), ("z0", apex.z), ("r2", tan2)]
    if isParallel dir vX t.angle then some ⟨"XCone", kws⟩
    else if isParallel dir vY t.angle then some ⟨"YCone", kws⟩
    else if isParallel dir vZ t.angle then some ⟨"ZCone", kws⟩
    else if quadricForm then (qFormCone dir apex tan).map (fun q => ⟨"Quadric", q.toKws⟩)
    else some ⟨"Cone", kws ++ [("dx", dir.x), ("dy", dir.y), ("dz", dir.z)]⟩

/-- 662-677 with `out_xml=False` -/
noncomputable def omcPySph (s : SphP) : PyCall :=
  let c := Vec.smul (1 / 10) s.center
  ⟨"Sphere", [("x0", c.x), ("y0", c.y), ("z0", c.z), ("r", s.radius * (1 / 10))]⟩

open Classical in
/-- 699: the keywords written are `r`, `r1`, `r2` -/
noncomputable def omcPyTor (t : Tol) (s : TorP) : Option PyCall :=
  match s.axis.normalize with
  | none => none
  | some dir =>
    let c := Vec.smul (1 / 10) s.center
    let minRad := s.minor * (1 / 10)
    let majRad := s.signedMajor (s.major * (1 / 10))
    let kws := [("x0", c.x), ("y0", c.y), ("z0", c.z), ("r", majRad), ("r1", minRad), ("r2", minRad)]
    some (
      if isParallel dir vX t.angle then ⟨"XTorus", kws⟩
      else if isParallel dir vY t.angle then ⟨"YTorus", kws⟩
      else if isParallel dir vZ t.angle then ⟨"ZTorus", kws⟩
      else ⟨"None", kws⟩)

/-- 491-712 `open_mc_surface(..., out_xml=False)` -/
noncomputable def omcPySurface (t : Tol) (quadricForm : Bool) : Surface → Option PyCall
  | .plane s => some (omcPyPlane t s)
  | .cyl s => omcPyCyl t quadricForm s
  | .cone s => omcPyCone t quadricForm s
  | .sph s => some (omcPySph s)
  | .tor s => omcPyTor t s

/-! ## Serpent, 715-860 -/

def nums (l : List ℝ) : List Tok := l.map Tok.n

open Classical in
/-- 729-741, planes not printed by three points -/
noncomputable def serpentPlaneGen (t : Tol) (id : ℝ) (s : PlaneP) : List Tok :=
  if s.axis.isEqual vX t.pln_angle then [.w "surf", .n id, .w "px", .n (s.pos.x / 10)]
  else if s.axis.isEqual vY t.pln_angle then [.w "surf", .n id, .w "py", .n (s.pos.y / 10)]
  else if s.axis.isEqual vZ t.pln_angle then [.w "surf", .n id, .w "pz", .n (s.pos.z / 10)]
  else [.w "surf", .n id, .w "plane"] ++ nums [s.axis.x, s.axis.y, s.axis.z, s.axis.dot s.pos / 10]

/-- 718-741 -/
noncomputable def serpentPlane (t : Tol) (prnt3P : Bool) (id : ℝ) (s : PlaneP) : List Tok :=
  match s.points, prnt3P with
  | some (p1, p2, p3), true =>
    [.w "surf", .n id, .w "plane"] ++
      nums [p1.x / 10, p1.y / 10, p1.z / 10, p2.x / 10, p2.y / 10, p2.z / 10, p3.x / 10, p3.y / 10, p3.z / 10]
  | _, _ => serpentPlaneGen t id s

open Classical in
/-- 743-771; the slanted card has no place for the identifier in its format -/
noncomputable def serpentCyl (t : Tol) (id : ℝ) (s : CylP) : Option (List Tok) :=
  match s.axis.normalize with
  | none => none
  | some dir =>
    let pos := Vec.smul (1 / 10) s.center
    let rad := s.radius * (1 / 10)
    if isParallel dir vX t.angle then some ([.w "surf", .n id, .w "cylx"] ++ nums [pos.y, pos.z, rad])
    else if isParallel dir vY t.angle then some ([.w "surf", .n id, .w "cyly"] ++ nums [pos.x, pos.z, rad])
    else if isParallel dir vZ t.angle then some ([.w "surf", .n id, .w "cylz"] ++ nums [rad])
    else (qFormCyl dir pos rad).map (fun q => [.w "surf", .w "quadratic"] ++ nums q.toList)

open Classical in
/-- 773-827: the format has five places, filled by the identifier, the apex and the squared tangent; the slanted cone
writes nothing -/
noncomputable def serpentCone (t : Tol) (id : ℝ) (s : ConeP) : Option (List Tok) :=
  let apex := Vec.smul (1 / 10) s.apex
  let dir := Vec.smul (1 / 10) s.axis
  let tan := Real.tan s.semiAngle
  if isParallel dir vX t.angle then some ([.w "surf", .w "ckx"] ++ nums [id, apex.x, apex.y, apex.z, tan ^ 2])
  else if isParallel dir vY t.angle then some ([.w "surf", .w "cky"] ++ nums [id, apex.x, apex.y, apex.z, tan ^ 2])
  else if isParallel dir vZ t.angle then some ([.w "surf", .w "ckz"] ++ nums [id, apex.x, apex.y, apex.z, tan ^ 2])
  else (qFormCone dir apex tan).map (fun _ => [])

/-- 829-833 -/
noncomputable def serpentSph (id : ℝ) (s : SphP) : List Tok :=
  let p := Vec.smul (1 / 10) s.center
  [.w "surf", .n id, .w "sph"] ++ nums [p.x, p.y, p.z, s.radius * (1 / 10)]

open Classical in
/-- 835-859 -/
noncomputable def serpentTor (t : Tol) (id : ℝ) (s : TorP) : Option (List Tok) :=
  match s.axis.normalize with
  | none => none
  | some dir =>
    let pos := Vec.smul (1 / 10) s.center
    let radMaj := s.signedMajor (s.major * (1 / 10))
    let radMin := s.minor * (1 / 10)
    let ps := nums [pos.x, pos.y, pos.z, radMaj, radMin, radMin]
    some (
      if isParallel dir vX t.angle then [.w "surf", .n id, .w "torx"] ++ ps
      else if isParallel dir vY t.angle then [.w "surf", .n id, .w "tory"] ++ ps
      else if isParallel dir vZ t.angle then [.w "surf", .n id, .w "torz"] ++ ps
      else [])

/-- 715-860 `serpent_surface` -/
noncomputable def serpentSurface (t : Tol) (prnt3P : Bool) (id : ℝ) : Surface → Option (List Tok)
  | .plane s => some (serpentPlane t prnt3P id s)
  | .cyl s => serpentCyl t id s
  | .cone s => serpentCone t id s
  | .sph s => some (serpentSph id s)
  | .tor s => serpentTor t id s

end Geouned.Geom
