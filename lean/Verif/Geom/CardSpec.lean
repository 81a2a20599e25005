import Verif.Geom.Surf
/-!
# Specification: what surfaces are, and what the surface cards of the transport codes mean

A card is a mnemonic and a list of numbers. Its meaning is taken from the manuals of the codes (MCNP/PHITS table of
surface cards, OpenMC surface classes, Serpent surface types), written independently of the writers.
-/
namespace Geouned.Geom

/-- the two open sides of a surface -/
structure Region where
  neg : Vec → Prop
  pos : Vec → Prop

/-- a surface given by an equation `f = 0`: negative side `f < 0` -/
def Region.ofFun (f : Vec → ℝ) : Region := ⟨fun p => f p < 0, fun p => 0 < f p⟩

/-- two surfaces with the same sides; `s` in mm and `c` in cm -/
def SameInCm (s c : Region) : Prop :=
  ∀ p, (s.neg p ↔ c.neg (Vec.smul (1 / 10) p)) ∧ (s.pos p ↔ c.pos (Vec.smul (1 / 10) p))

/-! ## The geometric surfaces -/

def planeRegion (pos axis : Vec) : Region := .ofFun (fun p => axis.dot (p.sub pos))
def cylRegion (c a : Vec) (r : ℝ) : Region := ⟨InCyl c a r, OutCyl c a r⟩
/-- both sheets of the cone -/
def coneRegion (c a : Vec) (k : ℝ) : Region := ⟨InCone c a k, OutCone c a k⟩
/-- the sheet of the cone towards which the axis points; all the rest is outside -/
def sheetRegion (c a : Vec) (k : ℝ) : Region :=
  ⟨fun p => InCone c a k p ∧ 0 < a.dot (p.sub c), fun p => OutCone c a k p ∨ a.dot (p.sub c) < 0⟩
def sphRegion (c : Vec) (r : ℝ) : Region := .ofFun (fun p => distSq p c - r ^ 2)
/-- the points whose distance to the circle of radius `R` around the axis is less (more) than `r`; a negative `R` is the
inner, lemon shaped, part of a spindle torus -/
def torRegion (c a : Vec) (R r : ℝ) : Region :=
  ⟨fun p => ∃ t w, Decomp c a p t w ∧ t ^ 2 * a.sq + (Real.sqrt w.sq - R) ^ 2 < r ^ 2,
   fun p => ∃ t w, Decomp c a p t w ∧ r ^ 2 < t ^ 2 * a.sq + (Real.sqrt w.sq - R) ^ 2⟩

/-- the plane through three points with the sense convention of MCNP: unit normal such that the origin is on the negative
side or, when the plane contains the origin, the first of (0,0,∞), (0,∞,0), (∞,0,0) off the plane is on the positive side -/
def ThreePoint (p1 p2 p3 a : Vec) (d : ℝ) : Prop :=
  a.sq = 1 ∧ a.dot p1 = d ∧ a.dot p2 = d ∧ a.dot p3 = d ∧ 0 ≤ d ∧
    (d = 0 → 0 ≤ a.z ∧ (a.z = 0 → 0 ≤ a.y ∧ (a.y = 0 → 0 < a.x)))

def threePointRegion (p1 p2 p3 : Vec) : Region :=
  ⟨fun p => ∃ a d, ThreePoint p1 p2 p3 a d ∧ a.dot p < d, fun p => ∃ a d, ThreePoint p1 p2 p3 a d ∧ d < a.dot p⟩

/-! ## Equations shared by the manuals -/

def eqCylX (y0 z0 r : ℝ) (p : Vec) : ℝ := (p.y - y0) ^ 2 + (p.z - z0) ^ 2 - r ^ 2
def eqCylY (x0 z0 r : ℝ) (p : Vec) : ℝ := (p.x - x0) ^ 2 + (p.z - z0) ^ 2 - r ^ 2
def eqCylZ (x0 y0 r : ℝ) (p : Vec) : ℝ := (p.x - x0) ^ 2 + (p.y - y0) ^ 2 - r ^ 2
def eqConeX (x0 y0 z0 t2 : ℝ) (p : Vec) : ℝ := (p.y - y0) ^ 2 + (p.z - z0) ^ 2 - t2 * (p.x - x0) ^ 2
def eqConeY (x0 y0 z0 t2 : ℝ) (p : Vec) : ℝ := (p.x - x0) ^ 2 + (p.z - z0) ^ 2 - t2 * (p.y - y0) ^ 2
def eqConeZ (x0 y0 z0 t2 : ℝ) (p : Vec) : ℝ := (p.x - x0) ^ 2 + (p.y - y0) ^ 2 - t2 * (p.z - z0) ^ 2
def eqSph (x0 y0 z0 r : ℝ) (p : Vec) : ℝ := (p.x - x0) ^ 2 + (p.y - y0) ^ 2 + (p.z - z0) ^ 2 - r ^ 2
noncomputable def eqTorX (x0 y0 z0 A B C : ℝ) (p : Vec) : ℝ :=
  (p.x - x0) ^ 2 / B ^ 2 + (Real.sqrt ((p.y - y0) ^ 2 + (p.z - z0) ^ 2) - A) ^ 2 / C ^ 2 - 1
noncomputable def eqTorY (x0 y0 z0 A B C : ℝ) (p : Vec) : ℝ :=
  (p.y - y0) ^ 2 / B ^ 2 + (Real.sqrt ((p.x - x0) ^ 2 + (p.z - z0) ^ 2) - A) ^ 2 / C ^ 2 - 1
noncomputable def eqTorZ (x0 y0 z0 A B C : ℝ) (p : Vec) : ℝ :=
  (p.z - z0) ^ 2 / B ^ 2 + (Real.sqrt ((p.x - x0) ^ 2 + (p.y - y0) ^ 2) - A) ^ 2 / C ^ 2 - 1

/-- one sheet of a cone: inside is `f < 0` on the side `sheet` of the apex (`h` is the height over the apex) -/
def oneSheet (f h : Vec → ℝ) (sheet : ℝ) : Region :=
  ⟨fun p => f p < 0 ∧ 0 < sheet * h p, fun p => 0 < f p ∨ sheet * h p < 0⟩

/-! ## MCNP and PHITS -/

/-- the MCNP manual, "Surface cards": mnemonic and entries -/
noncomputable def mcnpMeaning : String → List ℝ → Option Region
  | "PX", [d] => some (.ofFun fun p => p.x - d)
  | "PY", [d] => some (.ofFun fun p => p.y - d)
  | "PZ", [d] => some (.ofFun fun p => p.z - d)
  | "P", [a, b, c, d] => some (.ofFun fun p => a * p.x + b * p.y + c * p.z - d)
  | "P", [x1, y1, z1, x2, y2, z2, x3, y3, z3] => some (threePointRegion ⟨x1, y1, z1⟩ ⟨x2, y2, z2⟩ ⟨x3, y3, z3⟩)
  | "CX", [r] => some (.ofFun (eqCylX 0 0 r))
  | "CY", [r] => some (.ofFun (eqCylY 0 0 r))
  | "CZ", [r] => some (.ofFun (eqCylZ 0 0 r))
  | "C/X", [y, z, r] => some (.ofFun (eqCylX y z r))
  | "C/Y", [x, z, r] => some (.ofFun (eqCylY x z r))
  | "C/Z", [x, y, r] => some (.ofFun (eqCylZ x y r))
  | "KX", [x, t2, s] => some (oneSheet (eqConeX x 0 0 t2) (fun p => p.x - x) s)
  | "KY", [y, t2, s] => some (oneSheet (eqConeY 0 y 0 t2) (fun p => p.y - y) s)
  | "KZ", [z, t2, s] => some (oneSheet (eqConeZ 0 0 z t2) (fun p => p.z - z) s)
  | "K/X", [x, y, z, t2, s] => some (oneSheet (eqConeX x y z t2) (fun p => p.x - x) s)
  | "K/Y", [x, y, z, t2, s] => some (oneSheet (eqConeY x y z t2) (fun p => p.y - y) s)
  | "K/Z", [x, y, z, t2, s] => some (oneSheet (eqConeZ x y z t2) (fun p => p.z - z) s)
  | "GQ", [a, b, c, d, e, f, g, h, j, k] => some (.ofFun (GQ.eval ⟨a, b, c, d, e, f, g, h, j, k⟩))
  | "SO", [r] => some (.ofFun (eqSph 0 0 0 r))
  | "S", [x, y, z, r] => some (.ofFun (eqSph x y z r))
  | "TX", [x, y, z, a, b, c] => some (.ofFun (eqTorX x y z a b c))
  | "TY", [x, y, z, a, b, c] => some (.ofFun (eqTorY x y z a b c))
  | "TZ", [x, y, z, a, b, c] => some (.ofFun (eqTorZ x y z a b c))
  | _, _ => none

/-! ## OpenMC -/

/-- OpenMC XML format, attributes `type` and `coeffs` of a surface element -/
noncomputable def omcXmlMeaning : String → List ℝ → Option Region
  | "x-plane", [d] => some (.ofFun fun p => p.x - d)
  | "y-plane", [d] => some (.ofFun fun p => p.y - d)
  | "z-plane", [d] => some (.ofFun fun p => p.z - d)
  | "plane", [a, b, c, d] => some (.ofFun fun p => a * p.x + b * p.y + c * p.z - d)
  | "x-cylinder", [y, z, r] => some (.ofFun (eqCylX y z r))
  | "y-cylinder", [x, z, r] => some (.ofFun (eqCylY x z r))
  | "z-cylinder", [x, y, r] => some (.ofFun (eqCylZ x y r))
  | "sphere", [x, y, z, r] => some (.ofFun (eqSph x y z r))
  | "x-cone", [x, y, z, r2] => some (.ofFun (eqConeX x y z r2))
  | "y-cone", [x, y, z, r2] => some (.ofFun (eqConeY x y z r2))
  | "z-cone", [x, y, z, r2] => some (.ofFun (eqConeZ x y z r2))
  | "quadric", [a, b, c, d, e, f, g, h, j, k] => some (.ofFun (GQ.eval ⟨a, b, c, d, e, f, g, h, j, k⟩))
  | "x-torus", [x, y, z, a, b, c] => some (.ofFun (eqTorX x y z a b c))
  | "y-torus", [x, y, z, a, b, c] => some (.ofFun (eqTorY x y z a b c))
  | "z-torus", [x, y, z, a, b, c] => some (.ofFun (eqTorZ x y z a b c))
  | _, _ => none

/-- keywords (with defaults) of the surface classes of the OpenMC Python API -/
def omcSignature : String → Option (List (String × ℝ))
  | "XPlane" => some [("x0", 0)]
  | "YPlane" => some [("y0", 0)]
  | "ZPlane" => some [("z0", 0)]
  | "Plane" => some [("a", 1), ("b", 0), ("c", 0), ("d", 0)]
  | "XCylinder" => some [("y0", 0), ("z0", 0), ("r", 1)]
  | "YCylinder" => some [("x0", 0), ("z0", 0), ("r", 1)]
  | "ZCylinder" => some [("x0", 0), ("y0", 0), ("r", 1)]
  | "Cylinder" => some [("x0", 0), ("y0", 0), ("z0", 0), ("r", 1), ("dx", 0), ("dy", 0), ("dz", 1)]
  | "Sphere" => some [("x0", 0), ("y0", 0), ("z0", 0), ("r", 1)]
  | "XCone" => some [("x0", 0), ("y0", 0), ("z0", 0), ("r2", 1)]
  | "YCone" => some [("x0", 0), ("y0", 0), ("z0", 0), ("r2", 1)]
  | "ZCone" => some [("x0", 0), ("y0", 0), ("z0", 0), ("r2", 1)]
  | "Cone" => some [("x0", 0), ("y0", 0), ("z0", 0), ("r2", 1), ("dx", 0), ("dy", 0), ("dz", 1)]
  | "Quadric" => some [("a", 0), ("b", 0), ("c", 0), ("d", 0), ("e", 0), ("f", 0), ("g", 0), ("h", 0), ("j", 0), ("k", 0)]
  | "XTorus" => some [("x0", 0), ("y0", 0), ("z0", 0), ("a", 0), ("b", 0), ("c", 0)]
  | "YTorus" => some [("x0", 0), ("y0", 0), ("z0", 0), ("a", 0), ("b", 0), ("c", 0)]
  | "ZTorus" => some [("x0", 0), ("y0", 0), ("z0", 0), ("a", 0), ("b", 0), ("c", 0)]
  | _ => none

/-- the arguments in signature order; a keyword which is not in the signature is a `TypeError` -/
def omcArgs (cls : String) (kws : List (String × ℝ)) : Option (List ℝ) :=
  match omcSignature cls with
  | none => none
  | some sig =>
    if kws.all (fun kv => sig.any (fun s => s.1 == kv.1)) then
      some (sig.map (fun s => ((kws.find? (fun kv => kv.1 == s.1)).map Prod.snd).getD s.2))
    else none

/-- meaning of a call of a surface class with keyword arguments; the cones of OpenMC have two sheets -/
noncomputable def omcPyMeaning (cls : String) (kws : List (String × ℝ)) : Option Region :=
  match cls, omcArgs cls kws with
  | "XPlane", some [d] => omcXmlMeaning "x-plane" [d]
  | "YPlane", some [d] => omcXmlMeaning "y-plane" [d]
  | "ZPlane", some [d] => omcXmlMeaning "z-plane" [d]
  | "Plane", some l => omcXmlMeaning "plane" l
  | "XCylinder", some l => omcXmlMeaning "x-cylinder" l
  | "YCylinder", some l => omcXmlMeaning "y-cylinder" l
  | "ZCylinder", some l => omcXmlMeaning "z-cylinder" l
  | "Cylinder", some [x, y, z, r, dx, dy, dz] => some (cylRegion ⟨x, y, z⟩ ⟨dx, dy, dz⟩ r)
  | "Sphere", some l => omcXmlMeaning "sphere" l
  | "XCone", some l => omcXmlMeaning "x-cone" l
  | "YCone", some l => omcXmlMeaning "y-cone" l
  | "ZCone", some l => omcXmlMeaning "z-cone" l
  | "Cone", some [x, y, z, r2, dx, dy, dz] => some (coneRegion ⟨x, y, z⟩ ⟨dx, dy, dz⟩ (Real.sqrt r2))
  | "Quadric", some l => omcXmlMeaning "quadric" l
  | "XTorus", some l => omcXmlMeaning "x-torus" l
  | "YTorus", some l => omcXmlMeaning "y-torus" l
  | "ZTorus", some l => omcXmlMeaning "z-torus" l
  | _, _ => none

/-! ## Serpent -/

/-- a word or a number of a Serpent input -/
inductive Tok
  | w (s : String)
  | n (v : ℝ)

def Tok.num : Tok → Option ℝ
  | .n v => some v
  | .w _ => none

/-- Serpent manual, "Surface types": type and parameters -/
noncomputable def serpentType : String → List ℝ → Option Region
  | "px", [d] => some (.ofFun fun p => p.x - d)
  | "py", [d] => some (.ofFun fun p => p.y - d)
  | "pz", [d] => some (.ofFun fun p => p.z - d)
  | "plane", [a, b, c, d] => some (.ofFun fun p => a * p.x + b * p.y + c * p.z - d)
  | "plane", [x1, y1, z1, x2, y2, z2, x3, y3, z3] => some (threePointRegion ⟨x1, y1, z1⟩ ⟨x2, y2, z2⟩ ⟨x3, y3, z3⟩)
  | "cylx", [y, z, r] => some (.ofFun (eqCylX y z r))
  | "cyly", [x, z, r] => some (.ofFun (eqCylY x z r))
  | "cylz", [x, y, r] => some (.ofFun (eqCylZ x y r))
  | "sph", [x, y, z, r] => some (.ofFun (eqSph x y z r))
  | "ckx", [x, y, z, t2, s] => some (oneSheet (eqConeX x y z t2) (fun p => p.x - x) s)
  | "cky", [x, y, z, t2, s] => some (oneSheet (eqConeY x y z t2) (fun p => p.y - y) s)
  | "ckz", [x, y, z, t2, s] => some (oneSheet (eqConeZ x y z t2) (fun p => p.z - z) s)
  | "quadratic", [a, b, c, d, e, f, g, h, j, k] => some (.ofFun (GQ.eval ⟨a, b, c, d, e, f, g, h, j, k⟩))
  | "torx", [x, y, z, a, b, c] => some (.ofFun (eqTorX x y z a b c))
  | "tory", [x, y, z, a, b, c] => some (.ofFun (eqTorY x y z a b c))
  | "torz", [x, y, z, a, b, c] => some (.ofFun (eqTorZ x y z a b c))
  | _, _ => none

/-- `surf <id> <type> <parameters>`: identifier and meaning -/
noncomputable def serpentMeaning : List Tok → Option (ℝ × Region)
  | .w "surf" :: .n id :: .w ty :: ps =>
    match ps.mapM Tok.num with
    | some l => (serpentType ty l).map (fun r => (id, r))
    | none => none
  | _ => none

end Geouned.Geom
