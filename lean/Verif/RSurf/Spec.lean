import Verif.Geom.CardSpec
/-!
# Specification: the surface and transformation cards that GEOReverse reads

Meanings are those of the MCNP manual ("Surface cards", "Macrobodies", "Coordinate transformation card"), in cm, written independently of the reader. `Region`, `Decomp`,
`oneSheet` and the equations are those of `Verif/Geom/CardSpec.lean`.
-/
namespace Geouned.RSurf
open Geouned.Geom

open Classical in
/-- both sheets of a cone, or the sheet that is named by `+1` or `-1` -/
noncomputable def coneCard (f h : Vec → ℝ) : List ℝ → Option Region
  | [] => some (.ofFun f)
  | [s] => if s = 1 ∨ s = -1 then some (oneSheet f h s) else none
  | _ => none

/-- the radius at height `x` of the line through the points (x1, r1) and (x2, r2) -/
noncomputable def lineRadius (x1 r1 x2 r2 x : ℝ) : ℝ := r1 + (r2 - r1) / (x2 - x1) * (x - x1)

/-- surface of revolution of the line through (x1, r1) and (x2, r2); `h`: height of a point, `r`: its distance to the axis -/
def revolution (h r : Vec → ℝ) (x1 r1 x2 r2 : ℝ) : Region :=
  ⟨fun p => r p < lineRadius x1 r1 x2 r2 (h p), fun p => lineRadius x1 r1 x2 r2 (h p) < r p⟩

open Classical in
/-- the cards X, Y, Z ("axisymmetric surfaces defined by points"), one or two points: a plane, a cylinder or one sheet of a cone -/
noncomputable def pointCard (h r : Vec → ℝ) : List ℝ → Option Region
  | [x1, _] => some (.ofFun fun p => h p - x1)
  | [x1, r1, x2, r2] =>
    if x1 = x2 then if r1 = r2 then none else some (.ofFun fun p => h p - x1)
    else if 0 ≤ r1 ∧ 0 ≤ r2 ∧ 0 < r1 + r2 then some (revolution h r x1 r1 x2 r2) else none
  | _ => none

/-- the points of a box with corner `P` and edges `v1`, `v2`, `v3` -/
def boxRegion (P v1 v2 v3 : Vec) : Region :=
  ⟨fun p => ∃ a b c : ℝ, p.sub P = ((Vec.smul a v1).add (Vec.smul b v2)).add (Vec.smul c v3) ∧ 0 < a ∧ a < 1 ∧ 0 < b ∧ b < 1 ∧ 0 < c ∧ c < 1,
   fun p => ∃ a b c : ℝ, p.sub P = ((Vec.smul a v1).add (Vec.smul b v2)).add (Vec.smul c v3) ∧ (a < 0 ∨ 1 < a ∨ b < 0 ∨ 1 < b ∨ c < 0 ∨ 1 < c)⟩

/-- truncated cone (a can when `R1 = R2`) with base at `P`, height vector `v`, radius `R1` at the base and `R2` at the top -/
def trcRegion (P v : Vec) (R1 R2 : ℝ) : Region :=
  ⟨fun p => ∃ t w, Decomp P v p t w ∧ 0 < t ∧ t < 1 ∧ w.sq < (R1 + t * (R2 - R1)) ^ 2,
   fun p => ∃ t w, Decomp P v p t w ∧ (t < 0 ∨ 1 < t ∨ (R1 + t * (R2 - R1)) ^ 2 < w.sq)⟩

/-- elliptical cylinder with base at `P`, height vector `v` and half axes `V1`, `V2` -/
def recRegion (P v V1 V2 : Vec) : Region :=
  ⟨fun p => ∃ t a b : ℝ, p.sub P = ((Vec.smul t v).add (Vec.smul a V1)).add (Vec.smul b V2) ∧ 0 < t ∧ t < 1 ∧ a ^ 2 + b ^ 2 < 1,
   fun p => ∃ t a b : ℝ, p.sub P = ((Vec.smul t v).add (Vec.smul a V1)).add (Vec.smul b V2) ∧ (t < 0 ∨ 1 < t ∨ 1 < a ^ 2 + b ^ 2)⟩

/-- the same when only the length `r` of the second half axis is given -/
def recRegion' (P v V1 : Vec) (r : ℝ) : Region :=
  ⟨fun p => ∃ V2 : Vec, V2.dot v = 0 ∧ V2.dot V1 = 0 ∧ V2.sq = r ^ 2 ∧ (recRegion P v V1 V2).neg p,
   fun p => ∃ V2 : Vec, V2.dot v = 0 ∧ V2.dot V1 = 0 ∧ V2.sq = r ^ 2 ∧ (recRegion P v V1 V2).pos p⟩

/-- non-null vectors at right angles -/
def Orth3 (a b c : Vec) : Prop := a.dot b = 0 ∧ b.dot c = 0 ∧ c.dot a = 0 ∧ 0 < a.sq ∧ 0 < b.sq ∧ 0 < c.sq

/-! ## The surface cards, with the conditions the manual puts on the entries. `none`: not a card -/

open Classical in
/-- planes -/
noncomputable def planeCards : String → List ℝ → Option Region
  | "PX", [d] => some (.ofFun fun p => p.x - d)
  | "PY", [d] => some (.ofFun fun p => p.y - d)
  | "PZ", [d] => some (.ofFun fun p => p.z - d)
  | "P", [a, b, c, d] => if a = 0 ∧ b = 0 ∧ c = 0 then none else some (.ofFun fun p => a * p.x + b * p.y + c * p.z - d)
  | "P", [x1, y1, z1, x2, y2, z2, x3, y3, z3] =>
    if NonCollinear ⟨x1, y1, z1⟩ ⟨x2, y2, z2⟩ ⟨x3, y3, z3⟩ then some (threePointRegion ⟨x1, y1, z1⟩ ⟨x2, y2, z2⟩ ⟨x3, y3, z3⟩) else none
  | _, _ => none

open Classical in
/-- spheres -/
noncomputable def sphereCards : String → List ℝ → Option Region
  | "SO", [r] => if 0 < r then some (.ofFun (eqSph 0 0 0 r)) else none
  | "SX", [x, r] => if 0 < r then some (.ofFun (eqSph x 0 0 r)) else none
  | "SY", [y, r] => if 0 < r then some (.ofFun (eqSph 0 y 0 r)) else none
  | "SZ", [z, r] => if 0 < r then some (.ofFun (eqSph 0 0 z r)) else none
  | "S", [x, y, z, r] => if 0 < r then some (.ofFun (eqSph x y z r)) else none
  | "SPH", [x, y, z, r] => if 0 < r then some (.ofFun (eqSph x y z r)) else none
  | _, _ => none

open Classical in
/-- cylinders along a coordinate axis -/
noncomputable def cylCards : String → List ℝ → Option Region
  | "CX", [r] => if 0 < r then some (.ofFun (eqCylX 0 0 r)) else none
  | "CY", [r] => if 0 < r then some (.ofFun (eqCylY 0 0 r)) else none
  | "CZ", [r] => if 0 < r then some (.ofFun (eqCylZ 0 0 r)) else none
  | "C/X", [y, z, r] => if 0 < r then some (.ofFun (eqCylX y z r)) else none
  | "C/Y", [x, z, r] => if 0 < r then some (.ofFun (eqCylY x z r)) else none
  | "C/Z", [x, y, r] => if 0 < r then some (.ofFun (eqCylZ x y r)) else none
  | _, _ => none

open Classical in
/-- cones along a coordinate axis -/
noncomputable def coneCards : String → List ℝ → Option Region
  | "KX", x :: t2 :: s => if 0 < t2 then coneCard (eqConeX x 0 0 t2) (fun p => p.x - x) s else none
  | "KY", y :: t2 :: s => if 0 < t2 then coneCard (eqConeY 0 y 0 t2) (fun p => p.y - y) s else none
  | "KZ", z :: t2 :: s => if 0 < t2 then coneCard (eqConeZ 0 0 z t2) (fun p => p.z - z) s else none
  | "K/X", x :: y :: z :: t2 :: s => if 0 < t2 then coneCard (eqConeX x y z t2) (fun p => p.x - x) s else none
  | "K/Y", x :: y :: z :: t2 :: s => if 0 < t2 then coneCard (eqConeY x y z t2) (fun p => p.y - y) s else none
  | "K/Z", x :: y :: z :: t2 :: s => if 0 < t2 then coneCard (eqConeZ x y z t2) (fun p => p.z - z) s else none
  | _, _ => none

open Classical in
/-- tori (elliptical, along a coordinate axis) -/
noncomputable def torusCards : String → List ℝ → Option Region
  | "TX", [x, y, z, a, b, c] => if 0 < b ∧ 0 < c then some (.ofFun (eqTorX x y z a b c)) else none
  | "TY", [x, y, z, a, b, c] => if 0 < b ∧ 0 < c then some (.ofFun (eqTorY x y z a b c)) else none
  | "TZ", [x, y, z, a, b, c] => if 0 < b ∧ 0 < c then some (.ofFun (eqTorZ x y z a b c)) else none
  | _, _ => none

open Classical in
/-- surfaces given by points -/
noncomputable def pointCards : String → List ℝ → Option Region
  | "X", l => pointCard (fun p => p.x) (fun p => Real.sqrt (p.y ^ 2 + p.z ^ 2)) l
  | "Y", l => pointCard (fun p => p.y) (fun p => Real.sqrt (p.x ^ 2 + p.z ^ 2)) l
  | "Z", l => pointCard (fun p => p.z) (fun p => Real.sqrt (p.x ^ 2 + p.y ^ 2)) l
  | _, _ => none

open Classical in
/-- macrobodies with plane facets -/
noncomputable def boxCards : String → List ℝ → Option Region
  | "BOX", [x, y, z, a1, b1, c1, a2, b2, c2, a3, b3, c3] =>
    if Orth3 ⟨a1, b1, c1⟩ ⟨a2, b2, c2⟩ ⟨a3, b3, c3⟩ then some (boxRegion ⟨x, y, z⟩ ⟨a1, b1, c1⟩ ⟨a2, b2, c2⟩ ⟨a3, b3, c3⟩) else none
  | "RPP", [xmin, xmax, ymin, ymax, zmin, zmax] =>
    if xmin < xmax ∧ ymin < ymax ∧ zmin < zmax then
      some ⟨fun p => xmin < p.x ∧ p.x < xmax ∧ ymin < p.y ∧ p.y < ymax ∧ zmin < p.z ∧ p.z < zmax,
        fun p => p.x < xmin ∨ xmax < p.x ∨ p.y < ymin ∨ ymax < p.y ∨ p.z < zmin ∨ zmax < p.z⟩
    else none
  | _, _ => none

open Classical in
/-- macrobodies with curved facets -/
noncomputable def canCards : String → List ℝ → Option Region
  | "RCC", [x, y, z, a, b, c, r] => if 0 < (⟨a, b, c⟩ : Vec).sq ∧ 0 < r then some (trcRegion ⟨x, y, z⟩ ⟨a, b, c⟩ r r) else none
  | "REC", [x, y, z, a, b, c, a1, b1, c1, a2, b2, c2] =>
    if Orth3 ⟨a, b, c⟩ ⟨a1, b1, c1⟩ ⟨a2, b2, c2⟩ then some (recRegion ⟨x, y, z⟩ ⟨a, b, c⟩ ⟨a1, b1, c1⟩ ⟨a2, b2, c2⟩) else none
  | "REC", [x, y, z, a, b, c, a1, b1, c1, r] =>
    if (⟨a, b, c⟩ : Vec).dot ⟨a1, b1, c1⟩ = 0 ∧ 0 < (⟨a, b, c⟩ : Vec).sq ∧ 0 < (⟨a1, b1, c1⟩ : Vec).sq ∧ 0 < r then
      some (recRegion' ⟨x, y, z⟩ ⟨a, b, c⟩ ⟨a1, b1, c1⟩ r)
    else none
  | "TRC", [x, y, z, a, b, c, r1, r2] =>
    if 0 < (⟨a, b, c⟩ : Vec).sq ∧ 0 < r2 ∧ r2 < r1 then some (trcRegion ⟨x, y, z⟩ ⟨a, b, c⟩ r1 r2) else none
  | _, _ => none

/-- The surface cards other than SQ and GQ -/
noncomputable def cardMeaning (mn : String) (args : List ℝ) : Option Region :=
  planeCards mn args <|> sphereCards mn args <|> cylCards mn args <|> coneCards mn args <|> torusCards mn args <|> pointCards mn args <|> boxCards mn args <|> canCards mn args

/-- The point lies on none of the facets: a facet of a macrobody is an infinite surface, beyond the part that bounds the body. Asked for only with TRC (the cone) and REC (the
elliptical cylinder). -/
def offFacets : String → List ℝ → Vec → Prop
  | "TRC", [x, y, z, a, b, c, r1, r2], p => ∀ t w, Decomp ⟨x, y, z⟩ ⟨a, b, c⟩ p t w → w.sq ≠ (r1 + t * (r2 - r1)) ^ 2
  | "REC", [x, y, z, a, b, c, a1, b1, c1, a2, b2, c2], p =>
    ∀ t u v : ℝ, p.sub ⟨x, y, z⟩ = ((Vec.smul t ⟨a, b, c⟩).add (Vec.smul u ⟨a1, b1, c1⟩)).add (Vec.smul v ⟨a2, b2, c2⟩) → u ^ 2 + v ^ 2 ≠ 1
  | "REC", [x, y, z, a, b, c, a1, b1, c1, r], p =>
    ∀ V2 : Vec, V2.dot ⟨a, b, c⟩ = 0 → V2.dot ⟨a1, b1, c1⟩ = 0 → V2.sq = r ^ 2 →
      ∀ t u v : ℝ, p.sub ⟨x, y, z⟩ = ((Vec.smul t ⟨a, b, c⟩).add (Vec.smul u ⟨a1, b1, c1⟩)).add (Vec.smul v V2) → u ^ 2 + v ^ 2 ≠ 1
  | _, _, _ => True

/-! ## Transformation cards -/

/-- coordinates in the main system of the point with coordinates `p` in a system with origin `o` and unit vectors `e1`, `e2`, `e3` -/
def frame (o e1 e2 e3 p : Vec) : Vec := ((o.add (Vec.smul p.x e1)).add (Vec.smul p.y e2)).add (Vec.smul p.z e3)

/-- the cosine that an entry of a card TR means: the entry itself or, for *TR, the cosine of an angle in degrees -/
noncomputable def dirCos (star : Bool) (x : ℝ) : ℝ := if star then Real.cos (x * Real.pi / 180) else x
/-- three entries as a vector of cosines -/
noncomputable def dirVec (star : Bool) (a b c : ℝ) : Vec := ⟨dirCos star a, dirCos star b, dirCos star c⟩

open Classical in
/-- The card `TRn o1 o2 o3 B1 … B9 M`: coordinates in the main system of a point given in the auxiliary system. `B1 B2 B3` are the cosines of the angles (`*TRn`: the
angles, in degrees) between the auxiliary x axis and the main axes, and so on; a missing third axis is at right angles to the two others. `M = 1` (default): `o` is the
auxiliary origin in the main system; `M = -1`: it is the main origin in the auxiliary system. -/
noncomputable def trMeaning (star : Bool) : List ℝ → Option (Vec → Vec)
  | [o1, o2, o3] => some fun p => p.add ⟨o1, o2, o3⟩
  | [o1, o2, o3, b1, b2, b3, b4, b5, b6] =>
    some (frame ⟨o1, o2, o3⟩ (dirVec star b1 b2 b3) (dirVec star b4 b5 b6) ((dirVec star b1 b2 b3).cross (dirVec star b4 b5 b6)))
  | [o1, o2, o3, b1, b2, b3, b4, b5, b6, b7, b8, b9] => some (frame ⟨o1, o2, o3⟩ (dirVec star b1 b2 b3) (dirVec star b4 b5 b6) (dirVec star b7 b8 b9))
  | [o1, o2, o3, b1, b2, b3, b4, b5, b6, b7, b8, b9, m] =>
    if m = 1 then some (frame ⟨o1, o2, o3⟩ (dirVec star b1 b2 b3) (dirVec star b4 b5 b6) (dirVec star b7 b8 b9))
    else if m = -1 then some fun p => frame ⟨0, 0, 0⟩ (dirVec star b1 b2 b3) (dirVec star b4 b5 b6) (dirVec star b7 b8 b9) (p.sub ⟨o1, o2, o3⟩)
    else none
  | _ => none

/-- the point in mm of a point in cm -/
def mm (p : Vec) : Vec := Vec.smul 10 p

end Geouned.RSurf
