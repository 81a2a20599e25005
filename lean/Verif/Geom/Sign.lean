import Verif.Geom.Card
/-!
# Model of the sign of a point for the constraint tables

`src/geouned/GEOUNED/utils/boolean_solids.py`, `check_sign` (550-599), in exact real arithmetic: `p` is the point that `point_inside` gave. Left out: the rounding of the cosine to 15 places (584).
-/
namespace Geouned.Geom

open Classical in
/-- 550-599 `check_sign`; `none`: the point is the apex of the cone, whose difference cannot be normalised -/
noncomputable def checkSign (p : Vec) : Surface → Option Int
  -- 554-559
  | .plane s =>
    let r := p.sub s.pos
    some (if s.axis.dot r > 0 then 1 else -1)
  -- 561-571
  | .cyl s =>
    let r := p.sub s.center
    let L2 := r.len * r.len
    let z := s.axis.dot r
    let z2 := z * z
    let R2 := s.radius * s.radius
    some (if L2 - z2 > R2 then 1 else -1)
  -- 573-578
  | .sph s =>
    let r := p.sub s.center
    some (if r.len > s.radius then 1 else -1)
  -- 580-589
  | .cone s => do
    let r ← (p.sub s.apex).normalize
    let z := s.axis.dot r
    let alpha := Real.arccos z
    some (if alpha > s.semiAngle then 1 else -1)
  -- 591-599
  | .tor s =>
    let r := p.sub s.center
    let h := r.dot s.axis
    let rho := r.sub (Vec.smul h s.axis)
    let rp := Real.sqrt ((rho.len - s.major) ^ 2 + h ^ 2)
    some (if rp > s.minor then 1 else -1)

end Geouned.Geom
