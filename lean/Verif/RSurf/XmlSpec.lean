import Verif.RSurf.QuadSpec
/-!
# Specification for the surfaces of an OpenMC XML file

The meaning of an element is `omcXmlMeaning` (`Verif/Geom/CardSpec.lean`); here the conditions that OpenMC puts on the coefficients.
-/
namespace Geouned.RSurf
open Geouned.Geom

/-- the coefficients are those of a real surface: a normal that is not null, positive radii; a quadric has points on both sides -/
def XmlEntries : String → List ℝ → Prop
  | "plane", [a, b, c, _] => ¬ (a = 0 ∧ b = 0 ∧ c = 0)
  | "sphere", [_, _, _, r] => 0 < r
  | "x-cylinder", [_, _, r] => 0 < r
  | "y-cylinder", [_, _, r] => 0 < r
  | "z-cylinder", [_, _, r] => 0 < r
  | "x-cone", [_, _, _, r2] => 0 < r2
  | "y-cone", [_, _, _, r2] => 0 < r2
  | "z-cone", [_, _, _, r2] => 0 < r2
  | "x-torus", [_, _, _, _, b, c] => 0 < b ∧ 0 < c
  | "y-torus", [_, _, _, _, b, c] => 0 < b ∧ 0 < c
  | "z-torus", [_, _, _, _, b, c] => 0 < b ∧ 0 < c
  | "quadric", [a, b, c, d, e, f, g, h, j, k] => (∃ p, GQ.eval ⟨a, b, c, d, e, f, g, h, j, k⟩ p < 0) ∧ ∃ p, 0 < GQ.eval ⟨a, b, c, d, e, f, g, h, j, k⟩ p
  | _, _ => True

end Geouned.RSurf
