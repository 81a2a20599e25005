import Verif.Box.Spec
import Mathlib.Data.Real.Archimedean
import Mathlib.Tactic.Ring
/-!
# Model of box subdivision
`src/geouned/GEOUNED/utils/boolean_solids.py` 518-547 (`divide_box`) and
`src/geouned/GEOUNED/void/void_box_class.py` 39-120 (`VoidBox.split`, void boxes without piece enclosure).
-/
namespace Geouned.Box

/-- boolean_solids.py 519-521: the tuple `Box` is (xmin, xmax, ymin, ymax, zmin, zmax) -/
noncomputable def mid (a b : ℝ) : ℝ := (b + a) * (1 / 2)

/-- 518-547 `divide_box`: the eight boxes and the eight centres, in the order of the code -/
noncomputable def divideBox (B : BBox) : List BBox × List Pt :=
  let xm := mid B.xmin B.xmax
  let ym := mid B.ymin B.ymax
  let zm := mid B.zmin B.zmax
  let h := fun a b : ℝ => (1 / 2) * (a + b)
  ([⟨B.xmin, xm, B.ymin, ym, B.zmin, zm⟩,
    ⟨xm, B.xmax, B.ymin, ym, B.zmin, zm⟩,
    ⟨B.xmin, xm, ym, B.ymax, B.zmin, zm⟩,
    ⟨xm, B.xmax, ym, B.ymax, B.zmin, zm⟩,
    ⟨B.xmin, xm, B.ymin, ym, zm, B.zmax⟩,
    ⟨xm, B.xmax, B.ymin, ym, zm, B.zmax⟩,
    ⟨B.xmin, xm, ym, B.ymax, zm, B.zmax⟩,
    ⟨xm, B.xmax, ym, B.ymax, zm, B.zmax⟩],
   [⟨h B.xmin xm, h B.ymin ym, h B.zmin zm⟩,
    ⟨h xm B.xmax, h B.ymin ym, h B.zmin zm⟩,
    ⟨h B.xmin xm, h ym B.ymax, h B.zmin zm⟩,
    ⟨h xm B.xmax, h ym B.ymax, h B.zmin zm⟩,
    ⟨h B.xmin xm, h B.ymin ym, h zm B.zmax⟩,
    ⟨h xm B.xmax, h B.ymin ym, h zm B.zmax⟩,
    ⟨h B.xmin xm, h ym B.ymax, h zm B.zmax⟩,
    ⟨h xm B.xmax, h ym B.ymax, h zm B.zmax⟩])

/-- the strings "X", "Y", "Z" of void_box_class.py 42 -/
inductive Coord | X | Y | Z
deriving DecidableEq

open Classical in
/-- 43-46: `for i in range(2, -1, -1): if 0.5*dims[i] < minSize: del dims[i]; del coord[i]`
(the two lists are kept as one list of pairs) -/
noncomputable def keepDims (minSize : ℝ) (dims : List (ℝ × Coord)) : List (ℝ × Coord) :=
  dims.filter (fun d => decide (¬ (1 / 2) * d.1 < minSize))

open Classical in
/-- 51: `coord[dims.index(max(dims))]` on a non-empty list: the first of the largest -/
noncomputable def firstMax : ℝ × Coord → List (ℝ × Coord) → ℝ × Coord
  | best, [] => best
  | best, d :: ds => if best.1 < d.1 then firstMax d ds else firstMax best ds

/-- 53-94 and 96-102: the two boxes for a cut direction -/
noncomputable def cutBox (B : BBox) : Coord → BBox × BBox
  | .X =>
    let pos := B.xmin + (1 / 2) * (B.xmax - B.xmin)
    (⟨B.xmin, pos, B.ymin, B.ymax, B.zmin, B.zmax⟩, ⟨pos, B.xmax, B.ymin, B.ymax, B.zmin, B.zmax⟩)
  | .Y =>
    let pos := B.ymin + (1 / 2) * (B.ymax - B.ymin)
    (⟨B.xmin, B.xmax, B.ymin, pos, B.zmin, B.zmax⟩, ⟨B.xmin, B.xmax, pos, B.ymax, B.zmin, B.zmax⟩)
  | .Z =>
    let pos := B.zmin + (1 / 2) * (B.zmax - B.zmin)
    (⟨B.xmin, B.xmax, B.ymin, B.ymax, B.zmin, pos⟩, ⟨B.xmin, B.xmax, B.ymin, B.ymax, pos, B.zmax⟩)

/-- 39-120 `split` for a box without piece enclosure: `none` = the Python `None` (not split) -/
noncomputable def split (minSize : ℝ) (B : BBox) : Option (BBox × BBox) :=
  match keepDims minSize [(B.xmax - B.xmin, .X), (B.ymax - B.ymin, .Y), (B.zmax - B.zmin, .Z)] with
  | [] => none
  | d :: ds => some (cutBox B (firstMax d ds).2)

end Geouned.Box
