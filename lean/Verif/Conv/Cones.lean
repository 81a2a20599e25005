import Verif.Conv.CellDef
import Verif.Misc.Cones
/-!
# Model of the loop over the solids: definitions, and the cones recorded for each

`src/geouned/GEOUNED/core.py` 426, 442-455 (and 484-495 for the enclosures).
-/
namespace Geouned.Conv
open Geouned.Cones

/-- 442-455: `m.Definition`, and `coneInfo` (in order of insertion). A cell is given by its id and its pieces. -/
def cellDefs {δ : Type} (order : List Int → List Int) (f : Nat) : List (Int × List (δ × List Face)) → M (List Cell × List (Int × List Int))
  | [] => .ok ([], [])
  | (i, solids) :: r => do
    let d ← cellDef order f solids
    let x ← cellDefs order f r
    .ok (⟨i, false, none, d.1⟩ :: x.1, if (conesOf solids).isEmpty then x.2 else (i, conesOf solids) :: x.2)

/-- 442-455, then 598-606: the definitions that are written. `f`, `g`: recursion depths allowed in reading texts and in adding planes. -/
def solidDefs {δ : Type} (order : List Int → List Int) (f g : Nat) (planeOf : Nat → Option Int) (cells : List (Int × List (δ × List Face))) : M (List Seq) := do
  let x ← cellDefs order f cells
  processCones g planeOf order x.2 x.1

end Geouned.Conv
