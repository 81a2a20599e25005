import Verif.RSurf.Xml
import Verif.Geom.Card
/-!
# Model: surfaces written by GEOUNED and read back by GEOReverse

Composition of the writers (`Verif/Geom/Card.lean`: `src/geouned/GEOUNED/write/functions.py` 241-712) and of the readers (`RSurf/Model.lean`, `RSurf/Quad.lean`, `RSurf/Xml.lean`:
`src/geouned/GEOReverse/Modules/MCNPinput.py` 495-967, `src/geouned/GEOReverse/Modules/XMLinput.py` 164-533). The text of the cards (number of digits, folding of lines) is not
modelled: the numbers that are read are the numbers that were written.
-/
namespace Geouned.RSurf
open Geouned.Geom

/-- MCNPinput.py 506-965, one pass of the loop for a card without transformation. The writer never writes the cards X, Y and Z, the only ones for which a pass uses the
variables of an earlier one (`primLoop`), so the passes are independent here. `none`: the code raises or stores no surface. -/
noncomputable def readCard (eigh : GQ → Eig) (c : Card) : Option Surf :=
  match c.mn, c.args with
  | "GQ", [a, b, cc, d, e, f, g, h, j, k] => readGQ ⟨a, b, cc, d, e, f, g, h, j, k⟩ (eigh ⟨a, b, cc, d, e, f, g, h, j, k⟩)
  | mn, args =>
    match makeSurf mn args with
    | some (.surf s _ _) => some s
    | _ => none

/-- functions.py 241-488 followed by MCNPinput.py 506-965: the surfaces (with their labels) written in an MCNP file and read back -/
noncomputable def roundMcnp (t : Tol) (prnt3P : Bool) (eigh : GQ → Eig) : List (Nat × Surface) → Option (List (Nat × Surf))
  | [] => some []
  | (n, S) :: l => do
    let c ← mcnpSurface t prnt3P S
    let s ← readCard eigh c
    let rest ← roundMcnp t prnt3P eigh l
    some ((n, s) :: rest)

/-- functions.py 491-712: the elements `surface` of the XML file -/
noncomputable def xmlElements (t : Tol) : List (Nat × Surface) → Option (List XSurf)
  | [] => some []
  | (n, S) :: l => do
    let c ← omcXmlSurface t S
    let rest ← xmlElements t l
    some (⟨n, c.mn, c.args⟩ :: rest)

/-- and XMLinput.py 164-533: written in an XML file and read back -/
noncomputable def roundXml (t : Tol) (eigh : GQ → Eig) (l : List (Nat × Surface)) : Option (List (Nat × Nat × Surf)) :=
  (xmlElements t l).bind (xmlSurfaces eigh 1)

end Geouned.RSurf
