# DESIGN — a Lean 4 model of GEOUNED

## Method

* Lean 4.33.0, Lake project in `lean/`, modules under `lean/Verif/`, all imported by `lean/Verif.lean`.
* The Python code was read as text and modelled function by function as small executable Lean functions, branch by branch; every definition cites file and
  lines of `/repo` and says where it simplifies. A mutating method returns the new value; where sharing of objects matters (C32, C43, C58) there is an
  explicit heap. Python exceptions are values (`Except`, `Option`). Recursion depth and unbounded loops are a `Nat` fuel: running out of fuel is an outcome
  of its own (`RecursionError`, or "the loop does not end"), and the theorems hold for every fuel or state the fuel that suffices. The iteration order of
  Python sets is a parameter (any order) of the theorems.
* Specifications (what an expression means at a point, what a box is, what a card describes, ...) are in separate small `*Spec.lean` files.
  Property theorems are in `*Props.lean`, with `example`s beside them that meet the hypotheses in a concrete case; helper lemmas are in `*Lemmas.lean`.
* Where the code violates a property, the full statement is kept as `def Cnn_statement`, its negation is proved from a witness (`Cnn_..._violated`; the
  witness is run through the model by the kernel), and the largest part that was found to hold is proved as `Cnn_..._partial`.
* Theorems are tested against wrong programs (`seeded/LOG.jsonl`): the model is edited in a scratch copy as a realistic bug would change the program, and the
  theorems of the property must fail.

## Trusted base

* Lean's kernel. No axioms were added; every theorem depends at most on `propext`, `Classical.choice` and `Quot.sound` (checked by `vcheck`). No compiled
  evaluation is used in proofs.
* The reading of the Python source: that the Lean definitions say what the cited lines do.
* Real numbers in place of floating point wherever the model computes with coordinates (C24, C25, C36-C39, C43, C46-C51). Theorems about tolerances are
  about the comparison as written, in exact arithmetic.
* The CAD kernel (FreeCAD / OpenCascade) is outside: splitting of solids, distances, `isInside`, bounding boxes, intersections of shapes are
  parameters of the models; what a theorem needs of their answers is a hypothesis in its statement.
