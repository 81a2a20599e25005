/-!
# Exceptions of the reverse conversion (GEOReverse)
-/
namespace Geouned.Rev

inductive RErr where
  | typeError
  | attributeError
  | keyError
  | valueError
  | runtimeError
  | indexError
  /-- `UnboundLocalError` -/
  | unbound
  /-- `RecursionError`, or a loop that does not end -/
  | recursion
  deriving DecidableEq, Repr

abbrev R := Except RErr

deriving instance DecidableEq for Except

/-- A cell card as far as the choice of cells and the universes are concerned (`remh.py` 500-511 `CellCardString`, `XMLParser.py` 4-32 `CellCard`):
number, material, universe filling the cell. -/
structure SCell where
  name : Nat
  mat : Option Int
  fill : Option Nat
  deriving DecidableEq, Repr

end Geouned.Rev
