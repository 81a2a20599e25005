import Verif.Setup.Model
/-!
# C123: documented types of the parameters (specification, from the docstrings of the classes)
-/
namespace Geouned.Setup

/-- the types of the docstrings: `bool`, `int`, `float`, `Real` (not negative), `str`, `str` or nothing, a material (empty list, or number, density, description), a list of strings -/
inductive Doc
  | bool | int | float | notNegative | str | strOrNone | material | strings
deriving DecidableEq

/-- the documentation: class, parameter, type -/
def documented : Cls → String → Option Doc
  | .options, n =>
    if n ∈ ["forceCylinder", "newSplitPlane", "delLastNumber", "scaleUp", "quadricPY", "Facets", "prnt3PPlane", "forceNoOverlap"] then some .bool
    else if n ∈ ["enlargeBox", "splitTolerance"] then some .notNegative
    else if n = "nPlaneReverse" then some .int
    else none
  | .tolerances, n =>
    if n = "relativeTol" then some .bool
    else if n ∈ ["relativePrecision", "value", "distance", "angle", "pln_distance", "pln_angle", "cyl_distance", "cyl_angle", "sph_distance", "kne_distance", "kne_angle", "tor_distance",
      "tor_angle", "min_area"] then some .float
    else none
  | .numeric, n =>
    if n ∈ ["P_abc", "P_d", "P_xyz", "S_r", "S_xyz", "C_r", "C_xyz", "K_xyz", "K_tan2", "T_r", "T_xyz", "GQ_1to6", "GQ_7to9", "GQ_10"] then some .str
    else none
  | .settings, n =>
    if n ∈ ["outPath", "matFile", "simplify"] then some .str
    else if n = "exportSolids" then some .strOrNone
    else if n ∈ ["voidGen", "debug", "compSolids", "sort_enclosure"] then some .bool
    else if n = "minVoidSize" then some .float
    else if n ∈ ["maxSurf", "maxBracket", "startCell", "startSurf"] then some .int
    else if n = "voidMat" then some .material
    else if n = "voidExclude" then some .strings
    else none

/-- an int of Python: bools are ints -/
def Whole (v : Val) : Prop := (∃ n, v = .int n) ∨ ∃ b, v = .bool b

/-- the value has the documented type; NaN is not negative -/
def Has (lists : Nat → List Val) (v : Val) : Doc → Prop
  | .bool => ∃ b, v = .bool b
  | .int => Whole v
  | .float => ∃ x, v = .float x
  | .notNegative => (∃ n : Int, v = .int n ∧ 0 ≤ n) ∨ (∃ b, v = .bool b) ∨ (∃ q : ℚ, (v = .float (.fin q) ∨ v = .real q) ∧ 0 ≤ q) ∨ v = .float (.inf false) ∨ v = .float .nan
  | .str => ∃ s, v = .str s
  | .strOrNone => v = .none ∨ ∃ s, v = .str s
  | .material => ∃ r, v = .list r ∧ (lists r = [] ∨ ∃ a b c, lists r = [a, b, c] ∧ Whole a ∧ (Whole b ∨ ∃ x, b = .float x) ∧ ∃ s, c = .str s)
  | .strings => ∃ r, v = .list r ∧ ∀ x ∈ lists r, ∃ s, x = .str s

/-- every documented parameter of every object has a value of its type -/
def Typed (st : State) : Prop := ∀ o ∈ st.objs, ∀ name d, documented o.cls name = some d → ∃ v, o.attr name = some v ∧ Has st.lists v d

/-- the operation adds nothing to an existing list, and uses only lists that exist -/
def Op.Plain (next : Nat) : Op → Prop
  | .append _ _ => False
  | .list _ => True
  | .make _ args => ∀ a ∈ args, ∀ r, a.2 = .list r → r < next
  | .set _ _ v => ∀ r, v = .list r → r < next

/-- all operations of a history are plain -/
def AllPlain (st : State) : List Op → Prop
  | [] => True
  | o :: os => o.Plain st.next ∧ AllPlain (step st o).1 os

end Geouned.Setup
