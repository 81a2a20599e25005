/-!
# Material, density and dilution of a cell

Model of `GeounedSolid.set_material` / `set_dilution` (`src/geouned/GEOUNED/utils/functions.py` 138-161), of the header
written for a cell (`src/geouned/GEOUNED/write/mcnp_format.py` 150-166, same text in `phits_format.py` 238-244 and
340-346), and of the copy of the material of an enclosure to its void cells (`src/geouned/GEOUNED/void/void.py` 166-177).
Densities are values of any type with a commutative product (so also floating point numbers).
-/
namespace Geouned.Density

variable {α : Type}

/-- the attributes concerned (`functions.py` 72-83) -/
structure Cell (α : Type) where
  material : Int
  rho : Option α
  dilution : α
  density : Option α
  deriving DecidableEq

/-- `GeounedSolid.__init__`, 79-83: `Density = 0`, `Dilution = 1`, `Material = 0`, `Rho = None` -/
def Cell.init (zero one : α) : Cell α := ⟨0, none, one, some zero⟩

/-- calls on a cell -/
inductive Call (α : Type) where
  | material (m : Int) (rho : Option α)
  | dilution (d : α)
  deriving DecidableEq

/-- 138-148 `set_material` and 158-161 `set_dilution` -/
def Cell.call [Mul α] (c : Cell α) : Call α → Cell α
  | .material m (some r) => { c with material := m, rho := some r, density := some (c.dilution * r) }
  | .material m none =>
    if m ≠ 0 then { c with material := m, rho := none, density := none } else { c with material := m, rho := none }
  | .dilution d =>
    match c.rho with
    | some r => { c with dilution := d, density := some (r * d) }
    | none => { c with dilution := d }

/-- the cell after a history of calls -/
def Cell.run [Mul α] (c : Cell α) (h : List (Call α)) : Cell α := h.foldl Cell.call c

/-- What the header of a cell card says: material 0 without density, or a material and its density; `raised` is the
`TypeError` of `abs(None)` (mcnp_format.py 158-165). The number format of the density is not modelled. -/
inductive Header (α : Type) where
  | void
  | filled (m : Int) (density : α)
  | raised
  deriving DecidableEq

/-- mcnp_format.py 158-165 -/
def Cell.header (c : Cell α) : Header α :=
  if c.material = 0 then .void
  else match c.density with
    | some d => .filled c.material d
    | none => .raised

/-- void.py 168-173: a void cell gets the material, nominal density and dilution of the enclosure it fills -/
def voidOf [Mul α] (zero one : α) (e : Cell α) : Cell α :=
  (Cell.init zero one).run [.material e.material e.rho, .dilution e.dilution]

end Geouned.Density
