import Verif.CTable.Model
/-!
# Model of the making of a constraint table from the solids

`src/geouned/GEOUNED/utils/boolean_solids.py`: `build_c_table_from_solids` (242-314), `split_solid_fast` (383-430), the use of `check_sign` (550-599). What the CAD kernel answers is a parameter
(`CutKernel`). Left out: the making of the shapes of the surfaces (252-260; the first surface is asked for its type, 252, so that an empty list raises `IndexError`).
-/
namespace Geouned

/-- what is asked of the CAD kernel; `P`: solids, `Q`: points -/
structure CutKernel (P Q : Type) where
  /-- the box -/
  box : P
  /-- `surf.shape`: the surface has a shape in the box -/
  hasShape : Nat → Bool
  /-- `split_bop(box, [surf.shape], …).Solids` -/
  cut : Nat → List P
  /-- `solid.distToShape(surf.shape)[0] > 1e-6` -/
  far : P → Nat → Bool
  /-- `point_inside(solid)` -/
  inside : P → Q
  /-- the sign of the equation of the surface at the point (554-599) -/
  positive : Q → Nat → Bool

variable {P Q : Type}

/-- 550-599 `check_sign(solid, surf)` -/
def CutKernel.sign (K : CutKernel P Q) (p : P) (s : Nat) : Int := if K.positive (K.inside p) s then 1 else -1

/-- 383-408 `split_solid_fast(Box, surf, True)` -/
def CutKernel.splitBox (K : CutKernel P Q) (s : Nat) : Int × Option (List P × List P) :=
  if K.hasShape s = false then (K.sign K.box s, none)
  else if (K.cut s).length ≤ 1 then (K.sign K.box s, none)
  else (0, some ((K.cut s).filter (fun p => K.sign p s == 1), (K.cut s).filter (fun p => !(K.sign p s == 1))))

/-- 412-430 `split_solid_fast(solid, surf, False)` -/
def CutKernel.splitPiece (K : CutKernel P Q) (s : Nat) (p : P) : Bool × Bool :=
  if K.hasShape s = false ∨ K.far p s = true then (if K.sign p s = 1 then (true, false) else (false, true)) else (true, true)

/-- 277-309: the loop over the other surfaces; `pos` and `neg` are not reset -/
def CutKernel.pairLoop (K : CutKernel P Q) (s1 : Nat) (posS negS : List P) : List Nat → CTable → Option (Bool × Bool) → Option (Bool × Bool) →
    M (CTable × Option (Bool × Bool) × Option (Bool × Bool))
  | [], t, pos, neg => .ok (t, pos, neg)
  | s2 :: ss, t, pos, neg =>
    match pairEntry (posS.map (K.splitPiece s2)) (negS.map (K.splitPiece s2)) pos neg with
    | .error e => .error e
    | .ok (e, p, n) => K.pairLoop s1 posS negS ss (t.addElement s1 s2 e) (some p) (some n)

/-- 268-309: the loop over the surfaces; `diag`: the simplification mode is "diag" -/
def CutKernel.tableLoop (K : CutKernel P Q) (diag : Bool) : List Nat → CTable → Option (Bool × Bool) → Option (Bool × Bool) → M CTable
  | [], t, _, _ => .ok t
  | s1 :: ss, t, pos, neg =>
    let t := t.addElement s1 s1 (.diag (K.splitBox s1).1)
    if diag then K.tableLoop diag ss t pos neg
    else
      match (K.splitBox s1).2 with
      | none => K.tableLoop diag ss t pos neg
      | some (posS, negS) =>
        match K.pairLoop s1 posS negS ss t pos neg with
        | .error e => .error e
        | .ok (t, pos, neg) => K.tableLoop diag ss t pos neg

/-- 242-314 `build_c_table_from_solids`; `surfs`: the list of the surfaces -/
def CutKernel.build (K : CutKernel P Q) (diag : Bool) (surfs : List Nat) : M CTable :=
  if surfs = [] then .error .indexError
  else
    match K.tableLoop diag surfs ⟨[], fun _ _ => none, diag⟩ none none with
    | .error e => .error e
    | .ok t => if diag then .ok t else t.fill

end Geouned
