import Verif.Misc.Planes
import Mathlib.Algebra.Order.Field.Rat
/-!
# Model of the decomposition of solids

`src/geouned/GEOUNED/utils/functions.py` 600-618 (`split_bop`), `src/geouned/GEOUNED/decompose/decom_one.py` 28-123 (`split_full_cylinder`,
`cut_full_cylinder`), 688-706 (`split_planes`), 763-952 (`split_p_planes_new` to `SplitSolid`), `src/geouned/GEOUNED/core.py` 614-680
(`_decompose_solids`).

The CAD kernel is a parameter (`Cad`): the volume of a solid, the cut of a solid by tools at a tolerance (or an exception), and the surfaces that
the face analysis extracts from a solid. Nothing is assumed about it here. A compound is the list of its solids; its volume is the sum of theirs.

Simplifications: numbers are exact rationals; the exports to STEP files and the log are left out.
-/
namespace Geouned.Decom

open Planes

/-- `Options` (data_classes.py 50-75): the three fields the decomposition reads -/
structure Options where
  splitTolerance : ℚ := 0
  scaleUp : Bool := true
  nPlaneReverse : Int := 0

/-- the exceptions: of the CAD kernel, `RecursionError`, `UnboundLocalError`, `ZeroDivisionError`; `endless`: a `while True` that has not ended
(after the number of rounds the model is given) -/
inductive Exc
  | kernel | depth | unbound | zerodiv | endless
deriving DecidableEq

/-- the kinds of 2nd order surfaces (decom_one.py 792) -/
inductive Kind
  | cyl | cone | sph | tor
deriving DecidableEq

/-- what the code asks the CAD kernel: `S` solids, `T` tools (faces that cut) -/
structure Cad (S T : Type) where
  /-- `solid.Volume` -/
  vol : S → ℚ
  /-- `BOPTools.SplitAPI.slice(solid, tools, "Split", tolerance=…).Solids`; `none`: it raises -/
  slice : S → List T → ℚ → Option (List S)
  /-- decom_one.py 53-78: planes of the first closed convex cylinder face -/
  cylPlanes : S → List T
  /-- the same: the cylinder -/
  cyl : S → T
  /-- `extract_surfaces(solid, "Planes", …)` -/
  planes : S → List T
  /-- `extract_surfaces(solid, kind, …)[kind]` -/
  second : Kind → S → List T
  /-- `plane_2nd_order(…)` -/
  aux : S → List T
  /-- `is_parallel(p.Surf.Axis, a.Surf.Axis, 0.1)` -/
  par : T → T → Bool
  /-- `a.Surf.Axis.dot(p.Surf.Position)` -/
  pos : T → T → ℚ
  /-- number of stack frames left for the recursion of `split_bop` -/
  depth : Nat

/-- functions.py 600-618 `split_bop`; `slice tol` is the call of the kernel at tolerance `tol`. The first argument is the number of stack frames left;
`scale` is 0.1 in the calls from outside -/
def splitBop {α : Type} (slice : ℚ → Option α) (o : Options) : Nat → ℚ → ℚ → Except Exc α
  | 0, _, _ => .error .depth
  | n + 1, tol, scale =>
    if tol ≥ 1 / 10 then
      match slice tol with
      | some c => .ok c
      | none => .error .kernel
    else if tol < 1 / 10 ^ 12 then
      if o.scaleUp then
        splitBop slice o n ((if o.splitTolerance = 0 then 1 / 10 ^ 13 else o.splitTolerance) / scale) (1 / scale)
      else
        match slice tol with
        | some c => .ok c
        | none => .error .kernel
    else
      match slice tol with
      | some c => .ok c
      | none => splitBop slice o n (tol * scale) scale

variable {S T : Type}

/-- the call `UF.split_bop(solid, tools, options.splitTolerance, options)` (decom_one.py 101, 114, 781, 813, 876) -/
def cutBy (k : Cad S T) (o : Options) (s : S) (tools : List T) : Except Exc (List S) :=
  splitBop (k.slice s tools) o k.depth o.splitTolerance (1 / 10)

/-- decom_one.py 100-103 and 113-116: `except: comsolid = solid` -/
def cutOrKeep (k : Cad S T) (o : Options) (s : S) (tools : List T) : List S :=
  match cutBy k o s tools with
  | .ok c => c
  | .error _ => [s]

/-- decom_one.py 87-88, 774-775 (`planes[-1]` is the last, hence largest, group) -/
def orderGroups (o : Options) (gs : List (List T)) : List (List T) :=
  match gs.getLast? with
  | some g => if (g.length : Int) < o.nPlaneReverse then gs.reverse else gs
  | none => gs

/-- decom_one.py 92-98: the outermost planes of a group -/
def outer (pp : List T) : List T :=
  if pp.length ≠ 1 then pp.head?.toList ++ pp.getLast?.toList else pp.head?.toList

/-- decom_one.py 91-107: the loop over the groups; `some` after the `break` -/
def cylLoop (k : Cad S T) (o : Options) (s : S) : List (List T) → Option (List S)
  | [] => none
  | pp :: rest => if (cutOrKeep k o s (outer pp)).length > 1 then some (cutOrKeep k o s (outer pp)) else cylLoop k o s rest

/-- decom_one.py 47-123 `cut_full_cylinder` -/
def cutFullCylinder (k : Cad S T) (o : Options) (s : S) : List S :=
  let groups := sortPlanes k.par (fun a b => decide (a ≤ b)) k.pos true (k.cylPlanes s)
  if groups.length = 0 then [s]
  else
    match cylLoop k o s (orderGroups o groups) with
    | some out => out
    | none => if (cutOrKeep k o s [k.cyl s]).length > 1 then cutOrKeep k o s [k.cyl s] else [s]

/-- decom_one.py 33-38, 695-700, 852-857: one pass of the `for base in bases` loop; a base that is not cut goes to `done`, the pieces of the others to
`new`; the error number is the one of the last cut -/
def cutRound (cut : S → Except Exc (List S × Nat)) : List S → List S → List S → Nat → Except Exc (List S × List S × Nat)
  | [], done, new, err => .ok (done, new, err)
  | b :: bs, done, new, _ =>
    match cut b with
    | .error x => .error x
    | .ok (cs, e) => if cs.length = 1 then cutRound cut bs (done ++ cs) new e else cutRound cut bs done (new ++ cs) e

/-- decom_one.py 31-42, 693-704, 850-861: the `while True` loop (first argument: how many rounds it is given) -/
def cutLoop (cut : S → Except Exc (List S × Nat)) : Nat → List S → List S → Nat → Except Exc (List S × Nat)
  | 0, _, _, _ => .error .endless
  | n + 1, bases, done, err =>
    match cutRound cut bases done [] err with
    | .error x => .error x
    | .ok (done', new, err') => if new.length = 0 then .ok (done', err') else cutLoop cut n new done' err'

/-- decom_one.py 28-44 `split_full_cylinder` -/
def splitFullCylinder (k : Cad S T) (o : Options) (n : Nat) (s : S) : Except Exc (List S) :=
  match cutLoop (fun b => .ok (cutFullCylinder k o b, 0)) n [s] [] 0 with
  | .error x => .error x
  | .ok (out, _) => .ok out

/-- decom_one.py 776-786: the loop of `split_p_planes_new` -/
def planeLoop (k : Cad S T) (o : Options) (s : S) : List (List T) → Except Exc (List S)
  | [] => .ok [s]
  | pp :: rest =>
    match cutBy k o s pp with
    | .error x => .error x
    | .ok c => if c.length > 1 then .ok c else planeLoop k o s rest

/-- decom_one.py 763-786 `split_p_planes_new` -/
def splitPPlanes (k : Cad S T) (o : Options) (s : S) : Except Exc (List S) :=
  let groups := sortPlanes k.par (fun a b => decide (a ≤ b)) k.pos false (k.planes s)
  if groups.length = 0 then .ok [s] else planeLoop k o s (orderGroups o groups)

/-- decom_one.py 696: a cut by planes, without error number -/
def planeCut (k : Cad S T) (o : Options) (b : S) : Except Exc (List S × Nat) :=
  match splitPPlanes k o b with
  | .error x => .error x
  | .ok c => .ok (c, 0)

/-- decom_one.py 688-706 `split_planes` -/
def splitPlanes (k : Cad S T) (o : Options) (n : Nat) (solids : List S) : Except Exc (List S × Nat) :=
  match cutLoop (planeCut k o) n solids [] 0 with
  | .error x => .error x
  | .ok (out, _) => .ok (out, 0)

/-- the volume of a compound -/
def volume (k : Cad S T) (l : List S) : ℚ := (l.map k.vol).sum

/-- decom_one.py 810-832: the loop over the surfaces of one kind; `some` pieces after the `break`, `none`: `simple` is still true -/
def secondTry (k : Cad S T) (o : Options) (s : S) : List T → Nat → Option (List S) × Nat
  | [], err => (none, err)
  | t :: ts, err =>
    match cutBy k o s [t] with
    | .error _ => secondTry k o s ts (err + 2)
    | .ok c =>
      if k.vol s = 0 then secondTry k o s ts (err + 2)
      else
        let kept := c.filter (fun p => decide (k.vol p > 1 / 10 ^ 9))
        let sameVol := |(k.vol s - volume k kept) / k.vol s| < 1 / 10 ^ 5
        if kept.length > 1 ∧ sameVol then (some kept, err) else secondTry k o s ts err

/-- decom_one.py 796-835: the loop `for solid in Base`; `kindBase`, `cutBase`, `err` -/
def kindRound (k : Cad S T) (o : Options) (kind : Kind) : List S → List S → List S → Nat → List S × List S × Nat
  | [], kindBase, cutBase, err => (kindBase, cutBase, err)
  | s :: ss, kindBase, cutBase, err =>
    if (k.second kind s).length = 0 then kindRound k o kind ss (kindBase ++ [s]) cutBase err
    else
      match secondTry k o s (k.second kind s) err with
      | (some ps, err') => kindRound k o kind ss kindBase (cutBase ++ ps) err'
      | (none, err') => kindRound k o kind ss (kindBase ++ [s]) cutBase err'

/-- decom_one.py 793-841: the `while True` loop for one kind -/
def kindLoop (k : Cad S T) (o : Options) (kind : Kind) : Nat → List S → List S → Nat → Except Exc (List S × Nat)
  | 0, _, _, _ => .error .endless
  | n + 1, base, kindBase, err =>
    match kindRound k o kind base kindBase [] err with
    | (kindBase', cutBase, err') => if cutBase.length = 0 then .ok (kindBase', err') else kindLoop k o kind n cutBase kindBase' err'

/-- decom_one.py 792: the loop over the kinds -/
def kindsLoop (k : Cad S T) (o : Options) (n : Nat) : List Kind → List S → Nat → Except Exc (List S × Nat)
  | [], base, err => .ok (base, err)
  | kd :: kds, base, err =>
    match kindLoop k o kd n base [] err with
    | .error x => .error x
    | .ok (base', err') => kindsLoop k o n kds base' err'

/-- decom_one.py 789-843 `split_2nd_order` -/
def split2ndOrder (k : Cad S T) (o : Options) (n : Nat) (solids : List S) : Except Exc (List S × Nat) :=
  kindsLoop k o n [.cyl, .cone, .sph, .tor] solids 0

/-- decom_one.py 889-900 `remove_solids`; `err` starts at 0 -/
def removeSolids (k : Cad S T) : List S → List S × Nat
  | [] => ([], 0)
  | s :: ss => if k.vol s ≤ 1 / 100 then ((removeSolids k ss).1, 2) else (s :: (removeSolids k ss).1, (removeSolids k ss).2)

/-- decom_one.py 875-886: the loop over the planes; `com` is `comsolid.Solids` -/
def auxLoop (k : Cad S T) (o : Options) (s : S) : List T → List S → Nat → Except Exc (List S × Nat)
  | [], com, err => .ok (com, err)
  | p :: ps, _, err =>
    match cutBy k o s [p] with
    | .error x => .error x
    | .ok c =>
      if c.length = 0 then auxLoop k o s ps [s] err
      else if c.length > 1 then
        if (removeSolids k c).1.length > 1 then .ok (removeSolids k c) else auxLoop k o s ps (removeSolids k c).1 (removeSolids k c).2
      else auxLoop k o s ps c err

/-- decom_one.py 866-886 `split_2nd_o_plane` -/
def split2ndOPlane (k : Cad S T) (o : Options) (s : S) : Except Exc (List S × Nat) :=
  if (k.aux s).length = 0 then .ok ([s], 0) else auxLoop k o s (k.aux s) [] 0

/-- decom_one.py 846-863 `split_2nd_order_planes` -/
def split2ndOrderPlanes (k : Cad S T) (o : Options) (n : Nat) (solids : List S) : Except Exc (List S × Nat) :=
  cutLoop (split2ndOPlane k o) n solids [] 0

/-- decom_one.py 919-927: the pieces kept and the error number -/
def keepPieces (k : Cad S T) : List S → Nat → List S × Nat
  | [], err => ([], err)
  | p :: ps, err =>
    if k.vol p ≤ 1 / 10 ^ 10 then keepPieces k ps (err + 2) else (p :: (keepPieces k ps err).1, (keepPieces k ps err).2)

/-- decom_one.py 903-938 `split_component` -/
def splitComponent (k : Cad S T) (o : Options) (n : Nat) (solids : List S) : Except Exc (List S × Nat) :=
  match splitPlanes k o n solids with
  | .error x => .error x
  | .ok (split0, err0) =>
    match split2ndOrder k o n split0 with
    | .error x => .error x
    | .ok (split1, err1) =>
      match split2ndOrderPlanes k o n split1 with
      | .error x => .error x
      | .ok (split, err2) =>
        let kept := keepPieces k split (err0 + err1 + err2)
        if volume k solids = 0 then .error .zerodiv
        else if |(volume k solids - volume k kept.1) / volume k solids| > 1 / 100 then .ok (kept.1, kept.2 + 4)
        else .ok kept

/-- decom_one.py 946-950: the loop over the solids; `err` is unassigned at first -/
def solidLoop (k : Cad S T) (o : Options) (n : Nat) : List S → List S → Option Nat → Except Exc (List S × Nat)
  | [], parts, some err => .ok (parts, err)
  | [], _, none => .error .unbound
  | s :: ss, parts, _ =>
    match splitFullCylinder k o n s with
    | .error x => .error x
    | .ok explode =>
      match splitComponent k o n explode with
      | .error x => .error x
      | .ok (piece, err) => solidLoop k o n ss (parts ++ piece) (some err)

/-- decom_one.py 942-952 `SplitSolid`: the solids of the compound returned, and the error number -/
def splitSolid (k : Cad S T) (o : Options) (n : Nat) (solids : List S) : Except Exc (List S × Nat) :=
  solidLoop k o n solids [] none

/-- a solid cell of the model, as far as the decomposition is concerned: `Solids`, `IsEnclosure` -/
structure Meta (S : Type) where
  solids : List S
  isEnclosure : Bool
deriving DecidableEq

/-- core.py 625-678: the loop; `i` the position, `warn` the list `warningSolids` -/
def decomposeLoop (k : Cad S T) (o : Options) (n : Nat) (isMeta : Bool) : List (Meta S) → Nat → List (Meta S) → List Nat →
    Except Exc (List (Meta S) × List Nat)
  | [], _, out, warn => .ok (out, warn)
  | m :: ms, i, out, warn =>
    if isMeta && m.isEnclosure then decomposeLoop k o n isMeta ms (i + 1) (out ++ [m]) warn
    else
      match splitSolid k o n m.solids with
      | .error x => .error x
      | .ok (pieces, err) =>
        decomposeLoop k o n isMeta ms (i + 1) (out ++ [{ m with solids := pieces }]) (if err ≠ 0 then warn ++ [i] else warn)

/-- core.py 614-680 `_decompose_solids`: the cells afterwards and the numbers of the suspicious ones -/
def decomposeSolids (k : Cad S T) (o : Options) (n : Nat) (isMeta : Bool) (ms : List (Meta S)) : Except Exc (List (Meta S) × List Nat) :=
  decomposeLoop k o n isMeta ms 0 [] []

end Geouned.Decom
