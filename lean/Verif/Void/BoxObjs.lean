import Verif.Void.Model
import Verif.Box.Spec
/-!
# Model of the solids held by a void box

`VoidBox.__init__`, `remove_extra_comp`, `copy_meta` (`src/geouned/GEOUNED/void/void_box_class.py` 19-37, 458-493) and `GeounedSolid.__init__`,
`update_solids` (`src/geouned/GEOUNED/utils/functions.py` 43-56, 97-103).

Of a CAD solid only its bounding box is read (`none`: the box is not valid, `isValid()` is False). `mode="dist"` of `remove_extra_comp` is only called
by `refine`, which is not called.
-/
namespace Geouned.Void
open Geouned.Box

/-- what is read of a `GeounedSolid` -/
structure VObj where
  id : Int
  isEncl : Bool
  /-- `Solids`: the bounding box of each -/
  solids : List (Option BBox)
  /-- `BoundBox`: `none` for `None` and for a box that is not valid -/
  box : Option BBox
  /-- `Definition` -/
  defn : Seq

/-- `FreeCAD.BoundBox.intersect(BoundBox)`: boxes that touch intersect -/
def Touch (B b : BBox) : Prop :=
  (b.xmin ≤ B.xmax ∧ B.xmin ≤ b.xmax) ∧ (b.ymin ≤ B.ymax ∧ B.ymin ≤ b.ymax) ∧ (b.zmin ≤ B.zmax ∧ B.zmin ≤ b.zmax)

open Classical in
/-- void_box_class.py 466-467 -/
noncomputable def hit (B : BBox) : Option BBox → Bool
  | none => false
  | some b => decide (Touch B b)

/-- 465-469: the loop; `d` is `Obj.Definition`, `i` the position in `Obj.Solids`; the solids kept and `reducedDef` -/
noncomputable def keepLoop (B : BBox) (d : Seq) : Nat → List (Option BBox) → Seq → M (List (Option BBox) × Seq)
  | _, [], red => .ok ([], red)
  | i, s :: ss, red =>
    if hit B s then do
      let es ← d.elemsOf
      match es[i]? with
      | none => .error .indexError
      | some e => do
        let red ← red.append [.seq e]
        let r ← keepLoop B d (i + 1) ss red
        .ok (s :: r.1, r.2)
    else keepLoop B d (i + 1) ss red

/-- smallest box that holds two boxes -/
noncomputable def hull (a b : BBox) : BBox :=
  ⟨min a.xmin b.xmin, max a.xmax b.xmax, min a.ymin b.ymin, max a.ymax b.ymax, min a.zmin b.zmin, max a.zmax b.zmax⟩

/-- functions.py 52-55, 100-103: `BoundBox` from the solids; an invalid box adds nothing -/
noncomputable def hullAll : List (Option BBox) → Option BBox
  | [] => none
  | none :: ss => hullAll ss
  | some b :: ss =>
    match hullAll ss with
    | none => some b
    | some c => some (hull b c)

/-- void_box_class.py 458-482 `remove_extra_comp(Obj, Box)`; 97-103 `update_solids` -/
noncomputable def removeExtraComp (B : BBox) (o : VObj) : M VObj :=
  match o.solids with
  | [] => .ok o
  | ss => do
    let r ← keepLoop B o.defn 0 ss (.lst .or 0 [])
    if r.1.length < ss.length then .ok { o with solids := r.1, box := hullAll r.1, defn := r.2 }
    else .ok o

/-- 484-493 `copy_meta` -/
noncomputable def copyMeta (m : VObj) : VObj := { m with box := hullAll m.solids }

open Classical in
/-- 29-36: the objects of a void box -/
noncomputable def voidObjs (B : BBox) : List VObj → M (List VObj)
  | [] => .ok []
  | m :: ms =>
    match m.box with
    | none => voidObjs B ms
    | some b =>
      if Touch B b then do
        let o ← removeExtraComp B (copyMeta m)
        let r ← voidObjs B ms
        .ok (o :: r)
      else voidObjs B ms

end Geouned.Void
