import Verif.Box.Spec
import Mathlib.Data.Real.Archimedean
/-!
# Model of the oriented bounding boxes of the reverse conversion
`src/geouned/GEOReverse/Modules/Utils/boundBox.py` 108-166 (`myBox`) and 297-323 (`build_box_depth`).

A `myBox` holds a *reference* to a `FreeCAD.BoundBox`; `self.Box = box.Box` makes two `myBox` share one `BoundBox` and
`self.Box.add(...)` changes it in place. The model keeps this: `BoundBox` objects live in a heap and are named by
addresses.
-/
namespace Geouned.Box

/-- the strings "Forward" / "Reversed" -/
inductive Ori | fwd | rev
deriving DecidableEq, Repr

/-- a `myBox` object: address of its `BoundBox` (or `None`) and orientation -/
structure MyBox where
  box : Option Nat
  ori : Ori
deriving DecidableEq

/-- the memory: `BoundBox` objects by address (`next` is the first unused address) and `myBox` objects by address -/
structure Heap where
  boxes : Nat → BBox
  next : Nat
  objs : Nat → MyBox

/-- `FreeCAD.BoundBox.add(BoundBox)`: enlarge to hold both -/
noncomputable def BBox.hull (a b : BBox) : BBox :=
  ⟨min a.xmin b.xmin, max a.xmax b.xmax, min a.ymin b.ymin, max a.ymax b.ymax, min a.zmin b.zmin, max a.zmax b.zmax⟩

/-- `FreeCAD.BoundBox.intersected` -/
noncomputable def BBox.inter (a b : BBox) : BBox :=
  ⟨max a.xmin b.xmin, min a.xmax b.xmax, max a.ymin b.ymin, min a.ymax b.ymax, max a.zmin b.zmin, min a.zmax b.zmax⟩

/-- in-place change of the `BoundBox` at an address -/
def Heap.setBox (h : Heap) (a : Nat) (b : BBox) : Heap := { h with boxes := fun i => if i = a then b else h.boxes i }

/-- change of the `myBox` at an address -/
def Heap.setObj (h : Heap) (i : Nat) (m : MyBox) : Heap := { h with objs := fun j => if j = i then m else h.objs j }

/-- boundBox.py 130-142 `add`: `objs[i].add(objs[j])` -/
noncomputable def Heap.add (h : Heap) (i j : Nat) : Heap :=
  let self := h.objs i
  let box := h.objs j
  match self.box with
  | none =>
    match self.ori with
    | .fwd => h.setObj i ⟨box.box, box.ori⟩
    | .rev => h
  | some a =>
    match box.box with
    | none =>
      match box.ori with
      | .rev => h.setObj i ⟨none, .rev⟩
      | .fwd => h
    | some b =>
      let h' := h.setBox a ((h.boxes a).hull (h.boxes b))
      if self.ori ≠ box.ori then h'.setObj i ⟨some a, .rev⟩ else h'

open Classical in
/-- 144-166 `mult`: `objs[i].mult(objs[j])` (the first test, orientation `None`, cannot hold: the constructor raises) -/
noncomputable def Heap.mult (h : Heap) (i j : Nat) : Heap :=
  let self := h.objs i
  let box := h.objs j
  match self.box with
  | none =>
    match self.ori with
    | .rev => h.setObj i ⟨box.box, box.ori⟩
    | .fwd => h
  | some a =>
    match box.box with
    | none =>
      match box.ori with
      | .fwd => h.setObj i ⟨none, .fwd⟩
      | .rev => h
    | some b =>
      if self.ori = .rev ∨ box.ori = .rev then
        let h' := h.setBox a ((h.boxes a).hull (h.boxes b))
        if self.ori ≠ box.ori then h'.setObj i ⟨some a, .fwd⟩ else h'
      else
        let inter := (h.boxes a).inter (h.boxes b)
        -- `isValid()`: the box is not inside out; `intersected` makes a new object
        if inter.Proper then
          ({ (h.setBox h.next inter) with next := h.next + 1 }).setObj i ⟨some h.next, self.ori⟩
        else h.setObj i ⟨none, self.ori⟩

/-- one operation on the existing `myBox` objects -/
inductive Op
  | add (i j : Nat)
  | mult (i j : Nat)
  /-- 111-113: `objs[i] = myBox(objs[j])`, a new `myBox` sharing the `BoundBox` -/
  | copy (i j : Nat)

/-- effect of an operation -/
noncomputable def Heap.step (h : Heap) : Op → Heap
  | .add i j => h.add i j
  | .mult i j => h.mult i j
  | .copy i j => h.setObj i (h.objs j)

/-! ### `build_box_depth`

The boxes in `box_list` are made by the recursive calls, so no `BoundBox` is read after an in-place change through
another name: here the boxes are values. -/

/-- a `myBox` as a value -/
abbrev PBox := Option BBox × Ori

/-- 130-142 `add`, on values -/
noncomputable def PBox.add : PBox → PBox → PBox
  | (none, .fwd), b => b
  | (none, .rev), _ => (none, .rev)
  | (some _, _), (none, .rev) => (none, .rev)
  | (some a, o), (none, .fwd) => (some a, o)
  | (some a, o), (some b, o') => (some (a.hull b), if o ≠ o' then .rev else o)

open Classical in
/-- 144-166 `mult`, on values -/
noncomputable def PBox.mult : PBox → PBox → PBox
  | (none, .rev), b => b
  | (none, .fwd), _ => (none, .fwd)
  | (some _, _), (none, .fwd) => (none, .fwd)
  | (some a, o), (none, .rev) => (some a, o)
  | (some a, .fwd), (some b, .fwd) => if (a.inter b).Proper then (some (a.inter b), .fwd) else (none, .fwd)
  | (some a, o), (some b, o') => (some (a.hull b), if o ≠ o' then .fwd else o)

/-- a definition seen by `build_box_depth`: level-0 sequences are components, `node true` is AND, `node false` is OR,
`const` a sequence reduced to a bare boolean -/
inductive Def (α : Type) where
  | leaf (c : α)
  | const (b : Bool)
  | node (op : Bool) (l : List (Def α))

open Classical in
/-- 312-316: the AND loop with its early exit -/
noncomputable def foldAnd (full : PBox) : List PBox → PBox
  | [] => full
  | b :: bs =>
    let full' := full.mult b
    if full' = (none, .fwd) then full' else foldAnd full' bs

open Classical in
/-- 317-321: the OR loop with its early exit -/
noncomputable def foldOr (full : PBox) : List PBox → PBox
  | [] => full
  | b :: bs =>
    let full' := full.add b
    if full' = (none, .rev) then full' else foldOr full' bs

/-- 297-323 `build_box_depth`; `leafBox` stands for `get_component_boundBox` (geometry, not modelled); `none` is the
`IndexError` of `box_list[0]` on an empty list -/
noncomputable def buildBox {α : Type} (leafBox : α → PBox) : Def α → Option PBox
  | .leaf c => some (leafBox c)
  | .const b => some (if b then (none, .rev) else (none, .fwd))
  | .node op l =>
    (l.attach.mapM (fun d => buildBox leafBox d.1)).bind (fun bs =>
      match bs with
      | [] => none
      | b :: bs => some (if op then foldAnd b bs else foldOr b bs))
termination_by d => sizeOf d
decreasing_by (have := List.sizeOf_lt_of_mem d.2; simp; omega)

end Geouned.Box
