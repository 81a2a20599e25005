import Mathlib.Data.List.Dedup
import Verif.RCore.TreeModel
/-! # What the CAD document of a converted geometry has to show -/
namespace Geouned.RCore.TreeSpec

/-- a tree of parts and solids, as shown in FreeCAD -/
inductive Tree (S : Type)
  | solid (label : List Char) (shape : S)
  | part (label : List Char) (content : List (Tree S))

mutual
/-- object `i` of the document shows the tree -/
inductive Shows {S : Type} (doc : Doc S) : Nat → Tree S → Prop
  | solid {i o s} : doc[i]? = some o → o.kind = .feature → o.shape = some s → o.children = [] → Shows doc i (.solid o.label s)
  | part {i o ts} : doc[i]? = some o → o.kind = .part → ShowsAll doc o.children ts → Shows doc i (.part o.label ts)

/-- one by one -/
inductive ShowsAll {S : Type} (doc : Doc S) : List Nat → List (Tree S) → Prop
  | nil : ShowsAll doc [] []
  | cons {i l t ts} : Shows doc i t → ShowsAll doc l ts → ShowsAll doc (i :: l) (t :: ts)
end

/-- the materials of the cells that are directly in the universe -/
def mats {S : Type} : List (Item S) → List Int
  | [] => []
  | .cell _ m _ :: l => m :: mats l
  | .univ .. :: l => mats l

/-- each element once, in the order of the first occurrences -/
def firsts (l : List Int) : List Int := l.reverse.dedup.reverse

/-- the solids of the cells of material `m` that are directly in the universe, in order -/
def solidsOf {S : Type} (m : Int) : List (Item S) → List (Tree S)
  | [] => []
  | .cell n m' s :: l => if m' = m then .solid ("Cell_".toList ++ Text.strInt n ++ '_' :: Text.strInt m) s :: solidsOf m l else solidsOf m l
  | .univ .. :: l => solidsOf m l

/-- the number of the cell that holds the universe, `None` if there is none -/
def nameOf : Option Int → List Char
  | some n => Text.strInt n
  | none => "None".toList

mutual
/-- the tree of a universe: first the universes in it, in order, then a part for each material of its cells, with the solids of the cells of this material in order -/
def treeOf {S : Type} (container : Option Int) (uni : Int) (items : List (Item S)) : Tree S :=
  .part ("Universe_".toList ++ Text.strInt uni ++ "_Container_".toList ++ nameOf container)
    (inner items ++ (firsts (mats items)).map fun m =>
      .part ("Material_".toList ++ Text.strInt m ++ '_' :: (nameOf container ++ Text.strInt uni)) (solidsOf m items))
termination_by (sizeOf items, 1)

/-- the trees of the universes directly in the universe -/
def inner {S : Type} : List (Item S) → List (Tree S)
  | [] => []
  | .univ c u l :: items => treeOf c u l :: inner items
  | .cell .. :: items => inner items
termination_by l => (sizeOf l, 0)
end

mutual
/-- all cells of a universe and of the universes in it -/
def cellsOf {S : Type} : Item S → List (Int × Int × S)
  | .cell n m s => [(n, m, s)]
  | .univ _ _ l => cellsOfAll l

def cellsOfAll {S : Type} : List (Item S) → List (Int × Int × S)
  | [] => []
  | i :: l => cellsOf i ++ cellsOfAll l
end

/-- object `j` is object `i` or lies in the part `i` -/
inductive Within {S : Type} (doc : Doc S) (i : Nat) : Nat → Prop
  | refl : Within doc i i
  | step {j k o} : Within doc i j → doc[j]? = some o → k ∈ o.children → Within doc i k

end Geouned.RCore.TreeSpec
