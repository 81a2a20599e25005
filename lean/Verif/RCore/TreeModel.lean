import Verif.Text.Char
/-!
# Model of the CAD document that `CsgToCad.export_cad` makes

`src/geouned/GEOReverse/Modules/buildCAD.py` 127-154 (`makeTree`) and `src/geouned/GEOReverse/core.py` 228-240. A FreeCAD document is the list of its objects in the order of their creation;
an object is referred to by its place in this list. Simplifications: the internal name FreeCAD gives an object is left out; `Label` is the label asked for (FreeCAD may add a number to a label
that is already in use); `addObject` and `addObjects` of a part add at the end and do not look whether the object is already there.
-/
namespace Geouned.RCore

/-- `App::Part` or `Part::FeaturePython` -/
inductive Kind
  | part | feature
deriving DecidableEq, Repr

/-- an object of the document; `S` is the type of shapes -/
structure Obj (S : Type) where
  kind : Kind
  label : List Char
  shape : Option S
  children : List Nat

abbrev Doc (S : Type) := List (Obj S)

/-- what `BuildUniverseCells` returns (buildCAD.py 124): a universe is the pair of its label and the list of what is in it: cells (`CadCell`) and universes -/
inductive Item (S : Type)
  | cell (name mat : Int) (shape : S)
  | univ (container : Option Int) (uni : Int) (items : List (Item S))

/-- `f"{v}"` of an int or None -/
def fmt : Option Int → List Char
  | none => "None".toList
  | some n => Text.strInt n

/-- `CADdoc.addObject(kind, name)` -/
def newObj {S : Type} (doc : Doc S) (k : Kind) : Doc S × Nat := (doc ++ [⟨k, [], none, []⟩], doc.length)

/-- `o.Label = l` -/
def setLabel {S : Type} (doc : Doc S) (i : Nat) (l : List Char) : Doc S := doc.modify i fun o => { o with label := l }

/-- `o.Shape = s` -/
def setShape {S : Type} (doc : Doc S) (i : Nat) (s : S) : Doc S := doc.modify i fun o => { o with shape := some s }

/-- `g.addObjects(l)`, `g.addObject(o)` -/
def addObjects {S : Type} (doc : Doc S) (g : Nat) (l : List Nat) : Doc S := doc.modify g fun o => { o with children := o.children ++ l }

/-- buildCAD.py 143-146: the dictionary `CADObj` -/
def addFeat (d : List (Int × List Nat)) (mat : Int) (f : Nat) : List (Int × List Nat) :=
  match d with
  | [] => [(mat, [f])]
  | (m, l) :: d => if m = mat then (m, l ++ [f]) :: d else (m, l) :: addFeat d mat f

/-- buildCAD.py 148-152: the loop over the materials -/
def matLoop {S : Type} (doc : Doc S) (g : Nat) (container : Option Int) (uni : Int) : List (Int × List Nat) → Doc S
  | [] => doc
  | (mat, l) :: d =>
    let (doc, m) := newObj doc .part
    let doc := setLabel doc m ("Material_".toList ++ Text.strInt mat ++ '_' :: (fmt container ++ Text.strInt uni))
    let doc := addObjects doc m l
    matLoop (addObjects doc g [m]) g container uni d

mutual
/-- buildCAD.py 127-154 `makeTree`. An argument that is no pair of a label and a list is not modelled: the argument is always a universe. -/
def makeTree {S : Type} (doc : Doc S) (container : Option Int) (uni : Int) (items : List (Item S)) : Doc S × Nat :=
  let (doc, g) := newObj doc .part
  let doc := setLabel doc g ("Universe_".toList ++ Text.strInt uni ++ "_Container_".toList ++ fmt container)
  let (doc, cadObj) := itemLoop doc g [] items
  (matLoop doc g container uni cadObj, g)
termination_by (sizeOf items, 1)

/-- buildCAD.py 136-146: the loop over the content -/
def itemLoop {S : Type} (doc : Doc S) (g : Nat) (cadObj : List (Int × List Nat)) : List (Item S) → Doc S × List (Int × List Nat)
  | [] => (doc, cadObj)
  | .univ c u l :: items =>
    let (doc, r) := makeTree doc c u l
    itemLoop (addObjects doc g [r]) g cadObj items
  | .cell name mat shape :: items =>
    let (doc, f) := newObj doc .feature
    let doc := setLabel doc f ("Cell_".toList ++ Text.strInt name ++ '_' :: Text.strInt mat)
    let doc := setShape doc f shape
    itemLoop doc g (addFeat cadObj mat f) items
termination_by l => (sizeOf l, 0)
end

/-- core.py 236-237: the loop over `buildCAD_list` -/
def treeLoop {S : Type} (doc : Doc S) (root : Nat) : List (Option Int × Int × List (Item S)) → Doc S
  | [] => doc
  | (c, u, l) :: ts =>
    let (doc, r) := makeTree doc c u l
    treeLoop (addObjects doc root [r]) root ts

/-- core.py 231-237: the document of `export_cad`; `label` is `barename`. Its first object, `CADdoc.Objects[0:1]`, is what goes to the STEP file. -/
def exportDoc {S : Type} (label : List Char) (trees : List (Option Int × Int × List (Item S))) : Doc S :=
  let (doc, root) := newObj [] .part
  treeLoop (setLabel doc root label) root trees

end Geouned.RCore
