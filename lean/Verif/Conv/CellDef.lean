import Verif.Text.Model
/-!
# Model of `cellDef`

`src/geouned/GEOUNED/conversion/cell_definition.py` 516-781: from the faces of the pieces of a solid to the definition of the cell.

Simplification: the geometric questions have been answered. A face gives the number under which its surface is registered (`get_id`, `add_plane`, ...), the
sign found from its orientation and from `is_opposite` / `sign_plane`, and the numbers of the planes that were added for it.
-/
namespace Geouned.Conv
open Geouned.Text

/-- 598-625: the planes that limit a part of a torus along U -/
inductive UCut where
  | closed
  | one (a : Int)
  /-- `or`: "(a : b)", otherwise "a b" -/
  | two (or : Bool) (a b : Int)

/-- 627-667: the torus, and for a reversed face that is not closed along V a second surface -/
inductive VCut where
  | whole (n : Int)
  | cut (n m : Int)

/-- a face of a piece (`solid_gu.Faces`) -/
inductive Face where
  /-- 531-540: area below the minimum, or no orientation -/
  | ignored
  /-- 556-592: a reversed cylinder, cone or sphere: its surface, and the additional plane if there is one -/
  | reversed (cone : Bool) (id : Int) (plane : Option Int)
  /-- 594-672: a torus along an axis: index of the group of faces -/
  | torus (index : Int) (v : VCut) (u : UCut)
  /-- 673-674: another torus: only a message -/
  | oblique
  /-- 675-719: all others: the signed number -/
  | other (cone : Bool) (var : Int)

/-- 629-666: `v_var` -/
def VCut.text : VCut → List Tok
  | .whole n => [.num n]
  | .cut n m => [.num n, .blank, .num m]

/-- 612, 622: `u_var` -/
def UCut.text : UCut → List Tok
  | .closed => []
  | .one a => [.num a]
  | .two true a b => [.lp, .num a, .blank, .colon, .blank, .num b, .rp]
  | .two false a b => [.num a, .blank, .num b]

/-- 668: `var` -/
def torusText (v : VCut) : UCut → List Tok
  | .closed => v.text
  | u => v.text ++ .blank :: u.text

/-- what the loop over the faces keeps: `surf_piece`, `extra_plane_reverse` (in order of insertion), `last_torus` -/
structure FState where
  piece : List (List Tok)
  extra : List (Int × List Int)
  last : Int

/-- `if x not in l: l.append(x)` -/
def addNew {α : Type} [DecidableEq α] (l : List α) (x : α) : List α := if x ∈ l then l else l ++ [x]

/-- 585-591: the additional planes of a face, by surface -/
def addExtra (id p : Int) : List (Int × List Int) → List (Int × List Int)
  | [] => [(id, [p])]
  | (k, ps) :: r => if k = id then (k, addNew ps p) :: r else (k, ps) :: addExtra id p r

/-- 529-719: one face -/
def faceStep (s : FState) : Face → FState
  | .ignored => s
  | .oblique => s
  | .reversed _ id plane =>
    let s := { s with piece := addNew s.piece [.num id] }
    match plane with
    | none => s
    | some p => { s with extra := addExtra id p s.extra }
  | .torus index v u =>
    if index = s.last then s
    else { s with last := index, piece := addNew s.piece (torusText v u) }
  | .other _ var => { s with piece := addNew s.piece [.num var] }

/-- `f"({':'.join(extra)})"` -/
def orText (ps : List Int) : List Tok := .lp :: (join [.colon] (ps.map fun p => [.num p]) ++ [.rp])

/-- 721-727 -/
def addExtras : List (Int × List Int) → List (List Tok) → List (List Tok)
  | [], piece => piece
  | (_, [p]) :: r, piece => addExtras r (addNew piece [.num p])
  | (_, ps) :: r, piece => addExtras r (piece ++ [orText ps])

/-- 529-729: the text of a piece -/
def pieceText (faces : List Face) : List Tok :=
  let s := faces.foldl faceStep ⟨[], [], -1⟩
  join [.blank] (addExtras s.extra s.piece)

/-- `if surf_piece_bool.elements:` -/
def truthy : Seq → Bool
  | .int _ => true
  | .boo _ _ b => b
  | .lst _ _ es => !es.isEmpty

/-- 729: `BoolSequence(text)`; `none`: the elements are the empty list (empty text) -/
def readPiece (order : List Int → List Int) (f : Nat) : List Tok → M (Option Seq)
  | [] => .ok none
  | t :: ts => do
    let q ← setDef order f (t :: ts)
    .ok (some q)

/-- 524-761: loop over the pieces; `δ` stands for the CAD solids. The definition and the solids kept. -/
def pieceLoop {δ : Type} (order : List Int → List Int) (f : Nat) : List (δ × List Face) → Seq → M (Seq × List δ)
  | [], d => .ok (d, [])
  | (s, faces) :: r, d => do
    let q ← readPiece order f (pieceText faces)
    match q with
    | none => pieceLoop order f r d
    | some q =>
      if truthy q then do
        let d ← d.append [.seq q]
        let x ← pieceLoop order f r d
        .ok (x.1, s :: x.2)
      else pieceLoop order f r d

/-- 516-766 `cellDef`: `meta_obj.Definition` and `meta_obj.Solids` -/
def cellDef {δ : Type} (order : List Int → List Int) (f : Nat) (solids : List (δ × List Face)) : M (Seq × List δ) :=
  pieceLoop order f solids (.lst .or 0 [])

/-- 521, 561, 677: the cones of the cell, signed: positive for a reversed face. They are recorded when the face is met, even if the piece is dropped later. -/
def conesOf {δ : Type} (solids : List (δ × List Face)) : List Int :=
  dedup ((solids.flatMap Prod.snd).filterMap fun
    | .reversed true id _ => some id
    | .other true var => some (-(var.natAbs : Int))
    | _ => none)

end Geouned.Conv
