import Verif.Driver.Spec
import Verif.Misc.Labels
/-!
# Model of a conversion: `CadToCsg.start`

`src/geouned/GEOUNED/core.py`: `_get_geometry_bounding_box` (365-401), `start` (403-611), `_decompose_solids` (613-680), `process_cones` (692-724), `print_warning_solids`
(727-754), `exclude_cells` (767-780). The numbering at the end (550-593, `sort_enclosure`) is the model of `Misc/Labels.lean`. The parts called are parameters (`Kit`).

An exception carries the state the object is left in; the changes made within the step that fails are not modelled. Time stamps, logging and the debug files are left out.
-/
namespace Geouned.Driver
open Geouned Geouned.BB

variable {F S : Type} [Field F] [LinearOrder F] [IsStrictOrderedRing F]

/-- `label in comments` -/
def isIn (w : List Char) : List Char → Bool
  | [] => w.isEmpty
  | c :: cs => w.isPrefixOf (c :: cs) || isIn w cs

/-- core.py 767-780 `exclude_cells` -/
def excludeCells (words : List (List Char)) : List (Cell F) → List (Cell F)
  | [] => []
  | m :: ms =>
    if m.isEncl then excludeCells words ms
    else if words.any fun w => isIn w m.comments then excludeCells words ms
    else m :: excludeCells words ms

/-- 388-395: one more box -/
def widen (b a : Box F) : Box F :=
  ⟨min a.xmin b.xmin, max a.xmax b.xmax, min a.ymin b.ymin, max a.ymax b.ymax, min a.zmin b.zmin, max a.zmax b.zmax⟩

/-- 385-395: the loop; `None.optimalBoundingBox()` for a cell without solids (functions.py 111-114) -/
def boxLoop (b : Box F) : List (Cell F) → Except Err (Box F)
  | [] => .ok b
  | m :: ms =>
    match m.shape with
    | none => .error .attributeError
    | some a => boxLoop (widen b a) ms

/-- core.py 365-401 `_get_geometry_bounding_box` -/
def geometryBox (padding : F) : List (Cell F) → Except Err (Box F)
  | [] => .error .indexError
  | m :: ms =>
    match m.shape with
    | none => .error .attributeError
    | some a => do
      let b ← boxLoop a ms
      .ok ⟨b.xmin - padding, b.xmax + padding, b.ymin - padding, b.ymax + padding, b.zmin - padding, b.zmax + padding⟩

/-- core.py 348-363 `_export_solids`: the loop; `solids.extend(None)` -/
def exportLoop : List (Cell F) → Except Err Unit
  | [] => .ok ()
  | m :: ms => if m.isEncl then exportLoop ms else if m.shape.isNone then .error .typeError else exportLoop ms

/-- functions.py 116-132 `set_definition` with a boolean sequence -/
def Cell.setDefn (c : Cell F) (d : Seq) : Cell F :=
  { c with defn := some d, null := !c.void && (match d with | .lst _ _ [] => true | .boo _ _ false => true | _ => false) }

/-- core.py 613-680 `_decompose_solids`: the indices of the suspicious ones -/
def splitLoop (K : Kit F S) (metaMode : Bool) : Nat → List (Cell F) → S → Except Err (S × List Nat)
  | _, [], s => .ok (s, [])
  | i, m :: ms, s =>
    if metaMode && m.isEncl then splitLoop K metaMode (i + 1) ms s
    else do
      let r ← K.split s m
      let q ← splitLoop K metaMode (i + 1) ms r.1
      .ok (q.1, if r.2 then i :: q.2 else q.2)

/-- 441-459 and 483-497: definitions of the cells (places `l`), with the cones by `__id__` -/
def buildLoop (K : Kit F S) (metaMode : Bool) : List Nat → List (Cell F) → S → List (Option Int × List Int) →
    Except Err (S × List (Cell F) × List (Option Int × List Int))
  | [], h, s, co => .ok (s, h, co)
  | r :: rs, h, s, co =>
    match h[r]? with
    | none => buildLoop K metaMode rs h s co
    | some c =>
      if metaMode && c.isEncl then buildLoop K metaMode rs h s co
      else do
        let x ← K.build s c
        buildLoop K metaMode rs (h.set r (c.setDefn x.2.1)) x.1 (if x.2.2.isEmpty then co else (c.id, x.2.2) :: co)

/-- translate.py 91-117 `translate` -/
def facetLoop (K : Kit F S) : List Nat → List (Cell F) → S → Except Err (S × List (Cell F))
  | [], h, s => .ok (s, h)
  | r :: rs, h, s =>
    match h[r]? with
    | none => facetLoop K rs h s
    | some c =>
      if c.isEncl then facetLoop K rs h s
      else do
        let x ← K.facet s c
        facetLoop K rs (h.set r (c.setDefn x.2)) x.1

/-- the definitions, or `[].operator` -/
def defns : List (Cell F) → Except Err (List Seq)
  | [] => .ok []
  | c :: cs =>
    match c.defn with
    | none => .error .attributeError
    | some d => do
      let r ← defns cs
      .ok (d :: r)

/-- new definitions for the cells at these places -/
def setAll : List Nat → List Seq → List (Cell F) → List (Cell F)
  | r :: rs, d :: ds, h =>
    match h[r]? with
    | none => setAll rs ds h
    | some c => setAll rs ds (h.set r (c.setDefn d))
  | _, _, h => h

/-- cell_definition.py 831-907 `no_overlapping_cell`: with at least two cells the definition of every one is looked at (844, 807) -/
def noOverlapStep (K : Kit F S) (l : List Nat) (h : List (Cell F)) (s : S) : Except Err (List (Cell F)) :=
  match l with
  | [] => .error .indexError
  | [_] => .ok h
  | _ :: rs => do
    let ds ← defns (l.filterMap fun r => h[r]?)
    let ns ← K.noOverlap s ds
    .ok (setAll rs ns h)

/-- the level of a definition (`int`s and constants: 0) -/
def levelZero : Seq → Bool
  | .lst _ l _ => l == 0
  | _ => true

/-- 529-541: simplification of the cells -/
def simpLoop (K : Kit F S) (s : S) : List Nat → List (Cell F) → Except Err (List (Cell F))
  | [], h => .ok h
  | r :: rs, h =>
    match h[r]? with
    | none => simpLoop K s rs h
    | some c =>
      match c.defn with
      | none => .error .attributeError
      | some d =>
        if levelZero d || c.isEncl then simpLoop K s rs h
        else do
          let x ← K.simp s c d
          simpLoop K s rs (h.set r { c with defn := some x })

/-- the cell as the numbering sees it -/
def toL (r : Nat) (c : Cell F) : Labels.Cell := ⟨r, c.id.getD 0, c.null, c.isEncl, c.void, c.enclID, c.info⟩

/-- the cells at these places, as the numbering sees them -/
def toLs (h : List (Cell F)) (l : List Nat) : List Labels.Cell := l.filterMap fun r => h[r]?.map (toL r)

/-- a cell that only holds a comment (574-580, 800-802, 813-817, 825-831) -/
def banner : Cell F := ⟨none, false, true, false, 0, [], none, none, none, none⟩

/-- 572-593 / 848: the new `meta_list`; comments become cells -/
def place : List Labels.Out → List (Cell F) → List (Cell F) × List Nat
  | [], h => (h, [])
  | .comment :: os, h => let r := place os (h ++ [banner]); (r.1, h.length :: r.2)
  | .cell c :: os, h => let r := place os h; (r.1, c.ref :: r.2)

/-- the labels given -/
def setLabels (st : Labels.St) : List Nat → List (Cell F) → List (Cell F)
  | [], h => h
  | r :: rs, h =>
    match h[r]? with
    | none => setLabels st rs h
    | some c => setLabels st rs (h.set r { c with label := st.lab.lookup r })

/-- 727-754 `print_warning_solids` -/
def warnLoop (K : Kit F S) : List (Cell F) → Except Err Unit
  | [] => .ok ()
  | c :: cs =>
    match c.defn with
    | none => .error .attributeError
    | some d => do
      let _ ← K.text d
      warnLoop K cs

/-- 692-724 `process_cones` (a void cell gets the cones of the cells named in its comment, with the other sign) -/
def coneLoop (K : Kit F S) (co : List (Option Int × List Int)) : List Nat → List (Cell F) → S → Except Err (S × List (Cell F))
  | [], h, s => .ok (s, h)
  | r :: rs, h, s =>
    match h[r]? with
    | none => coneLoop K co rs h s
    | some c =>
      match c.defn with
      | none => coneLoop K co rs h s
      | some d =>
        if c.void then
          match c.info with
          | none => coneLoop K co rs h s
          | some ids => do
            let x ← K.cone s d (ids.flatMap fun i => ((co.lookup (some i)).getD []).map fun n => -n)
            coneLoop K co rs (h.set r { c with defn := some x.2 }) x.1
        else
          match co.lookup c.id with
          | none => coneLoop K co rs h s
          | some ns => do
            let x ← K.cone s d ns
            coneLoop K co rs (h.set r { c with defn := some x.2 }) x.1

/-- an exception, with the state the object is left in -/
def orLeave {α : Type} (st : State F S) : Except Err α → Except (Err × State F S) α
  | .ok a => .ok a
  | .error e => .error (e, st)

/-- 425-478: the cells are decomposed and get their definitions; the cells to warn of, and the cones -/
def solidPhase (K : Kit F S) (o : Opts) (st : State F S) (s0 : S) : Except (Err × State F S) (State F S × S × List Nat × List Nat × List (Option Int × List Int)) := do
  let withEncl := o.voidGen && !st.encl.isEmpty
  if o.facets then
    let x ← orLeave st (facetLoop K st.metas st.heap s0)
    let st := { st with heap := x.2, surf := some x.1 }
    if withEncl then
      let e ← orLeave st (splitLoop K false 0 (st.cells st.encl) x.1)
      .ok (st, e.1, [], e.2, [])
    else .ok (st, x.1, [], [], [])
  else
    let x ← orLeave st (splitLoop K true 0 (st.cells st.metas) s0)
    let e ← orLeave st (if withEncl then splitLoop K false 0 (st.cells st.encl) x.1 else .ok (x.1, []))
    let b ← orLeave st (buildLoop K true st.metas st.heap e.1 [])
    let st := { st with heap := b.2.1, surf := some b.1 }
    if o.noOverlap then
      let h ← orLeave st (noOverlapStep K st.metas st.heap b.1)
      .ok ({ st with heap := h }, b.1, x.2, e.2, b.2.2)
    else .ok (st, b.1, x.2, e.2, b.2.2)

/-- 480-497: definitions of the enclosures -/
def enclPhase (K : Kit F S) (o : Opts) (st : State F S) (s : S) (co : List (Option Int × List Int)) :
    Except (Err × State F S) (State F S × S × List (Option Int × List Int)) :=
  if o.voidGen && !st.encl.isEmpty then do
    let b ← orLeave st (buildLoop K false st.encl st.heap s co)
    .ok ({ st with heap := b.2.1, surf := some b.1 }, b.1, b.2.2)
  else .ok (st, s, co)

/-- what is given to void generation -/
def voidInput (o : Opts) (l : List (Cell F)) : List (Cell F) := if o.voidExclude.isEmpty then l else excludeCells o.voidExclude l

/-- 501-524: the void cells, put after the other objects -/
def voidPhase (K : Kit F S) (o : Opts) (st : State F S) (s : S) : Except (Err × State F S) (State F S × S × List Nat) :=
  if o.voidGen then do
    let init := (((st.cells st.metas).getLast?.bind (·.id)).getD 0) - (st.encl.length : Int)
    let x ← orLeave st (K.void s (voidInput o (st.cells st.metas)) (st.cells st.encl) init)
    .ok ({ st with heap := st.heap ++ x.2, surf := some x.1 }, x.1, (List.range x.2.length).map (st.heap.length + ·))
  else .ok (st, s, [])

/-- errors of the numbering -/
def labelErr {α : Type} : Except Labels.Err α → Except Err α
  | .ok a => .ok a
  | .error .keyError => .error .keyError

/-- 526-611: simplification, numbering, warnings, cones -/
def endPhase (K : Kit F S) (o : Opts) (st : State F S) (s : S) (voids warn warnE : List Nat) (co : List (Option Int × List Int)) :
    Except (Err × State F S) (State F S) := do
  let h ← orLeave st (if o.full then simpLoop K s st.metas st.heap else .ok st.heap)
  let st := { st with heap := h }
  let warned := (st.metas.zipIdx.filter fun x => warn.contains x.2).map Prod.fst
  let warnedE := (st.encl.zipIdx.filter fun x => warnE.contains x.2).map Prod.fst
  let n ← orLeave st (labelErr (Labels.number o.startCell (!st.encl.isEmpty && o.sortEncl) (toLs h st.metas) (toLs h voids)))
  let p := place n.2 (setLabels n.1 (st.metas ++ voids) h)
  let st := { st with heap := p.1, metas := p.2 }
  let _ ← orLeave st (warnLoop K (st.cells warned))
  let _ ← orLeave st (warnLoop K (st.cells warnedE))
  let c ← orLeave st (coneLoop K co st.metas st.heap s)
  .ok { st with heap := c.2, surf := some c.1 }

/-- core.py 403-611 `start` -/
def start (K : Kit F S) (o : Opts) (st : State F S) : Except (Err × State F S) (State F S) := do
  if st.metas.isEmpty then .error (.systemExit, st)
  else
    let _ ← orLeave st (if o.exportSolids then exportLoop (st.cells st.metas) else .ok ())
    let b ← orLeave st (geometryBox 10 (st.cells st.metas))
    let s0 := K.empty (o.startSurf - 1)
    let st := { st with box := some b, surf := some s0 }
    let x ← solidPhase K o st s0
    let e ← enclPhase K o x.1 x.2.1 x.2.2.2.2
    let v ← voidPhase K o e.1 e.2.1
    endPhase K o v.1 v.2.1 v.2.2 x.2.2.1 x.2.2.2.1 e.2.2

end Geouned.Driver
