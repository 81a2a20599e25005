import Verif.Bool.Model
import Verif.Rev.SolidSpec
/-!
# Model of the construction of the solid of one cell

`src/geouned/GEOReverse/Modules/buildSolidCell.py` (19-248), `src/geouned/GEOReverse/Modules/splitFunction.py` (8-166, 430-458),
`src/geouned/GEOReverse/Modules/Objects.py` (58-150), `src/geouned/GEOReverse/Modules/buildCAD.py` (83-103).

What the CAD kernel and the computation of bounding boxes do is the parameter `Kernel`. `cleanUndefined` (Objects.py 178-188) is
left out: all surfaces of the cell are defined. A ghost result, the list of the solids that the code throws away because they are
too small, is returned with each result. `fuel` bounds the nesting of calls: exhausting it is Python's `RecursionError`.
-/
namespace Geouned.Rev.Solid

variable {α S Bx Sh : Type}

/-- a dictionary `{surface: True | False | None}` -/
abbrev Known := Nat → Option (Option Bool)

/-- `SplitBase`: splitFunction.py 8-12 -/
structure Part (S : Type) where
  solid : S
  known : Known
  ori : Ori

/-- what a `CadCell` holds of interest here: `definition`, the keys of `surfaces`, `externalBox.Box` (always a Forward box),
`solid_plane` (the definition and the box it was made for), `boundBox`: Objects.py 14-56 -/
structure Cell (Bx : Type) where
  definition : Seq
  surfaces : List Nat
  ext : Bx
  plane : Seq × Bx
  bound : Option (MBox Bx)

/-- Objects.py 58-98 `copy`, `getSubCell`: the copy keeps `solid_plane` -/
def getSubCell (c : Cell Bx) (e : Seq) : Cell Bx :=
  { c with definition := e, bound := none, surfaces := c.surfaces.filter (· ∈ e.surfaces) }

/-- Objects.py 122-141 `build_BoundBox`, with an external box that is not `None`: `solid_plane` is kept if it was made for the
same external box -/
def buildBound (K : Kernel α S Bx Sh) (c : Cell Bx) (enlarge : Nat) : Cell Bx :=
  let plane := if K.same c.plane.2 c.ext then c.plane else (c.definition, c.ext)
  { c with plane := plane, bound := some (K.boundBox plane.1 plane.2 enlarge) }

/-- `self.level == 0` of a definition -/
def isLeaf : Seq → Bool
  | .int _ => false
  | .boo _ l _ => l == 0
  | .lst _ l _ => l == 0

/-- value of a signed surface number: Utils/booleanFunction.py 421-434 -/
def litVal (vs : Known) (n : Int) : Option Bool :=
  match vs n.natAbs with
  | some (some b) => some (if n < 0 then !b else b)
  | _ => none

mutual
/-- Utils/booleanFunction.py 415-449 `evaluate`. Simplification: `group_single` is not applied first; here the method is called
for sequences of level 0, for which it does nothing. -/
def evaluate (vs : Known) : Seq → Option Bool
  | .int n => litVal vs n
  | .boo _ _ b => some b
  | .lst op _ es => evaluateL vs op false es
/-- the loop 420-443, with `noneVal` -/
def evaluateL (vs : Known) (op : Op) : Bool → List Seq → Option Bool
  | nv, [] => if nv then none else some (op == .and)
  | nv, e :: es =>
    match evaluate vs e with
    | none => evaluateL vs op true es
    | some v =>
      if op == .and && !v then some false
      else if op == .or && v then some true
      else evaluateL vs op nv es
end

/-- `pos.update(base.knownSurf)` with `pos = {k: v}`: splitFunction.py 93 -/
def update (k : Nat) (v : Bool) (known : Known) : Known := fun n =>
  match known n with
  | some w => some w
  | none => if n = k then some (some v) else none

/-- what `SplitSolid` returns: `fullPart`, `cutPart`, and the solids thrown away -/
structure Split (S : Type) where
  full : List (Part S)
  cut : List (Part S)
  lost : List S

def Split.nil : Split S := ⟨[], [], []⟩

def Split.app (a b : Split S) : Split S := ⟨a.full ++ b.full, a.cut ++ b.cut, a.lost ++ b.lost⟩

/-- the pieces: splitFunction.py 72-82 -/
def pieces (K : Kernel α S Bx Sh) (k : Nat) (bx : Bx) (s : S) : List S :=
  match K.shape k bx with
  | none => [s]
  | some sh =>
    match K.slice s sh with
    | none => [s]
    | some [] => [s]
    | some l => l

/-- one piece: splitFunction.py 123-141 (`space_decomposition`; `c.reverse()` does not change the points), 86-107 -/
def place (K : Kernel α S Bx Sh) (d : Seq) (ori : Ori) (known : Known) (k : Nat) (s : S) : Split S :=
  if K.small s then ⟨[], [], [s]⟩
  else
    match K.inner s with
    | none => ⟨[], [], [s]⟩
    | some p =>
      let pos := update k (K.side k p) known
      match evaluate pos d with
      | some true => ⟨[⟨s, pos, ori⟩], [], []⟩
      | none => ⟨[], [⟨s, pos, ori⟩], []⟩
      | some false => Split.nil

/-- all pieces: the loop 86-107 of splitFunction.py -/
def placeL (K : Kernel α S Bx Sh) (d : Seq) (ori : Ori) (known : Known) (k : Nat) : List S → Split S
  | [] => Split.nil
  | s :: ss => (place K d ori known k s).app (placeL K d ori known k ss)

/-- orientation of the parts: splitFunction.py 64-67 -/
def splitOri (a b : Ori) : Ori := if a = b then a else .fwd

/-- splitFunction.py 43-107 `SplitSolid` for one base and one surface -/
def splitOne (K : Kernel α S Bx Sh) (d : Seq) (ori : Ori) (bx : Bx) (k : Nat) (b : Part S) : Split S :=
  if K.sliver b.solid then ⟨[], [], [b.solid]⟩
  else placeL K d (splitOri ori b.ori) b.known k (pieces K k bx b.solid)

/-- splitFunction.py 56-61: `SplitSolid` for a list of bases -/
def splitL (K : Kernel α S Bx Sh) (d : Seq) (ori : Ori) (bx : Bx) (k : Nat) : List (Part S) → Split S
  | [] => Split.nil
  | b :: bs => (splitOne K d ori bx k b).app (splitL K d ori bx k bs)

/-- one of the loops 163-173 of buildSolidCell.py over the surfaces -/
def splitBy (K : Kernel α S Bx Sh) (d : Seq) (ori : Ori) (bx : Bx) : List Nat → List (Part S) → Split S
  | [], cut => ⟨[], cut, []⟩
  | k :: ks, cut =>
    let r := splitL K d ori bx k cut
    if r.cut.isEmpty then r
    else
      let r' := splitBy K d ori bx ks r.cut
      ⟨r.full ++ r'.full, r'.cut, r.lost ++ r'.lost⟩

/-- buildSolidCell.py 152-183: first the planes, then the other surfaces -/
def splitAll (K : Kernel α S Bx Sh) (d : Seq) (ori : Ori) (bx : Bx) (surfaces : List Nat) (b : Part S) : Split S :=
  let r := splitBy K d ori bx (surfaces.filter K.isPlane) [b]
  let r' := splitBy K d ori bx (surfaces.filter (fun k => !K.isPlane k)) r.cut
  ⟨r.full ++ r'.full, r'.cut, r.lost ++ r'.lost⟩

/-- buildSolidCell.py 104-183 `BuildSolidParts` for one base; without surfaces `tuple(base.base)` (142-144) raises an exception -/
def partsOf (K : Kernel α S Bx Sh) (c : Cell Bx) (b : Part S) : M (Split S) :=
  let bx := K.box b.solid
  if K.thin bx then .ok ⟨[], [], [b.solid]⟩
  else if c.surfaces.isEmpty then .error .typeError
  else
    match c.bound with
    | none => .error .attributeError                     -- `cellObj.boundBox.Orientation` of `None`
    | some m => .ok (splitAll K c.definition m.ori bx c.surfaces b)

/-- the box that `makeBox` uses: Objects.py 108-120 -/
def workBox (c : Cell Bx) (m : MBox Bx) : Option Bx :=
  match m.ori with
  | .rev => some c.ext
  | .fwd => m.box

/-- `BuildSolidParts` in the box of the cell: buildSolidCell.py 128-134, 136-183 -/
def partsIn (K : Kernel α S Bx Sh) (c : Cell Bx) (m : MBox Bx) : M (Split S) :=
  match workBox c m with
  | none => .ok Split.nil
  | some bx =>
    if c.surfaces.isEmpty then .error .attributeError
    else if K.thin bx then .ok ⟨[], [], [K.makeBox bx]⟩
    else .ok (splitAll K c.definition m.ori bx c.surfaces ⟨K.makeBox bx, fun _ => none, m.ori⟩)

/-- buildSolidCell.py 104-183 `BuildSolidParts` without a base: the solid is cut from a box (128-134, 146-150) -/
def partsNew (K : Kernel α S Bx Sh) (c : Cell Bx) : M (Split S) :=
  match c.bound with
  | some m => partsIn K c m
  | none =>
    match (buildBound K c 2).bound with
    | none => .error .attributeError
    | some m => partsIn K (buildBound K c 2) m

/-- buildSolidCell.py 107-121: `BuildSolidParts` for a list of bases -/
def partsL (K : Kernel α S Bx Sh) (c : Cell Bx) : List (Part S) → M (Split S)
  | [] => .ok Split.nil
  | b :: bs => do
    let r ← partsOf K c b
    let r' ← partsL K c bs
    .ok (r.app r')

/-- value of one key after the loop of `joinBase`, splitFunction.py 20-34: the first value met, `None` for ever once a different one
is met -/
def joinKey (n : Nat) : Option (Option Bool) → Bool → List (Part S) → Option (Option Bool)
  | cur, _, [] => cur
  | cur, removed, p :: ps =>
    match p.known n with
    | none => joinKey n cur removed ps
    | some v =>
      if removed then joinKey n cur removed ps
      else
        match cur with
        | none => joinKey n (some v) removed ps
        | some w => if w = v then joinKey n cur removed ps else joinKey n (some none) true ps

/-- splitFunction.py 15-38 `joinBase`; `none`: the base of the result is `None` -/
def joinBase (K : Kernel α S Bx Sh) (ps : List (Part S)) : Option (Part S) :=
  match ps with
  | [] => none
  | p :: ps => some ⟨K.fuse ((p :: ps).map (·.solid)), fun n => joinKey n none false (p :: ps),
      if (p :: ps).all (fun q => q.ori == .fwd) then .fwd else .rev⟩

/-- the variable `part` of `BuildDepth`: `None`, one `SplitBase`, a list -/
inductive Cur (S : Type) where
  | nothing
  | one (p : Part S)
  | many (l : List (Part S))

/-- the parts in it, as `filterparts` sees them (223-224) -/
def Cur.parts : Cur S → List (Part S)
  | .nothing => []
  | .one p => [p]
  | .many l => l

/-- result with the solids thrown away -/
abbrev Res (S : Type) := M (List (Part S) × List S)

/-- buildSolidCell.py 218-248 `filterparts`: `(process_part, keep_part)`, and the solids thrown away. `rebuilt` is
`BuildDepth(cell, None)`; the flag is `built`. -/
def filterParts (K : Kernel α S Bx Sh) (bx : Bx) (ori : Ori) (rebuilt : Unit → Res S) :
    Bool → List (Part S) → M (List (Part S) × List (Part S) × List S)
  | _, [] => .ok ([], [], [])
  | built, p :: ps =>
    if K.meet bx (K.box p.solid) then do
      let (a, b, l) ← filterParts K bx ori rebuilt built ps
      .ok (p :: a, b, l)
    else
      match p.ori, ori with
      | _, .fwd => filterParts K bx ori rebuilt built ps
      | .fwd, .rev => do
        let (a, b, l) ← filterParts K bx ori rebuilt built ps
        .ok (a, p :: b, l)
      | .rev, .rev =>
        if built then do
          let (a, b, l) ← filterParts K bx ori rebuilt built ps
          .ok (a, p :: b, l)
        else do
          let (cp, l') ← rebuilt ()
          let (a, b, l) ← filterParts K bx ori rebuilt true ps
          .ok (a, p :: cp ++ b, l' ++ l)

/-- the loop 49-71 of buildSolidCell.py: the elements of an intersection, one after the other. `rec` is `BuildDepth`. -/
def andLoop (K : Kernel α S Bx Sh) (rec : Cell Bx → Option (List (Part S)) → Res S) (c : Cell Bx) :
    Cur S → List Seq → M (Cur S × List S)
  | cur, [] => .ok (cur, [])
  | .nothing, e :: es => do
    let (r, l) ← rec (getSubCell c e) none
    let (cur, l') ← andLoop K rec c (.many r) es
    .ok (cur, l ++ l')
  | cur, e :: es =>
    let sub := buildBound K (getSubCell c e) 100
    match sub.bound with
    | none => .error .attributeError
    | some ⟨none, .rev⟩ => andLoop K rec c cur es
    | some ⟨none, .fwd⟩ => .ok (.many [], [])
    | some ⟨some bx, ori⟩ => do
      let (part, keep, l) ← filterParts K bx ori (fun _ => rec sub none) false cur.parts
      if part.isEmpty then
        if keep.isEmpty then .ok (.many [], l)
        else do
          let (cur, l') ← andLoop K rec c (.many keep) es
          .ok (cur, l ++ l')
      else do
        let (r, l') ← rec sub (some part)
        let (cur, l'') ← andLoop K rec c (.many (r ++ keep)) es
        .ok (cur, l ++ l' ++ l'')

/-- `newBase.extend(part)` (72) -/
def Cur.extend : Cur S → M (List (Part S))
  | .nothing => .error .typeError
  | .one _ => .error .typeError
  | .many l => .ok l

/-- the loop 75-95 of buildSolidCell.py: the elements of a union, each with the same base. `rec` is `BuildDepth`. -/
def orLoop (K : Kernel α S Bx Sh) (rec : Cell Bx → Option (List (Part S)) → Res S) (c : Cell Bx) (cs : Option (Part S)) :
    List Seq → M (List (Part S) × List S)
  | [] => .ok ([], [])
  | e :: es =>
    match cs with
    | none => do
      let (r, l) ← rec (getSubCell c e) none
      let (r', l') ← orLoop K rec c cs es
      .ok (r ++ r', l ++ l')
    | some p =>
      let sub := buildBound K (getSubCell c e) 100
      match sub.bound with
      | none => .error .attributeError
      | some ⟨none, .rev⟩ => do
        let (r', l') ← orLoop K rec c cs es
        .ok (p :: r', l')
      | some ⟨none, .fwd⟩ => orLoop K rec c cs es
      | some ⟨some bx, ori⟩ => do
        let (part, keep, l) ← filterParts K bx ori (fun _ => rec sub none) false [p]
        if part.isEmpty then do
          let (r', l') ← orLoop K rec c cs es
          .ok (keep ++ r', l ++ l')
        else do
          let (r, l') ← rec sub (some part)
          let (r', l'') ← orLoop K rec c cs es
          .ok (keep ++ r ++ r', l ++ l' ++ l'')

/-- the loop 41-101 of buildSolidCell.py, for one element `CS` of the base -/
def depthOne (K : Kernel α S Bx Sh) (rec : Cell Bx → Option (List (Part S)) → Res S) (c : Cell Bx) (cs : Option (Part S)) :
    M (List (Part S) × List S) :=
  match c.definition with
  | .int _ => .error .attributeError
  | .boo _ _ b =>
    match cs with
    | none => if b then .error .attributeError else .ok ([], [])     -- `None` is put in the list; `s.base` fails in `BuildSolid`
    | some p => .ok (if b then [p] else [], [])
  | .lst .and _ es => do
    let (cur, l) ← andLoop K rec c (match cs with | none => .nothing | some p => .one p) es
    let r ← cur.extend
    .ok (r, l)
  | .lst .or _ es => do
    let (r, l) ← orLoop K rec c cs es
    .ok ((joinBase K r).toList, l)

/-- the loop 41-101 of buildSolidCell.py -/
def depthL (K : Kernel α S Bx Sh) (rec : Cell Bx → Option (List (Part S)) → Res S) (c : Cell Bx) : List (Option (Part S)) → M (List (Part S) × List S)
  | [] => .ok ([], [])
  | cs :: bs => do
    let (r, l) ← depthOne K rec c cs
    let (r', l') ← depthL K rec c bs
    .ok (r ++ r', l ++ l')

/-- buildSolidCell.py 29-101 `BuildDepth`; the base is `None` or a list -/
def buildDepth (K : Kernel α S Bx Sh) : Nat → Cell Bx → Option (List (Part S)) → M (List (Part S) × List S)
  | 0, _, _ => .error .recursion
  | f + 1, c, base =>
    match c.definition.groupSingle with
    | .error e => .error e
    | .ok d =>
      let c := { c with definition := d }
      if isLeaf d then
        match base with
        | none => do
          let r ← partsNew K c
          .ok (r.full, r.lost)
        | some bs => do
          let r ← partsL K c bs
          .ok (r.full, r.lost)
      else
        match base with
        | none => depthL K (buildDepth K f) c [none]
        | some bs => depthL K (buildDepth K f) c (bs.map some)

/-- buildCAD.py 94-103 (`build_BoundBox`, `buildShape` of Objects.py 143-151) for a cell with the given definition and surfaces,
in an external box: the shape, `none` for `None`, and the solids thrown away -/
def buildCell (K : Kernel α S Bx Sh) (f : Nat) (d : Seq) (surfaces : List Nat) (ext : Bx) : M (Option S × List S) :=
  let m := K.boundBox d ext 2
  match m.ori, m.box with
  | .fwd, none => .ok (none, [])
  | .fwd, some b => finish (buildDepth K f ⟨d, surfaces, b, (d, ext), some m⟩ none)
  | .rev, _ => finish (buildDepth K f ⟨d, surfaces, ext, (d, ext), some m⟩ none)
where
  /-- Objects.py 150-151, `FuseSolid` -/
  finish : Res S → M (Option S × List S)
    | .error e => .error e
    | .ok ([], l) => .ok (none, l)
    | .ok (p :: ps, l) => .ok (some (K.fuse ((p :: ps).map (·.solid))), l)

end Geouned.Rev.Solid
