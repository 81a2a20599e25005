import Verif.Void.Model
/-!
# Model of `no_overlapping_cell` (option `forceNoOverlap`)
`src/geouned/GEOUNED/conversion/cell_definition.py` 784-907.
-/
namespace Geouned

/-- one CAD piece of a cell: its definition and its CAD solid (`β` stands for the CAD solids) -/
structure Part (β : Type) where
  defn : Seq
  cad : β

/-- a `GeounedSolid`: its pieces (`m.Solids[j]` with `m.Definition.elements[j]`; a cell whose definition has operator
AND is its own only piece), and the two constraint tables built for its box (877-892) -/
structure Meta (β : Type) where
  isAnd : Bool
  parts : List (Part β)
  diagTable : CTable
  fullTable : CTable

/-- `m.Definition` before the call -/
def Meta.defn {β : Type} (m : Meta β) : Seq :=
  match m.isAnd, m.parts with
  | true, [p] => p.defn
  | _, ps => .lst .or 1 (ps.map Part.defn)

/-- 788-790: the ints of a Python list; with `reverse` a sequence in it is a TypeError (unary minus), otherwise it is
a member that equals no int -/
def literalsOf (reverse : Bool) : List Seq → M (List Int)
  | [] => .ok []
  | .int n :: es => do
    let ns ← literalsOf reverse es
    .ok ((if reverse then -n else n) :: ns)
  | _ :: es => if reverse then .error .typeError else literalsOf reverse es

/-- 793-800: the elements of the first AND child -/
def firstAnd (reverse : Bool) : List Seq → M (List Int)
  | [] => .ok []
  | e :: es => do
    let op ← e.opOf
    match op with
    | .and => do
      let xs ← e.elemsOf
      literalsOf reverse xs
    | .or => firstAnd reverse es

/-- 784-801 `get_surf_value` -/
def surfValue (reverse : Bool) : Seq → M (List Int)
  | .int _ => .error .attributeError
  | .boo _ _ _ => .error .typeError
  | .lst _ l es => if l = 0 then literalsOf reverse es else firstAnd reverse es

/-- 804-828 `append_comp`: the complements of the pieces of an earlier cell that touch the CAD piece and have no
opposite surface with it are added to `new`; the flag says whether something was added.
Simplification: `get_complementary` also regroups the earlier definition in place (same meaning, C09). -/
def appendComp {β : Type} (f : Nat) (inter : β → β → Bool) (surfCell : List Int) (cad : β) :
    List (Part β) → Seq → M (Seq × Bool)
  | [], new => .ok (new, false)
  | q :: qs, new =>
    if !inter cad q.cad then appendComp f inter surfCell cad qs new
    else do
      let sc ← surfValue false q.defn
      if sc.any (surfCell.contains ·) then appendComp f inter surfCell cad qs new
      else do
        let (_, c) ← q.defn.comp f
        let new ← new.append [.seq c]
        let (new, _) ← appendComp f inter surfCell cad qs new
        .ok (new, true)

/-- 847-853 / 861-866: all earlier cells -/
def appendComps {β : Type} (f : Nat) (inter : β → β → Bool) (p : Part β) : List (Meta β) → Seq → M (Seq × Bool)
  | [], new => .ok (new, false)
  | m :: ms, new => do
    let surfCell ← surfValue true p.defn
    let (new, b) ← appendComp f inter surfCell p.cad m.parts new
    let (new, b') ← appendComps f inter p ms new
    .ok (new, b || b')

/-- 845-846 / 858-859, then 847-853 / 860-866: new definition of one piece -/
def newPart {β : Type} (f : Nat) (inter : β → β → Bool) (earlier : List (Meta β)) (p : Part β) : M (Seq × Bool) := do
  let new ← (Seq.lst .and 0 []).append [.seq p.defn]
  appendComps f inter p earlier new

/-- 857-868: loop over the pieces -/
def newParts {β : Type} (f : Nat) (inter : β → β → Bool) (earlier : List (Meta β)) : List (Part β) → Seq → M (Seq × List Bool)
  | [], new => .ok (new, [])
  | p :: ps, new => do
    let (s, b) ← newPart f inter earlier p
    let new ← new.append [.seq s]
    let (new, bs) ← newParts f inter earlier ps new
    .ok (new, b :: bs)

/-- 844-868: `(new_def, simpTerm)` of a cell -/
def newDef {β : Type} (f : Nat) (inter : β → β → Bool) (earlier : List (Meta β)) (m : Meta β) : M (Seq × List Bool) :=
  match m.isAnd, m.parts with
  | true, [p] => do
    let (s, b) ← newPart f inter earlier p
    .ok (s, [b])
  | _, ps => newParts f inter earlier ps (.lst .or 0 [])

/-- 899-904: simplify the elements whose flag is set (`elements[i]` may not exist) -/
def simpParts (guard : Bool) (t : CTable) (enum : Seq → List Nat) (f : Nat) : List Bool → List Seq → M (List Seq)
  | [], es => .ok es
  | false :: bs, [] => simpParts guard t enum f bs []
  | true :: _, [] => .error .indexError
  | false :: bs, e :: es => do
    let r ← simpParts guard t enum f bs es
    .ok (e :: r)
  | true :: bs, e :: es => do
    let e ← e.simplify guard enum (some t.constraintSet) f 0
    let r ← simpParts guard t enum f bs es
    .ok (e.clean :: r)

/-- 895-904: the definition simplified with the full table -/
def simpDef (guard : Bool) (t : CTable) (enum : Seq → List Nat) (f : Nat) (flags : List Bool) : Seq → M Seq
  | .lst .and l es => do
    let s ← (Seq.lst .and l es).simplify guard enum (some t.constraintSet) f 0
    .ok s.clean
  | .lst .or l es => do
    let es ← simpParts guard t enum f flags es
    .ok (.lst .or l es)
  | .boo .and l b => do
    let s ← (Seq.boo .and l b).simplify guard enum (some t.constraintSet) f 0
    .ok s.clean
  | .boo .or _ _ => .error .typeError                        -- elements[i] of a bool
  | .int _ => .error .attributeError

/-- 871-907: second loop, one cell -/
def finishDef {β : Type} (guard : Bool) (enum : Seq → List Nat) (f : Nat) (m : Meta β) (new : Seq) (flags : List Bool) : M Seq :=
  if flags.any id then do
    let s ← removeExtraG guard m.diagTable enum f new
    let s ← simpDef guard m.fullTable enum f flags s
    let s ← s.joinOps f false
    .ok s.levelUpdate
  else .ok m.defn

/-- 831-907 `no_overlapping_cell`, cells after the first one; `earlier` are the cells already passed (with their
definitions before the call: definitions are replaced only in the second loop, 871) -/
def noOverlap {β : Type} (guard : Bool) (enum : Seq → List Nat) (f : Nat) (inter : β → β → Bool) :
    List (Meta β) → List (Meta β) → M (List Seq)
  | _, [] => .ok []
  | earlier, m :: ms => do
    let (new, flags) ← newDef f inter earlier m
    let s ← finishDef guard enum f m new flags
    let r ← noOverlap guard enum f inter (earlier ++ [m]) ms
    .ok (s :: r)

/-- the definitions of all cells after the call: the first cell keeps its own (841) -/
def noOverlapAll {β : Type} (guard : Bool) (enum : Seq → List Nat) (f : Nat) (inter : β → β → Bool) :
    List (Meta β) → M (List Seq)
  | [] => .error .indexError                                 -- metaList[0]
  | m :: ms => do
    let r ← noOverlap guard enum f inter [m] ms
    .ok (m.defn :: r)

end Geouned
