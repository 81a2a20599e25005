import Verif.Poly.Spec
import Verif.RBool.Model
/-!
# Model of the planes that stand for curved surfaces in the bounding box of a cell

`src/geouned/GEOReverse/Modules/Utils/boundBox.py` 402-467 (`quadric_to_plane`), 712-787 (`plane_definition`, `change_surf`), with the methods of
`src/geouned/GEOReverse/Modules/Utils/booleanFunction.py` they use: `append` (35-50), `clean` (249-276), `level_update` (521-533),
`join_operators` (279-320), `signedSurfaces` (535-542).

What `convert_to_planes` gives for a surface is a parameter here (`Surf.curved`; the geometry is in `Poly/Shape.lean`).
Simplification: sequences are values; that the sequence `pm` may sit at several places of the tree is not represented.
-/
namespace Geouned.Poly
open Geouned Geouned.Text

/-! ## methods of `BoolSequence` -/

/-- booleanFunction.py 35-50 `append(*seq)`; `if type(s.elements) is bool` with the deciding value makes the sequence a boolean -/
def append (op : Op) : Int → List Seq → List Seq → Seq
  | l, es, [] => .lst op l es
  | l, es, .int n :: r => append op (max l 0) (es ++ [.int n]) r
  | l, es, .boo _ _ b :: r => if b = !op.neutral then .boo op 0 b else append op l es r
  | l, es, .lst o k xs :: r => append op (max l (k + 1)) (es ++ [.lst o k xs]) r

mutual
/-- booleanFunction.py 249-276 `clean()`, for a sequence without bare booleans among its elements -/
def clean : Seq → Seq
  | .int n => .int n
  | .boo op l b => .boo op l b
  | .lst op l es =>
    match cleanL op es with
    | .inl b => .boo op 0 b
    | .inr [] => .boo op 0 op.neutral
    | .inr (e :: es') => .lst op l (e :: es')
/-- the loop 252-266, from the last element to the first -/
def cleanL (op : Op) : List Seq → Bool ⊕ List Seq
  | [] => .inr []
  | .int n :: es =>
    match cleanL op es with
    | .inl b => .inl b
    | .inr es' => .inr (.int n :: es')
  | e :: es =>
    match cleanL op es with
    | .inl b => .inl b
    | .inr es' =>
      match clean e with
      | .boo _ _ b => if b = !op.neutral then .inl b else .inr es'
      | e' => .inr (e' :: es')
end

/-- Python's `==` between a bare boolean and an element: `True == 1` and `False == 0` -/
def pyEq (b : Bool) : Bool ⊕ Seq → Bool
  | .inl c => b == c
  | .inr (.int n) => n == (if b then 1 else 0)
  | .inr _ => false

/-- `self.elements.remove(e)` for a bare boolean `e`, while the iterator stands on it: what is left to visit (in reversed order).
Python removes the first equal element; if that is an earlier one, `e` is visited again. -/
def removeBool (b : Bool) (rest : List (Bool ⊕ Seq)) : List (Bool ⊕ Seq) :=
  if rest.any (pyEq b) then .inl b :: (rest.reverse.eraseP (pyEq b)).reverse else rest

/-- the loop 252-266 of `clean` with bare booleans among the elements: iterations left, elements to visit (reversed), elements kept -/
def cleanRaw (op : Op) : Nat → List (Bool ⊕ Seq) → List Seq → Bool ⊕ List Seq
  | 0, _, kept => .inr kept
  | _ + 1, [], kept => .inr kept
  | k + 1, .inl b :: rest, kept => if b = !op.neutral then .inl b else cleanRaw op k (removeBool b rest) kept
  | k + 1, .inr (.int n) :: rest, kept => cleanRaw op k rest (.int n :: kept)
  | k + 1, .inr e :: rest, kept =>
    match clean e with
    | .boo _ _ b => if b = !op.neutral then .inl b else cleanRaw op k rest kept
    | e' => cleanRaw op k rest (e' :: kept)

/-- booleanFunction.py 249-276 `clean()` of the sequence that `change_surf` has changed -/
def cleanTop (op : Op) (l : Int) (xs : List (Bool ⊕ Seq)) : Seq :=
  match cleanRaw op xs.length xs.reverse [] with
  | .inl b => .boo op 0 b
  | .inr [] => .boo op 0 op.neutral
  | .inr (e :: es) => .lst op l (e :: es)

/-- booleanFunction.py 521-533 `level_update()`: the new level; the stored levels of the elements are trusted -/
def level : List Seq → Int
  | [] => 0
  | .int _ :: es => max 0 (level es)
  | e :: es => max (e.levOf + 1) (level es)

/-- booleanFunction.py 295-308: elements with the operator of the sequence are merged -/
def mergeSame (op : Op) (l : Int) (es : List Seq) : M (Int × List Seq) := do
  let r ← splitOps es
  let same := match op with | .and => r.1 | .or => r.2
  let others := match op with | .and => r.2 | .or => r.1
  if 1 < same.length then do
    let cat ← concatElems same
    .ok (max l (level cat + 1), others ++ [.lst op (level cat) cat])
  else .ok (l, es)

/-- booleanFunction.py 316-320: the elements of a sequence of level other than 0 are joined -/
def joinParts (rec : Seq → M Seq) : Seq → M Seq
  | .lst op l es =>
    if l = 0 then .ok (.lst op l es)
    else do
      let es' ← mapM' rec es
      .ok (.lst op l es')
  | .boo op l b => if l = 0 then .ok (.boo op l b) else .error .typeError
  | .int _ => .error .attributeError

/-- booleanFunction.py 279-320 `join_operators()`; `f`: recursion depth allowed -/
def joinOps : Nat → Seq → M Seq
  | 0, _ => .error .recursion
  | _ + 1, .int _ => .error .attributeError
  | _ + 1, .boo op _ b => .ok (.boo op 0 b)
  | f + 1, .lst op _ es =>
    if level es = 0 then .ok (.lst op 0 es)
    else do
      let s ← Seq.groupSingle (.lst op (level es) es)
      match s with
      | .lst op' l' es' => do
        let r ← mergeSame op' l' es'
        match r.2 with
        | [.lst o k xs] =>
          if 0 < r.1 then do
            let s' ← joinOps f (.lst o (r.1 - 1) xs)
            joinParts (joinOps f) s'
          else joinParts (joinOps f) (.lst op' r.1 r.2)
        | [.boo o _ b] =>
          if 0 < r.1 then do
            let s' ← joinOps f (.boo o (r.1 - 1) b)
            joinParts (joinOps f) s'
          else joinParts (joinOps f) (.lst op' r.1 r.2)
        | _ => joinParts (joinOps f) (.lst op' r.1 r.2)
      | _ => .error .typeError

mutual
/-- booleanFunction.py 535-542 `signedSurfaces()`, with repetitions -/
def signed : Seq → List Int
  | .int n => [n]
  | .boo _ _ _ => []
  | .lst _ _ es => signedL es
def signedL : List Seq → List Int
  | [] => []
  | e :: es => signed e ++ signedL es
end

/-! ## `change_surf` -/

/-- what is put in place of a surface: a boolean or a sequence -/
inductive New where
  | bool (b : Bool)
  | seq (s : Seq)

/-- the elements so far, and whether `clean` is needed -/
abbrev Part := List (Bool ⊕ Seq) × Bool

def Part.cons (x : Bool ⊕ Seq) (c : Bool) : Bool ⊕ Part → Bool ⊕ Part
  | .inl b => .inl b
  | .inr p => .inr (x :: p.1, c || p.2)

/-- elements that are no bare booleans -/
def seqs : List (Bool ⊕ Seq) → List Seq
  | [] => []
  | .inl _ :: xs => seqs xs
  | .inr e :: xs => e :: seqs xs

/-- boundBox.py 786-787: the end of `change_surf`; the early returns (770-772, 778-780) leave `level` as it is -/
def chgEnd (op : Op) (l : Int) : Bool ⊕ Part → Seq
  | .inl b => .boo op l b
  | .inr (xs, true) => cleanTop op l xs
  | .inr (xs, false) => .lst op l (seqs xs)

mutual
/-- boundBox.py 763-787 `change_surf(seq, old, new)` -/
def chg (old : Int) (new : New) : Seq → Seq
  | .int n => .int n
  | .boo op l b => .boo op l b
  | .lst op l es => chgEnd op l (chgL old new op es)
/-- the loop 765-785 -/
def chgL (old : Int) (new : New) (op : Op) : List Seq → Bool ⊕ Part
  | [] => .inr ([], false)
  | .int n :: es =>
    if n = old then
      match new with
      | .bool b => if b = (op == .or) then .inl b else Part.cons (.inl b) true (chgL old new op es)
      | .seq s => Part.cons (.inr s) false (chgL old new op es)
    else Part.cons (.inr (.int n)) false (chgL old new op es)
  | e :: es =>
    if old.natAbs ∈ e.surfaces then
      match chg old new e with
      | .boo o l b => if b = (op == .or) then .inl b else Part.cons (.inr (.boo o l b)) true (chgL old new op es)
      | e' => Part.cons (.inr e') false (chgL old new op es)
    else Part.cons (.inr e) false (chgL old new op es)
end

/-- `change_surf` of the whole definition: `enumerate(seq.elements)` fails for a boolean -/
def change (old : Int) (new : New) : Seq → M Seq
  | .boo _ _ _ => .error .typeError
  | s => .ok (chg old new s)

/-! ## `quadric_to_plane` -/

inductive Orient where
  | forward | reversed | undefined
  deriving DecidableEq, Repr

/-- boundBox.py 412-417, 427-430: around the surface, inside of it, or between -/
def posOf (o : Orient) (n : Int) : Option Bool :=
  match o with
  | .forward => some (decide (0 < n) == true)
  | .reversed => some (decide (0 < n) == false)
  | .undefined => none

variable {P : Type}

/-- `for p in planes: planes[next_index] = p; p_index.append(next_index); next_index += 1` -/
def alloc : List P → Nat × (Nat → Option P) → List Nat × (Nat × (Nat → Option P))
  | [], st => ([], st)
  | p :: ps, st =>
    let r := alloc ps (st.1 + 1, fun n => if n = st.1 then some p else st.2 n)
    (st.1 :: r.1, r.2)

/-- boundBox.py 432-466: numbers for the planes of one surface -/
def number (g : Group P) (st : Nat × (Nat → Option P)) : Group Nat × (Nat × (Nat → Option P)) :=
  match g with
  | .flat ps => let r := alloc ps st; (.flat r.1, r.2)
  | .cone ps => let r := alloc ps st; (.cone r.1, r.2)
  | .dbl ps => let r := alloc ps st; (.dbl r.1, r.2)
  | .torus ext inn =>
    let r := alloc ext st
    let r' := alloc inn r.2
    (.torus r.1 r'.1, r'.2)

/-- `d[k] = v` -/
def setItem {V : Type} (k : Nat) (v : V) : List (Nat × V) → List (Nat × V)
  | [] => [(k, v)]
  | (j, w) :: d => if j = k then (k, v) :: d else (j, w) :: setItem k v d

/-- what `quadric_to_plane` has so far: `next_index`, `planes`, `surf_planes_dict` -/
structure Tab (P : Type) where
  next : Nat
  planes : Nat → Option P
  dict : List (Nat × Group Nat)

/-- boundBox.py 419-466, the loop; a surface that is missing in `surfaces` is a `KeyError` -/
def quadLoop (surfaces : Nat → Option (Surf P)) (o : Orient) : List Int → Tab P → M (Tab P)
  | [], t => .ok t
  | n :: ns, t =>
    match surfaces n.natAbs with
    | none => .error .keyError
    | some (.plane p) => quadLoop surfaces o ns { t with planes := fun k => if k = n.natAbs then some p else t.planes k }
    | some (.curved conv) =>
      let r := number (conv (posOf o n)) (t.next, t.planes)
      quadLoop surfaces o ns ⟨r.2.1, r.2.2, setItem n.natAbs r.1 t.dict⟩

/-- the greatest surface number -/
def maxAbs : List Int → Nat
  | [] => 0
  | n :: ns => max n.natAbs (maxAbs ns)

/-- boundBox.py 402-467 `quadric_to_plane(cellDef, surfaces, orientation)`; `order`: the order in which Python iterates the set. -/
def quadricToPlane (order : List Int → List Int) (surfaces : Nat → Option (Surf P)) (o : Orient) (d : Seq) : M (Tab P) :=
  quadLoop surfaces o (order (dedup (signed d))) ⟨maxAbs (signed d) + 1, fun _ => none, []⟩

/-! ## `plane_definition` -/

/-- `" ".join(str(p) for p in planes)`, `":".join(...)` -/
def text (sep : Tok) (ns : List Int) : List Tok := join [sep] (ns.map fun n => [.num n])

/-- plane numbers -/
def ints (ps : List Nat) : List Int := ps.map Int.ofNat

/-- `BoolSequence(text)` -/
def parse (ts : List Tok) : M Seq := RBool.setDef (ts.length + 1) ts

/-- boundBox.py 716-739: the sequence `pm` for the inside -/
def inside : Group Nat → M Seq
  | .flat ps => parse (text .blank (ints ps))
  | .cone ps => parse (text .blank (ints ps))
  | .dbl ps => do
    let c1 ← parse (text .blank (ints ps))
    let c2 ← parse (text .blank ((ints ps).map fun p => -p))
    .ok (append .or 0 [] [c1, c2])
  | .torus ext inn => do
    let e ← parse (text .blank (ints ext))
    if inn = [] then .ok e
    else do
      let i ← parse (text .colon (ints inn))
      .ok (append .and 0 [] [e, i])

/-- boundBox.py 743-757: the changes for one surface; `pp` is the complement -/
def replace (o : Orient) (s : Nat) (two : Bool) (pm pp : Seq) (d : Seq) : M Seq :=
  match o with
  | .forward => do
    let d1 ← change (-(s : Int)) (.seq pm) d
    if two then change s (.seq pp) d1 else change s (.bool true) d1
  | .reversed => do
    let d1 ← change s (.seq pp) d
    if two then change (-(s : Int)) (.seq pm) d1 else change (-(s : Int)) (.bool false) d1
  | .undefined => do
    let d1 ← change s (.seq pp) d
    change (-(s : Int)) (.seq pm) d1

/-- `get_complementary` of `pm`, with enough recursion depth: boundBox.py 742 -/
def complement (pm : Seq) : M (Seq × Seq) := Seq.comp (pm.depth + 1) pm

/-- boundBox.py 712-760 `plane_definition(seq, surf_index, orientation)` -/
def planeDefinition (o : Orient) : List (Nat × Group Nat) → Seq → M Seq
  | [], d => joinOps d.depth.succ d
  | (_, .flat []) :: r, d => planeDefinition o r d
  | (s, g) :: r, d => do
    let pm ← inside g
    match d with
    | .boo op l b => .ok (.boo op l b)
    | d => do
      let c ← complement pm
      let d' ← replace o s g.twoSided c.1 c.2 d
      planeDefinition o r d'

/-- the planes and the definition of `solid_plane_box` for one orientation: boundBox.py 191-194, 198-201 -/
def planesOf (order : List Int → List Int) (surfaces : Nat → Option (Surf P)) (o : Orient) (d : Seq) : M ((Nat → Option P) × Seq) := do
  let t ← quadricToPlane order surfaces o d
  let r ← planeDefinition o t.dict d
  .ok (t.planes, r)

end Geouned.Poly
