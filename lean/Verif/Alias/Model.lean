import Verif.Alias.Spec
/-!
# Insertion of a surface and change of a sign, on objects in memory

Model of `insert_in_sequence`, `substitute_integer_element`, `level_update` (`src/geouned/GEOUNED/utils/boolean_function.py` 644-679) and of
`change_surf_sign` (`src/geouned/GEOUNED/write/functions.py` 85-97). All of them change the objects in place.
`f` is the recursion depth allowed. None of the loops changes the length of the list it runs over, so that its positions are fixed at the start.
-/
namespace Geouned.Alias

def upd (h : Heap) (a : Nat) (o : Obj) : Heap := fun b => if b = a then o else h b

/-- `Seq.elements[i] = x` -/
def setEl (h : Heap) (a i : Nat) (x : El) : Heap :=
  match (h a).els with
  | .boo _ => h
  | .lst es => upd h a { h a with els := .lst (es.set i x) }

/-- boolean_function.py 674-679, loop over the positions; `rec` is the recursive call -/
def insLoop (rec : Heap → Nat → M Heap) (tgt : Int) (new a : Nat) : List Nat → Heap → M Heap
  | [], h => .ok h
  | i :: is, h =>
    match (h a).els with
    | .boo _ => .error .typeError
    | .lst es =>
      match es[i]? with
      | none => .error .indexError
      | some (.int n) => insLoop rec tgt new a is (if n = tgt then setEl h a i (.ref new) else h)
      | some (.ref c) => do
        let h ← rec h c
        insLoop rec tgt new a is h

/-- boolean_function.py 671-679 `substitute_integer_element(Seq, target, newElement)`: the *same* object is stored at every place -/
def substInt (tgt : Int) (new : Nat) : Nat → Heap → Nat → M Heap
  | 0, _, _ => .error .recursion
  | f + 1, h, a =>
    match (h a).els with
    | .boo _ => .error .typeError
    | .lst es => insLoop (substInt tgt new f) tgt new a (List.range es.length) h

/-- boolean_function.py 650-655, loop -/
def levLoop (rec : Heap → Nat → M Heap) (a : Nat) : List Nat → Heap → M Heap
  | [], h => .ok h
  | i :: is, h =>
    match (h a).els with
    | .boo _ => .error .typeError
    | .lst es =>
      match es[i]? with
      | none => .error .indexError
      | some (.int _) => levLoop rec a is h
      | some (.ref c) => do
        let h ← rec h c
        levLoop rec a is (upd h a { h a with lev := max ((h c).lev + 1) (h a).lev })

/-- boolean_function.py 644-655 `level_update` -/
def levelUpdate : Nat → Heap → Nat → M Heap
  | 0, _, _ => .error .recursion
  | f + 1, h, a =>
    match (h a).els with
    | .boo _ => .ok (upd h a { h a with lev := 0 })
    | .lst es => levLoop (levelUpdate f) a (List.range es.length) (upd h a { h a with lev := 0 })

/-- boolean_function.py 658-667 `insert_in_sequence(Seq, trgt, nsrf, operator)`; `new` is the address of the new object, a level-0 sequence of the two
numbers (which are different and not opposite; C15 has the other cases) -/
def insert (f : Nat) (h : Heap) (a : Nat) (tgt n : Int) (op : Op) (new : Nat) : M Heap := do
  let h ← substInt tgt new f (upd h new ⟨op, 0, .lst [.int tgt, .int n]⟩) a
  levelUpdate f h a

/-- write/functions.py 85-97, the loops; `flat` : the level was 0, then `abs` of a sequence is a TypeError -/
def signLoop (rec : Heap → Nat → M Heap) (v a : Nat) (flat : Bool) : List Nat → Heap → M Heap
  | [], h => .ok h
  | i :: is, h =>
    match (h a).els with
    | .boo _ => .error .typeError
    | .lst es =>
      match es[i]? with
      | none => .error .indexError
      | some (.int n) => signLoop rec v a flat is (if v = n.natAbs then setEl h a i (.int (-n)) else h)
      | some (.ref c) =>
        if flat then .error .typeError
        else do
          let h ← rec h c
          signLoop rec v a flat is h

/-- write/functions.py 85-97 `change_surf_sign(surf, Seq)` -/
def changeSign (v : Nat) : Nat → Heap → Nat → M Heap
  | 0, _, _ => .error .recursion
  | f + 1, h, a =>
    match (h a).els with
    | .boo _ => .error .typeError
    | .lst es => signLoop (changeSign v f) v a ((h a).lev == 0) (List.range es.length) h

end Geouned.Alias
