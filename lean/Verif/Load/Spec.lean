import Verif.Load.Model
import Mathlib.Data.Nat.Digits.Defs
import Mathlib.Data.List.Forall2
/-!
# What labels mean and which cells a file has

The specification of C94 to C96, apart from the program: what a label holds, which label of a branch counts, which cells the elements of a file give.
-/
namespace Geouned.Load

/-- a non-empty text of digits -/
def Digits (ds : List Char) : Prop := ds ≠ [] ∧ ∀ c ∈ ds, c.isDigit = true

/-- the number a text of digits stands for -/
def number (ds : List Char) : Nat := Nat.ofDigits 10 (ds.reverse.map (fun c => c.toNat - '0'.toNat))

/-- `x` is what `P` reads at the first place of the text where it reads something -/
def First {α : Type} (P : List Char → α → Prop) (text : List Char) (x : α) : Prop :=
  ∃ a t, text = a ++ t ∧ P t x ∧ ∀ a' t', text = a' ++ t' → a'.length < a.length → ∀ y, ¬ P t' y

/-- the text begins with `pre`, digits and an underscore -/
def Reads (pre : List Char) (t : List Char) (n : Nat) : Prop := ∃ ds rest, t = pre ++ ds ++ '_' :: rest ∧ Digits ds ∧ n = number ds

/-- the text begins with `pre` and two groups of digits with underscores behind -/
def ReadsPair (pre : List Char) (t : List Char) (p : Nat × Nat) : Prop :=
  ∃ ds es rest, t = pre ++ ds ++ '_' :: es ++ '_' :: rest ∧ Digits ds ∧ Digits es ∧ p = (number ds, number es)

/-- the text begins with `_d`, a decimal number and an underscore -/
def ReadsDec (t : List Char) (q : ℚ) : Prop :=
  ∃ ds es rest, t = '_' :: 'd' :: ds ++ '.' :: es ++ '_' :: rest ∧ (∀ c ∈ ds, c.isDigit = true) ∧ (∀ c ∈ es, c.isDigit = true) ∧
    q = number ds + number es / 10 ^ es.length

/-- the value given by the nearest label of the branch that gives one; `none`: no label does -/
inductive Nearest {α : Type} (P : List Char → α → Prop) : List (List Char) → Option α → Prop
  | top : Nearest P [] none
  | here {l ls x} : P l x → Nearest P (l :: ls) (some x)
  | above {l ls r} : (∀ x, ¬ P l x) → Nearest P ls r → Nearest P (l :: ls) r

/-- the key `m`, `f` or `t` and a number between underscores; the label may also begin with the key -/
def Key (k : Char) (label : List Char) (n : Nat) : Prop := First (Reads ['_', k]) ('_' :: label) n

/-- the element is an enclosure (`key` = "enclosure") or envelope: the label of the element above it says so, or else its own -/
def Marked (key : List Char) (label : List Char) (parents : List (List Char)) (r : Option (Nat × Nat)) : Prop :=
  match parents with
  | [] => r = none
  | up :: _ => Nearest (First (ReadsPair key)) [up, label] r

/-- the solids of an element that are kept -/
def keptSolids {S : Type} (remove : Bool) (spl : S → Bool) (l : List S) : List S := if remove then l.filter (fun s => !spl s) else l

variable {S : Type}

/-- the solids of the element make one cell: `compSolids`, enclosures and envelopes -/
def OneCell (comp : Bool) (e : Elem S) : Prop :=
  comp = true ∨ (∃ p, Marked "enclosure".toList e.label e.parents (some p)) ∨ ∃ p, Marked "envelope".toList e.label e.parents (some p)

/-- the cells of the elements of a file: the element, the solids and the number that is put at the end of the comment -/
inductive Cells (comp remove : Bool) (spl : S → Bool) : List (Elem S) → List (Elem S × List S × Nat) → Prop
  | nil : Cells comp remove spl [] []
  | skip {e es r} : e.solids = [] → Cells comp remove spl es r → Cells comp remove spl (e :: es) r
  | one {e es r} : e.solids ≠ [] → OneCell comp e → Cells comp remove spl es r → Cells comp remove spl (e :: es) ((e, keptSolids remove spl e.solids, 1) :: r)
  | each {e es r} : e.solids ≠ [] → ¬ OneCell comp e → Cells comp remove spl es r →
      Cells comp remove spl (e :: es) (e.solids.mapIdx (fun i s => (e, keptSolids remove spl [s], i + 1)) ++ r)

/-- the cell has these solids (no list at all if there is none) and the path of the element in the tree, with the number, as comment -/
def CellOf (x : Elem S × List S × Nat) (m : Meta S) : Prop :=
  m.solids = (if x.2.1 = [] then none else some x.2.1) ∧
    m.comments = (x.1.parents.reverse ++ [x.1.label]).flatMap (fun l => '/' :: l) ++ Nat.toDigits 10 x.2.2

/-- the material and density a label number gives: that of the material file; 0 is void; -100 stands for a missing density -/
def MaterialIs (o : Opts) (k : Nat) (m : Meta S) : Prop :=
  m.material = k ∧
    ((∃ r n, o.matFile k = some (r, n) ∧ m.rho = some r ∧ m.info = .name n) ∨ (o.matFile k = none ∧ k = 0 ∧ m.rho = some 0) ∨
      (o.matFile k = none ∧ k ≠ 0 ∧ m.rho = some (-100)))

/-- the material given by a label number, by the default material, or by none of them -/
def MatOf (o : Opts) (k : Option Nat) (m : Meta S) : Prop :=
  match k with
  | some k => MaterialIs o k m
  | none =>
    match o.voidMat with
    | some v => m.material = v.1 ∧ m.rho = some v.2.1 ∧ m.info = v.2.2
    | none => m.material = 0 ∧ m.rho = none

/-- what the marks of an enclosure `a` and of an envelope `b` say of the cell -/
def EnclOf (a b : Option (Nat × Nat)) (m : Meta S) : Prop :=
  match b with
  | some p => m.isEnclosure = true ∧ m.kind = .envelope ∧ m.enclId = some p.1 ∧ m.parentId = some p.2
  | none =>
    match a with
    | some p => m.isEnclosure = true ∧ m.kind = .void ∧ m.enclId = some p.1 ∧ m.parentId = some p.2
    | none => m.isEnclosure = false ∧ m.kind = .solid ∧ m.enclId = none

/-- the cell has what the labels of its branch say: universe that fills it, transformation, material, dilution, number of enclosure -/
structure Attributes (o : Opts) (e : Elem S) (m : Meta S) : Prop where
  fill : Nearest (Key 'f') (e.label :: e.parents) m.fill
  trans : Nearest (Key 't') (e.label :: e.parents) m.trans
  mat : ∃ k, Nearest (Key 'm') (e.label :: e.parents) k ∧ MatOf o k m
  dil : ∃ d, Nearest (First ReadsDec) (e.label :: e.parents) d ∧ m.dilution = d.getD 1
  density : m.density = some (m.rho.getD 0 * m.dilution)
  encl : ∃ a b, Marked "enclosure".toList e.label e.parents a ∧ Marked "envelope".toList e.label e.parents b ∧ EnclOf a b m

end Geouned.Load
