import Verif.BB.Spec
import Verif.Bool.Spec
/-!
# Specification: what a conversion is made of

The cells (Python objects), the options that matter to the run as a whole, and the parts of the program a run calls. This file mentions no function of the code.
-/
namespace Geouned.Driver
open Geouned Geouned.BB

/-- exceptions; `inner`: raised in one of the parts called -/
inductive Err where
  | systemExit
  | typeError
  | attributeError
  | keyError
  | indexError
  | inner
  deriving DecidableEq, Repr

/-- a cell. `id`: `__id__` (`none` for the cells that only hold a comment). `shape`: the bounding box of its solids (`none` if `Solids` is `None`). `defn`: its definition
(`none`: still the empty list it is created with). `info`: `__commentInfo__[1]`, the cells named in the comment of a void cell. -/
structure Cell (F : Type) where
  id : Option Int
  isEncl : Bool
  null : Bool
  void : Bool
  enclID : Int
  comments : List Char
  shape : Option (Box F)
  defn : Option Seq
  info : Option (List Int)
  label : Option Int

/-- options and settings used by the run itself -/
structure Opts where
  exportSolids : Bool
  facets : Bool
  voidGen : Bool
  voidExclude : List (List Char)
  noOverlap : Bool
  full : Bool
  sortEncl : Bool
  startCell : Int
  startSurf : Int

/-- the parts of the program a run calls. `S`: the surfaces found so far. `split`: decomposition of a cell (with "suspicious"), `build`: definition of a cell (with its
cones), `facet`: the same with the option Facets, `noOverlap`: the new definitions of the cells but the first, `void`: the void cells, `simp`: simplification, `text`: the
definition as text, `cone`: planes added to cones -/
structure Kit (F S : Type) where
  empty : Int → S
  split : S → Cell F → Except Err (S × Bool)
  build : S → Cell F → Except Err (S × Seq × List Int)
  facet : S → Cell F → Except Err (S × Seq)
  noOverlap : S → List Seq → Except Err (List Seq)
  void : S → List (Cell F) → List (Cell F) → Int → Except Err (S × List (Cell F))
  simp : S → Cell F → Seq → Except Err Seq
  text : Seq → Except Err Unit
  cone : S → Seq → List Int → Except Err (S × Seq)

/-- no part raises -/
structure Kit.Total {F S : Type} (K : Kit F S) : Prop where
  split : ∀ s c, ∃ r, K.split s c = .ok r
  build : ∀ s c, ∃ r, K.build s c = .ok r
  facet : ∀ s c, ∃ r, K.facet s c = .ok r
  noOverlap : ∀ s l, ∃ r, K.noOverlap s l = .ok r
  void : ∀ s l e i, ∃ r, K.void s l e i = .ok r
  simp : ∀ s c d, ∃ r, K.simp s c d = .ok r
  text : ∀ d, ∃ r, K.text d = .ok r
  cone : ∀ s d l, ∃ r, K.cone s d l = .ok r

/-- the object `CadToCsg`: all cell objects ever made, `meta_list` and `enclosure_list` (which share objects: numbers of places in `heap`), the surfaces, the bounding box -/
structure State (F S : Type) where
  heap : List (Cell F)
  metas : List Nat
  encl : List Nat
  surf : Option S
  box : Option (Box F)

/-- the cells of a list of places -/
def State.cells {F S : Type} (s : State F S) (l : List Nat) : List (Cell F) := l.filterMap fun r => s.heap[r]?

/-- the comments of the void cells name cells that were handed to void generation, are no enclosures and not empty -/
def Kit.Names {F S : Type} (K : Kit F S) : Prop :=
  ∀ s l e i r, K.void s l e i = .ok r → ∀ v ∈ r.2, v.null = false → ∀ ids, v.info = some ids → ∀ j ∈ ids,
    ∃ m ∈ l, m.null = false ∧ m.isEncl = false ∧ m.id = some j

/-- a model as it is loaded: there are cells, they are different objects, all of them have solids, and the enclosures are among them -/
structure State.Loaded {F S : Type} (st : State F S) : Prop where
  nonempty : st.metas ≠ []
  nodup : st.metas.Nodup
  solids : ∀ r ∈ st.metas, ∃ c, st.heap[r]? = some c ∧ c.shape.isSome = true
  encl : ∀ r ∈ st.encl, r ∈ st.metas

/-- the comment of the cell contains one of the words -/
def Cell.Marked {F : Type} (words : List (List Char)) (c : Cell F) : Prop := ∃ w ∈ words, w <:+: c.comments

/-- the parts of the program, with void generation refusing lists that are not `good` -/
def Kit.watch {F S : Type} (K : Kit F S) (good : List (Cell F) → Prop) [DecidablePred good] : Kit F S :=
  { K with void := fun s l e i => if good l then K.void s l e i else .error .inner }

/-- what identifies a cell and does not change during a run -/
abbrev ident {F : Type} (c : Cell F) : Option Int × List Char × Option (Box F) := (c.id, c.comments, c.shape)

variable {F : Type} [Field F] [LinearOrder F] [IsStrictOrderedRing F]

/-- the box holds the other box, with at least `d` to spare on every side -/
def HoldsWith (d : F) (b a : Box F) : Prop :=
  b.xmin ≤ a.xmin - d ∧ a.xmax + d ≤ b.xmax ∧ b.ymin ≤ a.ymin - d ∧ a.ymax + d ≤ b.ymax ∧ b.zmin ≤ a.zmin - d ∧ a.zmax + d ≤ b.zmax

end Geouned.Driver
