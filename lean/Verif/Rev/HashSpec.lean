import Verif.Text.Spec
/-!
# Specification: cell cards of MCNP with the complement operator `#`

The syntax of the geometry of a cell card: that of `Text/Spec.lean` plus `#(...)`, the complement of a text, and `#n`, the complement of cell `n`.
This file mentions no function of the code.
-/
namespace Geouned.Rev
open Geouned.Text

/-- the tokens of the geometry of a cell card; `amp` is only used inside the program -/
inductive HTok where
  | lp
  | rp
  | colon
  | blank
  | num (n : Int)
  | hash
  | amp
  deriving DecidableEq, Repr

/-- the tokens without `#` -/
def emb : Tok → HTok
  | .lp => .lp
  | .rp => .rp
  | .colon => .colon
  | .blank => .blank
  | .num n => .num n

/-- `HReads σ cell r ts b`: the tokens (without blanks) are a well-formed text of category `r`, with truth value `b` at a point with sides `σ`,
where `cell n` says whether the point is in cell `n`. -/
inductive HReads (σ : Side) (cell : Nat → Bool) : Rank → List HTok → Bool → Prop where
  | num (n : Int) : n ≠ 0 → HReads σ cell .factor [.num n] (lit σ n)
  | paren {t b} : HReads σ cell .union t b → HReads σ cell .factor (.lp :: (t ++ [.rp])) b
  /-- `#n`: not in cell `n` -/
  | hashCell (n : Nat) : HReads σ cell .factor [.hash, .num n] (!(cell n))
  /-- `#(...)`: complement -/
  | hashParen {t b} : HReads σ cell .union t b → HReads σ cell .factor (.hash :: .lp :: (t ++ [.rp])) (!b)
  | one {t b} : HReads σ cell .factor t b → HReads σ cell .inter t b
  | and {t u b c} : HReads σ cell .factor t b → HReads σ cell .inter u c → HReads σ cell .inter (t ++ u) (b && c)
  | single {t b} : HReads σ cell .inter t b → HReads σ cell .union t b
  | or {t u b c} : HReads σ cell .inter t b → HReads σ cell .union u c → HReads σ cell .union (t ++ .colon :: u) (b || c)

/-- the tokens that are not blanks -/
def hsolid (ts : List HTok) : List HTok := ts.filter (· ≠ .blank)

/-- the geometry of a cell card is well formed and holds (`b = true`) or not -/
def HMeans (σ : Side) (cell : Nat → Bool) (ts : List HTok) (b : Bool) : Prop := HReads σ cell .union (hsolid ts) b

/-- is the token a number? -/
def isNumH : HTok → Bool
  | .num _ => true
  | _ => false

/-- two numbers are never written without something in between -/
def Spaced : List HTok → Prop
  | [] => True
  | [_] => True
  | t :: u :: ts => ¬ (isNumH t = true ∧ isNumH u = true) ∧ Spaced (u :: ts)

/-- a cell card: its geometry, and whether it is an ordinary card (no `LIKE n BUT`, no `TRCL`) -/
structure Card where
  geom : List HTok
  plain : Bool
  deriving Repr, DecidableEq

/-- the cells that a text mentions with `#n` -/
def mentions (ts : List HTok) (n : Nat) : Prop := ∃ a b, hsolid ts = a ++ .hash :: .num n :: b

/-- a cell card of a deck in a space of points `P`: `back` is the inverse of the transformation `TRCL` (if there is one).
A point is in the cell when its image under `back` is in the geometry. -/
structure TCard (P : Type) where
  geom : List HTok
  trcl : Bool
  back : P → P

/-- what the program keeps of the card -/
def TCard.card {P : Type} (c : TCard P) : Card := ⟨c.geom, !c.trcl⟩

/-- `cell x n` says that point `x` is in cell `n`, as the cards say; `σ x` are the sides of the surfaces on which `x` is. -/
def InCells {P : Type} (σ : P → Side) (deck : Nat → Option (TCard P)) (cell : P → Nat → Bool) : Prop :=
  ∀ n c, deck n = some c → ∀ x, HMeans (σ (if c.trcl then c.back x else x)) (cell (if c.trcl then c.back x else x)) c.geom (cell x n)

end Geouned.Rev
