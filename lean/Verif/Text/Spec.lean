import Verif.Bool.Spec
/-!
# Specification: what the text of a cell definition means

The syntax of cell definitions in MCNP (also PHITS and Serpent): surface numbers with sign, blanks, parentheses, and `:`.
Intersection is written by juxtaposition and binds stronger than union, which is written `:`.
This file mentions no function of the code.
-/
namespace Geouned.Text

/-- the tokens of a cell definition -/
inductive Tok where
  | lp
  | rp
  | colon
  | blank
  | num (n : Int)
  deriving DecidableEq, Repr

/-- syntactic categories -/
inductive Rank where
  | factor
  | inter
  | union
  deriving DecidableEq, Repr

/-- `Reads σ r ts b`: the tokens (without blanks) are a well-formed text of category `r`, which has truth value `b` at a point with sides `σ`. -/
inductive Reads (σ : Side) : Rank → List Tok → Bool → Prop where
  /-- a signed surface number -/
  | num (n : Int) : n ≠ 0 → Reads σ .factor [.num n] (lit σ n)
  /-- any text in parentheses is a factor -/
  | paren {t b} : Reads σ .union t b → Reads σ .factor (.lp :: (t ++ [.rp])) b
  | one {t b} : Reads σ .factor t b → Reads σ .inter t b
  /-- a factor followed by more factors: intersection -/
  | and {t u b c} : Reads σ .factor t b → Reads σ .inter u c → Reads σ .inter (t ++ u) (b && c)
  | single {t b} : Reads σ .inter t b → Reads σ .union t b
  /-- an intersection, a colon, and more: union -/
  | or {t u b c} : Reads σ .inter t b → Reads σ .union u c → Reads σ .union (t ++ .colon :: u) (b || c)

/-- the tokens that are not blanks -/
def solid (ts : List Tok) : List Tok := ts.filter (· ≠ .blank)

/-- The text `ts` is well formed and holds (`b = true`) or does not hold at `σ`; blanks may be anywhere. -/
def Means (σ : Side) (ts : List Tok) (b : Bool) : Prop := Reads σ .union (solid ts) b

/-- a well-formed text -/
def Readable (ts : List Tok) : Prop := ∃ σ b, Means σ ts b

/-- the tokens of a region written as a Python expression of OpenMC: `+S5`, `-S5`, `&`, `|`, parentheses -/
inductive PTok where
  | lp
  | rp
  | amp
  | bar
  /-- sign (true: `-`) and number of the surface object -/
  | surf (neg : Bool) (k : Nat)
  deriving DecidableEq, Repr

/-- OpenMC: `-S` is the half-space below the surface, `+S` the one above; in Python `&` binds stronger than `|`. -/
inductive PReads (σ : Side) : Rank → List PTok → Bool → Prop where
  | surf (neg : Bool) (k : Nat) : PReads σ .factor [.surf neg k] (if neg then !(σ k) else σ k)
  | paren {t b} : PReads σ .union t b → PReads σ .factor (.lp :: (t ++ [.rp])) b
  | one {t b} : PReads σ .factor t b → PReads σ .inter t b
  | and {t u b c} : PReads σ .factor t b → PReads σ .inter u c → PReads σ .inter (t ++ .amp :: u) (b && c)
  | single {t b} : PReads σ .inter t b → PReads σ .union t b
  | or {t u b c} : PReads σ .inter t b → PReads σ .union u c → PReads σ .union (t ++ .bar :: u) (b || c)

mutual
/-- no list of the expression is empty -/
def Full : Seq → Prop
  | .int _ => True
  | .boo _ _ _ => True
  | .lst _ _ es => es ≠ [] ∧ FullL es
def FullL : List Seq → Prop
  | [] => True
  | e :: es => Full e ∧ FullL es
end

end Geouned.Text
