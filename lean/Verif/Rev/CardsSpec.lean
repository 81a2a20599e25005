import Verif.Rev.HashSpec
import Verif.Rev.BuildSpec
/-!
# Specification: cell cards with `LIKE n BUT`, `TRCL`, `FILL`

This file mentions no function of the code.
-/
namespace Geouned.Rev

/-- A cell card. Entries that are not given are `none`; of a `LIKE` card the geometry has no meaning. `tr`: transformation given with `FILL`. -/
structure DCard (P : Type) where
  name : Nat
  like : Option Nat
  mat : Option Nat
  u : Option Nat
  fill : Option Nat
  tr : Option (Motion P)
  trcl : Option (Motion P)
  geom : List HTok

/-- what a card says in the end -/
structure Entries (P : Type) where
  mat : Option Nat
  u : Option Nat
  fill : Option Nat
  tr : Option (Motion P)
  trcl : Option (Motion P)
  geom : List HTok

/-- a `LIKE n BUT` card has the geometry of cell `n`, and its entries unless given on the card -/
inductive Resolves {P : Type} (cards : List (DCard P)) : DCard P → Entries P → Prop where
  | own {c} : c.like = none → Resolves cards c ⟨c.mat, c.u, c.fill, c.tr, c.trcl, c.geom⟩
  | like {c d r} : c.like = some d.name → d ∈ cards → Resolves cards d r →
      Resolves cards c ⟨c.mat <|> r.mat, c.u <|> r.u, c.fill <|> r.fill, c.tr <|> r.tr, c.trcl <|> r.trcl, r.geom⟩

/-- the point before a transformation -/
def before {P : Type} (t : Option (Motion P)) (p : P) : P :=
  match t with
  | none => p
  | some t => t.back p

/-- `cell p n`: point `p` is in cell `n`, as the cards say; `σ p n`: the side of surface `n` on which `p` is. With `TRCL` the surfaces of the cell are moved. -/
def InDeck {P : Type} (σ : P → Side) (cards : List (DCard P)) (cell : P → Nat → Bool) : Prop :=
  ∀ c ∈ cards, ∀ r, Resolves cards c r → ∀ p, HMeans (σ (before r.trcl p)) (cell (before r.trcl p)) r.geom (cell p c.name)

/-- How the universe that fills a cell is placed: by the transformation given with `FILL`; without it, by that of the cell. -/
def Entries.place {P : Type} (r : Entries P) : Option (Motion P) := r.tr <|> r.trcl

/-- A cell that has been read is what card `c` says: entries, and region, with the surfaces in `S` (known by numbers). -/
structure IsCell {P : Type} (cards : List (DCard P)) (cell : P → Nat → Bool) (S : Nat → Option (P → Bool)) (c : DCard P) (d : DCard P) : Prop where
  name : d.name = c.name
  mat : ∀ r, Resolves cards c r → d.mat = r.mat
  u : ∀ r, Resolves cards c r → d.u.getD 0 = r.u.getD 0
  fill : ∀ r, Resolves cards c r → d.fill = r.fill
  place : ∀ r, Resolves cards c r → (∃ n, r.fill = some (n + 1)) → d.tr = r.place
  region : ∃ us, d.geom = us.map emb ∧ (∀ n, .num n ∈ us → ∃ s, S n.natAbs = some s) ∧
    ∀ p, Text.Means (fun n => (S n).any fun s => s p) us (cell p c.name)

/-- the text mentions surface `n`: a number that does not stand after `#` -/
def usesSurf (ts : List HTok) (n : Nat) : Prop :=
  ∃ a m b, hsolid ts = a ++ .num m :: b ∧ m.natAbs = n ∧ ¬ (0 ≤ m ∧ ∃ a', a = a' ++ [.hash])

/-- What is asked of a file in all cases: names are distinct, `LIKE` cards can be resolved, texts are well formed, the surfaces used are there, no cell is mentioned (`#n`) that does
not exist, or that leads back to the cell itself. -/
structure SoundFile {P : Type} (cards : List (DCard P)) (known : Nat → Prop) (ρ : Nat → Nat) : Prop where
  names : (cards.map (·.name)).Nodup
  resolves : ∀ c ∈ cards, ∃ r, Resolves cards c r
  spaced : ∀ c ∈ cards, c.like = none → Spaced c.geom
  surfaces : ∀ c ∈ cards, c.like = none → ∀ n, usesSurf c.geom n → known n
  hash : ∀ c ∈ cards, c.like = none → ∀ m, mentions c.geom m → ρ m < ρ c.name ∧
    ∃ d ∈ cards, d.name = m ∧ ∀ r r', Resolves cards c r → Resolves cards d r' → r.u.getD 0 = r'.u.getD 0

/-- The files that are read rightly. -/
structure PlainFile {P : Type} (cards : List (DCard P)) (keep : Nat → Bool) : Prop where
  /-- the cell that a `LIKE` card names stands before it, or is no `LIKE` card -/
  order : ∀ pre c post, cards = pre ++ c :: post → ∀ b, c.like = some b → ∃ d ∈ cards, d.name = b ∧ (d ∈ pre ∨ d.like = none)
  /-- a `LIKE` card does not change an entry to 0 -/
  given : ∀ c ∈ cards, c.like ≠ none → c.mat ≠ some 0 ∧ c.u ≠ some 0 ∧ c.fill ≠ some 0
  /-- the cell that a `LIKE` card names is in the same universe -/
  sameU : ∀ c ∈ cards, ∀ d ∈ cards, c.like = some d.name → ∀ r r', Resolves cards c r → Resolves cards d r' → r.u.getD 0 = r'.u.getD 0
  /-- and is not excluded by the filters -/
  kept : ∀ c ∈ cards, ∀ d ∈ cards, c.like = some d.name → keep c.name = true → keep d.name = true
  /-- cells with `TRCL` do not use `#` -/
  noHash : ∀ c ∈ cards, c.like = none → c.trcl ≠ none → .hash ∉ c.geom
  /-- cells named by `#n` are neither `LIKE` cells nor have `TRCL` -/
  hashPlain : ∀ c ∈ cards, c.like = none → ∀ d ∈ cards, mentions c.geom d.name → d.like = none ∧ d.trcl = none
  /-- a filled cell with `TRCL` has no transformation given with `FILL` -/
  fillTr : ∀ c ∈ cards, ∀ r, Resolves cards c r → r.trcl ≠ none → r.tr = none

/-- What is right for the cells of universe `U`: one for every card of that universe that the filters keep, and it is as the card says. -/
structure RightCells {P : Type} (cards : List (DCard P)) (cell : P → Nat → Bool) (keep : Nat → Bool) (S : Nat → Option (P → Bool)) (U : Nat) (cs : List (DCard P)) :
    Prop where
  order : (cs.map (·.name)).Sublist (cards.map (·.name))
  names : ∀ n, n ∈ cs.map (·.name) ↔ keep n = true ∧ ∃ c ∈ cards, c.name = n ∧ ∃ r, Resolves cards c r ∧ r.u.getD 0 = U
  cells : ∀ d ∈ cs, ∃ c ∈ cards, IsCell cards cell S c d

end Geouned.Rev
