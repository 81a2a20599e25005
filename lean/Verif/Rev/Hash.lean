import Verif.Rev.HashSpec
import Verif.Bool.Model
/-!
# Model of the removal of the complement operator

`src/geouned/GEOReverse/Modules/remh.py`: `redundant` (88-132), `chgsign` (138-145), `repl_inter_union` (152-156), `complementary` (177-220),
`Cline.remove_redundant` (340-397), `Cline.get_hashcell` (399-412), `remove_hash` (677-727).

Simplifications: a text is the list of its tokens (a number with its sign is one token); no MCNP comment (`C`, `$`), a newline counts as a blank
(so that the substitutions of 376-380 and 394 do nothing); a positive number is written without `+` sign and without leading zeros.
-/
namespace Geouned.Rev

/-! ## remove_redundant -/

/-- A stretch of the text while the parentheses are processed (360-374): not masked, a removed parenthesis (a blank), or a masked one (`[...;...]`),
with the text it stands for. -/
inductive HItem where
  | tok (t : HTok)
  | gone
  | block (ts : List HTok)
  deriving DecidableEq, Repr

/-- the text that an item stands for in the end (376-377 `reverse_repl`) -/
def HItem.orig : HItem → List HTok
  | .tok t => [t]
  | .gone => [.blank]
  | .block ts => ts

def horigs (w : List HItem) : List HTok := w.flatMap HItem.orig

/-- `mostinner = re.compile(r"\([^\(^\)]*\)")` (52), after the `(` -/
def hspan : List HItem → Option (List HItem × List HItem)
  | [] => none
  | .tok .rp :: r => some ([], r)
  | .tok .lp :: _ => none
  | x :: r => (hspan r).map fun p => (x :: p.1, p.2)

/-- `mostinner.search`: text before, inside, after -/
def hfind : List HItem → Option (List HItem × List HItem × List HItem)
  | [] => none
  | .tok .lp :: r =>
    match hspan r with
    | some (i, p) => some ([], i, p)
    | none => (hfind r).map fun q => (.tok .lp :: q.1, q.2.1, q.2.2)
  | x :: r => (hfind r).map fun q => (x :: q.1, q.2.1, q.2.2)

/-- 95-105: `leftOK`; the text on the left, nearest character first -/
def hleftOK : List HItem → Bool
  | [] => true
  | .tok .blank :: w => hleftOK w
  | .gone :: w => hleftOK w
  | .tok .lp :: _ => true
  | .tok .colon :: _ => true
  | _ => false

/-- 95-105: `hashsmb`: the nearest character on the left is `#` -/
def hashLeft : List HItem → Bool
  | [] => false
  | .tok .blank :: w => hashLeft w
  | .gone :: w => hashLeft w
  | .tok .hash :: _ => true
  | _ => false

/-- 117-126: `rightOK` -/
def hrightOK : List HItem → Bool
  | [] => true
  | .tok .blank :: w => hrightOK w
  | .gone :: w => hrightOK w
  | .tok .rp :: _ => true
  | .tok .colon :: _ => true
  | _ => false

/-- 88-132 `redundant(m, geom)` -/
def hredundant (left inner right : List HItem) : Bool :=
  if hashLeft left.reverse then false
  else if ¬ (.tok .colon ∈ inner) then true
  else hleftOK left.reverse && hrightOK right

/-- 365-371: what is put in place of the parenthesis -/
def hmasked (left inner right : List HItem) : List HItem :=
  if hredundant left inner right then .gone :: (inner ++ [.gone])
  else [.block (.lp :: (horigs inner ++ [.rp]))]

/-- 358-372: the inner loop (`k`: iterations left); `done` is the text before `pos` -/
def hpass : Nat → List HItem → List HItem → List HItem
  | 0, done, rest => done ++ rest
  | k + 1, done, rest =>
    match hfind rest with
    | none => done ++ rest
    | some (pre, inner, post) => hpass k (done ++ pre ++ hmasked (done ++ pre) inner post) post

/-- 353-372: the outer loop (`k`: iterations left), until no parenthesis is found -/
def hpasses : Nat → List HItem → List HItem
  | 0, w => w
  | k + 1, w => if (hfind w).isNone then w else hpasses k (hpass w.length [] w)

/-- `startgeom` (56): `^ *[-+\d]` gets a `(` before the number -/
def startParen : List HTok → List HTok
  | .blank :: ts => .blank :: startParen ts
  | .num n :: ts => .lp :: .num n :: ts
  | ts => ts

/-- `endgeom` (57): a digit and blanks at the end get a `)` after the digit -/
def endParen : List HTok → List HTok
  | [] => []
  | .num n :: ts => if ts.all (· = .blank) then .num n :: .rp :: ts else .num n :: endParen ts
  | t :: ts => t :: endParen ts

/-- 340-397 `remove_redundant(remove_com=False)`, with `remopt="nochg"`: nothing is done without a `)` (348-350);
a text without `:` and `#` is put in parentheses (382-386) -/
def hremoveRedundant (ts : List HTok) : List HTok :=
  if .rp ∉ ts then ts
  else
    let g := horigs (hpasses (ts.length + 1) (ts.map .tok))
    if .colon ∉ g ∧ .hash ∉ g then endParen (startParen g) else g

/-! ## complementary -/

/-- `leftp` (35), `count=1`: a `(` before the first character of `-+0-9(#` -/
def putLeft : List HTok → List HTok
  | [] => []
  | t :: ts =>
    match t with
    | .num _ | .lp | .hash => .lp :: t :: ts
    | _ => t :: putLeft ts

/-- `rightp` (36), `count=1`: a `)` before the blanks at the end -/
def putRight : List HTok → List HTok
  | [] => [.rp]
  | t :: ts => if (t :: ts).all (· = .blank) then .rp :: t :: ts else t :: putRight ts

/-- the text goes on with blanks (at least one if `one`) and a number -/
def numNext : Bool → List HTok → Bool
  | _, .blank :: ts => numNext false ts
  | false, .num _ :: _ => true
  | _, _ => false

/-- the text goes on with blanks and `(` -/
def lpNext : List HTok → Bool
  | .blank :: ts => lpNext ts
  | .lp :: _ => true
  | _ => false

/-- `re.sub(interblk, r"\g<previous>&\g<next>", ...)` (41-43, 191-193): `&` after a number that is followed by blanks and a number.
A match takes the last digit of the first number and the first digit of the second:
`free` is false when the digits of the next number start with one that has been taken; a number of one digit then cannot start a match. -/
def ampBlank : Bool → List HTok → List HTok
  | _, [] => []
  | free, .num n :: ts =>
    if (free || 10 ≤ n.natAbs) && numNext true ts then .num n :: .amp :: ampBlank false ts
    else .num n :: ampBlank true ts
  | free, .blank :: ts => .blank :: ampBlank free ts
  | _, t :: ts => t :: ampBlank true ts

/-- `intercls` (44-46, 195-197): `&` after a `)` followed by a number -/
def ampCls : List HTok → List HTok
  | [] => []
  | .rp :: ts => if numNext false ts then .rp :: .amp :: ampCls ts else .rp :: ampCls ts
  | t :: ts => t :: ampCls ts

/-- `interopn` (47, 198-200): `&` after a number followed by `(` -/
def ampOpn : List HTok → List HTok
  | [] => []
  | .num n :: ts => if lpNext ts then .num n :: .amp :: ampOpn ts else .num n :: ampOpn ts
  | t :: ts => t :: ampOpn ts

/-- `intercop` (48-50, 201-203): `&` after a `)` followed by `(` -/
def ampCop : List HTok → List HTok
  | [] => []
  | .rp :: ts => if lpNext ts then .rp :: .amp :: ampCop ts else .rp :: ampCop ts
  | t :: ts => t :: ampCop ts

/-- 190-203: all the substitutions that put `&` -/
def putAmp (ts : List HTok) : List HTok := ampCop (ampOpn (ampCls (ampBlank true (ampBlank true ts))))

/-- 152-156 `repl_inter_union`, 207: `:` becomes `)(` and `&` becomes `:` -/
def swapOps : List HTok → List HTok
  | [] => []
  | .colon :: ts => .rp :: .lp :: swapOps ts
  | .amp :: ts => .colon :: swapOps ts
  | t :: ts => t :: swapOps ts

/-- 138-145 `chgsign`, 211 -/
def chgSign : HTok → HTok
  | .num n => .num (-n)
  | t => t

/-- 177-220 `complementary(ccell)`; `wrkcell.str[-1]` of an empty text is an `IndexError` (180) -/
def complementary (ts : List HTok) : M (List HTok) :=
  if ts = [] then .error .indexError
  else
    let w := putRight (putLeft ts)
    let w := hremoveRedundant (swapOps (putAmp w))
    let w := w.map chgSign
    .ok (putRight (putLeft w))

/-! ## remove_hash -/

/-- the text after blanks -/
def dropBlanks : List HTok → List HTok
  | .blank :: ts => dropBlanks ts
  | ts => ts

/-- 399-412 `get_hashcell(start)`: text up to the matching `)` and the text after it; `d`: parentheses open -/
def getHashCell : Nat → List HTok → Option (List HTok × List HTok)
  | _, [] => none
  | d, .lp :: ts => (getHashCell (d + 1) ts).map fun p => (.lp :: p.1, p.2)
  | d, .rp :: ts => if d = 1 then some ([.rp], ts) else (getHashCell (d - 1) ts).map fun p => (.rp :: p.1, p.2)
  | d, t :: ts => (getHashCell d ts).map fun p => (t :: p.1, p.2)

/-- 677-724, the loop over the `#` of the text, last one first. `cellText n` is `remove(cards[n])` (720).
A `)` missing leaves `cell` unbound in `get_hashcell`: represented as an index error. -/
def removeText (cellText : Nat → M (List HTok)) : List HTok → M (List HTok)
  | [] => .ok []
  | .hash :: ts => do
    let r ← removeText cellText ts
    match dropBlanks ts with
    | .lp :: _ =>
      match getHashCell 0 r with
      | none => .error .indexError
      | some (h, rest) => do
        let c ← complementary h
        .ok (c ++ rest)
    | .num n :: _ =>
      if n < 0 then .ok (.hash :: r)
      else do
        let d ← cellText n.toNat
        let c ← complementary d
        .ok (.blank :: .blank :: .blank :: .blank :: .blank :: .blank :: (c ++ .blank :: (dropBlanks r).tail))
    | _ => .ok (.hash :: r)
  | t :: ts => do
    let r ← removeText cellText ts
    .ok (t :: r)

/-- 678-724 `remove(card)`: a card with `TRCL` or `LIKE`, and a card without `#`, are returned as they are (689-690).
`cards`: the dictionary. `f`: recursion depth allowed -/
def remove (cards : Nat → Option Card) : Nat → Card → M (List HTok)
  | 0, _ => .error .recursion
  | f + 1, c =>
    if !c.plain || .hash ∉ c.geom then .ok c.geom
    else removeText (fun n => match cards n with
      | none => .error .keyError
      | some d => remove cards f d) c.geom

/-- 677, 726-727 `remove_hash(cards, cname)` -/
def removeHash (cards : Nat → Option Card) (f cname : Nat) : M (List HTok) :=
  match cards cname with
  | none => .error .keyError
  | some c => remove cards f c

end Geouned.Rev
