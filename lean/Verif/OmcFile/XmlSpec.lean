import Verif.OmcFile.Model
/-!
# What the OpenMC XML file of a model must say (specification of C105)

A reader of XML for files that consist of a declaration and one element whose content are empty elements with attributes; of the references, the five named ones (`&lt;` …). Of the
model only the records `Cell` and `Surf` are used: what the user has given.
-/
namespace Geouned.OmcFile

/-- an element without content -/
structure Elem where
  tag : List Char
  attrs : List (List Char × List Char)
deriving DecidableEq

/-- white space of XML -/
def ws (c : Char) : Bool := c = ' ' || c = '\t' || c = '\n' || c = '\r'

/-- the ASCII characters of names -/
def nameChar (c : Char) : Bool := c.isAlphanum || c = '_' || c = '-' || c = '.' || c = ':'

/-- the characters that an XML file may have -/
def xmlChar (c : Char) : Bool := c = '\t' || c = '\n' || c = '\r' || (32 ≤ c.toNat && c.toNat ≠ 0xFFFE && c.toNat ≠ 0xFFFF)

/-- the value of an attribute, after the quotation mark, and what follows: no `<`, `&` only in one of the five references; white space is read as blanks -/
def readValue : List Char → Option (List Char × List Char)
  | [] => none
  | c :: s =>
    if c = '"' then some ([], s)
    else if c = '&' then
      match s with
      | 'a' :: 'm' :: 'p' :: ';' :: u => (readValue u).map (fun r => ('&' :: r.1, r.2))
      | 'l' :: 't' :: ';' :: u => (readValue u).map (fun r => ('<' :: r.1, r.2))
      | 'g' :: 't' :: ';' :: u => (readValue u).map (fun r => ('>' :: r.1, r.2))
      | 'q' :: 'u' :: 'o' :: 't' :: ';' :: u => (readValue u).map (fun r => ('"' :: r.1, r.2))
      | 'a' :: 'p' :: 'o' :: 's' :: ';' :: u => (readValue u).map (fun r => ('\'' :: r.1, r.2))
      | _ => none
    else if c = '<' ∨ xmlChar c = false then none
    else (readValue s).map (fun r => ((if ws c then ' ' else c) :: r.1, r.2))

/-- the attributes of an empty element, up to its `/>`, and what follows: white space before each, no name twice -/
def readAttrs : Nat → List Char → Option (List (List Char × List Char) × List Char)
  | 0, _ => none
  | n + 1, s =>
    match s.dropWhile ws with
    | '/' :: '>' :: t => some ([], t)
    | t =>
      if t = s then none
      else
        match t.dropWhile nameChar with
        | '=' :: '"' :: u =>
          match readValue u with
          | none => none
          | some (v, w) =>
            match readAttrs n w with
            | none => none
            | some (l, z) => if t.takeWhile nameChar = [] ∨ t.takeWhile nameChar ∈ l.map Prod.fst then none else some ((t.takeWhile nameChar, v) :: l, z)
        | _ => none

/-- the empty elements up to the next `</`, and what follows it -/
def readElems : Nat → List Char → Option (List Elem × List Char)
  | 0, _ => none
  | n + 1, s =>
    match s.dropWhile ws with
    | '<' :: '/' :: t => some ([], t)
    | '<' :: t =>
      if t.takeWhile nameChar = [] then none
      else
        match readAttrs n (t.dropWhile nameChar) with
        | none => none
        | some (l, u) => (readElems n u).map (fun r => (⟨t.takeWhile nameChar, l⟩ :: r.1, r.2))
    | _ => none

/-- after `?>` -/
def afterDecl : List Char → Option (List Char)
  | [] => none
  | c :: s => if c = '?' ∧ s.head? = some '>' then some s.tail else afterDecl s

/-- the name of the root element and the elements in it -/
def readXml (s : List Char) : Option (List Char × List Elem) :=
  if s.take 5 ≠ "<?xml".toList then none
  else
    match (afterDecl s).map (fun t => t.dropWhile ws) with
    | some ('<' :: t) =>
      match t.dropWhile nameChar with
      | '>' :: u =>
        match readElems s.length u with
        | none => none
        | some (es, w) =>
          if w.takeWhile nameChar = t.takeWhile nameChar ∧ t.takeWhile nameChar ≠ [] ∧ (w.dropWhile nameChar).head? = some '>' ∧ ((w.dropWhile nameChar).tail.all ws) then
            some (t.takeWhile nameChar, es)
          else none
      | _ => none
    | _ => none

/-- the word is the number `n` -/
def IsNum (w : List Char) (n : Int) : Prop := Text.tokOf w = some (.num n)

/-- the region of OpenMC: as in MCNP, but `|` for the union -/
def RegionMeans (σ : Side) (t : List Char) (b : Bool) : Prop := Text.CMeans σ (t.map (fun c => if c = '|' then ':' else c)) b

/-- the name of a cell: the lines of its comment, with `. ` between them (a newline at the end makes no line of its own) -/
def NameText (comments name : List Char) : Prop :=
  ∃ lines : List (List Char), (∀ l ∈ lines, '\n' ∉ l)
    ∧ ((comments = List.intercalate ['\n'] lines ∧ lines.getLast? ≠ some []) ∨ (comments = List.intercalate ['\n'] lines ++ ['\n'] ∧ lines ≠ []))
    ∧ name = List.intercalate ". ".toList lines

/-- as an attribute: tabs are read as blanks -/
def NameSays (comments name : List Char) : Prop := ∃ text, NameText comments text ∧ name = text.map (fun c => if c = '\t' then ' ' else c)

/-- an element `cell`: number, material, name, region, universe 1 -/
def CellSays (c : Cell) (e : Elem) : Prop :=
  ∃ label mat name region, e = ⟨"cell".toList, [("id".toList, label), ("material".toList, mat), ("name".toList, name), ("region".toList, region), ("universe".toList, ['1'])]⟩
    ∧ IsNum label c.label ∧ (if c.material = 0 then mat = "void".toList else IsNum mat c.material) ∧ NameSays c.comments name
    ∧ ∀ σ b, RegionMeans σ region b ↔ b = c.definition.sem σ

/-- an element `surface`: number, kind, coefficients -/
def SurfSays (vacuum : Bool) (s : Surf) (e : Elem) : Prop :=
  ∃ index, IsNum index s.index ∧ e = ⟨"surface".toList, [("id".toList, index), ("type".toList, s.ty), ("coeffs".toList, s.coeffs)] ++
    (if vacuum = true then [("boundary".toList, "vacuum".toList)] else [])⟩

/-- the cells that must be in the file: all but the comments between cells and the graveyard -/
def Cell.Wanted (c : Cell) : Prop := c.id ≠ none ∧ c.matInfo ≠ some "Graveyard".toList

instance (c : Cell) : Decidable c.Wanted := inferInstanceAs (Decidable (_ ∧ _))

/-- the elements say what the model is: the cells, then the surfaces; the last surface is the vacuum boundary -/
def Says (cs : List Cell) (ss : List Surf) (es : List Elem) : Prop :=
  ∃ ec ef el s, es = ec ++ ef ++ [el] ∧ List.Forall₂ CellSays (cs.filter (fun c => c.Wanted)) ec ∧ ss = ss.dropLast ++ [s]
    ∧ List.Forall₂ (SurfSays false) ss.dropLast ef ∧ SurfSays true s el

/-! ## what is asked of the model -/

/-- a text that XML can have in an attribute -/
def Attr (t : List Char) : Prop := ∀ c ∈ t, c ≠ '"' ∧ c ≠ '<' ∧ c ≠ '&' ∧ xmlChar c = true

/-- a definition of surfaces only, without empty parts, at most `r` levels deep -/
def GoodDef (r : Nat) (s : Seq) : Prop :=
  ∃ op l es, s = .lst op l es ∧ (Seq.lst op l es).WF ∧ (Seq.lst op l es).NoBool ∧ Text.Full (.lst op l es) ∧ (Seq.lst op l es).depth ≤ r

/-- comments whose only line ends are newline characters (other ends: vertical tab, form feed, carriage return, NEL, line and paragraph separators) -/
def PlainBreaks (t : List Char) : Prop := ∀ c ∈ t, c.toNat ∉ [11, 12, 13, 28, 29, 30, 133, 8232, 8233]

/-- a model that can be written as XML -/
structure GoodXml (r : Nat) (cs : List Cell) (ss : List Surf) : Prop where
  some : ss ≠ []
  cells : ∀ c ∈ cs, c.Wanted → GoodDef r c.definition ∧ PlainBreaks c.comments ∧ Attr c.comments
  surfaces : ∀ s ∈ ss, (Attr s.ty ∧ ∀ c ∈ s.ty, ws c = true → c = ' ') ∧ (Attr s.coeffs ∧ ∀ c ∈ s.coeffs, ws c = true → c = ' ')

end Geouned.OmcFile
