import Verif.OmcFile.XmlSpec
/-!
# What the OpenMC Python script of a model must say (specification of C107)

A reader of the tokens of simple Python lines: words (letters, digits, `_`, `.`; so `openmc.Cell` is one word), strings without escapes, and single signs. A number with a signed
exponent (`1.0e-3`) is read as three tokens, which makes no difference here: the arguments of a surface are compared with the text that was given.
-/
namespace Geouned.OmcFile

inductive PyTok where
  | word (w : List Char)
  | str (s : List Char)
  | sign (c : Char)
  deriving DecidableEq

/-- letters, digits, `_` and `.` -/
def wordChar (c : Char) : Bool := c.isAlphanum || c = '_' || c = '.'

/-- signs of Python that may be in such a line -/
def signChar (c : Char) : Bool := c ∈ ['=', ',', '(', ')', '[', ']', '&', '|', '+', '-']

/-- the word that has been read -/
def flush (cur : List Char) : List PyTok := if cur = [] then [] else [.word cur]

/-- the tokens of a line; the first argument is the quotation mark if the line is in a string, the second is the word or string read so far -/
def lexGo : Option Char → List Char → List Char → Option (List PyTok)
  | none, cur, [] => some (flush cur)
  | some _, _, [] => none
  | none, cur, c :: s =>
    if wordChar c then lexGo none (cur ++ [c]) s
    else if c = ' ' then (lexGo none [] s).map (flush cur ++ ·)
    else if c = '"' ∨ c = '\'' then (lexGo (some c) [] s).map (flush cur ++ ·)
    else if signChar c then (lexGo none [] s).map (fun l => flush cur ++ .sign c :: l)
    else none
  | some q, cur, c :: s =>
    if c = q then (lexGo none [] s).map (.str cur :: ·)
    else if c = '\\' ∨ c = '\n' ∨ c = '\r' ∨ c.toNat = 0 then none
    else lexGo (some q) (cur ++ [c]) s

/-- a line: a comment, or a statement that is not indented -/
def lexLine (l : List Char) : Option (List PyTok) :=
  if l.head? = some '#' then some [] else if l.head? = some ' ' then none else lexGo none [] l

/-- the statements of a file: its lines, without the comments and the empty lines -/
def PyFile (t : List Char) (stmts : List (List PyTok)) : Prop :=
  ∃ (ls : List (List Char)) (tss : List (List PyTok)), (∀ l ∈ ls, '\n' ∉ l) ∧ t = ls.flatMap (· ++ ['\n']) ∧ List.Forall₂ (fun l ts => lexLine l = some ts) ls tss
    ∧ stmts = tss.filter (fun ts => ts ≠ [])

/-- the name of the object number `n`: a letter and the number -/
def Named (x : Char) (n : Int) (w : List Char) : Prop := ∃ d k, w = x :: d ∧ Text.natOf d = some k ∧ (k : Int) = n

def W (s : String) : PyTok := .word s.toList

/-- `x = cls(args)` -/
def call (x : List Char) (cls : List Char) (args : List (List PyTok)) : List PyTok :=
  .word x :: .sign '=' :: .word cls :: .sign '(' :: (List.intercalate [.sign ','] args ++ [.sign ')'])

/-- `[a, b, …]` -/
def names (l : List (List Char)) : List PyTok := .sign '[' :: (List.intercalate [.sign ','] (l.map (fun w => [.word w])) ++ [.sign ']'])

/-- the tokens of the regions of OpenMC: `+S5`, `-S5`, `&`, `|`, parentheses -/
def decode : List PyTok → Option (List Text.PTok)
  | [] => some []
  | .sign '(' :: l => (decode l).map (.lp :: ·)
  | .sign ')' :: l => (decode l).map (.rp :: ·)
  | .sign '&' :: l => (decode l).map (.amp :: ·)
  | .sign '|' :: l => (decode l).map (.bar :: ·)
  | .sign c :: .word ('S' :: d) :: l =>
    match Text.natOf d, decode l with
    | some k, some r => if c = '+' then some (.surf false k :: r) else if c = '-' then some (.surf true k :: r) else none
    | _, _ => none
  | _ => none

/-- the region is well-formed, and holds or not at `σ` -/
def PyRegion (σ : Side) (l : List PyTok) (b : Bool) : Prop := ∃ ps, decode l = some ps ∧ Text.PReads σ .union ps b

/-- the statement of a material -/
def MatStmt (m : Int) (st : List PyTok) : Prop := ∃ x, Named 'M' m x ∧ st = call x "openmc.Material".toList [[W "name", .sign '=', .str x]]

/-- the statement of a surface: its name, class and arguments -/
def SurfStmt (vacuum : Bool) (s : Surf) (st : List PyTok) : Prop :=
  ∃ x args, Named 'S' s.index x ∧ lexGo none [] s.coeffs = some args
    ∧ st = call x ("openmc.".toList ++ s.ty) (args :: if vacuum then [[W "boundary_type", .sign '=', .str "vacuum".toList]] else [])

/-- the statement of a cell: its name, comment, material (if it is not void) and region -/
def CellStmt (c : Cell) (st : List PyTok) : Prop :=
  ∃ x name region fill, Named 'C' c.label x ∧ NameText c.comments name ∧ (∀ σ b, PyRegion σ region b ↔ b = c.definition.sem σ)
    ∧ (if c.material = 0 then fill = [] else ∃ m, Named 'M' c.material m ∧ fill = [[W "fill", .sign '=', .word m]])
    ∧ st = call x "openmc.Cell".toList ([W "name", .sign '=', .str name] :: (fill ++ [W "region" :: .sign '=' :: region]))

/-- the statements say what the model is -/
def PySays (cs : List Cell) (ss : List Surf) (stmts : List (List PyTok)) : Prop :=
  ∃ (ms : List Int) (mats surfs cells : List (List PyTok)) (mn cn : List (List Char)),
    ms.Pairwise (· < ·) ∧ (∀ m, m ∈ ms ↔ m ≠ 0 ∧ ∃ c ∈ cs, c.material = m) ∧ List.Forall₂ MatStmt ms mats ∧ List.Forall₂ (Named 'M') ms mn
    ∧ (∃ s sl, ss = ss.dropLast ++ [s] ∧ surfs = surfs.dropLast ++ [sl] ∧ List.Forall₂ (SurfStmt false) ss.dropLast surfs.dropLast ∧ SurfStmt true s sl)
    ∧ List.Forall₂ CellStmt (cs.filter (fun c => c.Wanted)) cells ∧ List.Forall₂ (fun c w => Named 'C' c.label w) (cs.filter (fun c => c.Wanted)) cn
    ∧ stmts = [[W "import", W "openmc"]]
      ++ (if ms = [] then [] else mats ++ [call "materials".toList "openmc.Materials".toList [names mn], [W "materials.export_to_xml", .sign '(', .sign ')']])
      ++ surfs ++ cells ++ [call "geometry".toList "openmc.Geometry".toList [names cn], [W "geometry.export_to_xml", .sign '(', .sign ')']]

/-! ## names are defined before they are used -/

/-- the name of a material, surface or cell -/
def ObjName (w : List Char) : Prop := ∃ x n, x ∈ ['M', 'S', 'C'] ∧ Named x n w

/-- every material, surface and cell that a statement mentions is assigned by an earlier one -/
def Defined (stmts : List (List PyTok)) : Prop :=
  ∀ pre st post, stmts = pre ++ st :: post → ∀ w, ObjName w → .word w ∈ st.tail → ∃ rest, (.word w :: .sign '=' :: rest) ∈ pre

/-! ## what is asked of the model -/

/-- a text that can stand in a string of Python as it is -/
def PyStr (t : List Char) : Prop := ∀ c ∈ t, c ≠ '"' ∧ c ≠ '\\' ∧ c.toNat ≠ 0

/-- a surface: its class is a name, its arguments are tokens in one line, none of them the name of an object -/
def PySurf (s : Surf) : Prop :=
  0 ≤ s.index ∧ s.ty ≠ [] ∧ (∀ c ∈ s.ty, wordChar c = true) ∧ '\n' ∉ s.coeffs ∧ ∃ args, lexGo none [] s.coeffs = some args ∧ ∀ w, ObjName w → .word w ∉ args

/-- a model that can be written as a Python script -/
structure GoodPy (r : Nat) (cs : List Cell) (ss : List Surf) : Prop where
  some : ss ≠ []
  material : ∀ c ∈ cs, 0 ≤ c.material
  cells : ∀ c ∈ cs, c.Wanted → GoodDef r c.definition ∧ PlainBreaks c.comments ∧ PyStr c.comments ∧ 0 ≤ c.label
  surfaces : ∀ s ∈ ss, PySurf s

end Geouned.OmcFile
