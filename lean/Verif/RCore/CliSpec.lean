import Verif.Rev.SelectSpec
/-!
# Specification: the configuration file of `geouned_csgtocad`

What a file asks for, by the names of its sections and of their entries. Mentions no function of the code.
-/
namespace Geouned.RCli
open Geouned.Rev

/-- a JSON value that is used as an argument -/
inductive Val where
  | str (s : String)
  | list (l : List Int)
  | null
  | other
  deriving DecidableEq, Repr

/-- a section: a dictionary of arguments, or anything else -/
inductive Sect where
  | dict (kw : List (String × Val))
  | junk
  deriving DecidableEq, Repr

/-- a configuration file: a dictionary of sections -/
abbrev File := List (String × Sect)

/-- the keys of a dictionary differ -/
def File.Dict (f : File) : Prop := (f.map Prod.fst).Nodup

/-- an action of the tool: reading the model, setting a filter, building, writing the CAD files -/
inductive Act where
  | read (file format : String)
  | filter (c : Call)
  | build
  | write (name : String)
  deriving DecidableEq, Repr

/-- the section gives these arguments and no other ones -/
def Gives (s : Sect) (args : List (String × Val)) : Prop := ∃ kw, s = .dict kw ∧ (∀ k, kw.lookup k = args.lookup k)

/-- the section `cell_filter` or `mat_filter`, `key` its list: type and list as given; without a type "all", without a list (or with `null`) no list -/
def AsksFilter (name key : String) (mk : String → Option (List Int) → Call) (f : File) (cs : List Call) : Prop :=
  (f.lookup name = none ∧ cs = []) ∨
  ∃ s t ll types lists, f.lookup name = some s ∧ cs = [mk t ll] ∧ Gives s (types ++ lists) ∧
    (types = [] ∧ t = "all" ∨ types = [("type", .str t)]) ∧
    (ll = none ∧ (lists = [] ∨ lists = [(key, .null)]) ∨ ∃ v, ll = some v ∧ lists = [(key, .list v)])

/-- the sections of the file are as the manual says -/
structure Asks (f : File) (inp fmt : String) (cells mats : List Call) (out : String) : Prop where
  read : ∃ s, f.lookup "read_csg" = some s ∧ Gives s [("input_filename", .str inp), ("csg_format", .str fmt)]
  fmt_ok : fmt = "mcnp" ∨ fmt = "openmc_xml"
  cells : AsksFilter "cell_filter" "cells" (fun t l => .cells t (l.map (·.filterMap Int.toNat?))) f cells
  mats : AsksFilter "mat_filter" "materials" (fun t l => .mats t l) f mats
  out : (f.lookup "export_cad" = none ∧ out = "") ∨ ∃ s, f.lookup "export_cad" = some s ∧ (Gives s [] ∧ out = "" ∨ Gives s [("output_filename", .str out)])

end Geouned.RCli
