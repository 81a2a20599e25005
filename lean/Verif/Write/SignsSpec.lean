import Verif.Write.Signs
import Verif.Geom.CardProps
/-!
# Specification: what a written geometry means

A cell of a written file holds at a point when its expression does, each surface number standing for the positive side of the surface written under
that number. Before the first export the sides of a plane are those given by its axis.
-/
namespace Geouned.Signs
open Geouned.Geom

/-- the sides of a plane as given by its axis -/
def axisRegion (p : Pl) : Region := planeRegion p.surf.pos p.surf.axis

/-- the sides of a plane in a file: MCNP, PHITS and Serpent take those of three-point planes from the points, if they are printed
so; OpenMC files give the axis (C47, C48, C49: the cards written mean just this) -/
noncomputable def fileRegion (f : Fmt) (prnt3P : Bool) (p : Pl) : Region :=
  if f = .openmc then axisRegion p else (Surface.plane p.surf).mcnpRegion prnt3P

open Classical in
/-- the sides at a point `x`; `σ0` gives those of the surfaces that are not planes -/
noncomputable def sideOf (reg : Pl → Region) (σ0 : Side) (planes : List Pl) (x : Vec) : Side := fun i =>
  match planes.find? (fun p => p.index == i) with
  | some p => decide ((reg p).pos x)
  | none => σ0 i

/-- `x` lies on no plane -/
def Off (planes : List Pl) (x : Vec) : Prop := ∀ p ∈ planes, p.surf.axis.dot (x.sub p.surf.pos) ≠ 0

/-- definitions as cells have them: built of surfaces, or a bare boolean -/
def Fine (d : Seq) : Prop := d.WF ∧ ((∃ o l es, d = .lst o l es ∧ Seq.NoBoolL es) ∨ ∃ o l b, d = .boo o l b)

/-- a plane as registered: unit axis, along its coordinate axis for PX, PY, PZ (exactly: the tolerance of the registration is not modelled), its three
points, if any, not on a line and on the plane -/
structure Pl.Ok (p : Pl) : Prop where
  unit : p.surf.axis.sq = 1
  px : p.kind = .px → p.surf.axis.y = 0 ∧ p.surf.axis.z = 0
  py : p.kind = .py → p.surf.axis.x = 0 ∧ p.surf.axis.z = 0
  pz : p.kind = .pz → p.surf.axis.x = 0 ∧ p.surf.axis.y = 0
  pts : ∀ p1 p2 p3, p.surf.points = some (p1, p2, p3) → NonCollinear p1 p2 p3 ∧
    p.surf.axis.dot (p1.sub p.surf.pos) = 0 ∧ p.surf.axis.dot (p2.sub p.surf.pos) = 0 ∧ p.surf.axis.dot (p3.sub p.surf.pos) = 0

/-- a geometry ready for export: planes under distinct numbers, definitions as above -/
structure Good (s : St) : Prop where
  nodup : (s.planes.map Pl.index).Nodup
  planes : ∀ p ∈ s.planes, p.Ok
  cells : ∀ c ∈ s.cells, c.real = true → Fine c.defn

/-- the file written from `s'` describes the cells of `s` -/
def Faithful (s : St) (f : Fmt) (prnt3P : Bool) (s' : St) : Prop :=
  List.Forall₂ (fun c c' => c'.real = c.real ∧ (c.real = true → ∀ (σ0 : Side) (x : Vec), Off s.planes x →
    c'.defn.sem (sideOf (fileRegion f prnt3P) σ0 s'.planes x) = c.defn.sem (sideOf axisRegion σ0 s.planes x))) s.cells s'.cells

/-- C33 in full: whatever files are written one after the other, all of them describe the cells. -/
def C33_statement : Prop :=
  ∀ (prnt3P : Bool) (fs : List Fmt) (s : St), Good s →
    ∃ out, exports prnt3P fs s = .ok out ∧ out.map Prod.fst = fs ∧ ∀ r ∈ out, Faithful s r.1 prnt3P r.2

end Geouned.Signs
