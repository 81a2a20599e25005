import Verif.Decom.Model
/-!
# What a decomposition should be

`mem s x`: the point `x` belongs to the solid `s`.
-/
namespace Geouned.Decom

variable {S T Pt : Type}

/-- two solids have no point in common -/
def Apart (mem : S → Pt → Prop) (p q : S) : Prop := ∀ x, ¬ (mem p x ∧ mem q x)

/-- `ps` is a division of the solids `l`: the same points, the same volume, and no two pieces have a point in common -/
structure Divides (k : Cad S T) (mem : S → Pt → Prop) (ps l : List S) : Prop where
  same : ∀ x, (∃ p ∈ ps, mem p x) ↔ ∃ s ∈ l, mem s x
  apart : ps.Pairwise (Apart mem)
  volume : (ps.map k.vol).sum = (l.map k.vol).sum

/-- a kernel whose every cut is a division of the solid -/
def Exact (k : Cad S T) (mem : S → Pt → Prop) : Prop :=
  ∀ s ts tol ps, k.slice s ts tol = some ps → Divides k mem ps [s]

end Geouned.Decom
