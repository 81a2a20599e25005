import Verif.Facet.Lemmas2
/-!
# Prisms, to test the statements about faceted solids

Extruded polygons with edges parallel to the axes, over the rationals, with ways to check the conditions of `Facet/Spec.lean` by computation.
-/
namespace Geouned.Facet
open Geouned Geouned.BB

/-! ## conditions that can be computed -/

/-- the two directions at right angles to the edge in the plane of the face -/
def cand (e : Edge ℚ) (g : Face ℚ) : List (Pt ℚ) := [cross e.dir g.surf.nrm, ⟨-(cross e.dir g.surf.nrm).x, -(cross e.dir g.surf.nrm).y, -(cross e.dir g.surf.nrm).z⟩]

/-- the face is on this side of the edge -/
def On (e : Edge ℚ) (f : Face ℚ) (w : Pt ℚ) : Prop :=
  f.inside ⟨e.mid.x + 1 / 10 * w.x, e.mid.y + 1 / 10 * w.y, e.mid.z + 1 / 10 * w.z⟩ = true ∧
    f.inside ⟨e.mid.x - 1 / 10 * w.x, e.mid.y - 1 / 10 * w.y, e.mid.z - 1 / 10 * w.z⟩ = false

instance (e : Edge ℚ) (f : Face ℚ) (w : Pt ℚ) : Decidable (On e f w) := by unfold On; infer_instance

theorem into_iff (e : Edge ℚ) (f : Face ℚ) (w : Pt ℚ) : Into e f w ↔ w ∈ cand e f ∧ On e f w := by
  simp [Into, cand, On]

instance (inverted : Bool) (e : Edge ℚ) (f : Face ℚ) (w : Pt ℚ) : Decidable (ConvexEdge inverted e f w) := by
  unfold ConvexEdge Face.Inner; infer_instance

instance (inverted : Bool) (f : Face ℚ) (p : Pt ℚ) : Decidable (f.Inner inverted p) := by unfold Face.Inner; infer_instance

theorem reentrant_iff (inverted : Bool) (f g : Face ℚ) : Reentrant inverted f g ↔
    ∃ e ∈ f.edges, (∃ e' ∈ g.edges, e.key = e'.key) ∧ ∃ w ∈ cand e g, On e g w ∧ ¬ConvexEdge inverted e f w := by
  simp only [Reentrant, Shared, into_iff]
  constructor
  · rintro ⟨e, ⟨h1, h2⟩, w, ⟨h3, h4⟩, h5⟩; exact ⟨e, h1, h2, w, h3, h4, h5⟩
  · rintro ⟨e, h1, h2, w, h3, h4, h5⟩; exact ⟨e, ⟨h1, h2⟩, w, ⟨h3, h4⟩, h5⟩

instance (inverted : Bool) (f g : Face ℚ) : Decidable (Reentrant inverted f g) := decidable_of_iff _ (reentrant_iff inverted f g).symm

/-- `Tidy`, by computation -/
def TidyC (inverted : Bool) (f g : Face ℚ) : Prop :=
  (∀ e ∈ f.edges, (∃ e' ∈ g.edges, e.key = e'.key) →
      f.surf.ev e.mid = 0 ∧ ∃ w ∈ cand e g, On e g w ∧ f.surf.ev ⟨e.mid.x + w.x, e.mid.y + w.y, e.mid.z + w.z⟩ ≠ 0) ∧
    (Reentrant inverted f g → ∀ e ∈ f.edges, (∃ e' ∈ g.edges, e.key = e'.key) → ∀ w ∈ cand e g, On e g w → ¬ConvexEdge inverted e f w)

instance (inverted : Bool) (f g : Face ℚ) : Decidable (TidyC inverted f g) := by unfold TidyC; infer_instance

theorem tidy_of {inverted : Bool} {f g : Face ℚ} (h : TidyC inverted f g) : Tidy inverted f g := by
  refine ⟨fun e he => ?_, fun hr e he w hw => ?_⟩
  · obtain ⟨a, w, b, c, d⟩ := h.1 e he.1 he.2
    exact ⟨a, w, (into_iff _ _ _).2 ⟨b, c⟩, d⟩
  · obtain ⟨a, b⟩ := (into_iff _ _ _).1 hw
    exact h.2 hr e he.1 he.2 w a b

theorem regular_of {s : Solid ℚ} (h : s.used.Pairwise fun f g => TidyC s.inverted f g ∧ TidyC s.inverted g f) : Regular s :=
  h.imp fun h => ⟨tidy_of h.1, tidy_of h.2⟩

theorem connected_of {inverted : Bool} {fs : List (Face ℚ × Nat)} (h1 : ∀ f ∈ fs, ∀ g ∈ fs, Reentrant inverted f.1 g.1 → f.2 = g.2)
    (h2 : ∀ i j : Fin fs.length, fs[i].2 = fs[j].2 → i = j ∨ Reentrant inverted fs[i].1 fs[j].1 ∨
      ∃ h ∈ fs, Reentrant inverted fs[i].1 h.1 ∧ Reentrant inverted h.1 fs[j].1) : Connected inverted fs := by
  intro f hf g hg
  constructor
  · intro e
    obtain ⟨i, hi, rfl⟩ := List.getElem_of_mem hf
    obtain ⟨j, hj, rfl⟩ := List.getElem_of_mem hg
    rcases h2 ⟨i, hi⟩ ⟨j, hj⟩ e with h | h | ⟨x, hx, a, b⟩
    · cases h; exact .refl
    · exact .single ⟨hf, hg, .inl h⟩
    · exact (Relation.ReflTransGen.single ⟨hf, hx, .inl a⟩).tail ⟨hx, hg, .inl b⟩
  · intro h
    induction h with
    | refl => rfl
    | tail _ h ih =>
      obtain ⟨a, b, c | c⟩ := h
      · exact (ih a).trans (h1 _ a _ b c)
      · exact (ih a).trans (h1 _ b _ a c).symm

theorem ledByFirst_of {inverted : Bool} {fs : List (Face ℚ × Nat)}
    (h : ∀ i : Fin fs.length, (∀ h ∈ fs.take i, h.2 ≠ fs[i].2) → ∀ g ∈ fs.drop (i + 1), (g.2 = fs[i].2 ↔ Reentrant inverted fs[i].1 g.1)) :
    LedByFirst inverted fs := by
  rintro pre f post rfl hpre g hg
  have := h ⟨pre.length, by simp⟩ (by simpa using hpre) g (by simpa using hg)
  simpa using this

theorem ownPlanes_of {inverted : Bool} {fs : List (Face ℚ × Nat)} (pts : List (Pt ℚ))
    (h : ∀ i : Fin fs.length, (∃ g ∈ fs.take i ++ fs.drop (i + 1), g.2 = fs[i].2) →
      ∀ g ∈ fs.take i ++ fs.drop (i + 1), ∃ p ∈ pts, ¬(fs[i].1.Inner inverted p ↔ g.1.Inner inverted p)) :
    OwnPlanes inverted fs := by
  rintro pre f post rfl hex g hg
  obtain ⟨p, -, hp⟩ := h ⟨pre.length, by simp⟩ (by simpa using hex) g (by simpa using hg)
  exact ⟨p, by simpa using hp⟩

/-! ## a registry of planes -/

/-- the same plane -/
def SamePlane (f : Face ℚ) (q : Plane ℚ) : Prop :=
  if f.surf.nrm = neg q.nrm then dot f.surf.nrm f.surf.pos = -dot q.nrm q.pos else f.surf.nrm = q.nrm ∧ dot f.surf.nrm f.surf.pos = dot q.nrm q.pos

instance (f : Face ℚ) (q : Plane ℚ) : Decidable (SamePlane f q) := by unfold SamePlane; infer_instance

/-- the registry holding these planes, numbered from 1 -/
def reg (planes : List (Plane ℚ)) : Cad ℚ where
  getId f := match planes.findIdx? (fun q => decide (SamePlane f q)) with
    | none => 0
    | some i => i + 1
  getSurface n := if n = 0 then none else planes[n - 1]?
  opposite a b := decide (a = neg b)

theorem known_reg {planes : List (Plane ℚ)} {f : Face ℚ} (h : ∃ q ∈ planes, SamePlane f q) : Known (reg planes) f := by
  cases hi : planes.findIdx? (fun q => decide (SamePlane f q)) with
  | none =>
    obtain ⟨q, hq, hs⟩ := h
    have := List.findIdx?_eq_none_iff.1 hi q hq
    simp [hs] at this
  | some i =>
    obtain ⟨hlt, hs, -⟩ := List.findIdx?_eq_some_iff_getElem.1 hi
    have hid : (reg planes).getId f = i + 1 := by simp only [reg, hi]
    refine ⟨by rw [hid]; omega, planes[i], ?_, fun p => ?_⟩
    · rw [hid]; simp [reg, hlt]
    · have hs := of_decide_eq_true hs
      unfold SamePlane at hs
      by_cases ho : f.surf.nrm = neg planes[i].nrm
      · rw [if_pos ho] at hs
        rw [if_pos (by simpa [reg] using ho)]
        have hx := congrArg Pt.x ho
        have hy := congrArg Pt.y ho
        have hz := congrArg Pt.z ho
        simp only [neg] at hx hy hz
        simp only [Plane.ev, dot, sub] at hs ⊢
        linear_combination p.x * hx + p.y * hy + p.z * hz - hs
      · rw [if_neg ho] at hs
        rw [if_neg (by simpa [reg] using ho)]
        obtain ⟨hn, hd⟩ := hs
        have hx := congrArg Pt.x hn
        have hy := congrArg Pt.y hn
        have hz := congrArg Pt.z hn
        simp only [Plane.ev, dot, sub] at hd ⊢
        linear_combination (-p.x) * hx + (-p.y) * hy + (-p.z) * hz + hd

/-! ## prisms -/

/-- -1, 0 or 1 -/
def sg (a : ℚ) : ℚ := if a < 0 then -1 else if 0 < a then 1 else 0

/-- the side of the prism over the edge of the polygon from `a` to `b` (edges number `i` and `j` of the solid at its ends) -/
def sideFace (depth : ℚ) (o : Bool) (k i j : Nat) (a b : ℚ × ℚ) : Face ℚ :=
  let dx := sg (b.1 - a.1)
  let dz := sg (b.2 - a.2)
  { surf := ⟨⟨a.1, 0, a.2⟩, ⟨dz, 0, -dx⟩⟩
    orient := some o
    area := 100
    planar := true
    edges := [⟨i, ⟨0, 1, 0⟩, ⟨a.1, depth / 2, a.2⟩⟩, ⟨j, ⟨0, 1, 0⟩, ⟨b.1, depth / 2, b.2⟩⟩,
      ⟨100 + k, ⟨dx, 0, dz⟩, ⟨(a.1 + b.1) / 2, 0, (a.2 + b.2) / 2⟩⟩, ⟨200 + k, ⟨dx, 0, dz⟩, ⟨(a.1 + b.1) / 2, depth, (a.2 + b.2) / 2⟩⟩]
    inside := fun p => decide ((min a.1 b.1 ≤ p.x ∧ p.x ≤ max a.1 b.1) ∧ (min a.2 b.2 ≤ p.z ∧ p.z ≤ max a.2 b.2) ∧ 0 ≤ p.y ∧ p.y ≤ depth) }

/-- the sides -/
def sides (depth : ℚ) (o : Bool) (n : Nat) (v0 : ℚ × ℚ) : Nat → List (ℚ × ℚ) → List (Face ℚ)
  | _, [] => []
  | i, [a] => [sideFace depth o i i 0 a v0]
  | i, a :: b :: r => sideFace depth o i i (i + 1) a b :: sides depth o n v0 (i + 1) (b :: r)

/-- the edges of the bottom (`y = 0`, numbers from 100) or of the top (`y = depth`, numbers from 200) -/
def capEdges (base : Nat) (y : ℚ) (v0 : ℚ × ℚ) : Nat → List (ℚ × ℚ) → List (Edge ℚ)
  | _, [] => []
  | i, [a] => [⟨base + i, ⟨sg (v0.1 - a.1), 0, sg (v0.2 - a.2)⟩, ⟨(a.1 + v0.1) / 2, y, (a.2 + v0.2) / 2⟩⟩]
  | i, a :: b :: r => ⟨base + i, ⟨sg (b.1 - a.1), 0, sg (b.2 - a.2)⟩, ⟨(a.1 + b.1) / 2, y, (a.2 + b.2) / 2⟩⟩ :: capEdges base y v0 (i + 1) (b :: r)

/-- bottom or top; `rs`: rectangles (x from, to, z from, to) that make up the polygon -/
def cap (o : Bool) (n : ℚ) (base : Nat) (y : ℚ) (vs : List (ℚ × ℚ)) (rs : List (ℚ × ℚ × ℚ × ℚ)) : Face ℚ :=
  { surf := ⟨⟨0, y, 0⟩, ⟨0, n, 0⟩⟩
    orient := some o
    area := 100
    planar := true
    edges := capEdges base y (vs.headD (0, 0)) 0 vs
    inside := fun p => decide (p.y = y) && rs.any fun r => decide ((r.1 ≤ p.x ∧ p.x ≤ r.2.1) ∧ (r.2.2.1 ≤ p.z ∧ p.z ≤ r.2.2.2)) }

/-- the faces of the prism over the polygon `vs` (counter-clockwise in x, z), from `y = 0` to `y = depth`; every axis points outwards -/
def prism (depth : ℚ) (o : Bool) (vs : List (ℚ × ℚ)) (rs : List (ℚ × ℚ × ℚ × ℚ)) : List (Face ℚ) :=
  sides depth o vs.length (vs.headD (0, 0)) 0 vs ++ [cap o (-1) 100 0 vs rs, cap o 1 200 depth vs rs]

/-- the faces in another order -/
def reorder (fs : List (Face ℚ)) (ks : List Nat) : List (Face ℚ) := ks.filterMap fun k => fs[k]?

/-- a block with a notch cut from above (the letter U), 30 × 10 × 30. Sides: 0 bottom, 1 right, 2 top right, 3 right wall of the notch, 4 its floor, 5 its left wall,
6 top left, 7 left; 8, 9: front, back -/
def uFaces : List (Face ℚ) :=
  prism 10 true [(0, 0), (30, 0), (30, 30), (20, 30), (20, 10), (10, 10), (10, 30), (0, 30)] [(0, 30, 0, 10), (0, 10, 0, 30), (20, 30, 0, 30)]

/-- the material -/
def uRegion (p : Pt ℚ) : Prop := (0 < p.x ∧ p.x < 30) ∧ (0 < p.y ∧ p.y < 10) ∧ (0 < p.z ∧ p.z < 30) ∧ (p.x < 10 ∨ 20 < p.x ∨ p.z < 10)

/-- a wall on a foot (the letter T upside down), 30 × 10 × 30. Sides: 0 bottom, 1 right, 2 right part of the top of the foot, 3 right side of the wall, 4 top,
5 left side of the wall, 6 left part of the top of the foot, 7 left; 8, 9: front, back -/
def tFaces : List (Face ℚ) :=
  prism 10 true [(0, 0), (30, 0), (30, 10), (20, 10), (20, 30), (10, 30), (10, 10), (0, 10)] [(0, 30, 0, 10), (10, 20, 0, 30)]

/-- the material -/
def tRegion (p : Pt ℚ) : Prop := (0 < p.x ∧ p.x < 30) ∧ (0 < p.y ∧ p.y < 10) ∧ (0 < p.z ∧ p.z < 30) ∧ (p.z < 10 ∨ 10 < p.x ∧ p.x < 20)

/-- a block 30 × 10 × `h` -/
def block (o : Bool) (h : ℚ) : List (Face ℚ) := prism 10 o [(0, 0), (30, 0), (30, h), (0, h)] [(0, 30, 0, h)]

/-- the material -/
def blockRegion (h : ℚ) (p : Pt ℚ) : Prop := (0 < p.x ∧ p.x < 30) ∧ (0 < p.y ∧ p.y < 10) ∧ (0 < p.z ∧ p.z < h)

end Geouned.Facet
