import Verif.Facet.Examples
/-!
# C116: faceted solids (option `Facets`)
-/
namespace Geouned.Facet
open Geouned Geouned.BB

variable {F : Type} [Field F] [LinearOrder F] [IsStrictOrderedRing F]

/-- C116, the full statement (with the condition `P` on the solid and its groups): a solid whose planes are all in the registry, and whose material is described by the groups
of faces that are connected by edges that are not convex, gets a definition, and a point on no plane satisfies the definition exactly when it is in the material. -/
def Sound (F : Type) [Field F] [LinearOrder F] [IsStrictOrderedRing F] (P : Solid F → List (Face F × Nat) → Prop) : Prop :=
  ∀ (C : Cad F) (s : Solid F) (R : Pt F → Prop) (fs : List (Face F × Nat)), Layout s R fs → Connected s.inverted fs → Regular s →
    (∀ f ∈ s.used, Known C f) → P s fs → ∃ d, setDefinition C [s] = .ok d ∧ ∀ p, Off s p → (d.sem (side C p) = true ↔ R p)

/-- C116, what holds, for any number of solids: when the solids are not inside out, the first face of each group meets all the others of its group, and no two faces
have the same inner side (unless both are alone in their groups), the cell gets a definition, and a point on no plane satisfies it exactly when it is in one of the solids. -/
theorem C116_solids_partial (C : Cad F) (ss : List (Solid F × (Pt F → Prop)))
    (h : ∀ s ∈ ss, ∃ fs, Layout s.1 s.2 fs ∧ Regular s.1 ∧ s.1.inverted = false ∧ (∀ f ∈ s.1.used, Known C f) ∧ LedByFirst s.1.inverted fs ∧
      OwnPlanes s.1.inverted fs) :
    ∃ d, setDefinition C (ss.map Prod.fst) = .ok d ∧ ∀ p, (∀ s ∈ ss, Off s.1 p) → (d.sem (side C p) = true ↔ ∃ s ∈ ss, s.2 p) := by
  obtain ⟨d, h1, -, h3⟩ := solidsLoop_sem (C := C) ss (.lst .or 0 []) ⟨by simp [Seq.WF, Seq.WFL], .inl ⟨0, [], rfl⟩⟩ (fun s hs => by
    obtain ⟨fs, a, b, c, e, f, g⟩ := h s hs
    exact solidDef_sem a b c e f g)
  refine ⟨d, h1, fun p hp => ?_⟩
  rw [h3 p hp]
  simp [Seq.sem, Seq.semAny]

/-- the same for one solid, in the form of the full statement -/
theorem C116_sound_partial : Sound F fun s fs => s.inverted = false ∧ LedByFirst s.inverted fs ∧ OwnPlanes s.inverted fs := by
  rintro C s R fs hL - hr hk ⟨hi, hl, ho⟩
  obtain ⟨d, h1, h2⟩ := C116_solids_partial C [(s, R)] (by
    intro t ht
    rw [List.mem_singleton] at ht
    subst ht
    exact ⟨fs, hL, hr, hi, hk, hl, ho⟩)
  refine ⟨d, h1, fun p hp => ?_⟩
  rw [h2 p (by intro t ht; rw [List.mem_singleton] at ht; subst ht; exact hp)]
  simp

/-- C116: a cell of convex solids (no two faces of which meet in an edge that is not convex, the material being what is on the inner side of all faces) gets exactly that material. -/
theorem C116_convex (C : Cad F) (ss : List (Solid F))
    (h : ∀ s ∈ ss, Regular s ∧ s.inverted = false ∧ (∀ f ∈ s.used, Known C f) ∧ s.used.Pairwise fun f g => ¬Reentrant s.inverted f g) :
    ∃ d, setDefinition C ss = .ok d ∧
      ∀ p, (∀ s ∈ ss, Off s p) → (d.sem (side C p) = true ↔ ∃ s ∈ ss, ∀ f ∈ s.used, f.Inner s.inverted p) := by
  obtain ⟨d, h1, h2⟩ := C116_solids_partial C (ss.map fun s => (s, fun p => ∀ f ∈ s.used, f.Inner s.inverted p)) (by
    intro t ht
    obtain ⟨s, hs, rfl⟩ := List.mem_map.1 ht
    obtain ⟨hr, hi, hk, hc⟩ := h s hs
    have hne : ∀ pre f post, s.used.zipIdx = pre ++ f :: post → ∀ g ∈ pre ++ post, g.2 ≠ f.2 := by
      intro pre f post e g hg heq
      have hnd : (s.used.zipIdx.map Prod.snd).Nodup := by
        rw [List.zipIdx_map_snd]
        exact List.nodup_range'
      rw [e, List.map_append, List.map_cons] at hnd
      have hd := List.nodup_append.1 hnd
      rcases List.mem_append.1 hg with hg | hg
      · exact hd.2.2 _ (List.mem_map.2 ⟨g, hg, rfl⟩) _ (List.mem_cons_self) heq
      · exact (List.nodup_cons.1 hd.2.1).1 (List.mem_map.2 ⟨g, hg, heq⟩)
    have hmem : ∀ f ∈ s.used.zipIdx, f.1 ∈ s.used := fun f hf => by
      have := List.mem_map.2 ⟨f, hf, (rfl : Prod.fst f = f.1)⟩
      rwa [List.zipIdx_map_fst] at this
    refine ⟨s.used.zipIdx, ⟨List.zipIdx_map_fst 0 _, fun p hp => ?_⟩, hr, hi, hk, fun pre f post e hpre g hg => ?_, fun pre f post e hex => ?_⟩
    · constructor
      · intro hp f hf
        exact ⟨f, hf, rfl, hp f.1 (hmem f hf)⟩
      · intro hp f hf
        rw [← List.zipIdx_map_fst 0 s.used] at hf
        obtain ⟨f', hf', rfl⟩ := List.mem_map.1 hf
        obtain ⟨g, hg, e, hin⟩ := hp f' hf'
        obtain ⟨pre, post, hpp⟩ := List.append_of_mem hf'
        rw [hpp] at hg
        rcases List.mem_append.1 hg with hg' | hg'
        · exact absurd e (hne pre f' post hpp g (by simp [hg']))
        · rcases List.mem_cons.1 hg' with rfl | hg'
          · exact hin
          · exact absurd e (hne pre f' post hpp g (by simp [hg']))
    · refine iff_of_false (hne pre f post e g (by simp [hg])) ?_
      rw [← List.zipIdx_map_fst 0 s.used, e, List.map_append, List.map_cons] at hc
      exact (List.pairwise_cons.1 (List.pairwise_append.1 hc).2.1).1 g.1 (List.mem_map.2 ⟨g, hg, rfl⟩)
    · obtain ⟨g, hg, e'⟩ := hex
      exact absurd e' (hne pre f post e g hg))
  refine ⟨d, ?_, fun p hp => ?_⟩
  · rw [List.map_map] at h1
    simpa [Function.comp_def] using h1
  · rw [h2 p (by
      intro t ht
      obtain ⟨s, hs, rfl⟩ := List.mem_map.1 ht
      exact hp s hs)]
    simp

/-- C116: the test for convexity is right for a face that is not inside out, when the other face is at least 0.1 mm wide at the edge and not in the same plane -/
theorem C116_edge {f g : Face F} {e : Edge F} {w : Pt F} (hw : Into e g w) (hm : f.surf.ev e.mid = 0)
    (hn : f.surf.ev ⟨e.mid.x + w.x, e.mid.y + w.y, e.mid.z + w.z⟩ ≠ 0) (ho : f.orient.isSome = true) :
    isConvex f g e = true ↔ ConvexEdge false e f w := isConvex_iff hw hm hn ho

/-! ## the three conditions are needed, and can be met -/

theorem used_eq {s : Solid ℚ} (h : ∀ f ∈ s.faces, f.Counts) : s.used = s.faces := List.filter_eq_self.2 fun f hf => by simpa using h f hf

/-- what the definition says at a point (`none`: no definition) -/
def answer (C : Cad ℚ) (s : Solid ℚ) (p : Pt ℚ) : Option Bool :=
  match setDefinition C [s] with
  | .ok d => some (d.sem (side C p))
  | .error _ => none

theorem not_sound {P : Solid ℚ → List (Face ℚ × Nat) → Prop} {C : Cad ℚ} {s : Solid ℚ} {R : Pt ℚ → Prop} {fs : List (Face ℚ × Nat)} (h1 : Layout s R fs)
    (h2 : Connected s.inverted fs) (h3 : Regular s) (h4 : ∀ f ∈ s.used, Known C f) (h5 : P s fs) {p : Pt ℚ} (h6 : Off s p) (h7 : R p)
    (h8 : answer C s p = some false) : ¬Sound ℚ P := by
  intro h
  obtain ⟨d, hd, h'⟩ := h C s R fs h1 h2 h3 h4 h5
  rw [answer, hd] at h8
  have := (h' p h6).2 h7
  simp only [Option.some.injEq] at h8
  rw [h8] at this
  cases this

/-- the planes of the faces, each in the other direction -/
def backward (fs : List (Face ℚ)) : List (Plane ℚ) := fs.map fun f => ⟨f.surf.pos, neg f.surf.nrm⟩

/-! ### the letter U -/

/-- the notched block with the floor of the notch first, its walls next -/
def uGood : Solid ℚ := ⟨reorder uFaces [4, 3, 5, 0, 1, 2, 6, 7, 8, 9], false⟩

def uGoodGroups : List (Face ℚ × Nat) := uGood.faces.zip [0, 0, 0, 1, 2, 3, 4, 5, 6, 7]

/-- the notched block in the order of the polygon: a wall of the notch comes before its floor -/
def uBad : Solid ℚ := ⟨uFaces, false⟩

def uBadGroups : List (Face ℚ × Nat) := uBad.faces.zip [1, 2, 3, 0, 0, 0, 4, 5, 6, 7]

theorem uGood_layout : Layout uGood uRegion uGoodGroups := by
  refine ⟨?_, fun p _ => ?_⟩
  · rw [used_eq (by decide +kernel), uGoodGroups]
    exact List.map_fst_zip (by decide +kernel)
  · simp [uGoodGroups, uGood, reorder, uFaces, prism, sides, sideFace, cap, Face.Inner, Face.AxisOut, sg, Plane.ev, dot, BB.sub, uRegion]
    norm_num
    tauto

theorem uBad_layout : Layout uBad uRegion uBadGroups := by
  refine ⟨?_, fun p _ => ?_⟩
  · rw [used_eq (by decide +kernel), uBadGroups]
    exact List.map_fst_zip (by decide +kernel)
  · simp [uBadGroups, uBad, uFaces, prism, sides, sideFace, cap, Face.Inner, Face.AxisOut, sg, Plane.ev, dot, BB.sub, uRegion]
    norm_num
    tauto

/-- the conditions can be met: the letter U, in the good order, with a registry whose planes have the opposite direction -/
example : Layout uGood uRegion uGoodGroups ∧ Connected uGood.inverted uGoodGroups ∧ Regular uGood ∧ (∀ f ∈ uGood.used, Known (reg (backward uFaces)) f) ∧
    uGood.inverted = false ∧ LedByFirst uGood.inverted uGoodGroups ∧ OwnPlanes uGood.inverted uGoodGroups :=
  ⟨uGood_layout, connected_of (by decide +kernel) (by decide +kernel), regular_of (by decide +kernel),
    fun f hf => known_reg ((show ∀ f ∈ uGood.used, ∃ q ∈ backward uFaces, SamePlane f q by decide +kernel) f hf), rfl, ledByFirst_of (by decide +kernel),
    ownPlanes_of [⟨-1, -1, -1⟩, ⟨31, 11, 31⟩, ⟨15, 5, 5⟩, ⟨15, 5, 20⟩, ⟨5, 5, 20⟩, ⟨25, 5, 20⟩, ⟨5, 5, 35⟩, ⟨-5, 5, 5⟩, ⟨35, 5, 5⟩] (by decide +kernel)⟩

/-- C116 fails when a face of a notch that does not meet all its other faces comes first: the letter U, with a wall of the notch before its floor, loses one arm. -/
theorem C116_order_violated : ¬Sound ℚ fun s fs => s.inverted = false ∧ OwnPlanes s.inverted fs :=
  not_sound (C := reg (backward uFaces)) (p := ⟨25, 5, 20⟩) uBad_layout (connected_of (by decide +kernel) (by decide +kernel))
    (regular_of (by decide +kernel))
    (fun f hf => known_reg ((show ∀ f ∈ uBad.used, ∃ q ∈ backward uFaces, SamePlane f q by decide +kernel) f hf))
    ⟨rfl, ownPlanes_of [⟨-1, -1, -1⟩, ⟨31, 11, 31⟩, ⟨15, 5, 5⟩, ⟨15, 5, 20⟩, ⟨5, 5, 20⟩, ⟨25, 5, 20⟩, ⟨5, 5, 35⟩, ⟨-5, 5, 5⟩, ⟨35, 5, 5⟩] (by decide +kernel)⟩
    (by unfold Off; decide +kernel) (by unfold uRegion; norm_num) (by decide +kernel)

/-! ### the letter T upside down -/

/-- the wall on a foot; the left side of the wall comes first, and the right part of the top of the foot before the left one -/
def tBad : Solid ℚ := ⟨reorder tFaces [5, 0, 1, 2, 3, 4, 6, 7, 8, 9], false⟩

def tGroups : List (Face ℚ × Nat) := tBad.faces.zip [0, 1, 2, 3, 3, 4, 0, 5, 6, 7]

theorem t_layout : Layout tBad tRegion tGroups := by
  refine ⟨?_, fun p _ => ?_⟩
  · rw [used_eq (by decide +kernel), tGroups]
    exact List.map_fst_zip (by decide +kernel)
  · simp [tGroups, tBad, reorder, tFaces, prism, sides, sideFace, cap, Face.Inner, Face.AxisOut, sg, Plane.ev, dot, BB.sub, tRegion]
    norm_num
    tauto

/-- C116 fails when two notches have faces in the same plane: the face removed from the list is the first one with the same number, not the one that was used. The letter T
upside down loses one foot. -/
theorem C116_coplanar_violated : ¬Sound ℚ fun s fs => s.inverted = false ∧ LedByFirst s.inverted fs :=
  not_sound (C := reg (tFaces.map fun f => f.surf)) (p := ⟨25, 5, 5⟩) t_layout (connected_of (by decide +kernel) (by decide +kernel))
    (regular_of (by decide +kernel))
    (fun f hf => known_reg ((show ∀ f ∈ tBad.used, ∃ q ∈ tFaces.map fun f => f.surf, SamePlane f q by decide +kernel) f hf))
    ⟨rfl, ledByFirst_of (by decide +kernel)⟩
    (by unfold Off; decide +kernel) (by unfold tRegion; norm_num) (by decide +kernel)

/-! ### a block -/

/-- the block, not inside out, and inside out (`Reversed` faces with axes that point outwards) -/
def cube : Solid ℚ := ⟨block true 30, false⟩
def invCube : Solid ℚ := ⟨block false 30, true⟩
def invGroups : List (Face ℚ × Nat) := invCube.faces.zip [0, 1, 2, 3, 4, 5]

/-- the conditions of `C116_convex` can be met: a block -/
example : Regular cube ∧ cube.inverted = false ∧ (∀ f ∈ cube.used, Known (reg (cube.faces.map fun f => f.surf)) f) ∧
    cube.used.Pairwise fun f g => ¬Reentrant cube.inverted f g :=
  ⟨regular_of (by decide +kernel), rfl,
    fun f hf => known_reg ((show ∀ f ∈ cube.used, ∃ q ∈ cube.faces.map fun f => f.surf, SamePlane f q by decide +kernel) f hf), by decide +kernel⟩

theorem inv_layout : Layout invCube (blockRegion 30) invGroups := by
  refine ⟨?_, fun p _ => ?_⟩
  · rw [used_eq (by decide +kernel), invGroups]
    exact List.map_fst_zip (by decide +kernel)
  · simp [invGroups, invCube, block, prism, sides, sideFace, cap, Face.Inner, Face.AxisOut, sg, Plane.ev, dot, BB.sub, blockRegion]
    norm_num
    tauto

/-- C116 fails for a solid that is inside out: its convex edges are taken for edges that are not convex. A block that is inside out holds points outside the block. -/
theorem C116_inverted_violated : ¬Sound ℚ fun s fs => LedByFirst s.inverted fs ∧ OwnPlanes s.inverted fs := by
  intro h
  obtain ⟨d, hd, h'⟩ := h (reg (invCube.faces.map fun f => f.surf)) invCube (blockRegion 30) invGroups inv_layout
    (connected_of (by decide +kernel) (by decide +kernel)) (regular_of (by decide +kernel))
    (fun f hf => known_reg ((show ∀ f ∈ invCube.used, ∃ q ∈ invCube.faces.map fun f => f.surf, SamePlane f q by decide +kernel) f hf))
    ⟨ledByFirst_of (by decide +kernel), ownPlanes_of [] (by decide +kernel)⟩
  have h8 : answer (reg (invCube.faces.map fun f => f.surf)) invCube ⟨35, 5, 5⟩ = some true := by decide +kernel
  rw [answer, hd] at h8
  have h9 := (h' ⟨35, 5, 5⟩ (by unfold Off; decide +kernel)).1 (Option.some.inj h8)
  simp only [blockRegion] at h9
  norm_num at h9

/-- C116 fails for a face narrower than 0.1 mm at an edge: a plate of 30 × 10 × 0.05 mm gets a definition that a point outside the plate satisfies. -/
theorem C116_thin_violated : ∃ p, Off ⟨block true (1 / 20), false⟩ p ∧ ¬blockRegion (1 / 20) p ∧
    answer (reg ((block true (1 / 20)).map fun f => f.surf)) ⟨block true (1 / 20), false⟩ p = some true :=
  ⟨⟨-5, 5, 1 / 40⟩, by unfold Off; decide +kernel, by simp only [blockRegion]; norm_num, by decide +kernel⟩

/-- and the right answers for the letter U in the good order -/
example : answer (reg (backward uFaces)) uGood ⟨25, 5, 20⟩ = some true ∧ answer (reg (backward uFaces)) uGood ⟨15, 5, 20⟩ = some false ∧
    answer (reg (backward uFaces)) uGood ⟨5, 5, 20⟩ = some true := by decide +kernel

end Geouned.Facet
