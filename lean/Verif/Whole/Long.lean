import Verif.Whole.Props
/-!
# C52 and C122 are false of the code: a long universe box

The loop over the void boxes ends after 50 rounds (C27) and forgets the boxes left over: their points are in no cell of the model. The partial theorems exclude such boxes.
-/
namespace Geouned.Whole
open Geouned Geouned.Geom Geouned.Box Geouned.Void

/-- what every conversion without enclosures does: as `Conversion.Ran`, but with any size of the universe box, and with the code of the void cells as it is (`guard = false`) -/
structure Conversion.Done (C : Conversion) : Prop extends C.Framed where
  size : 0 < C.minSize
  boxes : ∃ os, voidObjs C.U C.ms = .ok os ∧ C.boxes = getVoidBoxes (splitVBox C.many subObjs C.minSize) ⟨C.U, os⟩
  solid : ∀ z ∈ C.boxes, Solid z.box
  reg : ∀ z ∈ C.boxes, ∀ p ∈ boundPlanes z.box, Fits p (C.reg p)
  tables : C.mode ≠ .no → ∀ z ∈ C.boxes, (C.t z).NoEquivalence
  cell : ∀ z ∈ C.boxes, voidCell false C.mode false (boxDef z.box C.reg) (defsOf z.objs) (C.t z) C.enum C.fuel = .ok (C.cell z)

/-- **C52** in full: a point of the universe box that is in no solid is in exactly one void cell, any other point in none -/
def C52_statement : Prop :=
  ∀ (C : Conversion), C.Done → ∀ (q : Vec) (σ : Side), C.At q σ →
    (InBox C.U q → (∀ m ∈ C.ms, m.defn.sem σ = false) → ExactlyOne (fun d => d.sem σ = true) (C.boxes.filterMap C.cell)) ∧
    (¬ InBox C.U q ∨ (∃ m ∈ C.ms, m.defn.sem σ = true) → ∀ d ∈ C.boxes.filterMap C.cell, d.sem σ = false)

/-- **C122** in full: every point is in exactly one cell of the model -/
def C122_statement : Prop :=
  ∀ (C : Conversion), C.Done → ∀ (q : Vec) (σ : Side), C.At q σ → ExactlyOne (fun d => d.sem σ = true) C.cells

/-! ### The witness -/

/-- 2^60 times as long as the minimum size -/
noncomputable def longBox : BBox := ⟨0, 2 ^ 60, 0, 1, 0, 1⟩

/-- the void boxes, when the boxes at `x = 0` are split as long as they can be -/
noncomputable def longBoxes : List (VBox (List VObj)) := getVoidBoxes (splitVBox (fun z => z.box.xmin = 0) subObjs 1) ⟨longBox, []⟩

/-- all planes -/
noncomputable def longPlanes : List Pl := boundPlanes longBox ++ longBoxes.flatMap fun z => boundPlanes z.box

open Classical in
/-- planes are registered by their place in the list -/
noncomputable def longReg (p : Pl) : Registered := ⟨longPlanes.idxOf p + 1, false, p⟩

/-- a point near the left end -/
noncomputable def longPoint : Vec := ⟨1 / 2, 1 / 2, 1 / 2⟩

open Classical in
/-- the sides of the planes at the point; the sphere gets the next number -/
noncomputable def longSides : Side := fun n => decide (0 < (longPlanes.getD (n - 1) ⟨⟨0, 0, 0⟩, ⟨0, 0, 0⟩⟩).val longPoint)

theorem long_fits (p : Pl) : Fits p (longReg p) := by
  refine ⟨by simp [longReg], by simp [longReg], .inl rfl, ?_⟩
  simp [longReg, Vec.dot, Vec.sub]

/-- the boxes that the loop meets -/
def LongForm (z : VBox (List VObj)) : Prop :=
  z.objs = [] ∧ ∃ k : Nat, z.box = ⟨0, 2 ^ k, 0, 1, 0, 1⟩ ∨ z.box = ⟨2 ^ k, 2 ^ (k + 1), 0, 1, 0, 1⟩

theorem longForm_split (z : VBox (List VObj)) (ps : List (VBox (List VObj))) (h : LongForm z) (hs : splitVBox (fun z => z.box.xmin = 0) subObjs 1 z = some ps) :
    ∀ b ∈ ps, LongForm b := by
  obtain ⟨b, os⟩ := z
  obtain ⟨ho, k, hb⟩ := h
  simp only at ho hb
  subst ho
  have hk : (0 : ℝ) < 2 ^ k := by positivity
  have hsub : ∀ c, subObjs ⟨b, []⟩ c = [] := fun c => by simp [subObjs, voidObjs, Except.toOption]
  unfold splitVBox at hs
  split at hs
  · next h0 =>
    rcases hb with rfl | rfl
    · cases k with
      | zero =>
        have : split 1 (⟨0, 2 ^ 0, 0, 1, 0, 1⟩ : BBox) = none := (C25_split_none 1 _).2 (by intro c; cases c <;> norm_num [len])
        simp only [this, Option.map_none] at hs
        cases hs
      | succ k =>
        rw [show split 1 (VBox.mk (⟨0, 2 ^ (k + 1), 0, 1, 0, 1⟩ : BBox) ([] : List VObj)).box = _ from long_split k] at hs
        simp only [Option.map_some, Option.some.injEq, hsub] at hs
        subst hs
        intro b hb
        simp only [List.mem_cons, List.not_mem_nil, or_false] at hb
        rcases hb with rfl | rfl
        · exact ⟨rfl, k, .inl rfl⟩
        · exact ⟨rfl, k, .inr rfl⟩
    · simp only at h0
      exact absurd h0 hk.ne'
  · cases hs

theorem longForm_all : ∀ z ∈ longBoxes, z.objs = [] ∧ ∃ k : Nat, z.box = ⟨2 ^ k, 2 ^ (k + 1), 0, 1, 0, 1⟩ := by
  intro z hz
  have h1 := (voidLoop_forall longForm_split 50 [⟨longBox, []⟩] (by intro y hy; simp at hy; subst hy; exact ⟨rfl, 60, .inl rfl⟩)).1 z hz
  have h2 := long_loop subObjs 50 60 [] [] (by omega) (by simp) z hz
  obtain ⟨⟨ho, k, hb⟩, -⟩ := h1
  refine ⟨ho, k, ?_⟩
  rcases hb with hb | hb
  · rw [hb] at h2
    simp at h2
  · exact hb

theorem long_off : ∀ p ∈ longPlanes, p.val longPoint ≠ 0 := by
  have hk : ∀ k : Nat, (1 : ℝ) ≤ 2 ^ k := fun k => one_le_pow₀ (by norm_num)
  intro p hp
  simp only [longPlanes, List.mem_append, List.mem_flatMap] at hp
  rcases hp with hp | ⟨z, hz, hp⟩
  · simp only [boundPlanes, longBox, List.mem_cons, List.not_mem_nil, or_false] at hp
    rcases hp with rfl | rfl | rfl | rfl | rfl | rfl <;> norm_num [Pl.val, longPoint, Vec.dot, Vec.sub]
  · obtain ⟨-, k, hb⟩ := longForm_all z hz
    rw [hb] at hp
    have h1 := hk k
    have h2 := hk (k + 1)
    simp only [boundPlanes, List.mem_cons, List.not_mem_nil, or_false] at hp
    rcases hp with rfl | rfl | rfl | rfl | rfl | rfl <;> simp only [Pl.val, longPoint, Vec.dot, Vec.sub, ne_eq] <;> intro h <;> linarith

open Classical in
theorem long_side {p : Pl} (hp : p ∈ longPlanes) : longSides (longReg p).id = true ↔ 0 < p.val longPoint := by
  have h : longPlanes[longPlanes.idxOf p]? = some p := by
    rw [List.getElem?_eq_getElem (List.idxOf_lt_length_iff.2 hp)]
    simp
  simp [longSides, longReg, h]

theorem long_sidesAt {B : BBox} (h : ∀ p ∈ boundPlanes B, p ∈ longPlanes) : SidesAt B longReg longPoint longSides :=
  fun p hp => ⟨long_off p (h p hp), long_side (h p hp)⟩

theorem long_proper : Solid longBox := by norm_num [Solid, longBox]

/-- the conversion of the empty model with the long box -/
noncomputable def longModel (inC outC : Seq) : Conversion where
  ms := []
  U := longBox
  minSize := 1
  many := fun z => z.box.xmin = 0
  mode := .no
  t := fun _ => freeTable false
  enum := Seq.surfaces
  fuel := 60
  reg := longReg
  sph := longPlanes.length + 1
  boxes := longBoxes
  cell := fun z => some (boxDef z.box longReg)
  inC := inC
  outC := outC

theorem long_solid : ∀ z ∈ longBoxes, Solid z.box := by
  intro z hz
  obtain ⟨-, k, hb⟩ := longForm_all z hz
  have : (0 : ℝ) < 2 ^ k := by positivity
  rw [hb]
  refine ⟨?_, by norm_num, by norm_num⟩
  simp only [pow_succ]
  linarith

theorem long_done {inC outC : Seq} (hg : graveyard longBox longReg (longPlanes.length + 1) = .ok (inC, outC)) : (longModel inC outC).Done where
  proper := long_proper
  regU := fun p _ => long_fits p
  sph := by simp [longModel]
  grave := hg
  inside := by simp [longModel]
  size := by norm_num [longModel]
  boxes := ⟨[], rfl, rfl⟩
  solid := long_solid
  reg := fun z _ p _ => long_fits p
  tables := fun h => absurd rfl h
  cell := by
    intro z hz
    obtain ⟨ho, -⟩ := longForm_all z hz
    simp only [longModel, ho, defsOf, List.map_nil]
    rfl

theorem long_in : InBox longBox longPoint := by norm_num [InBox, BBox.Mem, longBox, longPoint]

theorem long_sphere : distSq longPoint (center longBox) < sphRadius longBox ^ 2 := by
  have h : (0 : ℝ) ≤ (2 ^ 60) ^ 2 + 1 + 1 := by norm_num
  have e : sphRadius longBox ^ 2 = (51 / 100) ^ 2 * ((2 ^ 60) ^ 2 + 1 + 1) := by
    unfold sphRadius longBox
    norm_num [mul_pow]
  rw [e]
  norm_num [distSq, longPoint, center, longBox, Vec.sq, Vec.dot, Vec.sub]

theorem long_at (inC outC : Seq) : (longModel inC outC).At longPoint longSides where
  box := long_sidesAt fun p hp => List.mem_append.2 (.inl hp)
  sphere := by
    refine ⟨long_sphere.ne, ?_⟩
    have h : longSides (longPlanes.length + 1) = false := by
      simp [longSides, Pl.val, Vec.dot]
    simp only [longModel, h]
    exact ⟨fun h => absurd h (by simp), fun h => absurd h (not_lt.2 long_sphere.le)⟩
  solids := by simp [longModel]
  apart := by simp [longModel, AtMostOne]
  boxes := fun z hz => long_sidesAt fun p hp => List.mem_append.2 (.inr (List.mem_flatMap.2 ⟨z, hz, hp⟩))
  tables := fun h => absurd rfl h

/-- the point is in no void cell -/
theorem long_lost (inC outC : Seq) : ∀ d ∈ (longModel inC outC).boxes.filterMap (longModel inC outC).cell, ¬ d.sem longSides = true := by
  intro d hd hs
  obtain ⟨z, hz, hc⟩ := List.mem_filterMap.1 hd
  cases hc
  have hz' : z ∈ longBoxes := hz
  rw [C51_box_definition z.box (long_solid z hz') longReg (fun p _ => long_fits p) longPoint longSides ((long_at inC outC).boxes z hz)] at hs
  obtain ⟨-, k, hb⟩ := longForm_all z hz'
  rw [hb] at hs
  have h1 : (2 : ℝ) ^ k ≤ 1 / 2 := hs.1.1
  have h2 : (1 : ℝ) ≤ 2 ^ k := one_le_pow₀ (by norm_num)
  linarith

/-- **C52** is false of the code: in a universe box of 2^60 minimum sizes whose boxes at the left end have too many surfaces, a point near that end is in no void cell. -/
theorem C52_violated : ¬ C52_statement := by
  intro h
  obtain ⟨inC, outC, hg, -⟩ := C50_graveyard longBox long_proper longReg (longPlanes.length + 1) (by simp) (fun p _ => long_fits p)
  obtain ⟨l1, a, l2, e, ha, -⟩ := (h _ (long_done hg) longPoint longSides (long_at inC outC)).1 long_in (by simp [longModel])
  exact long_lost inC outC a (by rw [e]; simp) ha

/-- **C122** is false of the code: the point is in no cell of the model, neither void nor graveyard. -/
theorem C122_violated : ¬ C122_statement := by
  intro h
  obtain ⟨inC, outC, hg, g⟩ := C50_graveyard longBox long_proper longReg (longPlanes.length + 1) (by simp) (fun p _ => long_fits p)
  have hat := long_at inC outC
  obtain ⟨l1, a, l2, e, ha, -⟩ := h _ (long_done hg) longPoint longSides hat
  have hm : a ∈ (longModel inC outC).cells := by rw [e]; simp
  obtain ⟨-, -, g3⟩ := g longPoint longSides hat.box hat.sphere.1 hat.sphere.2
  rcases g3 with ⟨-, g1, g2⟩ | ⟨g, -⟩ | ⟨g, -⟩
  · simp only [Conversion.cells, List.mem_append, List.mem_map, List.mem_cons, List.not_mem_nil, or_false] at hm
    rcases hm with ⟨m, hm, -⟩ | hm | rfl | rfl
    · simp [longModel] at hm
    · exact long_lost inC outC a hm ha
    · exact absurd ha (by simp [g1])
    · exact absurd ha (by simp [g2])
  · exact absurd long_in g
  · exact absurd long_in g

end Geouned.Whole
