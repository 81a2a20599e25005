import Verif.Void.BoxObjsLemmas
import Verif.Void.LoopProps
import Verif.Void.Overlap
/-!
# Properties C59 (a void box keeps the solids that reach into it) and C52 from the solids of the model
-/
namespace Geouned.Void
open Geouned.Geom Geouned.Box

/-- `m` after the translation of the solids: the cell of `no_overlapping_cell` with the definition `d`. Its CAD solids are the pieces it had: neither
`no_overlapping_cell` nor the simplification of the definition changes `Solids` -/
noncomputable def cellOf (i : Int) (m : Meta BBox) (d : Seq) : VObj :=
  ⟨i, false, m.parts.map fun p => some p.cad, hullAll (m.parts.map fun p => some p.cad), d⟩

/-- specification: each piece of the cell is, at the point `q` (sides `σ`), inside the bounding box of its CAD solid -/
def WellPlaced (q : Pt) (σ : Side) (m : Meta BBox) : Prop :=
  ∀ p ∈ m.parts, (∃ op l es, p.defn = .lst op l es) ∧ p.defn.WF ∧ (p.defn.sem σ = true → p.cad.Mem q)

/-- C59 in full: with the option forceNoOverlap (which rewrites the definitions of the cells, 462 of core.py), a void box that holds the point `q` is
built, and `q` is in one of the solids it holds iff it is in one of the cells. `freeTable`: no relation between surfaces is assumed. -/
def C59_statement : Prop :=
  ∀ (ms : List (Meta BBox)) (inter : BBox → BBox → Bool) (f : Nat) (ds : List Seq) (B : BBox) (q : Pt) (σ : Side),
    (∀ a b, inter a b = true ↔ Touch a b) →
    (∀ m ∈ ms, WellPlaced q σ m ∧ m.diagTable = freeTable true ∧ m.fullTable = freeTable false) →
    noOverlapAll false Seq.surfaces f inter ms = .ok ds → B.Mem q →
    ∃ os, voidObjs B ((ms.zip ds).map fun p => cellOf 1 p.1 p.2) = .ok os ∧
      ((∃ o ∈ os, o.defn.sem σ = true) ↔ ∃ d ∈ ds, d.sem σ = true)

/-- ball 1 of radius 1 at the origin -/
noncomputable def exBall : Meta BBox := ⟨true, [⟨.lst .and 0 [.int (-1)], ⟨-1, 1, -1, 1, -1, 1⟩⟩], freeTable true, freeTable false⟩

/-- a cell with two pieces: the upper half of ball 1 and the upper half (plane 4) of a ball 3 at x = 10 -/
noncomputable def exTwo : Meta BBox :=
  ⟨false, [⟨.lst .and 0 [.int (-1), .int 2], ⟨-1, 1, -1, 1, 0, 1⟩⟩, ⟨.lst .and 0 [.int (-3), .int 4], ⟨9, 11, -1, 1, 0, 1⟩⟩],
    freeTable true, freeTable false⟩

theorem exTwo_def (inter : BBox → BBox → Bool) (hi : ∀ a b, inter a b = true ↔ Touch a b) :
    noOverlapAll false Seq.surfaces 40 inter [exBall, exTwo] = .ok [.lst .and 0 [.int (-1)], .lst .and 0 [.int (-3), .int 4]] := by
  have h1 : inter ⟨-1, 1, -1, 1, 0, 1⟩ ⟨-1, 1, -1, 1, -1, 1⟩ = true := by rw [hi]; norm_num [Touch]
  have h2 : inter ⟨9, 11, -1, 1, 0, 1⟩ ⟨-1, 1, -1, 1, -1, 1⟩ = false := by
    rw [← Bool.not_eq_true, hi]; norm_num [Touch]
  simp only [noOverlapAll, noOverlap, newDef, exTwo, exBall, newParts, newPart, appendComps, appendComp, h1, h2]
  rfl

/-- C59 is false of the code: when forceNoOverlap removes the first piece of a cell (it lies in an earlier cell), the definition no longer has one
element per CAD solid, but the void box still takes `Definition.elements[i]` for the `i`-th solid. Here the cell is `-3 4`; a void box that reaches only
the second solid takes its second element `4` for the whole cell, and the point (6, 0, 1) outside of both balls and above plane 4 is in no cell and
in no void. -/
theorem C59_void_box_violated : ¬ C59_statement := by
  intro h
  have hnan : ∀ a b : BBox, (open Classical in decide (Touch a b)) = true ↔ Touch a b := by intro a b; simp
  have hm : ∀ m ∈ [exBall, exTwo], WellPlaced ⟨6, 0, 1⟩ (fun _ => true) m ∧ m.diagTable = freeTable true ∧ m.fullTable = freeTable false := by
    intro m hm
    simp only [List.mem_cons, List.not_mem_nil, or_false] at hm
    rcases hm with rfl | rfl
    · refine ⟨?_, rfl, rfl⟩
      intro p hp
      simp only [exBall, List.mem_cons, List.not_mem_nil, or_false] at hp
      subst hp
      exact ⟨⟨_, _, _, rfl⟩, by simp [Seq.WF, Seq.WFL], by simp [Seq.sem, Seq.semAll, lit]⟩
    · refine ⟨?_, rfl, rfl⟩
      intro p hp
      simp only [exTwo, List.mem_cons, List.not_mem_nil, or_false] at hp
      rcases hp with rfl | rfl
      · exact ⟨⟨_, _, _, rfl⟩, by simp [Seq.WF, Seq.WFL], by simp [Seq.sem, Seq.semAll, lit]⟩
      · exact ⟨⟨_, _, _, rfl⟩, by simp [Seq.WF, Seq.WFL], by simp [Seq.sem, Seq.semAll, lit]⟩
  obtain ⟨os, h1, h2⟩ := h [exBall, exTwo] _ 40 _ ⟨5, 15, -5, 5, -5, 5⟩ ⟨6, 0, 1⟩ (fun _ => true) hnan hm (exTwo_def _ hnan)
    (by norm_num [BBox.Mem])
  have t1 : ¬ Touch ⟨5, 15, -5, 5, -5, 5⟩ ⟨-1, 1, -1, 1, -1, 1⟩ := by norm_num [Touch]
  have t2 : Touch ⟨5, 15, -5, 5, -5, 5⟩ ⟨-1, 11, -1, 1, 0, 1⟩ := by norm_num [Touch]
  have t3 : ¬ Touch ⟨5, 15, -5, 5, -5, 5⟩ ⟨-1, 1, -1, 1, 0, 1⟩ := by norm_num [Touch]
  have t4 : Touch ⟨5, 15, -5, 5, -5, 5⟩ ⟨9, 11, -1, 1, 0, 1⟩ := by norm_num [Touch]
  have hh : hull ⟨-1, 1, -1, 1, 0, 1⟩ ⟨9, 11, -1, 1, 0, 1⟩ = ⟨-1, 11, -1, 1, 0, 1⟩ := by norm_num [hull]
  have : voidObjs ⟨5, 15, -5, 5, -5, 5⟩ (([exBall, exTwo].zip [.lst .and 0 [.int (-1)], .lst .and 0 [.int (-3), .int 4]]).map
      fun p => cellOf 1 p.1 p.2) = .ok [⟨1, false, [some ⟨9, 11, -1, 1, 0, 1⟩], some ⟨9, 11, -1, 1, 0, 1⟩, .lst .or 0 [.int 4]⟩] := by
    simp [voidObjs, cellOf, exBall, exTwo, hullAll, hh, t1, t2, removeExtraComp, copyMeta, keepLoop, hit, t3, t4, Seq.elemsOf, bind,
      Except.bind, Seq.append, appendLoop]
  rw [this] at h1
  cases h1
  simp [Seq.sem, Seq.semAny, Seq.semAll, lit] at h2

/-- C59, proved part: when the definition of every cell has one part per CAD solid, in order, and each part holds only in the box of its solid (what
`cellDef` delivers, C60), the void box is built; its solids satisfy the same again (so the boxes of a split can be built from those of the box that is
split), and at every point of the box a cell of the void box holds iff the cell of the model with the same number and the same mark of enclosure does.
Missing: cells rewritten by forceNoOverlap, for which the statement is false. -/
theorem C59_void_box_partial (B : BBox) (ms : List VObj) (q : Pt) (σ : Side) (hB : B.Mem q) (hm : ∀ m ∈ ms, Located q σ m) :
    ∃ os, voidObjs B ms = .ok os ∧ (∀ o ∈ os, Located q σ o) ∧
      (∀ i e, (∃ o ∈ os, o.id = i ∧ o.isEncl = e ∧ o.defn.sem σ = true) ↔ ∃ m ∈ ms, m.id = i ∧ m.isEncl = e ∧ m.defn.sem σ = true) := by
  obtain ⟨os, h1, h2, _, h4⟩ := voidObjs_spec hB ms hm
  exact ⟨os, h1, h2, h4⟩

/-- the object of the example: the cell `exTwo` as `cellDef` delivers it -/
noncomputable def exObj : VObj := cellOf 1 exTwo (.lst .or 1 [.lst .and 0 [.int (-1), .int 2], .lst .and 0 [.int (-3), .int 4]])

/-- Non-vacuity of C59: a point of the second half ball, and the box that does not reach the first: one piece is dropped. -/
example : (⟨5, 15, -5, 5, -5, 5⟩ : BBox).Mem ⟨10, 0, 1 / 2⟩ ∧
    Located ⟨10, 0, 1 / 2⟩ (fun s => decide (s ≠ 3)) exObj ∧ exObj.defn.sem (fun s => decide (s ≠ 3)) = true ∧
    ∃ o, voidObjs ⟨5, 15, -5, 5, -5, 5⟩ [exObj] = .ok [o] ∧ o.defn = .lst .or 1 [.lst .and 0 [.int (-3), .int 4]] := by
  have hh : hull ⟨-1, 1, -1, 1, 0, 1⟩ ⟨9, 11, -1, 1, 0, 1⟩ = ⟨-1, 11, -1, 1, 0, 1⟩ := by norm_num [hull]
  refine ⟨by norm_num [BBox.Mem], ⟨⟨[(some ⟨-1, 1, -1, 1, 0, 1⟩, .lst .and 0 [.int (-1), .int 2]),
    (some ⟨9, 11, -1, 1, 0, 1⟩, .lst .and 0 [.int (-3), .int 4])], ⟨rfl, ⟨1, rfl⟩, ?_, ?_⟩⟩, ?_, ?_⟩, ?_, ?_⟩
  · simp
  · simp [Seq.sem, Seq.semAll, lit]
    norm_num [BBox.Mem]
  · simp [exObj, cellOf, Seq.WF, Seq.WFL]
  · intro _
    refine ⟨⟨-1, 11, -1, 1, 0, 1⟩, by simp [exObj, cellOf, exTwo, hullAll, hh], by norm_num [BBox.Mem]⟩
  · rfl
  · have t2 : Touch ⟨5, 15, -5, 5, -5, 5⟩ ⟨-1, 11, -1, 1, 0, 1⟩ := by norm_num [Touch]
    have t3 : ¬ Touch ⟨5, 15, -5, 5, -5, 5⟩ ⟨-1, 1, -1, 1, 0, 1⟩ := by norm_num [Touch]
    have t4 : Touch ⟨5, 15, -5, 5, -5, 5⟩ ⟨9, 11, -1, 1, 0, 1⟩ := by norm_num [Touch]
    simp [exObj, voidObjs, cellOf, exTwo, hullAll, hh, t2, removeExtraComp, copyMeta, keepLoop, hit, t3, t4, Seq.elemsOf, bind,
      Except.bind, Seq.append, appendLoop]

/-- C59: whatever the box, the construction of a void box raises no exception when the definitions have one sequence per CAD solid, and this holds of the
new cells too. -/
theorem C59_void_box_returns (B : BBox) (ms : List VObj) (h : ∀ m ∈ ms, Shaped m) :
    ∃ os, voidObjs B ms = .ok os ∧ ∀ o ∈ os, Shaped o := voidObjs_shaped ms h

example : Shaped exObj := ⟨⟨1, _, rfl, rfl, by simp⟩, by simp [exObj, cellOf, Seq.WF, Seq.WFL]⟩

/-! ### C52 with the solids of the model -/

/-- void_box_class.py 19-37 for a piece of a box that is split (65-99): the objects are chosen among those of the box that is split -/
noncomputable def subObjs (z : VBox (List VObj)) (b : BBox) : List VObj := (voidObjs b z.objs).toOption.getD []

/-- the definitions given to `get_void_complementary` -/
def defsOf (os : List VObj) : List Seq := os.map VObj.defn

/-- C52 from the solids: the boxes hold the solids that `VoidBox` selects (model `voidObjs`), at first those of `ms` for the universe box. At every point
`q` of space on none of the box planes, with sides `σ`, at which the tables hold: if `q` is in the universe box and in no cell, it is in exactly one void
cell; if it is in a cell or outside the universe box, it is in none.
Missing: the executions in which C26 is false (`guard`), cells rewritten by forceNoOverlap (C59), boxes above the limit of C27. -/
theorem C52_void_of_solids_partial (many : VBox (List VObj) → Prop)
    (minSize : ℝ) (U : BBox) (hU : U.Proper) (k : Coord → Nat)
    (hk : ∀ c, len U c < minSize * 2 ^ (k c + 1)) (h50 : k .X + k .Y + k .Z < 50)
    (mode : Simp) (reg : Pl → Registered) (t : VBox (List VObj) → CTable) (enum : Seq → List Nat) (f : Nat)
    (ms os : List VObj) (hos : voidObjs U ms = .ok os)
    (cell : VBox (List VObj) → Option Seq) (boxes : List (VBox (List VObj)))
    (hboxes : boxes = getVoidBoxes (splitVBox many subObjs minSize) ⟨U, os⟩)
    (hsolid : ∀ z ∈ boxes, Solid z.box) (hreg : ∀ z ∈ boxes, ∀ p ∈ boundPlanes z.box, Fits p (reg p))
    (ht : mode ≠ .no → ∀ z ∈ boxes, (t z).NoEquivalence)
    (hcell : ∀ z ∈ boxes, voidCell true mode false (boxDef z.box reg) (defsOf z.objs) (t z) enum f = .ok (cell z))
    (q : Vec) (σ : Side) (hσ : ∀ z ∈ boxes, SidesAt z.box reg q σ)
    (htab : mode ≠ .no → ∀ z ∈ boxes, InBox z.box q → (t z).Sound σ)
    (hms : ∀ m ∈ ms, Located ⟨q.x, q.y, q.z⟩ σ m) :
    (InBox U q → (∀ m ∈ ms, m.defn.sem σ = false) →
      ∃ z ∈ boxes, ∃ c, cell z = some c ∧ c.sem σ = true) ∧
    boxes.Pairwise (fun z z' => ¬ ((∃ c, cell z = some c ∧ c.sem σ = true) ∧ ∃ c, cell z' = some c ∧ c.sem σ = true)) ∧
    (¬ InBox U q ∨ (∃ m ∈ ms, m.defn.sem σ = true) →
      ∀ z ∈ boxes, ∀ c, cell z = some c → c.sem σ = false) := by
  set pt : Pt := ⟨q.x, q.y, q.z⟩ with hpt
  have hshape : ∀ m ∈ ms, Shaped m := fun m hm => (hms m hm).shaped
  -- what holds of every box of the loop
  let G : VBox (List VObj) → Prop := fun z => z.box.Proper ∧ (∀ o ∈ z.objs, Shaped o) ∧
    (z.box.Mem pt → (∀ o ∈ z.objs, Located pt σ o) ∧ ((∃ o ∈ z.objs, o.defn.sem σ = true) ↔ ∃ m ∈ ms, m.defn.sem σ = true))
  have hchild : ∀ z b, G z → b.Proper → (b.Mem pt → z.box.Mem pt) → G ⟨b, subObjs z b⟩ := by
    intro z b hz hb hsub
    refine ⟨hb, ?_, ?_⟩
    · obtain ⟨os', h1, h2⟩ := voidObjs_shaped (B := b) z.objs hz.2.1
      simp only [subObjs, h1, Except.toOption, Option.getD_some]
      exact h2
    · intro hm
      obtain ⟨h1, h2⟩ := hz.2.2 (hsub hm)
      obtain ⟨os', r1, r2, r3, _⟩ := voidObjs_spec (B := b) hm z.objs h1
      simp only [subObjs, r1, Except.toOption, Option.getD_some]
      exact ⟨r2, r3.trans h2⟩
  have hG : ∀ z ps, G z → splitVBox many subObjs minSize z = some ps → ∀ b ∈ ps, G b := by
    intro z ps hz hs b hb
    obtain ⟨b1, b2, h1, rfl⟩ := splitVBox_some hs
    obtain ⟨c1, _, p1, p2, _⟩ := C25_split_covers minSize z.box b1 b2 hz.1 h1
    simp only [List.mem_cons, List.not_mem_nil, or_false] at hb
    rcases hb with rfl | rfl
    · exact hchild z b1 hz p1 (fun h => (c1 pt).2 (.inl h))
    · exact hchild z b2 hz p2 (fun h => (c1 pt).2 (.inr h))
  have hinit : G ⟨U, os⟩ := by
    refine ⟨hU, ?_, ?_⟩
    · obtain ⟨os', h1, h2⟩ := voidObjs_shaped (B := U) ms hshape
      rw [hos] at h1; cases h1; exact h2
    · intro hm
      obtain ⟨os', r1, r2, r3, _⟩ := voidObjs_spec (B := U) hm ms hms
      rw [hos] at r1; cases r1; exact ⟨r2, r3⟩
  have hall : ∀ z ∈ boxes, G z := by
    intro z hz
    rw [hboxes] at hz
    exact ((voidLoop_forall hG 50 [⟨U, os⟩] (by intro y hy; simp at hy; subst hy; exact hinit)).1 z hz).1
  have hres := C52_void_fills_universe_partial defsOf many subObjs minSize ⟨U, os⟩ hU k hk h50 mode reg t enum f cell boxes hboxes hsolid hreg
    (fun z hz d hd => by
      obtain ⟨o, ho, rfl⟩ := List.mem_map.1 hd
      exact ((hall z hz).2.1 o ho).2)
    ht hcell (ms.map VObj.defn) q σ hσ htab
    (fun z hz hin => by
      have := ((hall z hz).2.2 hin).2
      simpa [defsOf] using this)
  obtain ⟨a1, a2, a3⟩ := hres
  refine ⟨fun h1 h2 => a1 h1 (by simpa using h2), a2, fun h => a3 ?_⟩
  rcases h with h | h
  · exact .inl h
  · exact .inr (by simpa using h)

/-- Non-vacuity of C52: the box of 1 x 2 x 3 with one cell `7 -8` in it, not split, option "no", at the middle of the box, which is outside of the
cell. -/
example :
    let m : VObj := ⟨1, false, [some exBox], some exBox, .lst .or 1 [.lst .and 0 [.int 7, .int (-8)]]⟩
    let z : VBox (List VObj) := ⟨exBox, [m]⟩
    let q : Vec := ⟨1 / 2, 1, 3 / 2⟩
    let σ : Side := fun n => decide (n ≠ 3)
    voidObjs exBox [m] = .ok z.objs ∧ getVoidBoxes (splitVBox (fun _ => False) subObjs 1) z = [z] ∧ Located ⟨q.x, q.y, q.z⟩ σ m ∧
    SidesAt exBox exReg q σ ∧ InBox exBox q ∧
    ∃ c, voidCell true .no false (boxDef z.box exReg) (defsOf z.objs) (freeTable false) Seq.surfaces 60 = .ok (some c) := by
  intro m z q σ
  have tt : Touch exBox exBox := by norm_num [Touch, exBox]
  refine ⟨?_, by simp [getVoidBoxes, voidLoop, splitVBox], ⟨⟨[(some exBox, .lst .and 0 [.int 7, .int (-8)])], ⟨rfl, ⟨1, rfl⟩, ?_, ?_⟩⟩, ?_, ?_⟩,
    ?_, by norm_num [InBox, BBox.Mem, exBox, q], ?_⟩
  · simp [voidObjs, m, z, tt, removeExtraComp, copyMeta, hullAll, keepLoop, hit, Seq.elemsOf, bind, Except.bind, Seq.append, appendLoop]
  · simp
  · simp [Seq.sem, Seq.semAll, lit, σ]
  · simp [m, Seq.WF, Seq.WFL]
  · intro _; exact ⟨exBox, rfl, by norm_num [BBox.Mem, exBox, q]⟩
  · intro p hp
    have x2 : ((-1 : ℝ) = 1) = False := by norm_num
    simp only [boundPlanes, List.mem_cons, List.not_mem_nil, or_false] at hp
    rcases hp with rfl | rfl | rfl | rfl | rfl | rfl <;> norm_num [exReg, Pl.val, Vec.dot, Vec.sub, Vec.neg, exBox, σ, q, x2]
  · simp only [z, m, defsOf, List.map_cons, List.map_nil, exBox_def]
    exact ⟨_, by rfl⟩

end Geouned.Void
