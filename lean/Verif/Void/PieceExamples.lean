import Verif.Void.PieceProps
/-!
# C124: a U-shaped enclosure loses a leg; cases that meet the hypotheses
-/
namespace Geouned.Void
open Geouned.Geom Geouned.Box Geouned.Whole

/-! ### Solids made of boxes -/

/-- what two boxes have in common -/
noncomputable def meet (a b : BBox) : BBox :=
  ⟨max a.xmin b.xmin, min a.xmax b.xmax, max a.ymin b.ymin, min a.ymax b.ymax, max a.zmin b.zmin, min a.zmax b.zmax⟩

theorem meet_int {a b : BBox} {q : Pt} : (meet a b).Int q ↔ a.Int q ∧ b.Int q := by
  simp only [meet, BBox.Int, max_lt_iff, lt_min_iff]
  tauto

/-- the box has volume -/
def Thick (b : BBox) : Prop := b.xmin < b.xmax ∧ b.ymin < b.ymax ∧ b.zmin < b.zmax

theorem thick_of_int {b : BBox} {q : Pt} (h : b.Int q) : Thick b := ⟨h.1.1.trans h.1.2, h.2.1.1.trans h.2.1.2, h.2.2.1.trans h.2.2.2⟩

theorem meet_sub (a b : BBox) : Within (meet a b) a := ⟨le_max_left _ _, min_le_left _ _, le_max_left _ _, min_le_left _ _, le_max_left _ _, min_le_left _ _⟩

open Classical in
/-- the kernel for solids that are boxes -/
noncomputable def boxKernel : Kernel BBox where
  bbox := id
  far b s := decide (¬ Thick (meet b s))
  full b s := decide (Within b s)
  common b s := if Thick (meet b s) then [meet b s] else []

theorem boxKernel_fits (q : Pt) : boxKernel.Fits q (fun s => s.Int q) where
  bbox _ h := h
  far b s h k := by
    simp only [boxKernel, decide_eq_true_eq] at h
    exact h (thick_of_int (meet_int.2 k))
  full b s h k := by
    simp only [boxKernel, decide_eq_true_eq] at h
    exact h.int k
  common b s := by
    simp only [boxKernel]
    split
    · simp [meet_int]
    · next h => simpa using fun a b => h (thick_of_int (meet_int.2 ⟨a, b⟩))
  inside b s x hx := by
    simp only [boxKernel] at hx ⊢
    split at hx
    · next h =>
      simp only [List.mem_singleton] at hx
      subst hx
      exact ⟨⟨h.1.le, h.2.1.le, h.2.2.le⟩, meet_sub b s⟩
    · cases hx

theorem boxKernel_one (b s : BBox) : (boxKernel.common b s).length ≤ 1 := by
  simp only [boxKernel]
  split <;> simp

theorem split_ex : split 200 ⟨0, 400, 0, 1000, 0, 100⟩ = some (⟨0, 400, 0, 500, 0, 100⟩, ⟨0, 400, 500, 1000, 0, 100⟩) := by
  unfold split keepDims
  rw [List.filter_cons_of_pos (by norm_num), List.filter_cons_of_pos (by norm_num), List.filter_cons_of_neg (by norm_num)]
  norm_num [firstMax, cutBox]

/-- only the box of 1000 is split: every other box that is reached is at most 500 high -/
theorem reach_ex {S Ω : Type} {K : Kernel S} {sub : Ω → BBox → Ω} {q : Pt} {In : S → Prop} (hK : K.Fits q In) {z0 z : PBox S Ω} (h0 : z0.box = ⟨0, 400, 0, 1000, 0, 100⟩)
    (hi : z0.Holds q In → z0.box.Int q)
    (h : Reach (splitPBox K (fun z => 600 < z.box.ymax - z.box.ymin) sub 200) z0 z) : Good K q In z ∧ (z = z0 ∨ z.box.ymax - z.box.ymin ≤ 500) := by
  induction h with
  | refl => exact ⟨⟨by rw [h0]; norm_num [BBox.Proper], hi⟩, .inl rfl⟩
  | @step y b ps _ hs hb ih =>
    obtain ⟨g, ih⟩ := ih
    obtain ⟨b1, b2, k1, k2⟩ := child_good hK g hs
    obtain ⟨hm, -⟩ := splitPBox_some hs
    refine ⟨(k2 b hb).1, .inr ?_⟩
    rcases ih with rfl | ih
    · rw [h0, split_ex] at k1
      simp only [Option.some.injEq, Prod.mk.injEq] at k1
      obtain ⟨rfl, rfl⟩ := k1
      rcases (k2 b hb).2.1 with ⟨-, -, h3, h4, -⟩ | ⟨-, -, h3, h4, -⟩ <;> simp only at h3 h4 <;> linarith
    · exact absurd hm (by linarith)

/-- Non-vacuity of `C124_boxes_partial`: a box of 400 x 1000 x 100 as enclosure, split once, and a point in its second half -/
example : let e : BBox := ⟨0, 400, 0, 1000, 0, 100⟩
    let q : Pt := ⟨100, 600, 50⟩
    let many : PBox BBox Unit → Prop := fun z => 600 < z.box.ymax - z.box.ymin
    ExactlyOne (PBox.Holds q fun s => s.Int q) (enclosureBoxes boxKernel many (fun _ _ => ()) 200 e ()) := by
  intro e q many
  refine (C124_boxes_partial boxKernel many (fun _ _ => ()) 200 e () q _ (fun _ => 2) (boxKernel_fits q) ?_ ?_ (by norm_num) ?_ ?_).1 ?_
  · norm_num [boxKernel, e, BBox.Proper]
  · intro c; cases c <;> norm_num [boxKernel, e, len]
  · intro z hz hm b1 b2 h1 hin
    obtain ⟨-, rfl | h⟩ := reach_ex (z0 := ofSolid boxKernel (fun _ : BBox => ()) e) (boxKernel_fits q) rfl (fun h => h) hz
    · simp only [ofSolid, boxKernel, id, e, split_ex, Option.some.injEq, Prod.mk.injEq] at h1
      obtain ⟨rfl, rfl⟩ := h1
      right; norm_num [BBox.Int, q]
    · simp only [many] at hm; linarith
  · intro z _ _ s b1 b2 _ _
    exact ⟨boxKernel_one _ _, boxKernel_one _ _⟩
  · norm_num [BBox.Int, e, q]

/-! ### The U -/

/-- smallest box around boxes -/
noncomputable def hullOf : List BBox → BBox
  | [] => ⟨0, 0, 0, 0, 0, 0⟩
  | [b] => b
  | b :: bs => hull b (hullOf bs)

theorem hull_left (a b : BBox) : Within a (hull a b) := ⟨min_le_left _ _, le_max_left _ _, min_le_left _ _, le_max_left _ _, min_le_left _ _, le_max_left _ _⟩
theorem hull_right (a b : BBox) : Within b (hull a b) := ⟨min_le_right _ _, le_max_right _ _, min_le_right _ _, le_max_right _ _, min_le_right _ _, le_max_right _ _⟩

theorem hullOf_int {q : Pt} : ∀ {bs : List BBox} {b : BBox}, b ∈ bs → b.Int q → (hullOf bs).Int q
  | [b'], b, hb, h => by simp only [List.mem_singleton] at hb; subst hb; exact h
  | b1 :: b2 :: bs, b, hb, h => by
    simp only [hullOf]
    rcases List.mem_cons.1 hb with rfl | hb
    · exact (hull_left _ _).int h
    · exact (hull_right _ _).int (hullOf_int hb h)

theorem hullOf_sub {c : BBox} : ∀ {bs : List BBox}, bs ≠ [] → (∀ b ∈ bs, Thick b ∧ Within b c) → (hullOf bs).Proper ∧ Within (hullOf bs) c
  | [], h, _ => absurd rfl h
  | [b], _, h => by
    obtain ⟨t, s⟩ := h b (by simp)
    exact ⟨⟨t.1.le, t.2.1.le, t.2.2.le⟩, s⟩
  | b1 :: b2 :: bs, _, h => by
    obtain ⟨t, s1, s2, s3, s4, s5, s6⟩ := h b1 (by simp)
    obtain ⟨⟨p1, p2, p3⟩, r1, r2, r3, r4, r5, r6⟩ := hullOf_sub (c := c) (bs := b2 :: bs) (by simp) fun b hb => h b (by simp [hb])
    have l := hull_left b1 (hullOf (b2 :: bs))
    obtain ⟨l1, l2, l3, l4, l5, l6⟩ := l
    obtain ⟨t1, t2, t3⟩ := t
    exact ⟨⟨by simp only [hullOf]; linarith, by simp only [hullOf]; linarith, by simp only [hullOf]; linarith⟩,
      le_min s1 r1, max_le s2 r2, le_min s3 r3, max_le s4 r4, le_min s5 r5, max_le s6 r6⟩

open Classical in
/-- the boxes of a solid that have volume in common with a box -/
noncomputable def clip (b : BBox) (s : List BBox) : List BBox := (s.map (meet b)).filter fun c => decide (Thick c)

theorem clip_mem {b c : BBox} {s : List BBox} (h : c ∈ clip b s) : Thick c ∧ Within c b := by
  simp only [clip, List.mem_filter, List.mem_map, decide_eq_true_eq] at h
  obtain ⟨⟨a, -, rfl⟩, ht⟩ := h
  exact ⟨ht, meet_sub b a⟩

theorem clip_int {b : BBox} {s : List BBox} {q : Pt} : (∃ c ∈ clip b s, c.Int q) ↔ (b.Int q ∧ ∃ c ∈ s, c.Int q) := by
  simp only [clip, List.mem_filter, List.mem_map, decide_eq_true_eq]
  constructor
  · rintro ⟨c, ⟨⟨a, ha, rfl⟩, -⟩, h⟩
    exact ⟨(meet_int.1 h).1, a, ha, (meet_int.1 h).2⟩
  · rintro ⟨h1, a, ha, h2⟩
    exact ⟨meet b a, ⟨⟨a, ha, rfl⟩, thick_of_int (meet_int.2 ⟨h1, h2⟩)⟩, meet_int.2 ⟨h1, h2⟩⟩

open Classical in
/-- the kernel for solids of several boxes, of which those above the height 500 are not joined -/
noncomputable def uKernel : Kernel (List BBox) where
  bbox := hullOf
  far b s := decide (clip b s = [])
  full _ _ := false
  common b s := if 500 ≤ b.ymin then (clip b s).map fun c => [c] else if clip b s = [] then [] else [clip b s]

theorem uKernel_fits (q : Pt) : uKernel.Fits q (fun s => ∃ c ∈ s, c.Int q) where
  bbox s h := by
    obtain ⟨c, hc, h⟩ := h
    exact hullOf_int hc h
  far b s h k := by
    simp only [uKernel, decide_eq_true_eq] at h
    have := clip_int.2 k
    rw [h] at this
    simp at this
  full _ _ h := by cases h
  common b s := by
    rw [← clip_int]
    simp only [uKernel]
    split
    · simp
    · split
      · next h => simp [h]
      · simp
  inside b s x hx := by
    simp only [uKernel] at hx ⊢
    split at hx
    · obtain ⟨c, hc, rfl⟩ := List.mem_map.1 hx
      exact hullOf_sub (by simp) fun b' hb' => by simp only [List.mem_singleton] at hb'; subst hb'; exact clip_mem hc
    · split at hx
      · cases hx
      · next h =>
        simp only [List.mem_singleton] at hx
        subst hx
        exact hullOf_sub h fun b' hb' => clip_mem hb'

/-- a U: a base and two legs -/
def uShape : List BBox := [⟨0, 400, 0, 300, 0, 100⟩, ⟨0, 100, 300, 1000, 0, 100⟩, ⟨300, 400, 300, 1000, 0, 100⟩]

theorem uShape_box : hullOf uShape = ⟨0, 400, 0, 1000, 0, 100⟩ := by
  norm_num [uShape, hullOf, hull]

theorem uShape_upper : clip ⟨0, 400, 500, 1000, 0, 100⟩ uShape = [⟨0, 100, 500, 1000, 0, 100⟩, ⟨300, 400, 500, 1000, 0, 100⟩] := by
  norm_num [uShape, clip, meet, Thick]

theorem uShape_lower : clip ⟨0, 400, 0, 500, 0, 100⟩ uShape = [⟨0, 400, 0, 300, 0, 100⟩, ⟨0, 100, 300, 500, 0, 100⟩, ⟨300, 400, 300, 500, 0, 100⟩] := by
  norm_num [uShape, clip, meet, Thick]

theorem loop_two {β : Type} {f : β → Option (List β)} {z a b : β} (h : f z = some [a, b]) (ha : f a = none) (hb : f b = none) (n : Nat) : (voidLoop f (n + 2) [z]).1 = [a, b] := by
  simp [voidLoop, h, ha, hb]

/-- the void boxes of the U: its lower half and one of the legs -/
theorem uShape_boxes : enclosureBoxes uKernel (fun z => 600 < z.box.ymax - z.box.ymin) (fun _ _ => ()) 200 uShape () =
    [⟨⟨0, 400, 0, 500, 0, 100⟩, some [⟨0, 400, 0, 300, 0, 100⟩, ⟨0, 100, 300, 500, 0, 100⟩, ⟨300, 400, 300, 500, 0, 100⟩], ()⟩,
     ⟨⟨0, 100, 500, 1000, 0, 100⟩, some [⟨0, 100, 500, 1000, 0, 100⟩], ()⟩] := by
  set f := splitPBox uKernel (fun z : PBox (List BBox) Unit => 600 < z.box.ymax - z.box.ymin) (fun _ _ => ()) 200 with hf
  have e0 : ofSolid uKernel (fun _ : BBox => ()) uShape = ⟨⟨0, 400, 0, 1000, 0, 100⟩, some uShape, ()⟩ := by
    simp only [ofSolid, uKernel, uShape_box]
  have e1 : f ⟨⟨0, 400, 0, 1000, 0, 100⟩, some uShape, ()⟩ =
    some [⟨⟨0, 400, 0, 500, 0, 100⟩, some [⟨0, 400, 0, 300, 0, 100⟩, ⟨0, 100, 300, 500, 0, 100⟩, ⟨300, 400, 300, 500, 0, 100⟩], ()⟩,
     ⟨⟨0, 100, 500, 1000, 0, 100⟩, some [⟨0, 100, 500, 1000, 0, 100⟩], ()⟩] := by
    rw [hf, splitPBox, if_pos (by norm_num)]
    simp only [split_ex, Option.map_some, pieceSplit, uKernel, uShape_lower, uShape_upper]
    have x1 : ¬ (500 : ℝ) ≤ 0 := by norm_num
    simp [ofSolid, x1]
    norm_num [hullOf, hull]
  have e2 : f ⟨⟨0, 400, 0, 500, 0, 100⟩, some [⟨0, 400, 0, 300, 0, 100⟩, ⟨0, 100, 300, 500, 0, 100⟩, ⟨300, 400, 300, 500, 0, 100⟩], ()⟩ = none := by
    rw [hf, splitPBox, if_neg (by norm_num)]
  have e3 : f ⟨⟨0, 100, 500, 1000, 0, 100⟩, some [⟨0, 100, 500, 1000, 0, 100⟩], ()⟩ = none := by
    rw [hf, splitPBox, if_neg (by norm_num)]
  rw [enclosureBoxes, e0, getVoidBoxes]
  exact loop_two e1 e2 e3 48

/-- C124 is false of the code: the upper half of a U has two solids, and only the first of them is kept. The points of the other leg are in no void box. -/
theorem C124_boxes_violated : ¬ C124_statement := by
  intro h
  have := (h (List BBox) Unit uKernel (fun z => 600 < z.box.ymax - z.box.ymin) (fun _ _ => ()) 200 uShape () ⟨350, 700, 50⟩ _ (fun _ => 2) (uKernel_fits _)
    (by rw [show uKernel.bbox uShape = _ from uShape_box]; norm_num [BBox.Proper])
    (by rw [show uKernel.bbox uShape = _ from uShape_box]; intro c; cases c <;> norm_num [len]) (by norm_num)
    (by
      intro z hz hm b1 b2 h1 hin
      obtain ⟨-, rfl | h⟩ := reach_ex (z0 := ofSolid uKernel (fun _ : BBox => ()) uShape) (uKernel_fits ⟨350, 700, 50⟩) uShape_box (fun h => (uKernel_fits ⟨350, 700, 50⟩).bbox _ h) hz
      · rw [show (ofSolid uKernel (fun _ : BBox => ()) uShape).box = _ from uShape_box, split_ex] at h1
        simp only [Option.some.injEq, Prod.mk.injEq] at h1
        obtain ⟨rfl, rfl⟩ := h1
        right; norm_num [BBox.Int]
      · linarith)).1 ⟨⟨300, 400, 300, 1000, 0, 100⟩, by simp [uShape], by norm_num [BBox.Int]⟩
  rw [uShape_boxes] at this
  obtain ⟨l1, a, l2, e, ha, -⟩ := this
  have hm : a ∈ [(⟨⟨0, 400, 0, 500, 0, 100⟩, some [⟨0, 400, 0, 300, 0, 100⟩, ⟨0, 100, 300, 500, 0, 100⟩, ⟨300, 400, 300, 500, 0, 100⟩], ()⟩ : PBox (List BBox) Unit),
     ⟨⟨0, 100, 500, 1000, 0, 100⟩, some [⟨0, 100, 500, 1000, 0, 100⟩], ()⟩] := by rw [e]; simp
  simp only [List.mem_cons, List.not_mem_nil, or_false] at hm
  rcases hm with rfl | rfl <;> norm_num [PBox.Holds, BBox.Int] at ha

/-- Non-vacuity of `C124_void_partial`: the box of 1 x 2 x 3 as enclosure, with the cell `7 -8` in it, not split, option "no", at the middle of the box, which is outside of the cell: the
point is in exactly one void cell -/
example :
    let m : VObj := ⟨1, false, [some exBox], some exBox, .lst .or 1 [.lst .and 0 [.int 7, .int (-8)]]⟩
    let σ : Side := fun n => decide (n ≠ 3)
    ∃ c, ExactlyOne (fun d : Seq => d.sem σ = true) ((enclosureBoxes boxKernel (fun _ => False) chooseObjs 1 exBox [m]).filterMap fun _ => some c) := by
  intro m σ
  have tt : Touch exBox exBox := by norm_num [Touch, exBox]
  have eo : voidObjs exBox [m] = .ok [m] := by
    simp [voidObjs, m, tt, removeExtraComp, copyMeta, hullAll, keepLoop, hit, Seq.elemsOf, bind, Except.bind, Seq.append, appendLoop]
  obtain ⟨c, hc⟩ : ∃ c, voidCell true .no true (boxDef exBox exReg) (defsOf [m]) (freeTable false) Seq.surfaces 60 = .ok (some c) := by
    simp only [m, defsOf, List.map_cons, List.map_nil, exBox_def]
    exact ⟨_, by rfl⟩
  have eb : enclosureBoxes boxKernel (fun _ => False) chooseObjs 1 exBox [m] = [⟨exBox, some exBox, [m]⟩] := by
    have : ofSolid boxKernel (fun b => chooseObjs [m] b) exBox = ⟨exBox, some exBox, [m]⟩ := by
      simp [ofSolid, boxKernel, chooseObjs, eo, Except.toOption]
    rw [enclosureBoxes, this]
    simp [getVoidBoxes, voidLoop, splitPBox]
  have hq : SidesAt exBox exReg ⟨1 / 2, 1, 3 / 2⟩ σ := by
    intro p hp
    have x2 : ((-1 : ℝ) = 1) = False := by norm_num
    simp only [boundPlanes, List.mem_cons, List.not_mem_nil, or_false] at hp
    rcases hp with rfl | rfl | rfl | rfl | rfl | rfl <;> norm_num [exReg, Pl.val, Vec.dot, Vec.sub, Vec.neg, exBox, σ, x2]
  have hdef : (boxDef exBox exReg).sem σ = true := by rw [exBox_def]; simp [Seq.sem, Seq.semAll, lit, σ]
  refine ⟨c, (C124_void_partial boxKernel (fun _ => False) 1 exBox [m] (fun s => s.Int ⟨1 / 2, 1, 3 / 2⟩) (fun _ => 2) ?_ ?_ (by norm_num) .no exReg (fun _ => boxDef exBox exReg)
    (fun _ => freeTable false) Seq.surfaces 60 (fun _ => some c) _ rfl ?_ ?_ (by simp) ?_ ⟨1 / 2, 1, 3 / 2⟩ σ (boxKernel_fits _) (by simp) (by simp) ?_ (by simp) ?_).1 ⟨?_, ?_⟩⟩
  · norm_num [boxKernel, exBox, BBox.Proper]
  · intro c; cases c <;> norm_num [boxKernel, exBox, len]
  · rw [eb]; simp
  · rw [eb, exBox_def]
    simp only [List.mem_singleton, forall_eq]
    intro s _
    refine ⟨by simp [Seq.WF, Seq.WFL], fun _ => false, by simp, by simp [Seq.sem, Seq.semAll, lit]⟩
  · rw [eb]
    simp only [List.mem_singleton, forall_eq, PBox.definition, Option.isSome_some]
    exact hc
  · rw [eb]
    simp only [List.mem_singleton, forall_eq]
    refine ⟨by simp, fun s hs => ?_⟩
    cases hs
    refine ⟨fun _ => by norm_num [BBox.Int, exBox], fun _ => hdef⟩
  · simp only [List.mem_singleton, forall_eq]
    refine ⟨⟨[(some exBox, .lst .and 0 [.int 7, .int (-8)])], ⟨rfl, ⟨1, rfl⟩, ?_, ?_⟩⟩, ?_, ?_⟩
    · simp
    · simp [Seq.sem, Seq.semAll, lit, σ]
    · simp [m, Seq.WF, Seq.WFL]
    · intro _; exact ⟨exBox, rfl, by norm_num [BBox.Mem, exBox]⟩
  · norm_num [BBox.Int, exBox]
  · simp [m, Seq.sem, Seq.semAny, Seq.semAll, lit, σ]

end Geouned.Void
