import Verif.Nest.Lemmas
import Verif.BB.Props
/-!
# Property C121: the bounding box of a nested definition of planes

`boundBox g e d` is the box computed for the definition `d`, enlarged by the part `e` of its lengths on every side (the program calls it with `e = 0.2` and `e = 10`). `BoxSays` is the
specification of an oriented box of C77, `Fit` and `Shaped` are in `Nest/Spec.lean`. Lengths in mm.
-/
namespace Geouned.Nest
open Geouned Geouned.Rev.Solid Geouned.BB

variable {F : Type} [Field F] [LinearOrder F] [IsStrictOrderedRing F]

/-- C121: for every definition of planes that has the form of a definition, at any depth, the computation ends with an oriented box, without exception. -/
theorem C121_returns (g : Ctx F) (e : F) (d : Seq) (h : Shaped d) : ∃ m, boundBox g e d = .ok m := by
  obtain ⟨m, hm⟩ := build_shaped (g := g) d h
  unfold boundBox
  rw [hm]
  dsimp only
  cases m.box <;> exact ⟨_, rfl⟩

/-- what is demanded of the computation: for the definitions that satisfy `plain` an oriented box is returned, and what it says about the region of the definition, within the external
box, is true -/
def Right (F : Type) [Field F] [LinearOrder F] [IsStrictOrderedRing F] (plain : Ctx F → Seq → Prop) : Prop :=
  ∀ (g : Ctx F) (e : F) (d : Seq), 1 / 5 ≤ e → plain g d → ∃ m, boundBox g e d = .ok m ∧ BoxSays Box.Mem g.out (Region g.planes d) m

/-- **C121**, proved part: definitions of any depth whose parts of level 0 are those of C78, in which no intersection is a sliver, and whose region and its complement are not slivers. -/
theorem C121_nested_partial : Right F fun g d => Fit g d ∧ (NoSliver fun x => g.out.Mem x ∧ Region g.planes d x) ∧ (NoSliver fun x => g.out.Mem x ∧ ¬ Region g.planes d x) := by
  rintro g e d he ⟨hf, hw, hc⟩
  obtain ⟨⟨b, o⟩, hm, hs⟩ := build_fit d hf
  unfold boundBox
  rw [hm]
  have he0 : 0 < e := lt_of_lt_of_le (by norm_num) he
  cases b with
  | none => cases o <;> exact ⟨_, rfl, hs⟩
  | some b =>
    refine ⟨⟨some (enlarge b e), o⟩, by simp only [he0, if_true], ?_⟩
    cases o with
    | fwd =>
      rcases hw with hw | hw
      · exact fun x hx hr => absurd ⟨hx, hr⟩ (hw x)
      · exact fun x hx hr => near_enlarge hw (fun x hx => hs x hx.1 hx.2) he x ⟨hx, hr⟩
    | rev =>
      rcases hc with hw | hw
      · exact fun x hx hr => absurd ⟨hx, hr⟩ (hw x)
      · exact fun x hx hr => near_enlarge hw (fun x hx => hs x hx.1 hx.2) he x ⟨hx, hr⟩

/-- C121: a definition that has an integer beside sequences cannot be walked through. -/
theorem C121_mixed (g : Ctx F) (e : F) (op : Op) (l n : Int) (es : List Seq) (h : l ≠ 0) : boundBox g e (.lst op l (.int n :: es)) = .error .attributeError := by
  simp [boundBox, build, buildL, h]

/-! ### examples: the hypotheses are met -/

/-- the surface numbers of a sequence of level 0 -/
def surfs : Seq → List Nat
  | .lst _ _ es => es.filterMap fun | .int n => some n.natAbs | _ => none
  | _ => []

def ctx (pl : Nat → Plane ℚ) : Ctx ℚ := ⟨pl, surfs, 1, bigBox, bigBox⟩

/-- a cube cut by an edge -/
def cutCube : Seq := .lst .and 1 [.lst .and 0 ([1, -2, 3, -4, 5, -6].map .int), .lst .or 0 ([-2, -4].map .int)]

/-- the outside of a cube, or a cube cut by an edge -/
def sample : Seq := .lst .or 2 [cutCube, .lst .or 0 ([-1, 2, -3, 4, -5, 6].map .int)]

theorem cube_fits : Fits ((ctx cubePl).comp (.lst .and 0 ([1, -2, 3, -4, 5, -6].map .int))) :=
  .inside _ cube_fine cube_in cube_wide ⟨⟨-1000, -1000, -1000⟩, by simp [ctx, Ctx.comp, bigBox, Box.Corner], 1, by simp, by decide +kernel, by decide⟩

theorem edge_fits : Fits ((ctx cubePl).comp (.lst .or 0 ([-2, -4].map .int))) := by
  refine .union [-2, -4] ⟨rfl, by intro k; simp [ctx, Ctx.comp, surfs, eq_comm], by decide, by simp [ctx, Ctx.comp, surfs, cubePl, dot], by simp [ctx, Ctx.comp]; norm_num,
    by simp [ctx, Ctx.comp, bigBox, Box.Solid]⟩ ?_ ⟨⟨1000, 1000, 1000⟩, by simp [ctx, Ctx.comp, bigBox, Box.Corner], ?_⟩
    ⟨⟨-1000, -1000, -1000⟩, by simp [ctx, Ctx.comp, bigBox, Box.Corner], -2, by simp, by
      simp [ctx, Ctx.comp, cubePl, Plane.ev, dot, sub]; norm_num⟩
  · have : ∀ x : Pt ℚ, x.x ≤ 10 → OneOf cubePl [-2, -4] x := by
      intro x hx
      refine ⟨-2, by simp, by simp, ?_⟩
      intro _
      simp [cubePl, Plane.ev, dot, sub, hx]
    refine ⟨⟨⟨-10, 0, 0⟩, ⟨0, 0, 0⟩, ?_, ?_, ?_⟩, ⟨⟨0, 0, 0⟩, ⟨0, 10, 0⟩, ?_, ?_, ?_⟩, ⟨0, 0, 0⟩, ⟨0, 0, 10⟩, ?_, ?_, ?_⟩ <;>
      first | (refine ⟨this _ ?_, ?_⟩ <;> norm_num [ctx, Ctx.comp, bigBox, Box.Mem]) | norm_num
  · simp [ClearlyNot, ctx, Ctx.comp, cubePl, Plane.ev, dot, sub]; norm_num

theorem outer_fits : Fits ((ctx cubePl).comp (.lst .or 0 ([-1, 2, -3, 4, -5, 6].map .int))) := by
  refine .outside _ cubeOut_fine cube_in cube_wide ?_
  intro k hk
  obtain ⟨h1 | h1, _⟩ := hk
  · refine ⟨-1, by simp, by simp, ?_⟩
    intro _
    simp [ctx, Ctx.comp, cubePl, Plane.ev, dot, sub, h1, bigBox]; norm_num
  · refine ⟨2, by simp, ?_, by simp⟩
    intro _
    simp [ctx, Ctx.comp, cubePl, Plane.ev, dot, sub, h1, bigBox]; norm_num

theorem wide_of {R : Pt ℚ → Prop} (h : ∀ x ∈ ([⟨-5, 0, 0⟩, ⟨5, 0, 0⟩, ⟨0, -5, 0⟩, ⟨0, 5, 0⟩, ⟨0, 0, -5⟩, ⟨0, 0, 5⟩] : List (Pt ℚ)), R x) : Wide R :=
  ⟨⟨_, _, h ⟨-5, 0, 0⟩ (by simp), h ⟨5, 0, 0⟩ (by simp), by norm_num⟩, ⟨_, _, h ⟨0, -5, 0⟩ (by simp), h ⟨0, 5, 0⟩ (by simp), by norm_num⟩,
    _, _, h ⟨0, 0, -5⟩ (by simp), h ⟨0, 0, 5⟩ (by simp), by norm_num⟩

theorem cutCube_wide : Wide fun x => (ctx cubePl).out.Mem x ∧ Region (ctx cubePl).planes cutCube x := by
  apply wide_of
  intro x hx
  unfold Region
  revert x
  decide +kernel

theorem cutCube_fit : Fit (ctx cubePl) cutCube := by
  unfold cutCube Fit FitL FitL FitL Fit
  exact ⟨by simp, ⟨by rw [if_pos rfl]; exact cube_fits, by rw [if_pos rfl]; exact edge_fits, trivial⟩, fun _ => .inr cutCube_wide⟩

/-- a definition of depth 2 and its parts meet the hypotheses of `C121_nested_partial` -/
example : Fit (ctx cubePl) sample ∧ (NoSliver fun x => (ctx cubePl).out.Mem x ∧ Region (ctx cubePl).planes sample x) := by
  refine ⟨?_, .inr ?_⟩
  · unfold sample Fit FitL FitL FitL
    exact ⟨by simp, ⟨cutCube_fit, by unfold Fit; rw [if_pos rfl]; exact outer_fits, trivial⟩, nofun⟩
  · apply wide_of
    intro x hx
    unfold Region
    revert x
    decide +kernel

/-- a cube that is cut has a box, which holds it -/
example : ∃ m, boundBox (ctx cubePl) (1 / 5) cutCube = .ok m ∧ BoxSays Box.Mem bigBox (Region cubePl cutCube) m := by
  refine C121_nested_partial (ctx cubePl) (1 / 5) cutCube le_rfl ⟨cutCube_fit, .inr cutCube_wide, .inr ?_⟩
  refine ⟨⟨⟨20, 20, 20⟩, ⟨40, 40, 40⟩, ?_, ?_, by norm_num⟩, ⟨⟨20, 20, 20⟩, ⟨40, 40, 40⟩, ?_, ?_, by norm_num⟩, ⟨20, 20, 20⟩, ⟨40, 40, 40⟩, ?_, ?_, by norm_num⟩ <;>
    (unfold Region; decide +kernel)

/-! ### definitions whose box is wrong -/

/-- the planes 1–6 of the foil of C78, and 11–16 of a cube -/
def twoPl (n : Nat) : Plane ℚ := if n ≤ 6 then foilPl n else cubePl (n - 10)

/-- a cube, or a foil that sticks out of it -/
def flag : Seq := .lst .or 1 [.lst .and 0 ([1, -2, 3, -4, 5, -6].map .int), .lst .and 0 ([11, -12, 13, -14, 15, -16].map .int)]

/-- compare results -/
def sameBox' (r : Except Err (MBox (Box ℚ))) (b : Option (Box ℚ)) (o : Ori) : Bool :=
  match r with
  | .error _ => false
  | .ok m => decide (m.box = b) && decide (m.ori = o)

theorem of_sameBox' {r : Except Err (MBox (Box ℚ))} {b : Option (Box ℚ)} {o : Ori} (h : sameBox' r b o = true) : r = .ok ⟨b, o⟩ := by
  unfold sameBox' at h
  split at h
  · cases h
  · rename_i m
    simp only [Bool.and_eq_true, decide_eq_true_iff] at h
    obtain ⟨h1, h2⟩ := h
    rw [← h1, ← h2]

/-- C121 is violated: a cell that is a cube with a foil of 0.05 mm sticking out gets a box around the cube only. -/
theorem C121_foil_violated : ¬ Right ℚ fun g d => Shaped d ∧ ∀ k ∈ [1, 2, 3, 4, 5, 6, 11, 12, 13, 14, 15, 16], dot (g.planes k).nrm (g.planes k).nrm = 1 := by
  intro h
  obtain ⟨m, hm, hs⟩ := h (ctx twoPl) (1 / 5) flag le_rfl ⟨by simp [flag, Shaped, ShapedL], by decide +kernel⟩
  have : boundBox (ctx twoPl) (1 / 5) flag = .ok ⟨some ⟨-14, 14, -14, 14, -14, 14⟩, .fwd⟩ := of_sameBox' (by decide +kernel)
  rw [this] at hm
  cases hm
  have := hs ⟨40, 40, 1 / 40⟩ (by decide +kernel) (by unfold Region; decide +kernel)
  exact absurd this (by decide +kernel)

end Geouned.Nest
