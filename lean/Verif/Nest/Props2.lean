import Verif.Nest.Props
import Verif.Nest.Lemmas2
/-!
# Property C121, with curved surfaces: from the surfaces of a cell to its bounding box

`planesOf` makes the planes and the definition of planes of a cell (C114, C115), `boundBox` the box of this definition.
-/
namespace Geouned.Nest
open Geouned Geouned.Rev.Solid Geouned.BB Geouned.Geom Geouned.Shape Geouned.Poly

/-- C121: for every cell (any nesting, any surfaces with planes) and every orientation the definition of planes can be walked through: the computation of the box ends without exception. -/
theorem C121_cell_returns {P : Type} (order : List Int → List Int) (horder : ∀ l n, n ∈ order l ↔ n ∈ l) (surfaces : Nat → Option (Poly.Surf P)) (d : Seq) (hd : Cell surfaces d)
    (o : Orient) : ∃ planes r, planesOf order surfaces o d = .ok (planes, r) ∧
      ∀ {F : Type} [Field F] [LinearOrder F] [IsStrictOrderedRing F] (g : Ctx F) (e : F), ∃ m, boundBox g e r = .ok m := by
  obtain ⟨planes, r, h, -⟩ := C114_planes order horder surfaces d hd o
  exact ⟨planes, r, h, fun g e => C121_returns g e r (planesOf_shaped h)⟩

/-- a point, and a plane, with real coordinates -/
def ptOf (q : Vec) : Pt ℝ := ⟨q.x, q.y, q.z⟩

/-- the planes of a cell by number (for a number without plane: a plane without positive side) -/
def planeFn (planes : Nat → Option Pl) (n : Nat) : Plane ℝ :=
  match planes n with
  | some p => ⟨ptOf p.pos, ptOf p.nrm⟩
  | none => ⟨⟨0, 0, 0⟩, ⟨0, 0, 0⟩⟩

theorem region_inPlanes (planes : Nat → Option Pl) (r : Seq) (q : Vec) : BB.Region (planeFn planes) r (ptOf q) ↔ InPlanes planes r q := by
  unfold BB.Region InPlanes
  have : (fun k => decide (0 < (planeFn planes k).ev (ptOf q))) = fun n => @decide (∃ p, planes n = some p ∧ p.On q) (Classical.propDecidable _) := by
    funext n
    rw [decide_eq_decide]
    unfold planeFn
    cases h : planes n with
    | none => simp [Plane.ev, dot]
    | some p =>
      simp only [Option.some.injEq, exists_eq_left']
      unfold Pl.On
      simp [Plane.ev, dot, BB.sub, ptOf, Vec.dot, Vec.sub]
  rw [this]
  exact Iff.of_eq (by congr 2; funext n; congr)

/-- **C121**, proved part: cells with curved surfaces. If the definition of planes of orientation `Forward` fits and its box is `Forward`, the box holds the cell (its part in the external
box); if the definition of orientation `Reversed` fits and its box is `Reversed`, the box holds the complement of the cell. -/
theorem C121_cell_partial (order : List Int → List Int) (horder : ∀ l n, n ∈ order l ↔ n ∈ l) (surfaces : Nat → Option RSurf.Surf) (d : Seq) (h : Shape.Fine surfaces d)
    (e : ℝ) (he : 1 / 5 ≤ e) :
    (∃ planes r, planesOf order (fun n => (surfaces n).map withPlanes) .forward d = .ok (planes, r) ∧
      ∀ g : Ctx ℝ, g.planes = planeFn planes → Fit g r → (NoSliver fun x => g.out.Mem x ∧ BB.Region g.planes r x) → (NoSliver fun x => g.out.Mem x ∧ ¬ BB.Region g.planes r x) →
        ∃ m, boundBox g e r = .ok m ∧ (m.ori = .fwd → ∀ q, OffSurfaces surfaces q → InCell surfaces d q → g.out.Mem (ptOf q) → ∃ b, m.box = some b ∧ b.Mem (ptOf q))) ∧
    ∃ planes r, planesOf order (fun n => (surfaces n).map withPlanes) .reversed d = .ok (planes, r) ∧
      ∀ g : Ctx ℝ, g.planes = planeFn planes → Fit g r → (NoSliver fun x => g.out.Mem x ∧ BB.Region g.planes r x) → (NoSliver fun x => g.out.Mem x ∧ ¬ BB.Region g.planes r x) →
        ∃ m, boundBox g e r = .ok m ∧ (m.ori = .rev → ∀ q, OffSurfaces surfaces q → ¬ InCell surfaces d q → g.out.Mem (ptOf q) → ∃ b, m.box = some b ∧ b.Mem (ptOf q)) := by
  obtain ⟨⟨p1, r1, e1, h1⟩, p2, r2, e2, h2⟩ := C115_cell_partial order horder surfaces d h
  refine ⟨⟨p1, r1, e1, fun g hg hf hw hc => ?_⟩, p2, r2, e2, fun g hg hf hw hc => ?_⟩
  · obtain ⟨⟨b, o⟩, hm, hs⟩ := C121_nested_partial g e r1 he ⟨hf, hw, hc⟩
    refine ⟨_, hm, ?_⟩
    rintro rfl q hq hin hout
    have hr := (region_inPlanes p1 r1 q).2 (h1 q hq hin)
    rw [← hg] at hr
    cases b with
    | none => exact absurd hr (hs _ hout)
    | some b => exact ⟨b, rfl, hs _ hout hr⟩
  · obtain ⟨⟨b, o⟩, hm, hs⟩ := C121_nested_partial g e r2 he ⟨hf, hw, hc⟩
    refine ⟨_, hm, ?_⟩
    rintro rfl q hq hin hout
    have hr : ¬ BB.Region g.planes r2 (ptOf q) := fun k => hin (h2 q hq ((region_inPlanes p2 r2 q).1 (hg ▸ k)))
    cases b with
    | none => exact absurd (hs _ hout) hr
    | some b => exact ⟨b, rfl, hs _ hout hr⟩

/-! ### an example: a ball of radius 10 mm -/

def ballSurf : Nat → Option RSurf.Surf := fun n => if n = 1 then some (.sphere ⟨0, 0, 0⟩ 10) else none

def ball : Seq := .lst .and 0 [.int (-1)]

theorem ball_fine : Shape.Fine ballSurf ball := by
  refine ⟨by simp [ball, Seq.NoBool, Seq.NoBoolL], ⟨_, _, _, rfl⟩, fun n hn => ?_, fun n s hs => ?_, fun n s hs h1 h2 => ?_⟩
  · simp [ball, Has, HasL] at hn
    subst hn
    exact ⟨by decide, rfl⟩
  · unfold ballSurf at hs
    split at hs <;> cases hs
    refine ⟨?_, rfl, ?_, ?_⟩ <;> norm_num [Proper, UnitNormal, PlainTorus]
  · simp [ball, Has, HasL] at h1

/-- the planes around a curved surface 1 with six planes -/
def sixFn {P : Type} (a b c d e f : P) (n : Nat) : Option P :=
  if n = 2 then some a else if n = 3 then some b else if n = 4 then some c else if n = 5 then some d else if n = 6 then some e else if n = 7 then some f else none

theorem six_planesOf {P : Type} (a b c d e f : P) (surfaces : Nat → Option (Poly.Surf P)) (conv : Option Bool → Poly.Group P) (h1 : surfaces 1 = some (.curved conv))
    (hc : conv (some false) = .flat [a, b, c, d, e, f]) :
    ∃ planes, planesOf (fun l => l) surfaces .forward ball = .ok (planes, .lst .and 0 ([2, 3, 4, 5, 6, 7].map .int)) ∧ planes = sixFn a b c d e f := by
  have hq : quadricToPlane (fun l => l) surfaces .forward ball = .ok ⟨8, (number (.flat [a, b, c, d, e, f]) (2, fun _ => none)).2.2, [(1, .flat [2, 3, 4, 5, 6, 7])]⟩ := by
    have h1' : surfaces (-1 : Int).natAbs = some (.curved conv) := h1
    have hc' : conv (posOf .forward (-1)) = .flat [a, b, c, d, e, f] := hc
    show quadLoop surfaces .forward [-1] ⟨2, fun _ => none, []⟩ = _
    unfold quadLoop
    rw [h1']
    dsimp only
    rw [hc']
    rfl
  refine ⟨(number (.flat [a, b, c, d, e, f]) (2, fun _ => none)).2.2, ?_, ?_⟩
  · unfold planesOf
    rw [hq]
    rfl
  · funext n
    simp only [number, alloc, sixFn]
    split_ifs <;> first | rfl | (exfalso; omega)

/-- the universe and the external box, of 2 m -/
def bigR : Box ℝ := ⟨-1000, 1000, -1000, 1000, -1000, 1000⟩

/-- the planes around the ball -/
noncomputable def ballPl : Nat → Option Pl :=
  sixFn (unitPl (⟨10, 0, 0⟩, ⟨-1, 0, 0⟩)) (unitPl (⟨-10, 0, 0⟩, ⟨1, 0, 0⟩)) (unitPl (⟨0, 10, 0⟩, ⟨0, -1, 0⟩)) (unitPl (⟨0, -10, 0⟩, ⟨0, 1, 0⟩))
    (unitPl (⟨0, 0, 10⟩, ⟨0, 0, -1⟩)) (unitPl (⟨0, 0, -10⟩, ⟨0, 0, 1⟩))

noncomputable def ballCtx : Ctx ℝ := ⟨planeFn ballPl, surfs, 1, bigR, bigR⟩

theorem ball_planesOf : planesOf (fun l => l) (fun n => (ballSurf n).map withPlanes) .forward ball = .ok (ballPl, .lst .and 0 ([2, 3, 4, 5, 6, 7].map .int)) := by
  obtain ⟨pl, h1, h2⟩ := six_planesOf (unitPl (⟨10, 0, 0⟩, ⟨-1, 0, 0⟩)) (unitPl (⟨-10, 0, 0⟩, ⟨1, 0, 0⟩)) (unitPl (⟨0, 10, 0⟩, ⟨0, -1, 0⟩)) (unitPl (⟨0, -10, 0⟩, ⟨0, 1, 0⟩))
    (unitPl (⟨0, 0, 10⟩, ⟨0, 0, -1⟩)) (unitPl (⟨0, 0, -10⟩, ⟨0, 0, 1⟩)) (fun n => (ballSurf n).map withPlanes) _ rfl (by
      simp only [convertToPlanes, sphere_eq]
      simp [sixPlanes, factor, Vec.add, Vec.sub, Vec.smul, vX, vY, vZ, opp])
  rw [h1, h2]
  rfl

theorem ballPl_ev (x : Pt ℝ) : (ballCtx.planes 2).ev x = 10 - x.x ∧ (ballCtx.planes 3).ev x = x.x + 10 ∧ (ballCtx.planes 4).ev x = 10 - x.y ∧ (ballCtx.planes 5).ev x = x.y + 10 ∧
    (ballCtx.planes 6).ev x = 10 - x.z ∧ (ballCtx.planes 7).ev x = x.z + 10 := by
  simp [ballCtx, planeFn, ballPl, sixFn, Plane.ev, dot, BB.sub, unitPl, ptOf, Vec.smul, Vec.len, Vec.sq, Vec.dot]

theorem ball_allOf (x : Pt ℝ) : AllOf ballCtx.planes [2, 3, 4, 5, 6, 7] x ↔ (-10 ≤ x.x ∧ x.x ≤ 10) ∧ (-10 ≤ x.y ∧ x.y ≤ 10) ∧ (-10 ≤ x.z ∧ x.z ≤ 10) := by
  obtain ⟨h2, h3, h4, h5, h6, h7⟩ := ballPl_ev x
  simp [AllOf, h2, h3, h4, h5, h6, h7]
  constructor
  · rintro ⟨a, b, c, d, e, f⟩
    refine ⟨⟨?_, ?_⟩, ⟨?_, ?_⟩, ?_, ?_⟩ <;> linarith
  · rintro ⟨⟨a, b⟩, ⟨c, d⟩, e, f⟩
    refine ⟨?_, ?_, ?_, ?_, ?_, ?_⟩ <;> linarith

theorem ball_region (x : Pt ℝ) : BB.Region ballCtx.planes (.lst .and 0 ([2, 3, 4, 5, 6, 7].map .int)) x ↔ (-10 < x.x ∧ x.x < 10) ∧ (-10 < x.y ∧ x.y < 10) ∧ (-10 < x.z ∧ x.z < 10) := by
  obtain ⟨h2, h3, h4, h5, h6, h7⟩ := ballPl_ev x
  simp [BB.Region, Seq.sem, Seq.semAll, lit, h2, h3, h4, h5, h6, h7]
  constructor
  · rintro ⟨a, b, c, d, e, f⟩
    refine ⟨⟨?_, ?_⟩, ⟨?_, ?_⟩, ?_, ?_⟩ <;> linarith
  · rintro ⟨⟨a, b⟩, ⟨c, d⟩, e, f⟩
    refine ⟨?_, ?_, ?_, ?_, ?_, ?_⟩ <;> linarith

theorem ball_fits : Fits (ballCtx.comp (.lst .and 0 ([2, 3, 4, 5, 6, 7].map .int))) := by
  refine .inside [2, 3, 4, 5, 6, 7] ⟨rfl, ?_, by decide, ?_, by simp [ballCtx, Ctx.comp]; norm_num, by simp [ballCtx, Ctx.comp, bigR, Box.Solid]⟩ (fun x hx => ?_) ?_
    ⟨⟨1000, 1000, 1000⟩, by simp [ballCtx, Ctx.comp, bigR, Box.Corner], 2, by simp, fun _ => ?_, by simp⟩
  · intro k; simp [ballCtx, Ctx.comp, surfs, eq_comm]
  · simp [ballCtx, Ctx.comp, surfs, planeFn, ballPl, sixFn, dot, unitPl, ptOf, Vec.smul, Vec.len, Vec.sq, Vec.dot]
  · obtain ⟨⟨a, b⟩, ⟨c, d⟩, e, f⟩ := (ball_allOf x).1 hx
    refine ⟨⟨?_, ?_⟩, ⟨?_, ?_⟩, ?_, ?_⟩ <;> simp only [ballCtx, Ctx.comp, bigR] <;> linarith
  · refine ⟨⟨⟨-10, 0, 0⟩, ⟨10, 0, 0⟩, (ball_allOf _).2 ?_, (ball_allOf _).2 ?_, ?_⟩, ⟨⟨0, -10, 0⟩, ⟨0, 10, 0⟩, (ball_allOf _).2 ?_, (ball_allOf _).2 ?_, ?_⟩, ⟨0, 0, -10⟩, ⟨0, 0, 10⟩,
      (ball_allOf _).2 ?_, (ball_allOf _).2 ?_, ?_⟩ <;> norm_num
  · show (ballCtx.planes 2).ev _ ≤ -1
    rw [(ballPl_ev _).1]; norm_num

/-- the hypotheses of `C121_cell_partial` hold for the ball -/
example : Shape.Fine ballSurf ball ∧ planesOf (fun l => l) (fun n => (ballSurf n).map withPlanes) .forward ball = .ok (ballPl, .lst .and 0 ([2, 3, 4, 5, 6, 7].map .int)) ∧
    ballCtx.planes = planeFn ballPl ∧ Fit ballCtx (.lst .and 0 ([2, 3, 4, 5, 6, 7].map .int)) ∧
    (NoSliver fun x => ballCtx.out.Mem x ∧ BB.Region ballCtx.planes (.lst .and 0 ([2, 3, 4, 5, 6, 7].map .int)) x) ∧
    (NoSliver fun x => ballCtx.out.Mem x ∧ ¬ BB.Region ballCtx.planes (.lst .and 0 ([2, 3, 4, 5, 6, 7].map .int)) x) := by
  refine ⟨ball_fine, ball_planesOf, rfl, by unfold Fit; rw [if_pos rfl]; exact ball_fits, .inr ?_, .inr ?_⟩
  · refine ⟨⟨⟨-5, 0, 0⟩, ⟨5, 0, 0⟩, ⟨?_, (ball_region _).2 ?_⟩, ⟨?_, (ball_region _).2 ?_⟩, ?_⟩, ⟨⟨0, -5, 0⟩, ⟨0, 5, 0⟩, ⟨?_, (ball_region _).2 ?_⟩, ⟨?_, (ball_region _).2 ?_⟩, ?_⟩,
      ⟨0, 0, -5⟩, ⟨0, 0, 5⟩, ⟨?_, (ball_region _).2 ?_⟩, ⟨?_, (ball_region _).2 ?_⟩, ?_⟩ <;> norm_num [ballCtx, bigR, Box.Mem]
  · refine ⟨⟨⟨20, 20, 20⟩, ⟨40, 40, 40⟩, ⟨?_, mt (ball_region _).1 ?_⟩, ⟨?_, mt (ball_region _).1 ?_⟩, ?_⟩, ⟨⟨20, 20, 20⟩, ⟨40, 40, 40⟩, ⟨?_, mt (ball_region _).1 ?_⟩, ⟨?_, mt (ball_region _).1 ?_⟩, ?_⟩,
      ⟨20, 20, 20⟩, ⟨40, 40, 40⟩, ⟨?_, mt (ball_region _).1 ?_⟩, ⟨?_, mt (ball_region _).1 ?_⟩, ?_⟩ <;> norm_num [ballCtx, bigR, Box.Mem]

end Geouned.Nest
