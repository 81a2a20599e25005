import Verif.RSurf.CardLemmas2
namespace Geouned.RSurf
open Geouned.Geom

/-- a motion of space: distances are kept -/
def Rigid (m : Tr) : Prop := ∀ p q, distSq (m.mul p) (m.mul q) = distSq p q

theorem rot_sub (m : Tr) (u v : Vec) : m.rot (u.sub v) = (m.rot u).sub (m.rot v) := by
  ext <;> simp only [Tr.rot, Mat.mulVec, Vec.sub] <;> ring
theorem rot_add (m : Tr) (u v : Vec) : m.rot (u.add v) = (m.rot u).add (m.rot v) := by
  ext <;> simp only [Tr.rot, Mat.mulVec, Vec.add] <;> ring
theorem rot_smul (m : Tr) (k : ℝ) (u : Vec) : m.rot (Vec.smul k u) = Vec.smul k (m.rot u) := by
  ext <;> simp only [Tr.rot, Mat.mulVec, Vec.smul] <;> ring
theorem mul_sub' (m : Tr) (u v : Vec) : (m.mul u).sub (m.mul v) = m.rot (u.sub v) := by
  ext <;> simp only [Tr.mul, Tr.rot, Mat.mulVec, Vec.sub, Vec.add] <;> ring
theorem mul_add' (m : Tr) (u v : Vec) : m.mul (u.add v) = (m.mul u).add (m.rot v) := by
  ext <;> simp only [Tr.mul, Tr.rot, Mat.mulVec, Vec.add] <;> ring

theorem rigid_sq {m : Tr} (h : Rigid m) (u : Vec) : (m.rot u).sq = u.sq := by
  have := h u ⟨0, 0, 0⟩
  unfold distSq at this
  rw [mul_sub'] at this
  have e : u.sub ⟨0, 0, 0⟩ = u := by ext <;> simp [Vec.sub]
  rw [e] at this
  exact this

theorem rigid_dot {m : Tr} (h : Rigid m) (u v : Vec) : (m.rot u).dot (m.rot v) = u.dot v := by
  have h1 := rigid_sq h (u.add v)
  have h2 := rigid_sq h u
  have h3 := rigid_sq h v
  rw [rot_add] at h1
  have e : ∀ a b : Vec, (a.add b).sq = a.sq + 2 * a.dot b + b.sq := fun a b => by simp only [Vec.sq, Vec.dot, Vec.add]; ring
  rw [e, e] at h1
  linarith

theorem rigid_len {m : Tr} (h : Rigid m) (u : Vec) : (m.rot u).len = u.len := by simp only [Vec.len, rigid_sq h]

theorem rigid_cross_len {m : Tr} (h : Rigid m) (u v : Vec) : ((m.rot u).cross (m.rot v)).len = (u.cross v).len := by
  simp only [Vec.len, cross_sq, rigid_sq h, rigid_dot h]

theorem rigid_normalize {m : Tr} (h : Rigid m) (u : Vec) : (m.rot u).normalize = u.normalize.map m.rot := by
  simp only [Vec.normalize, rigid_len h]
  split
  · rfl
  · simp [rot_smul]

theorem rigid_btw {m : Tr} (h : Rigid m) (p P v : Vec) : btwPPlanes (m.mul p) (m.mul P) (m.rot v) = btwPPlanes p P v := by
  rw [btw_eq, btw_eq, mul_sub', rigid_dot h, rigid_sq h]

/-- the surfaces that are moved rightly -/
def Moves : Surf → Prop
  | .plane n _ => n.sq = 1
  | .box .. => False
  | .hyp .. => False
  | .ell .. => False
  | .bad => False
  | _ => True

theorem plane_moves {m : Tr} (h : Rigid m) {n : Vec} {d : ℝ} (hn : n.sq = 1) :
    ∃ d', transform m (.plane n d) = some (.plane (m.rot n) d') ∧ ∀ p, (m.mul p).dot (m.rot n) - d' = p.dot n - d := by
  have h1 : (m.rot n).sq = 1 := by rw [rigid_sq h, hn]
  refine ⟨(m.mul (Vec.smul d n)).dot (m.rot n), ?_, fun p => ?_⟩
  · simp only [transform, normalize_unit h1, Option.bind_eq_bind, Option.bind_some]
  · have e : (m.mul p).dot (m.rot n) - (m.mul (Vec.smul d n)).dot (m.rot n) = ((m.mul p).sub (m.mul (Vec.smul d n))).dot (m.rot n) := by
      simp only [Vec.dot, Vec.sub]; ring
    rw [e, mul_sub', rigid_dot h]
    simp only [Vec.dot, Vec.sub, Vec.smul, Vec.sq] at *
    linear_combination -d * hn

theorem transform_inout {m : Tr} (h : Rigid m) {s : Surf} (hs : Moves s) :
    ∃ s', transform m s = some s' ∧ Moves s' ∧ ∀ p, inout (m.mul p) s' = inout p s := by
  cases s with
  | plane n d =>
    obtain ⟨d', h1, h2⟩ := plane_moves h (d := d) hs
    exact ⟨_, h1, by show (m.rot n).sq = 1; rw [rigid_sq h]; exact hs, fun p => by simp only [inout, h2]⟩
  | sphere P R => exact ⟨_, rfl, trivial, fun p => by simp only [inout, mul_sub', rigid_len h]⟩
  | cyl P v R => exact ⟨_, rfl, trivial, fun p => by simp only [inout, mul_sub', rigid_cross_len h]⟩
  | can P v R => exact ⟨_, rfl, trivial, fun p => by simp only [inout, mul_sub', rigid_cross_len h, rigid_len h, rigid_btw h]⟩
  | cone P v t dbl =>
    refine ⟨_, rfl, trivial, fun p => ?_⟩
    simp only [inout, mul_sub', rigid_normalize h, Option.bind_eq_bind]
    cases (p.sub P).normalize with
    | none => rfl
    | some X => simp only [Option.map_some, Option.bind_some, rigid_dot h]
  | tcone P v R1 R2 =>
    refine ⟨_, rfl, trivial, fun p => ?_⟩
    simp only [inout, Option.bind_eq_bind]
    cases div? R1 (R1 - R2) with
    | none => rfl
    | some q =>
      simp only [Option.bind_some, ← rot_smul, ← mul_add', mul_sub', rigid_normalize h, rigid_btw h, rigid_len h]
      cases (p.sub (P.add (Vec.smul q v))).normalize with
      | none => rfl
      | some X => simp only [Option.map_some, Option.bind_some, rigid_dot h]
  | econe P v Ra r0 r1 a0 a1 dbl => exact ⟨_, rfl, trivial, fun p => by simp only [inout, mul_sub', rigid_dot h]⟩
  | hyp P v r0 r1 a0 a1 o => cases hs
  | ell P a r0 r1 a0 a1 => cases hs
  | ecyl P v r0 r1 a0 a1 tr => exact ⟨_, rfl, trivial, fun p => by simp only [inout, mul_sub', rigid_dot h, rigid_btw h]⟩
  | hcyl P v r0 r1 a0 a1 => exact ⟨_, rfl, trivial, fun p => by simp only [inout, mul_sub', rigid_dot h]⟩
  | para P v f => exact ⟨_, rfl, trivial, fun p => by simp only [inout, mul_sub', rigid_dot h, ← rot_smul, ← rot_sub, rigid_len h]⟩
  | torus P v Ra Rb Rc => exact ⟨_, rfl, trivial, fun p => by simp only [inout, mul_sub', rigid_dot h, ← rot_smul, ← rot_sub, rigid_len h]⟩
  | box P v1 v2 v3 => cases hs
  | bad => cases hs

/-- a rotation about the origin moves a box rightly -/
theorem box_rot {m : Tr} (h : Rigid m) (hb : m.b = ⟨0, 0, 0⟩) (P v1 v2 v3 : Vec) :
    ∃ s', transform m (.box P v1 v2 v3) = some s' ∧ ∀ p, inout (m.mul p) s' = inout p (.box P v1 v2 v3) := by
  have e : ∀ v, m.mul v = m.rot v := fun v => by
    ext <;> simp [Tr.mul, Tr.rot, Vec.add, hb]
  refine ⟨_, rfl, fun p => ?_⟩
  rw [e v1, e v2, e v3]
  simp only [inout, rigid_btw h]

theorem transform_side {m : Tr} (h : Rigid m) {s : Surf} (hs : Moves s) :
    ∃ s', transform m s = some s' ∧ Moves s' ∧ ∀ p, surfaceSide (m.mul p) s' = surfaceSide p s := by
  obtain ⟨s', h1, h2, h3⟩ := transform_inout h hs
  exact ⟨s', h1, h2, fun p => by simp only [surfaceSide, h3]⟩

end Geouned.RSurf
