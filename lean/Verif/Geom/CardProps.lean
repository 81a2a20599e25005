import Verif.Geom.CardLemmas
/-!
# Properties C47 (MCNP and PHITS surface cards), C48 (OpenMC), C49 (Serpent)
-/
namespace Geouned.Geom

/-! ## Hypotheses and specification -/

/-- along a coordinate axis -/
def Aligned (a : Vec) : Prop := a = vX ∨ a = vX.neg ∨ a = vY ∨ a = vY.neg ∨ a = vZ ∨ a = vZ.neg

/-- an axis which the angular tolerance takes for a coordinate axis is exactly along it -/
def ExactAxis (tol : ℝ) (a : Vec) : Prop :=
  (isParallel a vX tol → a = vX ∨ a = vX.neg) ∧ (isParallel a vY tol → a = vY ∨ a = vY.neg) ∧
  (isParallel a vZ tol → a = vZ ∨ a = vZ.neg)

/-- what the CAD kernel guarantees: unit axes, positive minor radius -/
def Surface.WellFormed : Surface → Prop
  | .plane s => s.axis.sq = 1
  | .cyl s => s.axis.sq = 1
  | .cone s => s.axis.sq = 1
  | .sph _ => True
  | .tor s => s.axis.sq = 1 ∧ 0 < s.minor

/-- the tolerances of the writer round nothing: what is taken for aligned or centred is so exactly -/
def Surface.Exact (t : Tol) : Surface → Prop
  | .plane s => (s.axis.isEqual vX t.pln_angle → s.axis = vX) ∧ (s.axis.isEqual vY t.pln_angle → s.axis = vY) ∧
      (s.axis.isEqual vZ t.pln_angle → s.axis = vZ)
  | .cyl s => ExactAxis t.angle s.axis
  | .cone s => ExactAxis t.angle s.axis
  | .sph s => (Vec.smul (1 / 10) s.center).isEqual ⟨0, 0, 0⟩ t.sph_distance → s.center = ⟨0, 0, 0⟩
  | .tor s => ExactAxis t.angle s.axis

/-- the angular tolerance is positive and at most one radian -/
def SaneTol (t : Tol) : Prop := 0 < t.angle ∧ t.angle ≤ 1

/-- no torus with an oblique axis (the codes have no such surface) -/
def Surface.NoObliqueTorus : Surface → Prop
  | .tor s => Aligned s.axis
  | _ => True

open Classical in
/-- the sides of a surface in MCNP/PHITS: a cone along a coordinate axis is the one sheet its axis points to, other cones
have both sheets; three-point planes (when they are printed as such) follow the convention of the code -/
noncomputable def Surface.mcnpRegion (prnt3P : Bool) : Surface → Region
  | .plane s => match s.points, prnt3P with
    | some (p1, p2, p3), true => threePointRegion p1 p2 p3
    | _, _ => planeRegion s.pos s.axis
  | .cyl s => cylRegion s.center s.axis s.radius
  | .cone s => if Aligned s.axis then sheetRegion s.apex s.axis (Real.tan s.semiAngle)
      else coneRegion s.apex s.axis (Real.tan s.semiAngle)
  | .sph s => sphRegion s.center s.radius
  | .tor s => torRegion s.center s.axis (if s.minor > s.major then s.major * s.aSign else s.major) s.minor

open Classical in
/-- the sides of a surface in OpenMC: all cones have two sheets -/
noncomputable def Surface.omcRegion : Surface → Region
  | .plane s => planeRegion s.pos s.axis
  | .cyl s => cylRegion s.center s.axis s.radius
  | .cone s => coneRegion s.apex s.axis (Real.tan s.semiAngle)
  | .sph s => sphRegion s.center s.radius
  | .tor s => torRegion s.center s.axis (if s.minor > s.major then s.major * s.aSign else s.major) s.minor

/-! ## Proof pieces -/

theorem plane_fun (s : PlaneP) : (∀ p, (planeRegion s.pos s.axis).neg p ↔ s.axis.dot (p.sub s.pos) < 0) ∧
    (∀ p, (planeRegion s.pos s.axis).pos p ↔ 0 < s.axis.dot (p.sub s.pos)) := ⟨fun _ => Iff.rfl, fun _ => Iff.rfl⟩

theorem plane_same (s : PlaneP) {g : Vec → ℝ} (h : ∀ p, s.axis.dot (p.sub s.pos) = 10 * g (Vec.smul (1 / 10) p)) :
    SameInCm (planeRegion s.pos s.axis) (.ofFun g) :=
  same_of_fun (k := 10) (by norm_num) (plane_fun s).1 (plane_fun s).2 h

theorem cyl_same {s : CylP} (hu : s.axis.sq = 1) {g : Vec → ℝ}
    (h : ∀ p, axDist s.center s.axis p - s.radius ^ 2 = 100 * g (Vec.smul (1 / 10) p)) :
    SameInCm (cylRegion s.center s.axis s.radius) (.ofFun g) :=
  same_of_fun (k := 100) (by norm_num) (fun p => inCyl_unit hu _ p) (fun p => outCyl_unit hu _ p) h

theorem cone_same {s : ConeP} (hu : s.axis.sq = 1) {g : Vec → ℝ}
    (h : ∀ p, axDist s.apex s.axis p - Real.tan s.semiAngle ^ 2 * height s.apex s.axis p ^ 2 = 100 * g (Vec.smul (1 / 10) p)) :
    SameInCm (coneRegion s.apex s.axis (Real.tan s.semiAngle)) (.ofFun g) :=
  same_of_fun (k := 100) (by norm_num) (fun p => inCone_unit hu _ p) (fun p => outCone_unit hu _ p) h

theorem sheet_same' {s : ConeP} (hu : s.axis.sq = 1) {g hgt : Vec → ℝ} {sh : ℝ}
    (h : ∀ p, axDist s.apex s.axis p - Real.tan s.semiAngle ^ 2 * height s.apex s.axis p ^ 2 = 100 * g (Vec.smul (1 / 10) p))
    (h2 : ∀ p, height s.apex s.axis p = 10 * (sh * hgt (Vec.smul (1 / 10) p))) :
    SameInCm (sheetRegion s.apex s.axis (Real.tan s.semiAngle)) (oneSheet g hgt sh) := by
  intro p
  have hc := cone_same hu h p
  have e : s.axis.dot (p.sub s.apex) = 10 * (sh * hgt (Vec.smul (1 / 10) p)) := h2 p
  simp only [sheetRegion, oneSheet]
  rw [e]
  simp only [coneRegion, Region.ofFun] at hc
  rw [hc.1, hc.2]
  constructor
  · constructor <;> rintro ⟨h1, h2⟩ <;> exact ⟨h1, by linarith⟩
  · constructor <;> rintro (h1 | h1)
    · exact .inl h1
    · exact .inr (by linarith)
    · exact .inl h1
    · exact .inr (by linarith)

theorem gq_list (q : GQ) : mcnpMeaning "GQ" q.toList = some (.ofFun q.eval) := rfl
theorem gq_list_xml (q : GQ) : omcXmlMeaning "quadric" q.toList = some (.ofFun q.eval) := rfl

theorem cyl_gq {t : Tol} (ht : SaneTol t) {s : CylP} (hu : s.axis.sq = 1) (hn : ¬ isParallel s.axis vX t.angle) :
    ∃ q, qFormCyl s.axis (Vec.smul (1 / 10) s.center) (s.radius * (1 / 10)) = some q ∧
      SameInCm (cylRegion s.center s.axis s.radius) (.ofFun q.eval) := by
  obtain ⟨q, hq, hp⟩ := C36_q_form_cyl s.axis (Vec.smul (1 / 10) s.center) (s.radius * (1 / 10))
    (slanted_of_not hu ht.1 hn)
  refine ⟨q, hq, sameInCm_trans_iff (cyl_cm hu s.radius) (fun p => ?_)⟩
  exact ⟨(hp p).1.symm, (hp p).2.symm⟩

theorem cone_gq {t : Tol} (ht : SaneTol t) {s : ConeP} (hu : s.axis.sq = 1) (hn : ¬ isParallel s.axis vX t.angle) :
    ∃ q, qFormCone s.axis (Vec.smul (1 / 10) s.apex) (Real.tan s.semiAngle) = some q ∧
      SameInCm (coneRegion s.apex s.axis (Real.tan s.semiAngle)) (.ofFun q.eval) := by
  obtain ⟨q, hq, hp⟩ := C37_q_form_cone s.axis (Vec.smul (1 / 10) s.apex) (Real.tan s.semiAngle)
    (slanted_of_not hu ht.1 hn)
  refine ⟨q, hq, sameInCm_trans_iff (cone_cm hu _) (fun p => ?_)⟩
  exact ⟨(hp p).1.symm, (hp p).2.symm⟩

theorem cone_gq' {t : Tol} (ht : SaneTol t) {s : ConeP} (hu : s.axis.sq = 1) (hn : ¬ isParallel s.axis vX t.angle) :
    ∃ q, qFormCone (Vec.smul (1 / 10) s.axis) (Vec.smul (1 / 10) s.apex) (Real.tan s.semiAngle) = some q ∧
      SameInCm (coneRegion s.apex s.axis (Real.tan s.semiAngle)) (.ofFun q.eval) := by
  obtain ⟨q, hq, hp⟩ := C37_q_form_cone (Vec.smul (1 / 10) s.axis) (Vec.smul (1 / 10) s.apex) (Real.tan s.semiAngle)
    (slanted_smul (by norm_num) (slanted_of_not hu ht.1 hn))
  refine ⟨q, hq, sameInCm_trans_iff (cone_cm hu _) (fun p => ?_)⟩
  refine ⟨?_, ?_⟩
  · exact ((hp p).1.trans (inCone_smul (by norm_num))).symm
  · exact ((hp p).2.trans (outCone_smul (by norm_num))).symm

theorem not_aligned {a : Vec} {tol : ℝ} (ht : 0 < tol) (hx : ¬ isParallel a vX tol) (hy : ¬ isParallel a vY tol)
    (hz : ¬ isParallel a vZ tol) : ¬ Aligned a := by
  rintro (h | h | h | h | h | h) <;> subst h
  · exact hx (isParallel_self vX_sq ht)
  · exact hx (isParallel_neg vX_sq ht)
  · exact hy (isParallel_self vY_sq ht)
  · exact hy (isParallel_neg vY_sq ht)
  · exact hz (isParallel_self vZ_sq ht)
  · exact hz (isParallel_neg vZ_sq ht)

macro "geo" : tactic => `(tactic|
  (simp only [axDist, height, Vec.sq, Vec.dot, Vec.sub, Vec.smul, Vec.neg, vX, vY, vZ, eqCylX, eqCylY, eqCylZ, eqConeX,
    eqConeY, eqConeZ, eqSph] at * <;> ring))

theorem sph_fun (s : SphP) {g : Vec → ℝ} (h : ∀ p, distSq p s.center - s.radius ^ 2 = 100 * g (Vec.smul (1 / 10) p)) :
    SameInCm (sphRegion s.center s.radius) (.ofFun g) :=
  same_of_fun (k := 100) (by norm_num) (fun _ => Iff.rfl) (fun _ => Iff.rfl) h

theorem sph_same (s : SphP) : SameInCm (sphRegion s.center s.radius)
    (.ofFun (eqSph (Vec.smul (1 / 10) s.center).x (Vec.smul (1 / 10) s.center).y (Vec.smul (1 / 10) s.center).z
      (s.radius * (1 / 10)))) := by
  apply sph_fun; intro p
  simp only [distSq, eqSph, Vec.sq, Vec.dot, Vec.sub, Vec.smul]; ring

theorem cyl_X {s : CylP} (hu : s.axis.sq = 1) (h : s.axis = vX ∨ s.axis = vX.neg) :
    SameInCm (cylRegion s.center s.axis s.radius) (.ofFun (eqCylX (Vec.smul (1 / 10) s.center).y
      (Vec.smul (1 / 10) s.center).z (s.radius * (1 / 10)))) := by
  apply cyl_same hu; intro p
  rcases h with e | e <;> rw [e] <;> geo
theorem cyl_Y {s : CylP} (hu : s.axis.sq = 1) (h : s.axis = vY ∨ s.axis = vY.neg) :
    SameInCm (cylRegion s.center s.axis s.radius) (.ofFun (eqCylY (Vec.smul (1 / 10) s.center).x
      (Vec.smul (1 / 10) s.center).z (s.radius * (1 / 10)))) := by
  apply cyl_same hu; intro p
  rcases h with e | e <;> rw [e] <;> geo
theorem cyl_Z {s : CylP} (hu : s.axis.sq = 1) (h : s.axis = vZ ∨ s.axis = vZ.neg) :
    SameInCm (cylRegion s.center s.axis s.radius) (.ofFun (eqCylZ (Vec.smul (1 / 10) s.center).x
      (Vec.smul (1 / 10) s.center).y (s.radius * (1 / 10)))) := by
  apply cyl_same hu; intro p
  rcases h with e | e <;> rw [e] <;> geo

theorem coneFun_X {s : ConeP} (h : s.axis = vX ∨ s.axis = vX.neg) (p : Vec) :
    axDist s.apex s.axis p - Real.tan s.semiAngle ^ 2 * height s.apex s.axis p ^ 2 =
      100 * eqConeX (Vec.smul (1 / 10) s.apex).x (Vec.smul (1 / 10) s.apex).y (Vec.smul (1 / 10) s.apex).z
        (Real.tan s.semiAngle ^ 2) (Vec.smul (1 / 10) p) := by
  rcases h with e | e <;> rw [e] <;> geo
theorem coneFun_Y {s : ConeP} (h : s.axis = vY ∨ s.axis = vY.neg) (p : Vec) :
    axDist s.apex s.axis p - Real.tan s.semiAngle ^ 2 * height s.apex s.axis p ^ 2 =
      100 * eqConeY (Vec.smul (1 / 10) s.apex).x (Vec.smul (1 / 10) s.apex).y (Vec.smul (1 / 10) s.apex).z
        (Real.tan s.semiAngle ^ 2) (Vec.smul (1 / 10) p) := by
  rcases h with e | e <;> rw [e] <;> geo
theorem coneFun_Z {s : ConeP} (h : s.axis = vZ ∨ s.axis = vZ.neg) (p : Vec) :
    axDist s.apex s.axis p - Real.tan s.semiAngle ^ 2 * height s.apex s.axis p ^ 2 =
      100 * eqConeZ (Vec.smul (1 / 10) s.apex).x (Vec.smul (1 / 10) s.apex).y (Vec.smul (1 / 10) s.apex).z
        (Real.tan s.semiAngle ^ 2) (Vec.smul (1 / 10) p) := by
  rcases h with e | e <;> rw [e] <;> geo

theorem sheet_X {t : Tol} (ht : SaneTol t) {s : ConeP} (hu : s.axis.sq = 1) (h : s.axis = vX ∨ s.axis = vX.neg) :
    SameInCm (sheetRegion s.apex s.axis (Real.tan s.semiAngle))
      (oneSheet (eqConeX (Vec.smul (1 / 10) s.apex).x (Vec.smul (1 / 10) s.apex).y (Vec.smul (1 / 10) s.apex).z
        (Real.tan s.semiAngle ^ 2)) (fun p => p.x - (Vec.smul (1 / 10) s.apex).x)
        (sheetOf t (Vec.smul (1 / 10) s.axis) vX)) := by
  apply sheet_same' hu (coneFun_X h); intro p
  rcases h with e | e <;> rw [e]
  · rw [sheet_same t vX_sq ht.2]; geo
  · rw [sheet_opp t vX_sq ht.1]; geo
theorem sheet_Y {t : Tol} (ht : SaneTol t) {s : ConeP} (hu : s.axis.sq = 1) (h : s.axis = vY ∨ s.axis = vY.neg) :
    SameInCm (sheetRegion s.apex s.axis (Real.tan s.semiAngle))
      (oneSheet (eqConeY (Vec.smul (1 / 10) s.apex).x (Vec.smul (1 / 10) s.apex).y (Vec.smul (1 / 10) s.apex).z
        (Real.tan s.semiAngle ^ 2)) (fun p => p.y - (Vec.smul (1 / 10) s.apex).y)
        (sheetOf t (Vec.smul (1 / 10) s.axis) vY)) := by
  apply sheet_same' hu (coneFun_Y h); intro p
  rcases h with e | e <;> rw [e]
  · rw [sheet_same t vY_sq ht.2]; geo
  · rw [sheet_opp t vY_sq ht.1]; geo
theorem sheet_Z {t : Tol} (ht : SaneTol t) {s : ConeP} (hu : s.axis.sq = 1) (h : s.axis = vZ ∨ s.axis = vZ.neg) :
    SameInCm (sheetRegion s.apex s.axis (Real.tan s.semiAngle))
      (oneSheet (eqConeZ (Vec.smul (1 / 10) s.apex).x (Vec.smul (1 / 10) s.apex).y (Vec.smul (1 / 10) s.apex).z
        (Real.tan s.semiAngle ^ 2)) (fun p => p.z - (Vec.smul (1 / 10) s.apex).z)
        (sheetOf t (Vec.smul (1 / 10) s.axis) vZ)) := by
  apply sheet_same' hu (coneFun_Z h); intro p
  rcases h with e | e <;> rw [e]
  · rw [sheet_same t vZ_sq ht.2]; geo
  · rw [sheet_opp t vZ_sq ht.1]; geo

open Classical in
/-- the sides of a torus -/
noncomputable def TorP.region (s : TorP) : Region :=
  torRegion s.center s.axis (if s.minor > s.major then s.major * s.aSign else s.major) s.minor

theorem tor_X {s : TorP} (hu : s.axis.sq = 1) (hr : 0 < s.minor) (h : s.axis = vX ∨ s.axis = vX.neg) :
    SameInCm s.region (.ofFun (eqTorX (Vec.smul (1 / 10) s.center).x (Vec.smul (1 / 10) s.center).y
      (Vec.smul (1 / 10) s.center).z (s.signedMajor (s.major * (1 / 10))) (s.minor * (1 / 10)) (s.minor * (1 / 10)))) := by
  rw [signedMajor_cm]
  refine tor_cm hu _ hr (fun p => (p.x - (Vec.smul (1 / 10) s.center).x) ^ 2) (fun p => (p.y -
    (Vec.smul (1 / 10) s.center).y) ^ 2 + (p.z - (Vec.smul (1 / 10) s.center).z) ^ 2) (fun p => ?_) (fun p => ?_)
  · rcases h with e | e <;> rw [e] <;> geo
  · rcases h with e | e <;> rw [e] <;> geo
theorem tor_Y {s : TorP} (hu : s.axis.sq = 1) (hr : 0 < s.minor) (h : s.axis = vY ∨ s.axis = vY.neg) :
    SameInCm s.region (.ofFun (eqTorY (Vec.smul (1 / 10) s.center).x (Vec.smul (1 / 10) s.center).y
      (Vec.smul (1 / 10) s.center).z (s.signedMajor (s.major * (1 / 10))) (s.minor * (1 / 10)) (s.minor * (1 / 10)))) := by
  rw [signedMajor_cm]
  refine tor_cm hu _ hr (fun p => (p.y - (Vec.smul (1 / 10) s.center).y) ^ 2) (fun p => (p.x -
    (Vec.smul (1 / 10) s.center).x) ^ 2 + (p.z - (Vec.smul (1 / 10) s.center).z) ^ 2) (fun p => ?_) (fun p => ?_)
  · rcases h with e | e <;> rw [e] <;> geo
  · rcases h with e | e <;> rw [e] <;> geo
theorem tor_Z {s : TorP} (hu : s.axis.sq = 1) (hr : 0 < s.minor) (h : s.axis = vZ ∨ s.axis = vZ.neg) :
    SameInCm s.region (.ofFun (eqTorZ (Vec.smul (1 / 10) s.center).x (Vec.smul (1 / 10) s.center).y
      (Vec.smul (1 / 10) s.center).z (s.signedMajor (s.major * (1 / 10))) (s.minor * (1 / 10)) (s.minor * (1 / 10)))) := by
  rw [signedMajor_cm]
  refine tor_cm hu _ hr (fun p => (p.z - (Vec.smul (1 / 10) s.center).z) ^ 2) (fun p => (p.x -
    (Vec.smul (1 / 10) s.center).x) ^ 2 + (p.y - (Vec.smul (1 / 10) s.center).y) ^ 2) (fun p => ?_) (fun p => ?_)
  · rcases h with e | e <;> rw [e] <;> geo
  · rcases h with e | e <;> rw [e] <;> geo

theorem plane_gen (s : PlaneP) (c : ℝ) (hc : c = s.axis.dot s.pos / 10) :
    SameInCm (planeRegion s.pos s.axis) (.ofFun fun p => s.axis.x * p.x + s.axis.y * p.y + s.axis.z * p.z - c) := by
  subst hc
  apply plane_same; intro p
  simp only [Vec.dot, Vec.sub, Vec.smul]; ring
theorem plane_X {s : PlaneP} (h : s.axis = vX) (c : ℝ) (hc : c = s.pos.x / 10) :
    SameInCm (planeRegion s.pos s.axis) (.ofFun fun p => p.x - c) := by
  subst hc
  apply plane_same; intro p
  rw [h]; simp only [Vec.dot, Vec.sub, Vec.smul, vX]; ring
theorem plane_Y {s : PlaneP} (h : s.axis = vY) (c : ℝ) (hc : c = s.pos.y / 10) :
    SameInCm (planeRegion s.pos s.axis) (.ofFun fun p => p.y - c) := by
  subst hc
  apply plane_same; intro p
  rw [h]; simp only [Vec.dot, Vec.sub, Vec.smul, vY]; ring
theorem plane_Z {s : PlaneP} (h : s.axis = vZ) (c : ℝ) (hc : c = s.pos.z / 10) :
    SameInCm (planeRegion s.pos s.axis) (.ofFun fun p => p.z - c) := by
  subst hc
  apply plane_same; intro p
  rw [h]; simp only [Vec.dot, Vec.sub, Vec.smul, vZ]; ring

theorem vec10 (p : Vec) : (⟨p.x / 10, p.y / 10, p.z / 10⟩ : Vec) = Vec.smul (1 / 10) p := by
  ext <;> simp only [Vec.smul] <;> ring

theorem isEqual_self' (a : Vec) {t : ℝ} (ht : 0 < t) : a.isEqual a t := by
  unfold Vec.isEqual
  have : (a.sub a).len = 0 := vlen_eq le_rfl (by simp only [Vec.sub, Vec.sq, Vec.dot]; ring)
  rw [this]; exact ht.le

/-! ## C47 -/

theorem mcnp_plane_ok (t : Tol) (prnt3P : Bool) (s : PlaneP) (he : (Surface.plane s).Exact t) :
    ∃ r, mcnpMeaning (mcnpPlane t prnt3P s).mn (mcnpPlane t prnt3P s).args = some r ∧
      SameInCm ((Surface.plane s).mcnpRegion prnt3P) r := by
  obtain ⟨hx, hy, hz⟩ := he
  have gen : ∃ r, mcnpMeaning (mcnpPlaneGen t s).mn (mcnpPlaneGen t s).args = some r ∧
      SameInCm (planeRegion s.pos s.axis) r := by
    unfold mcnpPlaneGen
    split_ifs with h1 h2 h3
    · exact ⟨_, rfl, plane_X (hx h1) _ rfl⟩
    · exact ⟨_, rfl, plane_Y (hy h2) _ rfl⟩
    · exact ⟨_, rfl, plane_Z (hz h3) _ rfl⟩
    · exact ⟨_, rfl, plane_gen s _ rfl⟩
  simp only [mcnpPlane, Surface.mcnpRegion]
  cases hp : s.points with
  | none => exact gen
  | some pts =>
    obtain ⟨p1, p2, p3⟩ := pts
    cases prnt3P with
    | false => exact gen
    | true =>
      refine ⟨_, rfl, ?_⟩
      rw [vec10, vec10, vec10]
      exact threePointRegion_cm p1 p2 p3

theorem mcnp_cyl_ok {t : Tol} (ht : SaneTol t) (s : CylP) (hu : s.axis.sq = 1) (he : ExactAxis t.angle s.axis) :
    ∃ c r, mcnpCyl t s = some c ∧ mcnpMeaning c.mn c.args = some r ∧
      SameInCm (cylRegion s.center s.axis s.radius) r := by
  obtain ⟨hx, hy, hz⟩ := he
  unfold mcnpCyl
  rw [normalize_unit hu]
  dsimp only
  by_cases h1 : isParallel s.axis vX t.angle
  · have key := cyl_X hu (hx h1)
    rw [if_pos h1]
    split_ifs with h
    · rw [h.1, h.2] at key; exact ⟨_, _, rfl, rfl, key⟩
    · exact ⟨_, _, rfl, rfl, key⟩
  rw [if_neg h1]
  by_cases h2 : isParallel s.axis vY t.angle
  · have key := cyl_Y hu (hy h2)
    rw [if_pos h2]
    split_ifs with h
    · rw [h.1, h.2] at key; exact ⟨_, _, rfl, rfl, key⟩
    · exact ⟨_, _, rfl, rfl, key⟩
  rw [if_neg h2]
  by_cases h3 : isParallel s.axis vZ t.angle
  · have key := cyl_Z hu (hz h3)
    rw [if_pos h3]
    split_ifs with h
    · rw [h.1, h.2] at key; exact ⟨_, _, rfl, rfl, key⟩
    · exact ⟨_, _, rfl, rfl, key⟩
  rw [if_neg h3]
  obtain ⟨q, hq, hs⟩ := cyl_gq ht hu h1
  exact ⟨_, _, by rw [hq]; rfl, gq_list q, hs⟩

theorem aligned_X {a : Vec} (h : a = vX ∨ a = vX.neg) : Aligned a := by rcases h with h | h <;> simp [Aligned, h]
theorem aligned_Y {a : Vec} (h : a = vY ∨ a = vY.neg) : Aligned a := by rcases h with h | h <;> simp [Aligned, h]
theorem aligned_Z {a : Vec} (h : a = vZ ∨ a = vZ.neg) : Aligned a := by rcases h with h | h <;> simp [Aligned, h]

theorem mcnp_cone_ok {t : Tol} (ht : SaneTol t) (s : ConeP) (hu : s.axis.sq = 1) (he : ExactAxis t.angle s.axis) :
    ∃ c r, mcnpCone t s = some c ∧ mcnpMeaning c.mn c.args = some r ∧
      SameInCm ((Surface.cone s).mcnpRegion b) r := by
  obtain ⟨hx, hy, hz⟩ := he
  have p10 : (0 : ℝ) < 1 / 10 := by norm_num
  unfold mcnpCone Surface.mcnpRegion
  dsimp only
  by_cases h1 : isParallel s.axis vX t.angle
  · have key := sheet_X ht hu (hx h1)
    rw [if_pos ((isParallel_smul _ p10 _).2 h1), if_pos (aligned_X (hx h1))]
    split_ifs with h
    · rw [h.1, h.2] at key; exact ⟨_, _, rfl, rfl, key⟩
    · exact ⟨_, _, rfl, rfl, key⟩
  rw [if_neg (fun h => h1 ((isParallel_smul _ p10 _).1 h))]
  by_cases h2 : isParallel s.axis vY t.angle
  · have key := sheet_Y ht hu (hy h2)
    rw [if_pos ((isParallel_smul _ p10 _).2 h2), if_pos (aligned_Y (hy h2))]
    split_ifs with h
    · rw [h.1, h.2] at key; exact ⟨_, _, rfl, rfl, key⟩
    · exact ⟨_, _, rfl, rfl, key⟩
  rw [if_neg (fun h => h2 ((isParallel_smul _ p10 _).1 h))]
  by_cases h3 : isParallel s.axis vZ t.angle
  · have key := sheet_Z ht hu (hz h3)
    rw [if_pos ((isParallel_smul _ p10 _).2 h3), if_pos (aligned_Z (hz h3))]
    split_ifs with h
    · rw [h.1, h.2] at key; exact ⟨_, _, rfl, rfl, key⟩
    · exact ⟨_, _, rfl, rfl, key⟩
  rw [if_neg (fun h => h3 ((isParallel_smul _ p10 _).1 h)), if_neg (not_aligned ht.1 h1 h2 h3)]
  obtain ⟨q, hq, hs⟩ := cone_gq' ht hu h1
  exact ⟨_, _, by rw [hq]; rfl, gq_list q, hs⟩

theorem mcnp_sph_ok (t : Tol) (s : SphP) (he : (Surface.sph s).Exact t) :
    ∃ r, mcnpMeaning (mcnpSph t s).mn (mcnpSph t s).args = some r ∧ SameInCm (sphRegion s.center s.radius) r := by
  have key := sph_same s
  unfold mcnpSph
  dsimp only
  split_ifs with h
  · refine ⟨_, rfl, ?_⟩
    have h0 := he h
    rw [h0] at key ⊢
    simpa [Vec.smul] using key
  · exact ⟨_, rfl, key⟩

theorem mcnp_tor_ok {t : Tol} (ht : SaneTol t) (s : TorP) (hw : (Surface.tor s).WellFormed)
    (he : ExactAxis t.angle s.axis) (ha : Aligned s.axis) :
    ∃ c r, mcnpTor t s = some c ∧ mcnpMeaning c.mn c.args = some r ∧ SameInCm s.region r := by
  obtain ⟨hx, hy, hz⟩ := he
  obtain ⟨hu, hr⟩ := hw
  unfold mcnpTor
  rw [normalize_unit hu]
  dsimp only
  by_cases h1 : isParallel s.axis vX t.angle
  · rw [if_pos h1]; exact ⟨_, _, rfl, rfl, tor_X hu hr (hx h1)⟩
  by_cases h2 : isParallel s.axis vY t.angle
  · rw [if_neg h1, if_pos h2]; exact ⟨_, _, rfl, rfl, tor_Y hu hr (hy h2)⟩
  by_cases h3 : isParallel s.axis vZ t.angle
  · rw [if_neg h1, if_neg h2, if_pos h3]; exact ⟨_, _, rfl, rfl, tor_Z hu hr (hz h3)⟩
  exact absurd ha (not_aligned ht.1 h1 h2 h3)

/-- C47, full statement: the card written for every surface exists, is a card of the manual and describes the surface, in
centimetres and with the same sides. -/
def C47_statement : Prop := ∀ (t : Tol) (prnt3P : Bool) (S : Surface), SaneTol t → S.WellFormed → S.Exact t →
  ∃ c r, mcnpSurface t prnt3P S = some c ∧ mcnpMeaning c.mn c.args = some r ∧ SameInCm (S.mcnpRegion prnt3P) r

/-- C47 for everything but tori with oblique axes. -/
theorem C47_surface_cards_partial (t : Tol) (prnt3P : Bool) (S : Surface) (ht : SaneTol t) (hw : S.WellFormed)
    (he : S.Exact t) (hn : S.NoObliqueTorus) :
    ∃ c r, mcnpSurface t prnt3P S = some c ∧ mcnpMeaning c.mn c.args = some r ∧ SameInCm (S.mcnpRegion prnt3P) r := by
  cases S with
  | plane s =>
    obtain ⟨r, h1, h2⟩ := mcnp_plane_ok t prnt3P s he
    exact ⟨_, r, rfl, h1, h2⟩
  | cyl s => exact mcnp_cyl_ok ht s hw he
  | cone s => exact mcnp_cone_ok ht s hw he
  | sph s =>
    obtain ⟨r, h1, h2⟩ := mcnp_sph_ok t s he
    exact ⟨_, r, rfl, h1, h2⟩
  | tor s => exact mcnp_tor_ok ht s hw he hn

/-- an oblique unit axis, far from the coordinate axes -/
noncomputable def oblique : Vec := ⟨0, 3 / 5, 4 / 5⟩
theorem oblique_sq : oblique.sq = 1 := by norm_num [oblique, Vec.sq, Vec.dot]

theorem arccos_gt {x : ℝ} (h1 : -1 ≤ x) (h : x ≤ 4 / 5) : 1 / 2 < Real.arccos x := by
  have hc : 4 / 5 < Real.cos (1 / 2) := by
    have := Real.one_sub_sq_div_two_lt_cos (x := 1 / 2) (by norm_num)
    norm_num at this ⊢
    linarith
  have h2 : Real.arccos (Real.cos (1 / 2)) < Real.arccos x :=
    Real.strictAntiOn_arccos ⟨h1, by linarith⟩ ⟨by linarith, Real.cos_le_one _⟩ (by linarith)
  rwa [Real.arccos_cos (by norm_num) (by linarith [Real.pi_gt_three])] at h2

theorem arccos_lt {x : ℝ} (h0 : 0 ≤ x) (h : x ≤ 1) : Real.arccos x ≤ 2 := by
  have := Real.arccos_le_pi_div_two.2 h0
  have := Real.pi_lt_d2
  linarith

theorem oblique_not {e : Vec} (he : e.sq = 1) (h0 : 0 ≤ oblique.dot e) (h : oblique.dot e ≤ 4 / 5) {tol : ℝ} (ht : tol ≤ 1 / 2) :
    ¬ isParallel oblique e tol := by
  unfold isParallel isSameValue getAngle
  rw [unit_len oblique_sq, unit_len he, mul_one, div_one]
  have h1 := arccos_gt (by linarith) h
  have h2 := arccos_lt h0 (by linarith)
  rw [abs_of_pos (by linarith)]
  rintro (h | h)
  · linarith
  · have := (abs_lt.1 h).1
    linarith [Real.pi_gt_three]

theorem oblique_exact {tol : ℝ} (ht : tol ≤ 1 / 2) : ¬ isParallel oblique vX tol ∧ ¬ isParallel oblique vY tol ∧
    ¬ isParallel oblique vZ tol :=
  ⟨oblique_not vX_sq (by norm_num [oblique, vX, Vec.dot]) (by norm_num [oblique, vX, Vec.dot]) ht,
   oblique_not vY_sq (by norm_num [oblique, vY, Vec.dot]) (by norm_num [oblique, vY, Vec.dot]) ht,
   oblique_not vZ_sq (by norm_num [oblique, vZ, Vec.dot]) (by norm_num [oblique, vZ, Vec.dot]) ht⟩

/-- C47 is false of the code for tori with oblique axes: an empty card is written, without any message. -/
theorem C47_oblique_torus_violated : ¬ C47_statement := by
  intro h
  let s : TorP := { center := ⟨0, 0, 0⟩, axis := oblique, major := 2, minor := 1 }
  obtain ⟨n1, n2, n3⟩ := oblique_exact (tol := (absTol (1 / 10000)).angle) (by norm_num [absTol])
  obtain ⟨c, r, h1, h2, _⟩ := h (absTol (1 / 10000)) false (.tor s) ⟨by norm_num [absTol], by norm_num [absTol]⟩
    ⟨oblique_sq, by norm_num [s]⟩ ⟨fun h => absurd h n1, fun h => absurd h n2, fun h => absurd h n3⟩
  have : mcnpTor (absTol (1 / 10000)) s = some ⟨"", []⟩ := by
    unfold mcnpTor
    rw [normalize_unit oblique_sq]
    dsimp only
    rw [if_neg n1, if_neg n2, if_neg n3]
  simp only [mcnpSurface, this, Option.some.injEq] at h1
  subst h1
  simp [mcnpMeaning] at h2

/-- non-vacuity of C47: default-like tolerances; an off-axis cylinder along Y, a cone pointing down, an oblique cylinder -/
example : SaneTol (absTol (1 / 10000)) ∧
    (Surface.cyl ⟨⟨10, 0, 30⟩, vY, 5⟩).WellFormed ∧ (Surface.cone ⟨⟨0, 0, 7⟩, vZ.neg, Real.pi / 4⟩).WellFormed ∧
    (Surface.cyl ⟨⟨10, 0, 30⟩, oblique, 5⟩).WellFormed ∧ (Surface.cyl ⟨⟨10, 0, 30⟩, oblique, 5⟩).Exact (absTol (1 / 10000)) ∧
    (Surface.sph ⟨⟨10, 0, 30⟩, 5⟩).Exact (absTol (1 / 10000)) := by
  obtain ⟨n1, n2, n3⟩ := oblique_exact (tol := (absTol (1 / 10000)).angle) (by norm_num [absTol])
  refine ⟨⟨by norm_num [absTol], by norm_num [absTol]⟩, vY_sq, ?_, oblique_sq,
    ⟨fun h => absurd h n1, fun h => absurd h n2, fun h => absurd h n3⟩, fun h => ?_⟩
  · norm_num [Surface.WellFormed, vZ, Vec.neg, Vec.sq, Vec.dot]
  · exfalso
    have h2 : ((Vec.smul (1 / 10) (⟨10, 0, 30⟩ : Vec)).sub ⟨0, 0, 0⟩).len ≤ 1 / 10000 := h
    have h3 : ((Vec.smul (1 / 10) (⟨10, 0, 30⟩ : Vec)).sub ⟨0, 0, 0⟩).len ^ 2 = 10 := by
      rw [len_sq]; norm_num [Vec.smul, Vec.sub, Vec.sq, Vec.dot]
    have h4 : 0 ≤ ((Vec.smul (1 / 10) (⟨10, 0, 30⟩ : Vec)).sub ⟨0, 0, 0⟩).len := Real.sqrt_nonneg _
    nlinarith

/-! ## C48 -/

theorem cone_abs (c a : Vec) (k : ℝ) (p : Vec) : ((coneRegion c a (Real.sqrt (k * k))).neg p ↔ (coneRegion c a k).neg p) ∧
    ((coneRegion c a (Real.sqrt (k * k))).pos p ↔ (coneRegion c a k).pos p) := by
  have e : Real.sqrt (k * k) ^ 2 = k ^ 2 := by rw [Real.sq_sqrt (mul_self_nonneg k), sq]
  simp only [coneRegion, InCone, OutCone, e, and_self]

/-- C48, full statement for the XML output -/
def C48_xml_statement : Prop := ∀ (t : Tol) (S : Surface), SaneTol t → S.WellFormed → S.Exact t →
  ∃ c r, omcXmlSurface t S = some c ∧ omcXmlMeaning c.mn c.args = some r ∧ SameInCm S.omcRegion r

/-- C48, full statement for the Python output -/
def C48_py_statement : Prop := ∀ (t : Tol) (quadricForm : Bool) (S : Surface), SaneTol t → S.WellFormed → S.Exact t →
  S.NoObliqueTorus →
  ∃ c r, omcPySurface t quadricForm S = some c ∧ omcPyMeaning c.cls c.kws = some r ∧ SameInCm S.omcRegion r

/-- C48 (XML), everything but tori with oblique axes. -/
theorem C48_xml_cards_partial (t : Tol) (S : Surface) (ht : SaneTol t) (hw : S.WellFormed) (he : S.Exact t)
    (hn : S.NoObliqueTorus) :
    ∃ c r, omcXmlSurface t S = some c ∧ omcXmlMeaning c.mn c.args = some r ∧ SameInCm S.omcRegion r := by
  have m10 : ∀ x : ℝ, x * (1 / 10) = x / 10 := fun x => by ring
  cases S with
  | plane s =>
    obtain ⟨hx, hy, hz⟩ := he
    simp only [omcXmlSurface, Option.some.injEq, omcXmlPlane, Surface.omcRegion]
    split_ifs with h1 h2 h3
    · exact ⟨_, _, rfl, rfl, plane_X (hx h1) _ (m10 _)⟩
    · exact ⟨_, _, rfl, rfl, plane_Y (hy h2) _ (m10 _)⟩
    · exact ⟨_, _, rfl, rfl, plane_Z (hz h3) _ (m10 _)⟩
    · exact ⟨_, _, rfl, rfl, plane_gen s _ (m10 _)⟩
  | cyl s =>
    obtain ⟨hx, hy, hz⟩ := he
    replace hw : s.axis.sq = 1 := hw
    simp only [omcXmlSurface, omcXmlCyl, normalize_unit hw, Surface.omcRegion]
    split_ifs with h1 h2 h3
    · exact ⟨_, _, rfl, rfl, cyl_X hw (hx h1)⟩
    · exact ⟨_, _, rfl, rfl, cyl_Y hw (hy h2)⟩
    · exact ⟨_, _, rfl, rfl, cyl_Z hw (hz h3)⟩
    · obtain ⟨q, hq, hs⟩ := cyl_gq ht hw h1
      exact ⟨_, _, by rw [hq]; rfl, gq_list_xml q, hs⟩
  | cone s =>
    obtain ⟨hx, hy, hz⟩ := he
    replace hw : s.axis.sq = 1 := hw
    simp only [omcXmlSurface, omcXmlCone, normalize_unit hw, Surface.omcRegion]
    simp only [← sq]
    split_ifs with h1 h2 h3
    · exact ⟨_, _, rfl, rfl, cone_same hw (coneFun_X (hx h1))⟩
    · exact ⟨_, _, rfl, rfl, cone_same hw (coneFun_Y (hy h2))⟩
    · exact ⟨_, _, rfl, rfl, cone_same hw (coneFun_Z (hz h3))⟩
    · obtain ⟨q, hq, hs⟩ := cone_gq ht hw h1
      exact ⟨_, _, by rw [hq]; rfl, gq_list_xml q, hs⟩
  | sph s => exact ⟨_, _, rfl, rfl, sph_same s⟩
  | tor s =>
    obtain ⟨hx, hy, hz⟩ := he
    obtain ⟨hu, hr⟩ := hw
    simp only [omcXmlSurface, omcXmlTor, normalize_unit hu]
    change ∃ c r, _ ∧ _ ∧ SameInCm s.region r
    by_cases h1 : isParallel s.axis vX t.angle
    · rw [if_pos h1]; exact ⟨_, _, rfl, rfl, tor_X hu hr (hx h1)⟩
    by_cases h2 : isParallel s.axis vY t.angle
    · rw [if_neg h1, if_pos h2]; exact ⟨_, _, rfl, rfl, tor_Y hu hr (hy h2)⟩
    by_cases h3 : isParallel s.axis vZ t.angle
    · rw [if_neg h1, if_neg h2, if_pos h3]; exact ⟨_, _, rfl, rfl, tor_Z hu hr (hz h3)⟩
    exact absurd hn (not_aligned ht.1 h1 h2 h3)

/-- the surface is not a torus -/
def Surface.NotTorus : Surface → Prop
  | .tor _ => False
  | _ => True

/-- C48 (Python), everything but tori. -/
theorem C48_py_cards_partial (t : Tol) (quadricForm : Bool) (S : Surface) (ht : SaneTol t) (hw : S.WellFormed)
    (he : S.Exact t) (hn : S.NotTorus) :
    ∃ c r, omcPySurface t quadricForm S = some c ∧ omcPyMeaning c.cls c.kws = some r ∧ SameInCm S.omcRegion r := by
  have m10 : ∀ x : ℝ, x * (1 / 10) = x / 10 := fun x => by ring
  cases S with
  | plane s =>
    obtain ⟨hx, hy, hz⟩ := he
    simp only [omcPySurface, Option.some.injEq, omcPyPlane, Surface.omcRegion]
    split_ifs with h1 h2 h3
    · exact ⟨_, _, rfl, rfl, plane_X (hx h1) _ (m10 _)⟩
    · exact ⟨_, _, rfl, rfl, plane_Y (hy h2) _ (m10 _)⟩
    · exact ⟨_, _, rfl, rfl, plane_Z (hz h3) _ (m10 _)⟩
    · exact ⟨_, _, rfl, rfl, plane_gen s _ (m10 _)⟩
  | cyl s =>
    obtain ⟨hx, hy, hz⟩ := he
    replace hw : s.axis.sq = 1 := hw
    simp only [omcPySurface, omcPyCyl, normalize_unit hw, Surface.omcRegion]
    split_ifs with h1 h2 h3 h4
    · exact ⟨_, _, rfl, rfl, cyl_X hw (hx h1)⟩
    · exact ⟨_, _, rfl, rfl, cyl_Y hw (hy h2)⟩
    · exact ⟨_, _, rfl, rfl, cyl_Z hw (hz h3)⟩
    · obtain ⟨q, hq, hs⟩ := cyl_gq ht hw h1
      exact ⟨_, .ofFun q.eval, by rw [hq]; rfl, rfl, hs⟩
    · exact ⟨_, _, rfl, rfl, cyl_cm hw _⟩
  | cone s =>
    obtain ⟨hx, hy, hz⟩ := he
    replace hw : s.axis.sq = 1 := hw
    have cX := coneFun_X (s := s)
    have cY := coneFun_Y (s := s)
    have cZ := coneFun_Z (s := s)
    simp only [sq (Real.tan s.semiAngle)] at cX cY cZ
    simp only [omcPySurface, omcPyCone, normalize_unit hw, Surface.omcRegion]
    split_ifs with h1 h2 h3 h4
    · refine ⟨_, _, rfl, rfl, cone_same hw (fun p => ?_)⟩
      rw [sq (Real.tan _)]; exact cX (hx h1) p
    · refine ⟨_, _, rfl, rfl, cone_same hw (fun p => ?_)⟩
      rw [sq (Real.tan _)]; exact cY (hy h2) p
    · refine ⟨_, _, rfl, rfl, cone_same hw (fun p => ?_)⟩
      rw [sq (Real.tan _)]; exact cZ (hz h3) p
    · obtain ⟨q, hq, hs⟩ := cone_gq ht hw h1
      exact ⟨_, .ofFun q.eval, by rw [hq]; rfl, rfl, hs⟩
    · refine ⟨_, _, rfl, rfl, sameInCm_trans_iff (cone_cm hw (Real.tan s.semiAngle)) (fun p => ?_)⟩
      exact ⟨(cone_abs _ _ _ p).1.symm, (cone_abs _ _ _ p).2.symm⟩
  | sph s => exact ⟨_, _, rfl, rfl, sph_same s⟩
  | tor s => exact absurd hn not_false

/-- C48 is false of the code (1): the XML type of a torus with an oblique axis is `None`. -/
theorem C48_oblique_torus_violated : ¬ C48_xml_statement := by
  intro h
  let s : TorP := { center := ⟨0, 0, 0⟩, axis := oblique, major := 2, minor := 1 }
  obtain ⟨n1, n2, n3⟩ := oblique_exact (tol := (absTol (1 / 10000)).angle) (by norm_num [absTol])
  obtain ⟨c, r, h1, h2, _⟩ := h (absTol (1 / 10000)) (.tor s) ⟨by norm_num [absTol], by norm_num [absTol]⟩
    ⟨oblique_sq, by norm_num [s]⟩ ⟨fun h => absurd h n1, fun h => absurd h n2, fun h => absurd h n3⟩
  have : ∃ l, omcXmlTor (absTol (1 / 10000)) s = some ⟨"", l⟩ := by
    unfold omcXmlTor
    rw [normalize_unit oblique_sq]
    dsimp only
    rw [if_neg n1, if_neg n2, if_neg n3]
    exact ⟨_, rfl⟩
  obtain ⟨l, this⟩ := this
  simp only [omcXmlSurface, this, Option.some.injEq] at h1
  subst h1
  simp [omcXmlMeaning] at h2

/-- C48 is false of the code (2): in the Python output every torus, whatever its axis, is written with keywords (`r`, `r1`,
`r2`) which the class does not have. -/
theorem C48_py_torus_violated (t : Tol) (q : Bool) (s : TorP) (c : PyCall) (h : omcPySurface t q (.tor s) = some c) :
    omcPyMeaning c.cls c.kws = none := by
  simp only [omcPySurface, omcPyTor] at h
  split at h
  · cases h
  · simp only [Option.some.injEq] at h
    subst h
    split_ifs <;> rfl

theorem C48_py_violated : ¬ C48_py_statement := by
  intro h
  let s : TorP := { center := ⟨0, 0, 0⟩, axis := vZ, major := 2, minor := 1 }
  have hz : ∀ e : Vec, e.sq = 1 → vZ.dot e = 0 → ¬ isParallel vZ e (1 / 10000) := by
    intro e he h0
    unfold isParallel isSameValue getAngle
    rw [unit_len vZ_sq, unit_len he, h0, zero_div, Real.arccos_zero, abs_of_pos (by linarith [Real.pi_pos])]
    have := Real.pi_gt_three
    rintro (h | h)
    · linarith
    · have := (abs_lt.1 h).1; linarith
  obtain ⟨c, r, h1, h2, _⟩ := h (absTol (1 / 10000)) false (.tor s) ⟨by norm_num [absTol], by norm_num [absTol]⟩
    ⟨vZ_sq, by norm_num [s]⟩
    ⟨fun h => absurd h (hz _ vX_sq (by norm_num [vX, vZ, Vec.dot])),
     fun h => absurd h (hz _ vY_sq (by norm_num [vY, vZ, Vec.dot])), fun _ => .inl rfl⟩ (by simp [Surface.NoObliqueTorus, Aligned, s])
  rw [C48_py_torus_violated _ _ _ _ h1] at h2
  cases h2

/-! ## C49 -/

/-- C49, full statement -/
def C49_statement : Prop := ∀ (t : Tol) (prnt3P : Bool) (id : ℝ) (S : Surface), SaneTol t → S.WellFormed → S.Exact t →
  S.NoObliqueTorus →
  ∃ c r, serpentSurface t prnt3P id S = some c ∧ serpentMeaning c = some (id, r) ∧ SameInCm (S.mcnpRegion prnt3P) r

/-- the surfaces which Serpent cards are right for: planes, cylinders along X and Y, spheres, tori along an axis -/
def Surface.SerpentFine : Surface → Prop
  | .cyl s => s.axis = vX ∨ s.axis = vX.neg ∨ s.axis = vY ∨ s.axis = vY.neg
  | .cone _ => False
  | .tor s => Aligned s.axis
  | _ => True

/-- C49 for planes, cylinders along X or Y, spheres and aligned tori. -/
theorem C49_serpent_cards_partial (t : Tol) (prnt3P : Bool) (id : ℝ) (S : Surface) (ht : SaneTol t) (hw : S.WellFormed)
    (he : S.Exact t) (hn : S.SerpentFine) :
    ∃ c r, serpentSurface t prnt3P id S = some c ∧ serpentMeaning c = some (id, r) ∧ SameInCm (S.mcnpRegion prnt3P) r := by
  cases S with
  | plane s =>
    obtain ⟨hx, hy, hz⟩ := he
    have gen : ∃ r, serpentMeaning (serpentPlaneGen t id s) = some (id, r) ∧ SameInCm (planeRegion s.pos s.axis) r := by
      unfold serpentPlaneGen
      split_ifs with h1 h2 h3
      · exact ⟨_, rfl, plane_X (hx h1) _ rfl⟩
      · exact ⟨_, rfl, plane_Y (hy h2) _ rfl⟩
      · exact ⟨_, rfl, plane_Z (hz h3) _ rfl⟩
      · exact ⟨_, rfl, plane_gen s _ rfl⟩
    obtain ⟨rg, g1, g2⟩ := gen
    simp only [serpentSurface, Option.some.injEq, serpentPlane, Surface.mcnpRegion]
    cases hp : s.points with
    | none => exact ⟨_, rg, rfl, g1, g2⟩
    | some pts =>
      obtain ⟨p1, p2, p3⟩ := pts
      cases prnt3P with
      | false => exact ⟨_, rg, rfl, g1, g2⟩
      | true =>
        refine ⟨_, _, rfl, rfl, ?_⟩
        rw [vec10, vec10, vec10]
        exact threePointRegion_cm p1 p2 p3
  | cyl s =>
    obtain ⟨hx, hy, hz⟩ := he
    replace hw : s.axis.sq = 1 := hw
    simp only [serpentSurface, serpentCyl, normalize_unit hw, Surface.mcnpRegion]
    by_cases h1 : isParallel s.axis vX t.angle
    · rw [if_pos h1]; exact ⟨_, _, rfl, rfl, cyl_X hw (hx h1)⟩
    by_cases h2 : isParallel s.axis vY t.angle
    · rw [if_neg h1, if_pos h2]; exact ⟨_, _, rfl, rfl, cyl_Y hw (hy h2)⟩
    exfalso
    rcases hn with h | h | h | h <;> rw [h] at h1 h2
    · exact h1 (isParallel_self vX_sq ht.1)
    · exact h1 (isParallel_neg vX_sq ht.1)
    · exact h2 (isParallel_self vY_sq ht.1)
    · exact h2 (isParallel_neg vY_sq ht.1)
  | cone s => exact absurd hn not_false
  | sph s => exact ⟨_, _, rfl, rfl, sph_same s⟩
  | tor s =>
    obtain ⟨hx, hy, hz⟩ := he
    obtain ⟨hu, hr⟩ := hw
    simp only [serpentSurface, serpentTor, normalize_unit hu]
    change ∃ c r, _ ∧ _ ∧ SameInCm s.region r
    by_cases h1 : isParallel s.axis vX t.angle
    · rw [if_pos h1]; exact ⟨_, _, rfl, rfl, tor_X hu hr (hx h1)⟩
    by_cases h2 : isParallel s.axis vY t.angle
    · rw [if_neg h1, if_pos h2]; exact ⟨_, _, rfl, rfl, tor_Y hu hr (hy h2)⟩
    by_cases h3 : isParallel s.axis vZ t.angle
    · rw [if_neg h1, if_neg h2, if_pos h3]; exact ⟨_, _, rfl, rfl, tor_Z hu hr (hz h3)⟩
    exact absurd hn (not_aligned ht.1 h1 h2 h3)

/-- C49 is false of the code: no cone ever gets a card that Serpent can read ... -/
theorem C49_cone_violated (t : Tol) (b : Bool) (id : ℝ) (s : ConeP) (c : List Tok)
    (h : serpentSurface t b id (.cone s) = some c) : serpentMeaning c = none := by
  simp only [serpentSurface, serpentCone] at h
  split_ifs at h
  · cases h; rfl
  · cases h; rfl
  · cases h; rfl
  · cases hq : qFormCone (Vec.smul (1 / 10) s.axis) (Vec.smul (1 / 10) s.apex) (Real.tan s.semiAngle) with
    | none => rw [hq] at h; cases h
    | some q => rw [hq] at h; cases h; rfl

/-- ... and no cylinder along Z, nor any oblique one, does. -/
theorem C49_cylinder_violated (t : Tol) (b : Bool) (id : ℝ) (s : CylP) (c : List Tok)
    (h : serpentSurface t b id (.cyl s) = some c) (hu : s.axis.sq = 1) (hx : ¬ isParallel s.axis vX t.angle)
    (hy : ¬ isParallel s.axis vY t.angle) : serpentMeaning c = none := by
  simp only [serpentSurface, serpentCyl, normalize_unit hu, if_neg hx, if_neg hy] at h
  split_ifs at h
  · cases h; rfl
  · cases hq : qFormCyl s.axis (Vec.smul (1 / 10) s.center) (s.radius * (1 / 10)) with
    | none => rw [hq] at h; cases h
    | some q => rw [hq] at h; cases h; rfl

theorem C49_violated : ¬ C49_statement := by
  intro h
  obtain ⟨n1, n2, n3⟩ := oblique_exact (tol := (absTol (1 / 10000)).angle) (by norm_num [absTol])
  obtain ⟨c, r, h1, h2, _⟩ := h (absTol (1 / 10000)) false 1 (.cyl ⟨⟨0, 0, 0⟩, oblique, 1⟩)
    ⟨by norm_num [absTol], by norm_num [absTol]⟩ oblique_sq
    ⟨fun h => absurd h n1, fun h => absurd h n2, fun h => absurd h n3⟩ trivial
  rw [C49_cylinder_violated _ _ _ _ _ h1 oblique_sq n1 n2] at h2
  cases h2

/-- C38, complement: the three-point convention determines the plane, its distance and its sense. -/
theorem C38_convention_unique (p1 p2 p3 a b : Vec) (d e : ℝ) (hn : NonCollinear p1 p2 p3)
    (ha : ThreePoint p1 p2 p3 a d) (hb : ThreePoint p1 p2 p3 b e) : a = b ∧ d = e := by
  obtain ⟨ua, a1, a2, a3, ad, ac⟩ := ha
  obtain ⟨ub, b1, b2, b3, bd, bc⟩ := hb
  set n := (p2.sub p1).cross (p3.sub p1) with hnn
  have hN : n.sq ≠ 0 := hn
  have par : ∀ (v : Vec) (f : ℝ), v.dot p1 = f → v.dot p2 = f → v.dot p3 = f → Vec.smul n.sq v = Vec.smul (v.dot n) n := by
    intro v f h1 h2 h3
    have e1 : v.dot (p2.sub p1) = 0 := by simp only [Vec.dot, Vec.sub] at *; linarith
    have e2 : v.dot (p3.sub p1) = 0 := by simp only [Vec.dot, Vec.sub] at *; linarith
    set u := p2.sub p1
    set w := p3.sub p1
    simp only [Vec.dot] at e1 e2
    have cx : v.y * n.z - v.z * n.y = 0 := by
      rw [hnn]; simp only [Vec.cross]; linear_combination u.x * e2 - w.x * e1
    have cy : v.z * n.x - v.x * n.z = 0 := by
      rw [hnn]; simp only [Vec.cross]; linear_combination u.y * e2 - w.y * e1
    have cz : v.x * n.y - v.y * n.x = 0 := by
      rw [hnn]; simp only [Vec.cross]; linear_combination u.z * e2 - w.z * e1
    ext <;> simp only [Vec.smul, Vec.sq, Vec.dot]
    · linear_combination n.y * cz - n.z * cy
    · linear_combination n.z * cx - n.x * cz
    · linear_combination n.x * cy - n.y * cx
  have pa := par a d a1 a2 a3
  have pb := par b e b1 b2 b3
  have nrm : ∀ v : Vec, v.sq = 1 → Vec.smul n.sq v = Vec.smul (v.dot n) n → (v.dot n) ^ 2 = n.sq := by
    intro v hv h
    have h2 : (Vec.smul n.sq v).sq = (Vec.smul (v.dot n) n).sq := by rw [h]
    rw [sq_smul, sq_smul, hv, mul_one] at h2
    have : n.sq * (n.sq - (v.dot n) ^ 2) = 0 := by linear_combination h2
    rcases mul_eq_zero.1 this with h | h
    · exact absurd h hN
    · linarith
  have hab : (a.dot n) ^ 2 = (b.dot n) ^ 2 := by rw [nrm a ua pa, nrm b ub pb]
  have cancel : ∀ v w : Vec, Vec.smul n.sq v = Vec.smul n.sq w → v = w := by
    intro v w h
    simp only [Vec.smul, Vec.mk.injEq] at h
    ext
    · exact mul_left_cancel₀ hN h.1
    · exact mul_left_cancel₀ hN h.2.1
    · exact mul_left_cancel₀ hN h.2.2
  rcases sq_eq_sq_iff_eq_or_eq_neg.1 hab with h | h
  · have : a = b := cancel _ _ (by rw [pa, pb, h])
    subst this
    exact ⟨rfl, a1.symm.trans b1⟩
  · exfalso
    have hneg : a = b.neg := by
      apply cancel
      rw [pa, h]
      have : Vec.smul n.sq b.neg = (Vec.smul n.sq b).neg := by ext <;> simp only [Vec.smul, Vec.neg] <;> ring
      rw [this, pb]
      ext <;> simp only [Vec.smul, Vec.neg] <;> ring
    have hde : d = -e := by
      rw [← a1, ← b1, hneg]; simp only [Vec.dot, Vec.neg]; ring
    have hd : d = 0 := by linarith
    have he : e = 0 := by linarith
    obtain ⟨az, azc⟩ := ac hd
    obtain ⟨bz, bzc⟩ := bc he
    have ez : a.z = -b.z := by rw [hneg]; rfl
    have ey : a.y = -b.y := by rw [hneg]; rfl
    have ex : a.x = -b.x := by rw [hneg]; rfl
    obtain ⟨ay, ayc⟩ := azc (by linarith)
    obtain ⟨bY, bYc⟩ := bzc (by linarith)
    have := ayc (by linarith)
    have := bYc (by linarith)
    linarith

end Geouned.Geom
