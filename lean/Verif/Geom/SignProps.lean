import Verif.Geom.Sign
import Verif.Geom.CardProps
/-!
# C130: the sign used for the constraint tables is the side of the surface in the output

Sides of surfaces and meaning of the cards: `Geom/CardSpec.lean`; `Surface.mcnpRegion`, `Surface.omcRegion`: `Geom/CardProps.lean`.
-/
namespace Geouned.Geom

/-! ## Statement -/

/-- sizes as a CAD kernel gives them: radii are not negative, a cone opens by an angle between 0 and a right angle -/
def Surface.Sized : Surface → Prop
  | .plane _ => True
  | .cyl s => 0 ≤ s.radius
  | .cone s => 0 < s.semiAngle ∧ s.semiAngle < Real.pi / 2
  | .sph s => 0 ≤ s.radius
  | .tor _ => True

/-- the sign at a point off the surface says the side the point is on -/
def SignIsSide (S : Surface) (r : Region) : Prop := ∀ p, (r.pos p → checkSign p S = some 1) ∧ (r.neg p → checkSign p S = some (-1))

/-- the claim: for every surface the sign is the side in MCNP (planes written by their equation) -/
def C130_statement : Prop := ∀ S : Surface, S.WellFormed → S.Sized → SignIsSide S (S.mcnpRegion false)

/-! ## Proofs -/

theorem len_mul_self (a : Vec) : a.len * a.len = a.sq :=
  Real.mul_self_sqrt (by simp only [Vec.sq, Vec.dot]; nlinarith [sq_nonneg a.x, sq_nonneg a.y, sq_nonneg a.z])

theorem len_nonneg (a : Vec) : 0 ≤ a.len := Real.sqrt_nonneg _

/-- **C130**, planes -/
theorem C130_plane (s : PlaneP) : SignIsSide (.plane s) (planeRegion s.pos s.axis) := by
  intro p
  constructor <;> intro h <;> simp only [planeRegion, Region.ofFun] at h
  · simp only [checkSign, gt_iff_lt, h, if_true]
  · simp only [checkSign, gt_iff_lt, if_neg (not_lt.2 h.le)]

/-- **C130**, cylinders -/
theorem C130_cylinder (s : CylP) (hu : s.axis.sq = 1) : SignIsSide (.cyl s) (cylRegion s.center s.axis s.radius) := by
  intro p
  have e : (p.sub s.center).len * (p.sub s.center).len - s.axis.dot (p.sub s.center) * s.axis.dot (p.sub s.center) = axDist s.center s.axis p := by
    rw [len_mul_self]; simp only [axDist, height]; ring
  simp only [cylRegion, inCyl_unit hu, outCyl_unit hu, checkSign, e]
  constructor <;> intro h
  · rw [if_pos (by nlinarith)]
  · rw [if_neg (by nlinarith)]

/-- **C130**, spheres -/
theorem C130_sphere (s : SphP) (hr : 0 ≤ s.radius) : SignIsSide (.sph s) (sphRegion s.center s.radius) := by
  intro p
  have e := len_mul_self (p.sub s.center)
  have n := len_nonneg (p.sub s.center)
  simp only [sphRegion, Region.ofFun, distSq, checkSign]
  constructor <;> intro h
  · rw [if_pos (by nlinarith)]
  · rw [if_neg (by nlinarith)]

theorem dot_zero_of_len {a r : Vec} (h : r.len = 0) : a.dot r = 0 := by
  have h2 : r.x ^ 2 + r.y ^ 2 + r.z ^ 2 = 0 := by
    have := len_mul_self r
    rw [h] at this
    simp only [Vec.sq, Vec.dot] at this
    linarith
  have hx : r.x = 0 := by
    have : r.x ^ 2 = 0 := le_antisymm (by linarith [sq_nonneg r.y, sq_nonneg r.z]) (sq_nonneg _)
    exact pow_eq_zero_iff (two_ne_zero) |>.1 this
  have hy : r.y = 0 := by
    have : r.y ^ 2 = 0 := le_antisymm (by linarith [sq_nonneg r.x, sq_nonneg r.z]) (sq_nonneg _)
    exact pow_eq_zero_iff (two_ne_zero) |>.1 this
  have hz : r.z = 0 := by
    have : r.z ^ 2 = 0 := le_antisymm (by linarith [sq_nonneg r.x, sq_nonneg r.y]) (sq_nonneg _)
    exact pow_eq_zero_iff (two_ne_zero) |>.1 this
  simp [Vec.dot, hx, hy, hz]

theorem cos_bound {a r : Vec} (hu : a.sq = 1) (hl : 0 < r.len) : -1 ≤ a.dot r / r.len ∧ a.dot r / r.len ≤ 1 := by
  have hcs : (a.dot r) ^ 2 ≤ r.len ^ 2 := by
    have : (a.dot r) ^ 2 ≤ a.sq * r.sq := by
      simp only [Vec.dot, Vec.sq]
      nlinarith [sq_nonneg (a.x * r.y - a.y * r.x), sq_nonneg (a.y * r.z - a.z * r.y), sq_nonneg (a.z * r.x - a.x * r.z)]
    rw [hu, one_mul, ← len_mul_self] at this
    linarith [sq r.len]
  have := abs_le.1 (abs_le_of_sq_le_sq hcs hl.le)
  rw [le_div_iff₀ hl, div_le_iff₀ hl]
  constructor <;> linarith [this.1, this.2]

/-- the sign of a cone in terms of the length and the height -/
theorem cone_sign (s : ConeP) (hu : s.axis.sq = 1) (h0 : 0 < s.semiAngle) (h1 : s.semiAngle < Real.pi / 2) (p : Vec) (hl : (p.sub s.apex).len ≠ 0) :
    checkSign p (.cone s) = some (if s.axis.dot (p.sub s.apex) < Real.cos s.semiAngle * (p.sub s.apex).len then 1 else -1) := by
  generalize hr : p.sub s.apex = r at *
  have hl' : 0 < r.len := lt_of_le_of_ne (len_nonneg r) (Ne.symm hl)
  have hd : s.axis.dot (Vec.smul (1 / r.len) r) = s.axis.dot r / r.len := by
    simp only [Vec.dot, Vec.smul]; ring
  obtain ⟨b1, b2⟩ := cos_bound hu hl'
  have key : s.semiAngle < Real.arccos (s.axis.dot r / r.len) ↔ s.axis.dot r < Real.cos s.semiAngle * r.len := by
    rw [← div_lt_iff₀ hl']
    constructor
    · intro g
      have := Real.strictAntiOn_cos ⟨h0.le, by linarith [Real.pi_pos]⟩ ⟨Real.arccos_nonneg _, Real.arccos_le_pi _⟩ g
      rwa [Real.cos_arccos b1 b2] at this
    · intro g
      by_contra hcon
      have := Real.strictAntiOn_cos.antitoneOn ⟨Real.arccos_nonneg _, Real.arccos_le_pi _⟩ ⟨h0.le, by linarith [Real.pi_pos]⟩ (not_lt.1 hcon)
      rw [Real.cos_arccos b1 b2] at this
      linarith
  simp only [checkSign, Vec.normalize, hr, if_neg hl, bind, Option.bind, hd, gt_iff_lt, key]

/-- **C130**, cones: the sign knows only the sheet towards which the axis points -/
theorem C130_cone (s : ConeP) (hu : s.axis.sq = 1) (h0 : 0 < s.semiAngle) (h1 : s.semiAngle < Real.pi / 2) :
    SignIsSide (.cone s) (sheetRegion s.apex s.axis (Real.tan s.semiAngle)) := by
  intro p
  have hc : 0 < Real.cos s.semiAngle := Real.cos_pos_of_mem_Ioo ⟨by linarith, h1⟩
  have hsc := Real.sin_sq_add_cos_sq s.semiAngle
  have ht : Real.tan s.semiAngle ^ 2 * Real.cos s.semiAngle ^ 2 = Real.sin s.semiAngle ^ 2 := by
    rw [Real.tan_eq_sin_div_cos, div_pow, div_mul_cancel₀]
    exact pow_ne_zero _ hc.ne'
  have n := len_nonneg (p.sub s.apex)
  have sgn := cone_sign s hu h0 h1 p
  have e : axDist s.apex s.axis p = (p.sub s.apex).len ^ 2 - s.axis.dot (p.sub s.apex) ^ 2 := by rw [sq (Vec.len _), len_mul_self]; rfl
  have eh : height s.apex s.axis p = s.axis.dot (p.sub s.apex) := rfl
  simp only [sheetRegion, inCone_unit hu, outCone_unit hu, e, eh]
  have hz := fun hl : (p.sub s.apex).len = 0 => dot_zero_of_len (a := s.axis) hl
  generalize (p.sub s.apex).len = l at *
  generalize s.axis.dot (p.sub s.apex) = h at *
  generalize Real.cos s.semiAngle = c at *
  have key : (l ^ 2 - h ^ 2 - Real.tan s.semiAngle ^ 2 * h ^ 2) * c ^ 2 = (c * l) ^ 2 - h ^ 2 := by
    have : (l ^ 2 - h ^ 2 - Real.tan s.semiAngle ^ 2 * h ^ 2) * c ^ 2 = (c * l) ^ 2 - (Real.tan s.semiAngle ^ 2 * c ^ 2 + c ^ 2) * h ^ 2 := by ring
    rw [this, ht, hsc, one_mul]
  have hc2 : 0 < c ^ 2 := pow_pos hc 2
  constructor
  · intro hp
    have hl : l ≠ 0 := by
      intro hl
      have h0 := hz hl
      rcases hp with hp | hp
      · rw [hl, h0] at hp; simp at hp
      · rw [h0] at hp; exact lt_irrefl 0 hp
    have hl' : 0 < l := lt_of_le_of_ne n (Ne.symm hl)
    rw [sgn hl, if_pos]
    rcases hp with hp | hp
    · have h3 := mul_pos hp hc2
      rw [key] at h3
      exact lt_of_pow_lt_pow_left₀ 2 (mul_pos hc hl').le (by linarith)
    · exact lt_trans hp (mul_pos hc hl')
  · rintro ⟨hp, hp2⟩
    have hl : l ≠ 0 := by
      intro hl
      rw [hz hl] at hp2; exact lt_irrefl 0 hp2
    have hl' : 0 < l := lt_of_le_of_ne n (Ne.symm hl)
    rw [sgn hl, if_neg]
    have h3 := mul_neg_of_neg_of_pos hp hc2
    rw [key] at h3
    exact not_lt.2 (le_of_lt (lt_of_pow_lt_pow_left₀ 2 hp2.le (by linarith)))

/-- **C130**, tori: the sign is that of the outer part -/
theorem C130_torus (s : TorP) (hu : s.axis.sq = 1) (hm : 0 < s.minor) : SignIsSide (.tor s) (torRegion s.center s.axis s.major s.minor) := by
  intro p
  have e1 : (p.sub s.center).dot s.axis = height s.center s.axis p := by simp only [height, Vec.dot]; ring
  have e2 : ((p.sub s.center).sub (Vec.smul (height s.center s.axis p) s.axis)).len = Real.sqrt (axDist s.center s.axis p) := by
    simp only [Vec.len]; rw [offset_sq hu]
  have e3 : ∀ x : ℝ, 0 ≤ x → (s.minor < Real.sqrt x ↔ s.minor ^ 2 < x) := fun x hx => by
    rw [Real.lt_sqrt hm.le]
  simp only [tor_pos_unit hu, tor_neg_unit hu, checkSign, e1, e2, gt_iff_lt]
  have nn : 0 ≤ (Real.sqrt (axDist s.center s.axis p) - s.major) ^ 2 + height s.center s.axis p ^ 2 := by positivity
  constructor <;> intro h
  · rw [if_pos ((e3 _ nn).2 (by linarith))]
  · rw [if_neg (by rw [e3 _ nn]; linarith)]

/-- **C130**, partial: the sign is the side in MCNP for every surface except cones that are not along a coordinate axis (two sheets in the output) and the inner part of a torus that cuts itself -/
theorem C130_sign_partial (S : Surface) (hw : S.WellFormed) (hz : S.Sized) (hc : ∀ s, S = .cone s → Aligned s.axis) (ht : ∀ s, S = .tor s → s.minor ≤ s.major ∨ s.aSign = 1) :
    SignIsSide S (S.mcnpRegion false) := by
  cases S with
  | plane s =>
    have : (Surface.plane s).mcnpRegion false = planeRegion s.pos s.axis := by
      simp only [Surface.mcnpRegion]
      split
      · next h => cases h
      · rfl
    rw [this]; exact C130_plane s
  | cyl s => exact C130_cylinder s hw
  | cone s => simp only [Surface.mcnpRegion, if_pos (hc s rfl)]; exact C130_cone s hw hz.1 hz.2
  | sph s => exact C130_sphere s hz
  | tor s =>
    have : (if s.minor > s.major then s.major * s.aSign else s.major) = s.major := by
      rcases ht s rfl with h | h
      · rw [if_neg (not_lt.2 h)]
      · rw [h, mul_one]; split <;> rfl
    simp only [Surface.mcnpRegion, this]; exact C130_torus s hw.1 hw.2

/-- **C130**, partial, with the card that is written (C47): a point (in mm) has the sign +1 (-1) when the card, read by the manual, has it (in cm) on its positive (negative) side -/
theorem C130_card_partial (t : Tol) (S : Surface) (hT : SaneTol t) (hw : S.WellFormed) (he : S.Exact t) (hn : S.NoObliqueTorus) (hz : S.Sized) (hc : ∀ s, S = .cone s → Aligned s.axis)
    (ht : ∀ s, S = .tor s → s.minor ≤ s.major ∨ s.aSign = 1) :
    ∃ c r, mcnpSurface t false S = some c ∧ mcnpMeaning c.mn c.args = some r ∧
      ∀ p, (r.pos (Vec.smul (1 / 10) p) → checkSign p S = some 1) ∧ (r.neg (Vec.smul (1 / 10) p) → checkSign p S = some (-1)) := by
  obtain ⟨c, r, h1, h2, h3⟩ := C47_surface_cards_partial t false S hT hw he hn
  refine ⟨c, r, h1, h2, fun p => ?_⟩
  have := C130_sign_partial S hw hz hc ht p
  exact ⟨fun h => this.1 ((h3 p).2.2 h), fun h => this.2 ((h3 p).1.2 h)⟩

/-! ## Where the claim is false -/

/-- an oblique cone of half angle 45 degrees with its apex at the origin -/
noncomputable def obliqueCone : ConeP := ⟨⟨0, 0, 0⟩, oblique, Real.pi / 4⟩

/-- **C130** is false of oblique cones: the point opposite to the axis is inside the surface of the output and outside for the constraint table -/
theorem C130_oblique_cone_violated : ¬ C130_statement := by
  intro h
  have hp := Real.pi_pos
  have h1 := (h (.cone obliqueCone) oblique_sq ⟨by simp only [obliqueCone]; linarith, by simp only [obliqueCone]; linarith⟩ oblique.neg).2
  have hna : ¬ Aligned oblique := by
    rintro (g | g | g | g | g | g) <;> have := congrArg Vec.y g <;> norm_num [oblique, vX, vY, vZ, Vec.neg] at this
  have hneg : ((Surface.cone obliqueCone).mcnpRegion false).neg oblique.neg := by
    have hna' : ¬ Aligned obliqueCone.axis := hna
    simp only [Surface.mcnpRegion, if_neg hna', coneRegion]
    simp only [obliqueCone]
    rw [inCone_unit oblique_sq, Real.tan_pi_div_four]
    norm_num [axDist, height, oblique, Vec.sub, Vec.neg, Vec.dot, Vec.sq]
  have hs := (C130_cone obliqueCone oblique_sq (by simp only [obliqueCone]; linarith) (by simp only [obliqueCone]; linarith) oblique.neg).1
    (.inr (by norm_num [obliqueCone, oblique, Vec.sub, Vec.neg, Vec.dot]))
  rw [hs] at h1
  exact absurd (h1 hneg) (by simp)

/-- the inner part of a torus that cuts itself -/
noncomputable def lemon : TorP := { center := ⟨0, 0, 0⟩, axis := vZ, major := 1, minor := 2, aSign := -1 }

/-- **C130** is false of the inner part of a torus that cuts itself: a point between the two parts is outside the surface of the output and inside for the constraint table -/
theorem C130_inner_torus_violated : ((Surface.tor lemon).mcnpRegion false).pos ⟨2, 0, 0⟩ ∧ checkSign ⟨2, 0, 0⟩ (.tor lemon) = some (-1) := by
  have e : axDist ⟨0, 0, 0⟩ vZ ⟨2, 0, 0⟩ = 2 ^ 2 := by norm_num [axDist, height, vZ, Vec.sub, Vec.dot, Vec.sq]
  have e2 : Real.sqrt (axDist ⟨0, 0, 0⟩ vZ ⟨2, 0, 0⟩) = 2 := by rw [e]; exact Real.sqrt_sq (by norm_num)
  have e3 : height ⟨0, 0, 0⟩ vZ ⟨2, 0, 0⟩ = 0 := by norm_num [height, vZ, Vec.sub, Vec.dot]
  constructor
  · simp only [Surface.mcnpRegion, lemon]
    rw [tor_pos_unit vZ_sq, e2, e3]
    norm_num
  · refine (C130_torus lemon vZ_sq (by norm_num [lemon]) _).2 ?_
    simp only [lemon]
    rw [tor_neg_unit vZ_sq, e2, e3]
    norm_num

/-! ## non-vacuity -/

example : ∃ p, (coneRegion ⟨0, 0, 0⟩ vZ (Real.tan (Real.pi / 4))).neg p ∧ (sheetRegion ⟨0, 0, 0⟩ vZ (Real.tan (Real.pi / 4))).pos p := by
  refine ⟨⟨0, 0, -1⟩, ?_, .inr ?_⟩
  · simp only [coneRegion]; rw [inCone_unit vZ_sq, Real.tan_pi_div_four]; norm_num [axDist, height, vZ, Vec.sub, Vec.dot, Vec.sq]
  · norm_num [vZ, Vec.sub, Vec.dot]

example : (Surface.cone ⟨⟨0, 0, 0⟩, vZ, Real.pi / 4⟩).WellFormed ∧ (Surface.cone ⟨⟨0, 0, 0⟩, vZ, Real.pi / 4⟩).Sized ∧ Aligned vZ :=
  ⟨vZ_sq, ⟨by have := Real.pi_pos; simp only; linarith, by have := Real.pi_pos; simp only; linarith⟩, by simp [Aligned]⟩

end Geouned.Geom
