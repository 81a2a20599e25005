import Verif.RSurf.LoopLemmas
/-!
# C71: surface cards read by GEOReverse bound the regions that MCNP says

`cardMeaning` (`RSurf/Spec.lean`) is the MCNP manual; `surfaceSide p s` is what the reverse tool uses to decide on which side of the surface `s` the point `p` (in mm) is.
-/
namespace Geouned.RSurf
open Geouned.Geom

/-- Full property: every list of surface cards (without transformation) gives one surface per card, with the card's name and with the sides of the manual. -/
def C71_statement : Prop :=
  ∀ cs : List SCard, (cs.map (·.name)).Nodup → (∀ c ∈ cs, c.tr = none ∧ (cardMeaning c.mn c.args).isSome) →
    ∃ ss, getSurfaces cs = some ss ∧ ss.length = cs.length ∧
      ∀ (i : Nat) c, cs[i]? = some c → ∃ s, ss[i]? = some (c.name, s) ∧
        ∀ r, cardMeaning c.mn c.args = some r → ∀ p, (r.pos p → surfaceSide (mm p) s = some true) ∧ (r.neg p → surfaceSide (mm p) s = some false)

/-- a card X, Y or Z with two points that have (up to 1e-12) the same radius, or are at the same height, or of which one lies on the axis -/
def TwoPointTrouble (mn : String) (args : List ℝ) : Prop :=
  (mn = "X" ∨ mn = "Y" ∨ mn = "Z") ∧ ∃ x1 r1 x2 r2, args = [x1, r1, x2, r2] ∧ (|r1 - r2| ≤ 1 / 10 ^ 12 ∨ r1 = 0 ∨ r2 = 0 ∨ x1 = x2)

/-- Without the troublesome cards given by two points, the property holds at all points that lie on none of the infinite facets of a TRC or REC. -/
theorem C71_cards_read_partial (cs : List SCard) (hn : (cs.map (·.name)).Nodup) (h : ∀ c ∈ cs, c.tr = none ∧ (cardMeaning c.mn c.args).isSome ∧ ¬ TwoPointTrouble c.mn c.args) :
    ∃ ss, getSurfaces cs = some ss ∧ ss.length = cs.length ∧
      ∀ (i : Nat) c, cs[i]? = some c → ∃ s, ss[i]? = some (c.name, s) ∧
        ∀ r, cardMeaning c.mn c.args = some r → ∀ p, offFacets c.mn c.args p →
          (r.pos p → surfaceSide (mm p) s = some true) ∧ (r.neg p → surfaceSide (mm p) s = some false) := by
  have hg : ∀ c ∈ cs, ∃ s bp bR s', makeSurf c.mn c.args = some (.surf s bp bR) ∧ place c.tr s = some s' := by
    intro c hc
    obtain ⟨h1, h2, h3⟩ := h c hc
    obtain ⟨r, hr⟩ := Option.isSome_iff_exists.mp h2
    obtain ⟨s, bp, bR, e, _, _⟩ := good_card h3 hr
    exact ⟨s, bp, bR, s, e, by rw [h1]; rfl⟩
  obtain ⟨ss, e, el, ei⟩ := primLoop_map cs {} [] hg
  refine ⟨ss, by simpa [getSurfaces] using e, el, fun i c hi => ?_⟩
  obtain ⟨h1, h2, h3⟩ := h c (List.mem_of_getElem? hi)
  obtain ⟨s, bp, bR, s', e1, e2, e3⟩ := ei i c hi
  refine ⟨s', e3, fun r hr p hp => ?_⟩
  obtain ⟨s0, bp0, bR0, e0, _, ha⟩ := good_card h3 hr
  rw [e0] at e1
  have := some_surf e1
  subst this
  rw [h1] at e2
  simp only [place, Option.some.injEq] at e2
  subst e2
  exact ha p hp

/-- the hypotheses are met by a file with a plane, a cone of one sheet, a two-point cone, a box and a truncated cone -/
example : ∀ c ∈ ([⟨1, "P", [0, 0, 2, 6], none⟩, ⟨2, "KZ", [1, 4, -1], none⟩, ⟨3, "X", [0, 1, 5, 2], none⟩, ⟨4, "RPP", [0, 1, 0, 2, 0, 3], none⟩,
    ⟨5, "TRC", [0, 0, 0, 0, 0, 4, 2, 1], none⟩] : List SCard), c.tr = none ∧ (cardMeaning c.mn c.args).isSome ∧ ¬ TwoPointTrouble c.mn c.args := by
  intro c hc
  simp only [List.mem_cons, List.not_mem_nil, or_false] at hc
  rcases hc with e | e | e | e | e <;> subst e <;> refine ⟨rfl, ?_, ?_⟩
  · simp [cardMeaning, planeCards]
  · simp [TwoPointTrouble]
  · simp [cardMeaning, planeCards, sphereCards, cylCards, coneCards, coneCard]
  · simp [TwoPointTrouble]
  · simp [cardMeaning, planeCards, sphereCards, cylCards, coneCards, torusCards, pointCards, pointCard]
    norm_num
  · rintro ⟨_, x1, r1, x2, r2, e, h⟩
    simp only [List.cons.injEq, and_true] at e
    obtain ⟨rfl, rfl, rfl, rfl⟩ := e
    norm_num at h
  · simp [cardMeaning, planeCards, sphereCards, cylCards, coneCards, torusCards, pointCards, boxCards]
  · simp [TwoPointTrouble]
  · simp [cardMeaning, planeCards, sphereCards, cylCards, coneCards, torusCards, pointCards, boxCards, canCards, Vec.sq, Vec.dot]
  · simp [TwoPointTrouble]

/-- A cylinder given by two points as the first surface of a file: the reading raises, whatever follows. -/
theorem C71_two_point_cylinder_violated (n : Nat) (mn : String) (hmn : mn = "X" ∨ mn = "Y" ∨ mn = "Z") (x1 x2 r : ℝ) (hr : 1 / 10 ^ 12 ≤ r) (tr : Option Tr) (rest : List SCard) :
    getSurfaces (⟨n, mn, [x1, r, x2, r], tr⟩ :: rest) = none := by
  have hr0 : (0:ℝ) < r := lt_of_lt_of_le (by norm_num) hr
  have key : ∀ e ne : Vec, pointsMade e ne [x1, r, x2, r] = some (.stale e r) := by
    intro e ne
    have h1 : ¬ |r| < 1 / 10 ^ 12 := by rw [abs_of_pos hr0]; exact not_lt.mpr hr
    have h2 : ¬ (1 : ℝ) / 10 ^ 12 < |r - r| := by norm_num
    simp only [pointsMade, if_neg h1, if_neg h2]
  rw [getSurfaces, primLoop]
  rcases hmn with rfl | rfl | rfl
  · rw [made_X, key]; rfl
  · rw [made_Y, key]; rfl
  · rw [made_Z, key]; rfl

theorem C71_violated : ¬ C71_statement := by
  intro h
  have hm : (cardMeaning "X" [0, 1, 5, 1]).isSome := by
    simp [cardMeaning, planeCards, sphereCards, cylCards, coneCards, torusCards, pointCards, pointCard]
  obtain ⟨ss, e, -⟩ := h [⟨1, "X", [0, 1, 5, 1], none⟩] (by simp) (by simp [hm])
  rw [C71_two_point_cylinder_violated 1 "X" (.inl rfl) 0 5 1 (by norm_num)] at e
  simp at e

/-- The same card after another cylinder: the earlier cylinder is moved. The point (2, 0, 0) cm is the centre of the card `C/Z 2 0 1`, but on the positive side of the
surface that is made of it; and the new cylinder (radius 1 cm) has a radius of 1 mm: the point (0, 0.5, 0) is found outside. -/
theorem C71_earlier_cylinder_violated :
    ∃ s1 s2 r1 r2, getSurfaces [⟨1, "C/Z", [2, 0, 1], none⟩, ⟨2, "X", [0, 1, 5, 1], none⟩] = some [(1, s1), (2, s2)] ∧
      cardMeaning "C/Z" [2, 0, 1] = some r1 ∧ cardMeaning "X" [0, 1, 5, 1] = some r2 ∧
      r1.neg ⟨2, 0, 0⟩ ∧ surfaceSide (mm ⟨2, 0, 0⟩) s1 = some true ∧ r2.neg ⟨0, 1/2, 0⟩ ∧ surfaceSide (mm ⟨0, 1/2, 0⟩) s2 = some true := by
  have key : pointsMade vX nX [0, 1, 5, 1] = some (.stale vX 1) := by
    norm_num [pointsMade]
  have e1 : cardMeaning "C/Z" [2, 0, 1] = some (.ofFun (eqCylZ 2 0 1)) := by
    simp [cardMeaning, planeCards, sphereCards, cylCards]
  have e2 : cardMeaning "X" [0, 1, 5, 1] = some (revolution (fun p => p.x) (fun p => Real.sqrt (p.y ^ 2 + p.z ^ 2)) 0 1 5 1) := by
    simp [cardMeaning, planeCards, sphereCards, cylCards, coneCards, torusCards, pointCards, pointCard]
  refine ⟨.cyl (Vec.smul 10 (Vec.smul 10 ⟨2, 0, 0⟩)) vZ (1 * 10), .cyl ⟨0, 0, 0⟩ vX 1, _, _, ?_, e1, e2, ?_, ?_, ?_, ?_⟩
  · have h1 : makeSurf "C/Z" [2, 0, 1] = some (.surf (.cyl (Vec.smul 10 ⟨2, 0, 0⟩) vZ (1 * 10)) true true) := rfl
    simp only [getSurfaces, primLoop, h1, made_X, key, Option.bind_eq_bind, Option.bind_some, place, Option.isNone_none, if_true, Bool.or_true, List.nil_append,
      List.map_cons, List.map_nil, scalePoint, List.cons_append]
  · show eqCylZ 2 0 1 ⟨2, 0, 0⟩ < 0
    norm_num [eqCylZ]
  · apply cyl_out (by norm_num [vZ, Vec.sq, Vec.dot])
    norm_num [mm, Vec.smul, Vec.sub, Vec.sq, Vec.dot, vZ]
  · show Real.sqrt ((1/2 : ℝ) ^ 2 + 0 ^ 2) < lineRadius 0 1 5 1 0
    have : Real.sqrt ((1/2 : ℝ) ^ 2 + 0 ^ 2) = 1/2 := by
      rw [show ((1/2 : ℝ) ^ 2 + 0 ^ 2) = (1/2)^2 by norm_num]; exact Real.sqrt_sq (by norm_num)
    rw [this]; norm_num [lineRadius]
  · apply cyl_out (by norm_num [vX, Vec.sq, Vec.dot])
    norm_num [mm, Vec.smul, Vec.sub, Vec.sq, Vec.dot, vX]

/-- Two points at the same height (a plane in MCNP): division by zero. -/
theorem C71_same_height_violated (n : Nat) (x r1 r2 : ℝ) (h : 1 / 10 ^ 12 < |r1 - r2|) (tr : Option Tr) (rest : List SCard) :
    (∃ r, cardMeaning "X" [x, r1, x, r2] = some r) ∧ getSurfaces (⟨n, "X", [x, r1, x, r2], tr⟩ :: rest) = none := by
  have hne : r1 ≠ r2 := by
    rintro rfl; simp at h; norm_num at h
  constructor
  · refine ⟨.ofFun fun p => p.x - x, ?_⟩
    simp [cardMeaning, planeCards, sphereCards, cylCards, coneCards, torusCards, pointCards, pointCard, hne]
  · have key : pointsMade vX nX [x, r1, x, r2] = none := by
      simp only [pointsMade, if_pos h, sub_self, div?, if_true, Option.bind_eq_bind, Option.bind_none]
    rw [getSurfaces, primLoop, made_X, key]; rfl

/-- A first point on the axis (a cone with its apex there): a surface without parameters is made, and its side raises everywhere. -/
theorem C71_point_on_axis_violated (n : Nat) (x1 x2 r : ℝ) (hx : x1 ≠ x2) (hr : 1 / 10 ^ 12 < r) :
    (∃ m, cardMeaning "X" [x1, 0, x2, r] = some m) ∧
      ∃ s, getSurfaces [⟨n, "X", [x1, 0, x2, r], none⟩] = some [(n, s)] ∧ ∀ p, surfaceSide p s = none := by
  have hr0 : (0:ℝ) < r := lt_trans (by norm_num) hr
  constructor
  · refine ⟨revolution (fun p => p.x) (fun p => Real.sqrt (p.y ^ 2 + p.z ^ 2)) x1 0 x2 r, ?_⟩
    simp [cardMeaning, planeCards, sphereCards, cylCards, coneCards, torusCards, pointCards, pointCard, hx, hr0, hr0.le]
  · refine ⟨.bad, ?_, fun p => rfl⟩
    have h1 : (1 : ℝ) / 10 ^ 12 < |0 - r| := by rw [zero_sub, abs_neg, abs_of_pos hr0]; exact hr
    have h2 : x2 - x1 ≠ 0 := sub_ne_zero.mpr (Ne.symm hx)
    have h3 : (r - 0) / (x2 - x1) ≠ 0 := div_ne_zero (by simpa using hr0.ne') h2
    have key : pointsMade vX nX [x1, 0, x2, r] = some (.surf .bad false false) := by
      simp only [pointsMade, if_pos h1, div?_ne h2, div?_ne h3, Option.bind_eq_bind, Option.bind_some]
      simp
    rw [getSurfaces, primLoop, made_X, key]
    simp [place, primLoop]

/-- A truncated cone: the side of the apex of its (infinite) conical facet raises, although the point is outside the body. -/
theorem C71_trc_apex_violated :
    ∃ r s, cardMeaning "TRC" [0, 0, 0, 0, 0, 4, 2, 1] = some r ∧ getSurfaces [⟨1, "TRC", [0, 0, 0, 0, 0, 4, 2, 1], none⟩] = some [(1, s)] ∧
      r.pos ⟨0, 0, 8⟩ ∧ surfaceSide (mm ⟨0, 0, 8⟩) s = none := by
  refine ⟨trcRegion ⟨0, 0, 0⟩ ⟨0, 0, 4⟩ 2 1, .tcone (Vec.smul 10 ⟨0, 0, 0⟩) (Vec.smul 10 ⟨0, 0, 4⟩) (2 * 10) (1 * 10), ?_, ?_, ?_, ?_⟩
  · simp [cardMeaning, planeCards, sphereCards, cylCards, coneCards, torusCards, pointCards, boxCards, canCards, Vec.sq, Vec.dot]
  · have h1 : makeSurf "TRC" [0, 0, 0, 0, 0, 4, 2, 1] = some (.surf (.tcone (Vec.smul 10 ⟨0, 0, 0⟩) (Vec.smul 10 ⟨0, 0, 4⟩) (2 * 10) (1 * 10)) true false) := rfl
    simp only [getSurfaces, primLoop, h1, Option.bind_eq_bind, Option.bind_some, place, List.nil_append]
  · refine ⟨2, ⟨0, 0, 0⟩, ?_, .inr (.inl (by norm_num))⟩
    simp [Decomp, Vec.sub, Vec.add, Vec.smul, Vec.dot]; norm_num
  · norm_num [surfaceSide, inout, div?, mm, Vec.smul, Vec.sub, Vec.add, Vec.normalize, Vec.len, Vec.sq, Vec.dot]

/-- An elliptical cylinder: a point beyond its end, on the prolongation of the curved facet, is found inside. -/
theorem C71_rec_facet_violated :
    ∃ r s, cardMeaning "REC" [0, 0, 0, 0, 0, 4, 2, 0, 0, 0, 1, 0] = some r ∧ getSurfaces [⟨1, "REC", [0, 0, 0, 0, 0, 4, 2, 0, 0, 0, 1, 0], none⟩] = some [(1, s)] ∧
      r.pos ⟨2, 0, 9⟩ ∧ surfaceSide (mm ⟨2, 0, 9⟩) s = some false := by
  have n1 : (⟨2, 0, 0⟩ : Vec).len = 2 := by
    rw [sqrt_eq_len]; simp only [Vec.sq, Vec.dot]; rw [show (2 * 2 + 0 * 0 + 0 * 0 : ℝ) = 2 ^ 2 by norm_num]; exact Real.sqrt_sq (by norm_num)
  have n2 : (⟨0, 1, 0⟩ : Vec).len = 1 := by
    rw [sqrt_eq_len]; simp [Vec.sq, Vec.dot]
  refine ⟨recRegion ⟨0, 0, 0⟩ ⟨0, 0, 4⟩ ⟨2, 0, 0⟩ ⟨0, 1, 0⟩,
    .ecyl (Vec.smul 10 ⟨0, 0, 0⟩) (Vec.smul 10 ⟨0, 0, 4⟩) (1 * 10) (2 * 10) (Vec.smul (1 / 1) ⟨0, 1, 0⟩) (Vec.smul (1 / 2) ⟨2, 0, 0⟩) true, ?_, ?_, ?_, ?_⟩
  · simp [cardMeaning, planeCards, sphereCards, cylCards, coneCards, torusCards, pointCards, boxCards, canCards, Vec.sq, Vec.dot, Orth3]
  · have h1 : makeSurf "REC" [0, 0, 0, 0, 0, 4, 2, 0, 0, 0, 1, 0] = ((⟨2, 0, 0⟩ : Vec).normalize).bind fun M => ((⟨0, 1, 0⟩ : Vec).normalize).bind fun N =>
        some (Made.surf (recMade ⟨0, 0, 0⟩ ⟨0, 0, 4⟩ M (Vec.len ⟨2, 0, 0⟩) N (Vec.len ⟨0, 1, 0⟩)) true false) := rfl
    rw [normalize_ne (by norm_num [Vec.sq, Vec.dot]), normalize_ne (by norm_num [Vec.sq, Vec.dot]), n1, n2] at h1
    have h2 : ¬ (2 * 10 : ℝ) < 1 * 10 := by norm_num
    simp only [Option.bind_some, recMade, if_neg h2] at h1
    simp only [getSurfaces, primLoop, h1, Option.bind_eq_bind, Option.bind_some, place, List.nil_append]
  · refine ⟨9 / 4, 1, 0, ?_, .inr (.inl (by norm_num))⟩
    ext <;> norm_num [Vec.sub, Vec.add, Vec.smul]
  · apply side_false (x := 0) _ le_rfl
    rw [ecyl_inout (by norm_num) (by norm_num)]
    norm_num [mm, Vec.smul, Vec.sub, Vec.dot]

end Geouned.RSurf
