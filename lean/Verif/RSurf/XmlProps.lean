import Verif.RSurf.XmlLemmas
import Verif.RSurf.QuadExists
/-!
# C75: surfaces of an OpenMC XML file read by GEOReverse

`omcXmlMeaning` is the OpenMC manual, `XmlEntries` its conditions on the coefficients; `xmlSurfaces eigh 1 cs` is the dictionary made from the elements `cs` (id, number, surface).
-/
namespace Geouned.RSurf
open Geouned.Geom

/-- Full property: every element gives a surface under its id, numbered by its place in the file, with the sides of the manual. -/
def C75_statement : Prop :=
  ∀ eigh : GQ → Eig, (∀ q, IsEigh q (eigh q)) → ∀ cs : List XSurf, (cs.map (·.id)).Nodup →
    (∀ c ∈ cs, (omcXmlMeaning c.ty c.coeffs).isSome ∧ XmlEntries c.ty c.coeffs) →
      ∃ ss, xmlSurfaces eigh 1 cs = some ss ∧ ss.map (·.1) = cs.map (·.id) ∧
        ∀ (i : Nat) c, cs[i]? = some c → ∃ s, ss[i]? = some (c.id, 1 + i, s) ∧
          ∀ r, omcXmlMeaning c.ty c.coeffs = some r → ∀ p, (r.pos p → surfaceSide (mm p) s = some true) ∧ (r.neg p → surfaceSide (mm p) s = some false)

/-- a quadric that is a circular cylinder with the two coefficients 1, or a circular cone of 45° -/
def PlainQuadric (q : GQ) : Prop :=
  (∃ w c K, K < 0 ∧ Principal q w c 0 1 1 K) ∨ ∃ w c l, 0 < l ∧ Principal q w c (-l) l l 0

theorem unit_cylinder {q : GQ} {w : Fin 3 → Vec} {c : Vec} {K : ℝ} (h : Principal q w c 0 1 1 K) (hK : K < 0) {E : Eig} (hE : IsEigh q E) :
    ∃ s, (gq2cyl q E).map quadScale = some s ∧ SidesOf q.eval s := by
  obtain ⟨e0, e1, e2, hx, hc, hev⟩ := eigh_facts h hE
  have hu := hE.1
  set b : Vec := ⟨q.G, q.H, q.J⟩ with hb
  have hub : ∀ i, (E.u i).dot b = -2 * (E.e i * (E.u i).dot c) := by
    intro i
    have : (E.u i).dot b = 2 * gqXD q E i := by simp only [hb, gqXD, Vec.dot]; ring
    rw [this, hx]; ring
  have hi : cylAxis E = 0 := by
    unfold cylAxis asw0
    rw [e0, e1, e2]
    simp
  have ha : asw0 E < 5 / 100 * asw1 E := by
    unfold asw0 asw1
    rw [e0, e1, e2]
    simp
  have hp : cylPoint E b 0 = Vec.smul (-(1 / 2)) b := cylPoint_one hu b 0 (by
    intro j hj
    fin_cases j
    · simp at hj
    · exact e1
    · exact e2)
  have hbb : b.dot b = 4 * ((E.u 1).dot c ^ 2 + (E.u 2).dot c ^ 2) := by
    rw [orth_complete hu b b, hub, hub, hub, e0, e1, e2]; ring
  have hk : -(1 / 2) * (Vec.smul (-(1 / 2)) b).dot b - q.K = -K := by
    have h1 := hev ⟨0, 0, 0⟩
    have h2 : q.eval ⟨0, 0, 0⟩ = q.K := by simp [GQ.eval]
    rw [h2, e0, e1, e2] at h1
    simp only [dot_sub] at h1
    have z : ∀ i, (E.u i).dot ⟨0, 0, 0⟩ = 0 := fun i => by simp [Vec.dot]
    rw [z, z, z] at h1
    rw [dot_smul_left, hbb, h1]
    ring
  have hq : gq2cyl q E = some (.cyl (Vec.smul (-(1 / 2)) b) (E.u 0) (Real.sqrt (-K))) := by
    unfold gq2cyl
    simp only [hi]
    rw [if_pos ha, f01, f02, e1, e2, if_neg (by
      unfold asw2
      rw [sub_self, abs_zero, not_lt]
      positivity), ← hb, hp, hk, div_one]
  refine ⟨quadScale (.cyl (Vec.smul (-(1 / 2)) b) (E.u 0) (Real.sqrt (-K))), by rw [hq]; rfl, fun p => ?_⟩
  have := cyl_side hu (Vec.smul (-(1 / 2)) b) p 0 (Real.sqrt_nonneg (-K))
  rw [f01, f02, Real.sq_sqrt (by linarith)] at this
  have hv : q.eval p = crd E (Vec.smul (-(1 / 2)) b) p 1 ^ 2 + crd E (Vec.smul (-(1 / 2)) b) p 2 ^ 2 + K := by
    rw [hev p, e0, e1, e2]
    simp only [dot_sub, crd, dot_smul, hub, e1, e2]
    ring
  rw [hv]
  exact ⟨fun hh => this.1 (by linarith), fun hh => this.2 (by linarith)⟩

theorem right_cone {q : GQ} {w : Fin 3 → Vec} {c : Vec} {l : ℝ} (h : Principal q w c (-l) l l 0) (hl : 0 < l) {E : Eig} (hE : IsEigh q E) :
    ∃ s, (gq2cyl q E).map quadScale = some s ∧ SidesOf q.eval s := by
  obtain ⟨e0, e1, e2, hx, hc, hev⟩ := eigh_facts h hE
  have hq := gq2cyl_cone (q := q) e0 e1 e2 (by linarith) hl (by linarith)
  rw [conePoint_eq hE.1 hx (by
    intro i; fin_cases i
    · simp only [Fin.zero_eta]; rw [e0]; linarith
    · simp only [Fin.mk_one]; rw [e1]; exact hl.ne'
    · simp only [Fin.reduceFinMk]; rw [e2]; exact hl.ne'), neg_neg, div_self hl.ne', Real.sqrt_one] at hq
  refine ⟨quadScale (.cone c (E.u 0) 1 true), by rw [hq]; rfl, fun p => ?_⟩
  have hv : q.eval p = l * (crd E c p 1 ^ 2 + crd E c p 2 ^ 2 - crd E c p 0 ^ 2) := by
    rw [hev p, e0, e1, e2]
    simp only [dot_sub, crd]
    ring
  have := cone_quad hE.1 c p 0 one_pos
  rw [f01, f02, one_pow, one_mul] at this
  rw [hv]
  refine ⟨fun hp => this.2 ?_, fun hn => this.1 ?_⟩
  · have := pos_of_mul_pos_right hp hl.le
    linarith
  · by_contra hc
    have : 0 ≤ l * (crd E c p 1 ^ 2 + crd E c p 2 ^ 2 - crd E c p 0 ^ 2) := mul_nonneg hl.le (by linarith)
    linarith

/-- The property holds for files whose quadrics are all of these two kinds; every other type of surface is allowed. -/
theorem C75_surfaces_partial (eigh : GQ → Eig) (hg : ∀ q, IsEigh q (eigh q)) (cs : List XSurf) (hn : (cs.map (·.id)).Nodup)
    (h : ∀ c ∈ cs, (omcXmlMeaning c.ty c.coeffs).isSome ∧ XmlEntries c.ty c.coeffs ∧
      ∀ q : GQ, c.ty = "quadric" → c.coeffs = [q.A, q.B, q.C, q.D, q.E, q.F, q.G, q.H, q.J, q.K] → PlainQuadric q) :
    ∃ ss, xmlSurfaces eigh 1 cs = some ss ∧ ss.map (·.1) = cs.map (·.id) ∧
      ∀ (i : Nat) c, cs[i]? = some c → ∃ s, ss[i]? = some (c.id, 1 + i, s) ∧
        ∀ r, omcXmlMeaning c.ty c.coeffs = some r → ∀ p, (r.pos p → surfaceSide (mm p) s = some true) ∧ (r.neg p → surfaceSide (mm p) s = some false) := by
  have key : ∀ c ∈ cs, ∃ s, makeXml eigh c.ty c.coeffs = some (some s) ∧ ∀ r, omcXmlMeaning c.ty c.coeffs = some r → Sides r s := by
    intro c hc
    obtain ⟨h1, h2, h3⟩ := h c hc
    obtain ⟨r, hr⟩ := Option.isSome_iff_exists.mp h1
    by_cases hq : c.ty = "quadric"
    · have hr' := hr
      rw [hq] at hr'
      unfold omcXmlMeaning at hr'
      split at hr' <;> first
        | (rename_i e1 e2; simp at e1; done)
        | skip
      rename_i a b cc d e f g hh j k _ e2
      · have hpq := h3 ⟨a, b, cc, d, e, f, g, hh, j, k⟩ hq e2
        have : ∃ s, (gq2cyl ⟨a, b, cc, d, e, f, g, hh, j, k⟩ (eigh ⟨a, b, cc, d, e, f, g, hh, j, k⟩)).map quadScale = some s ∧ SidesOf (GQ.eval ⟨a, b, cc, d, e, f, g, hh, j, k⟩) s := by
          rcases hpq with ⟨w, c, K, hK, hP⟩ | ⟨w, c, l, hl, hP⟩
          · exact unit_cylinder hP hK (hg _)
          · exact right_cone hP hl (hg _)
        obtain ⟨s, hs1, hs2⟩ := this
        refine ⟨s, ?_, ?_⟩
        · rw [hq, e2]
          simp only [makeXml, hs1]
        · intro r' hr2
          rw [hr] at hr2
          obtain rfl := Option.some.inj hr2
          obtain rfl := Option.some.inj hr'
          exact hs2
      · simp at hr'
    · obtain ⟨s, hs, hs2⟩ := xml_good eigh hq hr h2
      refine ⟨s, hs, fun r' hr2 => ?_⟩
      rw [hr] at hr2
      obtain rfl := Option.some.inj hr2
      exact hs2
  obtain ⟨ss, a1, a2, a3⟩ := xml_loop eigh cs 1 hn (fun c hc => (key c hc).imp fun s hs => hs.1)
  refine ⟨ss, a1, a2, fun i c hi => ?_⟩
  obtain ⟨s, hs, hs2⟩ := key c (List.mem_of_getElem? hi)
  exact ⟨s, a3 i c hi s hs, fun r hr => hs2 r hr⟩

/-- the hypotheses are met by a file with a plane, a cylinder, a cone, a torus and an oblique cylinder written as quadric -/
example : ∃ eigh : GQ → Eig, (∀ q, IsEigh q (eigh q)) ∧
    ∀ c ∈ ([⟨7, "plane", [1, 2, 0, 5]⟩, ⟨3, "z-cylinder", [1, 0, 2]⟩, ⟨4, "x-cone", [0, 0, 1, 4]⟩, ⟨5, "z-torus", [0, 0, 0, 5, 1, 1]⟩,
      ⟨9, "quadric", [9 / 25, 16 / 25, 1, 24 / 25, 0, 0, 0, 0, 0, -1]⟩] : List XSurf),
      (omcXmlMeaning c.ty c.coeffs).isSome ∧ XmlEntries c.ty c.coeffs ∧
        ∀ q : GQ, c.ty = "quadric" → c.coeffs = [q.A, q.B, q.C, q.D, q.E, q.F, q.G, q.H, q.J, q.K] → PlainQuadric q := by
  obtain ⟨eigh, h⟩ := eigh_exists
  refine ⟨eigh, h, fun c hc => ?_⟩
  simp only [List.mem_cons, List.not_mem_nil, or_false] at hc
  rcases hc with e | e | e | e | e <;> subst e
  · exact ⟨rfl, by simp [XmlEntries], by simp⟩
  · exact ⟨rfl, by simp [XmlEntries], by simp⟩
  · exact ⟨rfl, by simp [XmlEntries], by simp⟩
  · exact ⟨rfl, by simp [XmlEntries], by simp⟩
  · refine ⟨rfl, ⟨⟨⟨0, 0, 0⟩, by norm_num [GQ.eval]⟩, ⟨⟨0, 0, 2⟩, by norm_num [GQ.eval]⟩⟩, fun q _ hq => ?_⟩
    obtain ⟨A, B, C, D, E, F, G, H, J, K⟩ := q
    simp only [List.cons.injEq, and_true] at hq
    obtain ⟨rfl, rfl, rfl, rfl, rfl, rfl, rfl, rfl, rfl, rfl⟩ := hq
    refine Or.inl ⟨![⟨4 / 5, -3 / 5, 0⟩, ⟨3 / 5, 4 / 5, 0⟩, ⟨0, 0, 1⟩], ⟨0, 0, 0⟩, -1, by norm_num, ?_, by norm_num, by norm_num, fun p => ?_⟩
    · intro i j
      fin_cases i <;> fin_cases j <;> simp [Vec.dot] <;> norm_num
    · simp only [GQ.eval, Vec.dot, Vec.sub, Matrix.cons_val]
      ring

/-- Circular cones written as quadrics, neither of 45° nor narrow: a cone with the inverse tangent is made. -/
theorem C75_cone_violated (q : GQ) (w : Fin 3 → Vec) (c : Vec) (l0 l1 : ℝ) (h : Principal q w c l0 l1 l1 0) (h0 : l0 < 0) (h1 : 0 < l1) (hn : l1 ≤ 20 * -l0) (hne : l1 ≠ -l0)
    (eigh : GQ → Eig) (hg : ∀ q, IsEigh q (eigh q)) :
    ∃ s, makeXml eigh "quadric" [q.A, q.B, q.C, q.D, q.E, q.F, q.G, q.H, q.J, q.K] = some (some s) ∧
      ∃ p, (0 < q.eval p ∧ surfaceSide (mm p) s = some false) ∨ (q.eval p < 0 ∧ surfaceSide (mm p) s = some true) := by
  have hE := hg q
  set E := eigh q with hEd
  obtain ⟨e0, e1, e2, hx, hc, hev⟩ := eigh_facts h hE
  have hq := gq2cyl_cone (q := q) e0 e1 e2 h0 h1 hn
  rw [conePoint_eq hE.1 hx (by
    intro i; fin_cases i
    · simp only [Fin.zero_eta]; rw [e0]; exact h0.ne
    · simp only [Fin.mk_one]; rw [e1]; exact h1.ne'
    · simp only [Fin.reduceFinMk]; rw [e2]; exact h1.ne')] at hq
  have ht : 0 < l1 / -l0 := div_pos h1 (by linarith)
  refine ⟨quadScale (.cone c (E.u 0) (Real.sqrt (l1 / -l0)) true), ?_, (c.add (E.u 0)).add (E.u 1), ?_⟩
  · simp only [makeXml]
    rw [show eigh ⟨q.A, q.B, q.C, q.D, q.E, q.F, q.G, q.H, q.J, q.K⟩ = E from rfl, hq]
    rfl
  set p := (c.add (E.u 0)).add (E.u 1) with hp
  have hu := hE.1
  have c0 : crd E c p 0 = 1 := by rw [crd, hp, dot_add, dot_add, hu 0 0, hu 0 1]; simp
  have c1 : crd E c p 1 = 1 := by rw [crd, hp, dot_add, dot_add, hu 1 0, hu 1 1]; simp
  have c2 : crd E c p 2 = 0 := by rw [crd, hp, dot_add, dot_add, hu 2 0, hu 2 1]; simp
  have hv : q.eval p = l0 + l1 := by
    have : q.eval p = l0 * crd E c p 0 ^ 2 + l1 * crd E c p 1 ^ 2 + l1 * crd E c p 2 ^ 2 := by
      rw [hev p, e0, e1, e2]
      simp only [dot_sub, crd]
      ring
    rw [this, c0, c1, c2]
    ring
  have := cone_quad hu c p 0 (Real.sqrt_pos.mpr ht)
  rw [f01, f02, c0, c1, c2, Real.sq_sqrt ht.le] at this
  norm_num at this
  rw [hv]
  rcases lt_or_gt_of_ne hne with hlt | hgt
  · exact Or.inr ⟨by linarith, this.2 (by rw [div_lt_one (by linarith)]; exact hlt)⟩
  · exact Or.inl ⟨by linarith, this.1 (by rw [one_lt_div (by linarith)]; exact hgt)⟩

/-- Circular hyperboloids are read as cones: at the centre, which is on neither sheet, the side cannot be found. -/
theorem C75_hyperboloid_violated (q : GQ) (w : Fin 3 → Vec) (c : Vec) (l0 l1 K : ℝ) (h : Principal q w c l0 l1 l1 K) (h0 : l0 < 0) (h1 : 0 < l1) (hn : l1 ≤ 20 * -l0) (hK : K ≠ 0)
    (eigh : GQ → Eig) (hg : ∀ q, IsEigh q (eigh q)) :
    ∃ s, makeXml eigh "quadric" [q.A, q.B, q.C, q.D, q.E, q.F, q.G, q.H, q.J, q.K] = some (some s) ∧ q.eval c ≠ 0 ∧ surfaceSide (mm c) s = none := by
  have hE := hg q
  set E := eigh q with hEd
  obtain ⟨e0, e1, e2, hx, hc, hev⟩ := eigh_facts h hE
  have hq := gq2cyl_cone (q := q) e0 e1 e2 h0 h1 hn
  rw [conePoint_eq hE.1 hx (by
    intro i; fin_cases i
    · simp only [Fin.zero_eta]; rw [e0]; exact h0.ne
    · simp only [Fin.mk_one]; rw [e1]; exact h1.ne'
    · simp only [Fin.reduceFinMk]; rw [e2]; exact h1.ne')] at hq
  refine ⟨quadScale (.cone c (E.u 0) (Real.sqrt (l1 / -l0)) true), ?_, by rw [hc]; exact hK, ?_⟩
  · simp only [makeXml]
    rw [show eigh ⟨q.A, q.B, q.C, q.D, q.E, q.F, q.G, q.H, q.J, q.K⟩ = E from rfl, hq]
    rfl
  · have : ((mm c).sub (Vec.smul 10 c)).len = 0 := by
      rw [sqrt_eq_len]
      have : ((mm c).sub (Vec.smul 10 c)).sq = 0 := by simp [mm, Vec.sub, Vec.sq, Vec.dot]
      rw [this, Real.sqrt_zero]
    simp [surfaceSide, quadScale, inout, Vec.normalize, this]

/-- Narrow cones (half angle less than 12.6°) with the apex at the origin are read as cylinders of radius 0: every point of the negative side off the axis is found outside. -/
theorem C75_narrow_cone_violated (q : GQ) (w : Fin 3 → Vec) (l0 l1 : ℝ) (h : Principal q w ⟨0, 0, 0⟩ l0 l1 l1 0) (h0 : l0 < 0) (hn : 20 * -l0 < l1)
    (eigh : GQ → Eig) (hg : ∀ q, IsEigh q (eigh q)) :
    ∃ s, makeXml eigh "quadric" [q.A, q.B, q.C, q.D, q.E, q.F, q.G, q.H, q.J, q.K] = some (some s) ∧ ∃ p, q.eval p < 0 ∧ surfaceSide (mm p) s = some true := by
  have hE := hg q
  set E := eigh q with hEd
  obtain ⟨e0, e1, e2, hx, hc, hev⟩ := eigh_facts h hE
  have hu := hE.1
  have h1 : 0 < l1 := by linarith
  have hm : -l0 ≤ l1 := by linarith
  have ha0 : asw0 E = -l0 := by
    unfold asw0
    rw [e0, e1, e2, abs_of_neg h0, abs_of_pos h1, min_self, min_eq_left hm]
  have ha1 : asw1 E = l1 := by
    unfold asw1
    rw [e0, e1, e2, abs_of_neg h0, abs_of_pos h1, min_eq_left hm, max_eq_right hm, min_self, max_eq_right hm]
  have hi : cylAxis E = 0 := by
    unfold cylAxis
    rw [ha0, e0, abs_of_neg h0, if_pos rfl]
  have hb : (⟨q.G, q.H, q.J⟩ : Vec) = ⟨0, 0, 0⟩ := by
    apply eq_of_dots hu
    intro i
    have : (E.u i).dot ⟨q.G, q.H, q.J⟩ = 2 * gqXD q E i := by simp only [gqXD, Vec.dot]; ring
    rw [this, hx]
    simp [Vec.dot]
  have hK : q.K = 0 := by
    have : q.eval ⟨0, 0, 0⟩ = q.K := by simp [GQ.eval]
    rw [← this, hc]
  have hp0 : cylPoint E ⟨0, 0, 0⟩ 0 = ⟨0, 0, 0⟩ := by simp [cylPoint, Vec.dot, Vec.smul]
  have hq : gq2cyl q E = some (.cyl ⟨0, 0, 0⟩ (E.u 0) 0) := by
    unfold gq2cyl
    simp only [hi, hb, hK, hp0]
    rw [if_pos (by rw [ha0, ha1]; linarith), f01, f02, e1, e2, if_neg (by
      unfold asw2
      rw [sub_self, abs_zero, not_lt]
      positivity)]
    simp [Vec.dot]
  refine ⟨quadScale (.cyl ⟨0, 0, 0⟩ (E.u 0) 0), ?_, (Vec.smul (l1 + 1) (E.u 0)).add (Vec.smul (-l0) (E.u 1)), ?_⟩
  · simp only [makeXml]
    rw [show eigh ⟨q.A, q.B, q.C, q.D, q.E, q.F, q.G, q.H, q.J, q.K⟩ = E from rfl, hq]
    rfl
  set p := (Vec.smul (l1 + 1) (E.u 0)).add (Vec.smul (-l0) (E.u 1)) with hp
  have z : ∀ i, (E.u i).dot ⟨0, 0, 0⟩ = 0 := fun i => by simp [Vec.dot]
  have c0 : crd E ⟨0, 0, 0⟩ p 0 = l1 + 1 := by rw [crd, z, hp, dot_add, dot_smul, dot_smul, hu 0 0, hu 0 1]; simp
  have c1 : crd E ⟨0, 0, 0⟩ p 1 = -l0 := by rw [crd, z, hp, dot_add, dot_smul, dot_smul, hu 1 0, hu 1 1]; simp
  have c2 : crd E ⟨0, 0, 0⟩ p 2 = 0 := by rw [crd, z, hp, dot_add, dot_smul, dot_smul, hu 2 0, hu 2 1]; simp
  constructor
  · have : q.eval p = l0 * crd E ⟨0, 0, 0⟩ p 0 ^ 2 + l1 * crd E ⟨0, 0, 0⟩ p 1 ^ 2 + l1 * crd E ⟨0, 0, 0⟩ p 2 ^ 2 := by
      rw [hev p, e0, e1, e2]
      simp only [dot_sub, crd, z]
      ring
    rw [this, c0, c1, c2]
    have : l1 * -l0 < (l1 + 1) ^ 2 := by nlinarith
    have := mul_lt_mul_of_neg_left this h0
    nlinarith
  · have := (cyl_side hu ⟨0, 0, 0⟩ p 0 le_rfl).1
    rw [f01, f02, c1, c2] at this
    have hpos : 0 < (-l0) ^ 2 := pow_pos (by linarith) 2
    exact this (by linarith)

/-- Spheres, ellipsoids and elliptic cylinders written as quadrics: no surface is stored. -/
theorem C75_lost_violated (q : GQ) (w : Fin 3 → Vec) (c : Vec) (l0 l1 l2 K : ℝ) (h : Principal q w c l0 l1 l2 K) (h2 : 0 < l1)
    (hk : 0 < l0 ∧ l1 ≤ 20 * l0 ∨ l0 = 0 ∧ 1 / 10 ^ 3 * l2 < l2 - l1) (eigh : GQ → Eig) (hg : ∀ q, IsEigh q (eigh q)) :
    makeXml eigh "quadric" [q.A, q.B, q.C, q.D, q.E, q.F, q.G, q.H, q.J, q.K] = some none := by
  have hE := hg q
  set E := eigh q with hEd
  obtain ⟨e0, e1, e2, hx, hc, hev⟩ := eigh_facts h hE
  have h12 := h.2.2.1
  have h01 := h.2.1
  have p2 : 0 < l2 := by linarith
  have hq : gq2cyl q E = none := by
    unfold gq2cyl
    rcases hk with ⟨a, b⟩ | ⟨a, b⟩
    · rw [if_neg, if_neg]
      · rw [e0, e2, sign_pos' a, sign_pos' p2]; simp
      · unfold asw0 asw1
        rw [e0, e1, e2, abs_of_pos a, abs_of_pos h2, abs_of_pos p2, min_eq_left h12, min_eq_left h01, max_eq_right h01, min_eq_left h12, max_eq_right h01]
        linarith
    · have hi : cylAxis E = 0 := by
        unfold cylAxis asw0
        rw [e0, e1, e2, a]
        simp
      simp only [hi]
      rw [if_pos, f01, f02, e1, e2, if_pos]
      · unfold asw2
        rw [e0, e1, e2, a, abs_zero, abs_of_pos h2, abs_of_pos p2, max_eq_right h12, max_eq_right p2.le, abs_sub_comm, abs_of_nonneg (by linarith)]
        exact b
      · unfold asw0 asw1
        rw [e0, e1, e2, a, abs_zero, abs_of_pos h2, abs_of_pos p2, min_eq_left h12, min_eq_left h2.le, max_eq_right h2.le, min_eq_left h12, max_eq_right h2.le]
        linarith
  simp only [makeXml]
  rw [show eigh ⟨q.A, q.B, q.C, q.D, q.E, q.F, q.G, q.H, q.J, q.K⟩ = E from rfl, hq]
  rfl

/-- A cylinder along z whose coefficients are not 1 may be moved: with the eigenvectors z, x, y the cylinder `2 x² + 2 (y - 1)² = 2` is read with its axis at y = 2. -/
theorem C75_scaled_cylinder_violated : ∃ E, IsEigh ⟨2, 2, 0, 0, 0, 0, 0, -4, 0, 0⟩ E ∧ ∃ s, (gq2cyl ⟨2, 2, 0, 0, 0, 0, 0, -4, 0, 0⟩ E).map quadScale = some s ∧
    GQ.eval ⟨2, 2, 0, 0, 0, 0, 0, -4, 0, 0⟩ ⟨0, 1 / 10, 0⟩ < 0 ∧ surfaceSide (mm ⟨0, 1 / 10, 0⟩) s = some true := by
  have hE : IsEigh ⟨2, 2, 0, 0, 0, 0, 0, -4, 0, 0⟩ ⟨![0, 2, 2], ![⟨0, 0, 1⟩, ⟨1, 0, 0⟩, ⟨0, 1, 0⟩]⟩ := by
    refine ⟨?_, by norm_num, by simp, fun p => ?_⟩
    · intro i j
      fin_cases i <;> fin_cases j <;> simp [Vec.dot]
    · simp [quadPart, Vec.dot]
  have hi : cylAxis ⟨![0, 2, 2], ![⟨0, 0, 1⟩, ⟨1, 0, 0⟩, ⟨0, 1, 0⟩]⟩ = 0 := by simp [cylAxis, asw0]
  have ha : asw0 ⟨![0, 2, 2], ![⟨0, 0, 1⟩, ⟨1, 0, 0⟩, ⟨0, 1, 0⟩]⟩ < 5 / 100 * asw1 ⟨![0, 2, 2], ![⟨0, 0, 1⟩, ⟨1, 0, 0⟩, ⟨0, 1, 0⟩]⟩ := by simp [asw0, asw1]
  have hp : cylPoint ⟨![0, 2, 2], ![⟨0, 0, 1⟩, ⟨1, 0, 0⟩, ⟨0, 1, 0⟩]⟩ ⟨0, -4, 0⟩ 0 = ⟨0, 2, 0⟩ := by
    simp [cylPoint, Eig.row, Vec.comp, Vec.dot, Vec.smul]
    norm_num
  have hq : gq2cyl ⟨2, 2, 0, 0, 0, 0, 0, -4, 0, 0⟩ ⟨![0, 2, 2], ![⟨0, 0, 1⟩, ⟨1, 0, 0⟩, ⟨0, 1, 0⟩]⟩ = some (.cyl ⟨0, 2, 0⟩ ⟨0, 0, 1⟩ (Real.sqrt 2)) := by
    unfold gq2cyl
    simp only [hi, hp]
    rw [if_pos ha, if_neg]
    · have : (-(1 / 2) * (⟨0, 2, 0⟩ : Vec).dot ⟨0, -4, 0⟩ - 0) / 2 = (2 : ℝ) := by norm_num [Vec.dot]
      simp only [Matrix.cons_val]
      rw [this]
    · simp [asw2]
  refine ⟨_, hE, quadScale (.cyl ⟨0, 2, 0⟩ ⟨0, 0, 1⟩ (Real.sqrt 2)), by rw [hq]; rfl, by norm_num [GQ.eval], ?_⟩
  refine cyl_out (by norm_num [Vec.sq, Vec.dot]) ?_
  rw [mul_pow, Real.sq_sqrt (by norm_num)]
  norm_num [mm, Vec.smul, Vec.sub, Vec.sq, Vec.dot]

/-- The property is false: the file with only the cone `x² + y² = 4 z²`. -/
theorem C75_violated : ¬ C75_statement := by
  intro H
  obtain ⟨eigh, hg⟩ := eigh_exists
  have hP : Principal ⟨1, 1, -4, 0, 0, 0, 0, 0, 0, 0⟩ ![⟨0, 0, 1⟩, ⟨1, 0, 0⟩, ⟨0, 1, 0⟩] ⟨0, 0, 0⟩ (-4) 1 1 0 := by
    refine ⟨?_, by norm_num, by norm_num, fun p => ?_⟩
    · intro i j
      fin_cases i <;> fin_cases j <;> simp [Vec.dot]
    · simp only [GQ.eval, Vec.dot, Vec.sub, Matrix.cons_val]
      ring
  obtain ⟨s, hs, p, hp⟩ := C75_cone_violated _ _ _ _ _ hP (by norm_num) (by norm_num) (by norm_num) (by norm_num) eigh hg
  obtain ⟨ss, h1, -, h3⟩ := H eigh hg [⟨1, "quadric", [1, 1, -4, 0, 0, 0, 0, 0, 0, 0]⟩] (by simp) (by
    intro c hc
    simp only [List.mem_singleton] at hc
    subst hc
    exact ⟨rfl, ⟨⟨0, 0, 1⟩, by norm_num [GQ.eval]⟩, ⟨⟨1, 0, 0⟩, by norm_num [GQ.eval]⟩⟩)
  obtain ⟨s', hs', hside⟩ := h3 0 _ rfl
  simp only [xmlSurfaces, hs, Option.bind_eq_bind, Option.bind_some, Option.map_some, Option.toList_some, List.append_nil, Option.some.injEq] at h1
  subst h1
  simp at hs'
  subst hs'
  have := hside _ rfl p
  rcases hp with ⟨a, b⟩ | ⟨a, b⟩
  · rw [this.1 a] at b; simp at b
  · rw [this.2 a] at b; simp at b

end Geouned.RSurf
