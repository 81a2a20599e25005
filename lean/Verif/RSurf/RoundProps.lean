import Verif.RSurf.RoundLemmas
/-!
# C76: surfaces written by GEOUNED and read back by GEOReverse

`roundMcnp`: written as MCNP cards and read; `roundXml`: written as elements of an OpenMC XML file and read. `Surface.mcnpRegion`, `Surface.omcRegion` (`Geom/CardProps.lean`) are the
sides of the original surface, in mm.
-/
namespace Geouned.RSurf
open Geouned.Geom

/-- the surface is not degenerate: positive radii, half angle between 0 and 90°, three points that are not on a line if the plane is written by points -/
def ProperSurface (prnt3P : Bool) : Surface → Prop
  | .plane s => prnt3P = true → ∀ p1 p2 p3, s.points = some (p1, p2, p3) → NonCollinear p1 p2 p3
  | .cyl s => 0 < s.radius
  | .cone s => 0 < s.semiAngle ∧ s.semiAngle < Real.pi / 2
  | .sph s => 0 < s.radius
  | .tor _ => True

/-- the surface object `s` of the reverse tool has the sides `R` (in mm) -/
def HasSides (R : Region) (s : Surf) : Prop := ∀ p, (R.pos p → surfaceSide p s = some true) ∧ (R.neg p → surfaceSide p s = some false)

/-- what is asked of the surfaces: given by the CAD kernel, not degenerate, not rounded by the tolerances, no torus with an oblique axis -/
def Writable (t : Tol) (prnt3P : Bool) (S : Surface) : Prop := S.WellFormed ∧ ProperSurface prnt3P S ∧ S.Exact t ∧ S.NoObliqueTorus

/-- Full property: the surfaces written and read back have the same labels, in the same order, and the same sides. -/
def C76_statement : Prop :=
  ∀ (t : Tol) (prnt3P : Bool) (eigh : GQ → Eig), SaneTol t → (∀ q, IsEigh q (eigh q)) → ∀ l : List (Nat × Surface), (l.map (·.1)).Nodup → (∀ x ∈ l, Writable t prnt3P x.2) →
    (∃ ss, roundMcnp t prnt3P eigh l = some ss ∧ ss.map (·.1) = l.map (·.1) ∧
      ∀ (i : Nat) n S, l[i]? = some (n, S) → ∃ s, ss[i]? = some (n, s) ∧ HasSides (S.mcnpRegion prnt3P) s) ∧
    (∃ ss, roundXml t eigh l = some ss ∧ ss.map (·.1) = l.map (·.1) ∧
      ∀ (i : Nat) n S, l[i]? = some (n, S) → ∃ s, ss[i]? = some (n, 1 + i, s) ∧ HasSides S.omcRegion s)

/-- oblique cones have a half angle of 45° -/
def ConesRight : Surface → Prop
  | .cone s => Aligned s.axis ∨ s.semiAngle = Real.pi / 4
  | _ => True

theorem readCard_gq (eigh : GQ → Eig) (q : GQ) : readCard eigh ⟨"GQ", q.toList⟩ = readGQ q (eigh q) := rfl

theorem sides_of {q : GQ} {s : Surf} (h : SidesOf q.eval s) : Sides (.ofFun q.eval) s := h

theorem tan_sq_pos {x : ℝ} (h0 : 0 < x) (h1 : x < Real.pi / 2) : 0 < Real.tan x ^ 2 := pow_pos (Real.tan_pos_of_pos_of_lt_pi_div_two h0 h1) 2

/-- one surface through MCNP -/
theorem back_mcnp {t : Tol} {prnt3P : Bool} {eigh : GQ → Eig} (ht : SaneTol t) (hg : ∀ q, IsEigh q (eigh q)) {S : Surface} (h : Writable t prnt3P S) (hc : ConesRight S) :
    ∃ c s, mcnpSurface t prnt3P S = some c ∧ readCard eigh c = some s ∧ HasSides (S.mcnpRegion prnt3P) s := by
  obtain ⟨hw, hp, he, hn⟩ := h
  obtain ⟨c, r, h1, h2, h3⟩ := C47_surface_cards_partial t prnt3P S ht hw he hn
  have fin : McnpEntries c.mn c.args → ∃ c s, mcnpSurface t prnt3P S = some c ∧ readCard eigh c = some s ∧ HasSides (S.mcnpRegion prnt3P) s := by
    intro hm
    obtain ⟨s, e1, e2⟩ := mcnp_back eigh h2 hm
    exact ⟨c, s, h1, e1, sides_back h3 e2⟩
  have gq : ∀ q : GQ, c = ⟨"GQ", q.toList⟩ → (∃ s, readGQ q (eigh q) = some s ∧ SidesOf q.eval s) →
      ∃ c s, mcnpSurface t prnt3P S = some c ∧ readCard eigh c = some s ∧ HasSides (S.mcnpRegion prnt3P) s := by
    rintro q rfl ⟨s, e1, e2⟩
    have hr : r = .ofFun q.eval := by
      have := gq_list q
      rw [this] at h2
      exact (Option.some.inj h2).symm
    subst hr
    exact ⟨_, s, h1, by rw [readCard_gq, e1], sides_back h3 (sides_of e2)⟩
  cases S with
  | plane s =>
    apply fin
    simp only [mcnpSurface, Option.some.injEq] at h1
    subst h1
    have gen : McnpEntries (mcnpPlaneGen t s).mn (mcnpPlaneGen t s).args := by
      unfold mcnpPlaneGen
      split_ifs
      · trivial
      · trivial
      · trivial
      · show ¬ (s.axis.x = 0 ∧ s.axis.y = 0 ∧ s.axis.z = 0)
        rintro ⟨a, b, c⟩
        have : s.axis.sq = 1 := hw
        simp [Vec.sq, Vec.dot, a, b, c] at this
    simp only [mcnpPlane]
    cases hps : s.points with
    | none => exact gen
    | some pts =>
      obtain ⟨p1, p2, p3⟩ := pts
      cases prnt3P with
      | false => exact gen
      | true => exact nonCollinear_cm (hp rfl p1 p2 p3 hps)
  | cyl s =>
    replace hw : s.axis.sq = 1 := hw
    have hr : 0 < s.radius * (1 / 10) := by have : 0 < s.radius := hp; linarith
    simp only [mcnpSurface, mcnpCyl, normalize_unit hw] at h1
    by_cases x1 : isParallel s.axis vX t.angle
    · rw [if_pos x1] at h1; apply fin; split_ifs at h1 <;> (obtain rfl := Option.some.inj h1; exact hr)
    by_cases x2 : isParallel s.axis vY t.angle
    · rw [if_neg x1, if_pos x2] at h1; apply fin; split_ifs at h1 <;> (obtain rfl := Option.some.inj h1; exact hr)
    by_cases x3 : isParallel s.axis vZ t.angle
    · rw [if_neg x1, if_neg x2, if_pos x3] at h1; apply fin; split_ifs at h1 <;> (obtain rfl := Option.some.inj h1; exact hr)
    rw [if_neg x1, if_neg x2, if_neg x3] at h1
    obtain ⟨q, w, e1, e2⟩ := cyl_principal (c := Vec.smul (1 / 10) s.center) (r := s.radius * (1 / 10)) hw (slanted_of_not hw ht.1 x1)
    rw [e1] at h1
    exact gq q (Option.some.inj h1).symm (C74_cylinder_partial q w _ 1 1 _ e2 (by norm_num) (Or.inl rfl) (by have := pow_pos hr 2; linarith) _ (hg q))
  | cone s =>
    replace hw : s.axis.sq = 1 := hw
    have hk : 0 < Real.tan s.semiAngle ^ 2 := tan_sq_pos hp.1 hp.2
    have p10 : (0 : ℝ) < 1 / 10 := by norm_num
    simp only [mcnpSurface, mcnpCone] at h1
    by_cases x1 : isParallel s.axis vX t.angle
    · rw [if_pos ((isParallel_smul _ p10 _).2 x1)] at h1
      apply fin; split_ifs at h1 <;> (obtain rfl := Option.some.inj h1; exact ⟨hk, sheetOf_one _ _ _⟩)
    have n1 : ¬ isParallel (Vec.smul (1 / 10) s.axis) vX t.angle := fun h => x1 ((isParallel_smul _ p10 _).1 h)
    by_cases x2 : isParallel s.axis vY t.angle
    · rw [if_neg n1, if_pos ((isParallel_smul _ p10 _).2 x2)] at h1
      apply fin; split_ifs at h1 <;> (obtain rfl := Option.some.inj h1; exact ⟨hk, sheetOf_one _ _ _⟩)
    have n2 : ¬ isParallel (Vec.smul (1 / 10) s.axis) vY t.angle := fun h => x2 ((isParallel_smul _ p10 _).1 h)
    by_cases x3 : isParallel s.axis vZ t.angle
    · rw [if_neg n1, if_neg n2, if_pos ((isParallel_smul _ p10 _).2 x3)] at h1
      apply fin; split_ifs at h1 <;> (obtain rfl := Option.some.inj h1; exact ⟨hk, sheetOf_one _ _ _⟩)
    have n3 : ¬ isParallel (Vec.smul (1 / 10) s.axis) vZ t.angle := fun h => x3 ((isParallel_smul _ p10 _).1 h)
    rw [if_neg n1, if_neg n2, if_neg n3] at h1
    have h45 : s.semiAngle = Real.pi / 4 := by
      rcases hc with hc | hc
      · exact absurd hc (not_aligned ht.1 x1 x2 x3)
      · exact hc
    obtain ⟨q, w, e1, e2⟩ := cone_principal (c := Vec.smul (1 / 10) s.apex) (k := Real.tan s.semiAngle) p10.ne' hw (slanted_of_not hw ht.1 x1)
    rw [e1] at h1
    rw [h45, Real.tan_pi_div_four, one_pow] at e2
    exact gq q (Option.some.inj h1).symm (C74_right_cone_partial q w _ 1 e2 (by norm_num) _ (hg q))
  | sph s =>
    apply fin
    have hr : 0 < s.radius * (1 / 10) := by have : 0 < s.radius := hp; linarith
    simp only [mcnpSurface, mcnpSph] at h1
    split_ifs at h1 <;> (obtain rfl := Option.some.inj h1; exact hr)
  | tor s =>
    apply fin
    obtain ⟨hu, hr⟩ := hw
    have hr' : 0 < s.minor * (1 / 10) := by linarith
    simp only [mcnpSurface, mcnpTor, normalize_unit hu] at h1
    by_cases x1 : isParallel s.axis vX t.angle
    · rw [if_pos x1] at h1; obtain rfl := Option.some.inj h1; exact ⟨hr', hr'⟩
    by_cases x2 : isParallel s.axis vY t.angle
    · rw [if_neg x1, if_pos x2] at h1; obtain rfl := Option.some.inj h1; exact ⟨hr', hr'⟩
    by_cases x3 : isParallel s.axis vZ t.angle
    · rw [if_neg x1, if_neg x2, if_pos x3] at h1; obtain rfl := Option.some.inj h1; exact ⟨hr', hr'⟩
    exact absurd hn (not_aligned ht.1 x1 x2 x3)

theorem makeXml_quadric (eigh : GQ → Eig) (q : GQ) : makeXml eigh "quadric" q.toList = some ((gq2cyl q (eigh q)).map quadScale) := rfl

/-- one surface through XML -/
theorem back_xml {t : Tol} {prnt3P : Bool} {eigh : GQ → Eig} (ht : SaneTol t) (hg : ∀ q, IsEigh q (eigh q)) {S : Surface} (h : Writable t prnt3P S) (hc : ConesRight S) :
    ∃ c s, omcXmlSurface t S = some c ∧ makeXml eigh c.mn c.args = some (some s) ∧ HasSides S.omcRegion s := by
  obtain ⟨hw, hp, he, hn⟩ := h
  obtain ⟨c, r, h1, h2, h3⟩ := C48_xml_cards_partial t S ht hw he hn
  have fin : c.mn ≠ "quadric" → XmlEntries c.mn c.args → ∃ c s, omcXmlSurface t S = some c ∧ makeXml eigh c.mn c.args = some (some s) ∧ HasSides S.omcRegion s := by
    intro hq hm
    obtain ⟨s, e1, e2⟩ := xml_good eigh hq h2 hm
    exact ⟨c, s, h1, e1, sides_back h3 e2⟩
  have gq : ∀ q : GQ, c = ⟨"quadric", q.toList⟩ → (∃ s, (gq2cyl q (eigh q)).map quadScale = some s ∧ SidesOf q.eval s) →
      ∃ c s, omcXmlSurface t S = some c ∧ makeXml eigh c.mn c.args = some (some s) ∧ HasSides S.omcRegion s := by
    rintro q rfl ⟨s, e1, e2⟩
    have hr : r = .ofFun q.eval := by
      have := gq_list_xml q
      rw [this] at h2
      exact (Option.some.inj h2).symm
    subst hr
    exact ⟨_, s, h1, by rw [makeXml_quadric, e1], sides_back h3 (sides_of e2)⟩
  cases S with
  | plane s =>
    simp only [omcXmlSurface, omcXmlPlane, Option.some.injEq] at h1
    split_ifs at h1 <;> subst h1
    · exact fin (by simp) trivial
    · exact fin (by simp) trivial
    · exact fin (by simp) trivial
    · refine fin (by simp) ?_
      show ¬ (s.axis.x = 0 ∧ s.axis.y = 0 ∧ s.axis.z = 0)
      rintro ⟨a, b, c⟩
      have : s.axis.sq = 1 := hw
      simp [Vec.sq, Vec.dot, a, b, c] at this
  | cyl s =>
    replace hw : s.axis.sq = 1 := hw
    have hr : 0 < s.radius * (1 / 10) := by have : 0 < s.radius := hp; linarith
    simp only [omcXmlSurface, omcXmlCyl, normalize_unit hw] at h1
    by_cases x1 : isParallel s.axis vX t.angle
    · rw [if_pos x1] at h1; obtain rfl := Option.some.inj h1; exact fin (by simp) hr
    by_cases x2 : isParallel s.axis vY t.angle
    · rw [if_neg x1, if_pos x2] at h1; obtain rfl := Option.some.inj h1; exact fin (by simp) hr
    by_cases x3 : isParallel s.axis vZ t.angle
    · rw [if_neg x1, if_neg x2, if_pos x3] at h1; obtain rfl := Option.some.inj h1; exact fin (by simp) hr
    rw [if_neg x1, if_neg x2, if_neg x3] at h1
    obtain ⟨q, w, e1, e2⟩ := cyl_principal (c := Vec.smul (1 / 10) s.center) (r := s.radius * (1 / 10)) hw (slanted_of_not hw ht.1 x1)
    rw [e1] at h1
    exact gq q (Option.some.inj h1).symm (unit_cylinder e2 (by have := pow_pos hr 2; linarith) (hg q))
  | cone s =>
    replace hw : s.axis.sq = 1 := hw
    have hk : 0 < Real.tan s.semiAngle * Real.tan s.semiAngle := by have := tan_sq_pos hp.1 hp.2; rwa [sq] at this
    simp only [omcXmlSurface, omcXmlCone, normalize_unit hw] at h1
    by_cases x1 : isParallel s.axis vX t.angle
    · rw [if_pos x1] at h1; obtain rfl := Option.some.inj h1; exact fin (by simp) hk
    by_cases x2 : isParallel s.axis vY t.angle
    · rw [if_neg x1, if_pos x2] at h1; obtain rfl := Option.some.inj h1; exact fin (by simp) hk
    by_cases x3 : isParallel s.axis vZ t.angle
    · rw [if_neg x1, if_neg x2, if_pos x3] at h1; obtain rfl := Option.some.inj h1; exact fin (by simp) hk
    rw [if_neg x1, if_neg x2, if_neg x3] at h1
    have h45 : s.semiAngle = Real.pi / 4 := by
      rcases hc with hc | hc
      · exact absurd hc (not_aligned ht.1 x1 x2 x3)
      · exact hc
    obtain ⟨q, w, e1, e2⟩ := cone_principal (c := Vec.smul (1 / 10) s.apex) (k := Real.tan s.semiAngle) (one_ne_zero) hw (slanted_of_not hw ht.1 x1)
    rw [one_smul'] at e1
    rw [e1] at h1
    rw [h45, Real.tan_pi_div_four, one_pow] at e2
    exact gq q (Option.some.inj h1).symm (right_cone e2 one_pos (hg q))
  | sph s =>
    have hr : 0 < s.radius * (1 / 10) := by have : 0 < s.radius := hp; linarith
    simp only [omcXmlSurface, omcXmlSph] at h1
    obtain rfl := Option.some.inj h1
    exact fin (by simp) hr
  | tor s =>
    obtain ⟨hu, hr⟩ := hw
    have hr' : 0 < s.minor * (1 / 10) := by linarith
    simp only [omcXmlSurface, omcXmlTor, normalize_unit hu] at h1
    by_cases x1 : isParallel s.axis vX t.angle
    · rw [if_pos x1] at h1; obtain rfl := Option.some.inj h1; exact fin (by simp) ⟨hr', hr'⟩
    by_cases x2 : isParallel s.axis vY t.angle
    · rw [if_neg x1, if_pos x2] at h1; obtain rfl := Option.some.inj h1; exact fin (by simp) ⟨hr', hr'⟩
    by_cases x3 : isParallel s.axis vZ t.angle
    · rw [if_neg x1, if_neg x2, if_pos x3] at h1; obtain rfl := Option.some.inj h1; exact fin (by simp) ⟨hr', hr'⟩
    exact absurd hn (not_aligned ht.1 x1 x2 x3)

/-- C76, if no cone has an oblique axis and a half angle other than 45°. -/
theorem C76_round_trip_partial (t : Tol) (prnt3P : Bool) (eigh : GQ → Eig) (ht : SaneTol t) (hg : ∀ q, IsEigh q (eigh q)) (l : List (Nat × Surface)) (hn : (l.map (·.1)).Nodup)
    (h : ∀ x ∈ l, Writable t prnt3P x.2 ∧ ConesRight x.2) :
    (∃ ss, roundMcnp t prnt3P eigh l = some ss ∧ ss.map (·.1) = l.map (·.1) ∧
      ∀ (i : Nat) n S, l[i]? = some (n, S) → ∃ s, ss[i]? = some (n, s) ∧ HasSides (S.mcnpRegion prnt3P) s) ∧
    (∃ ss, roundXml t eigh l = some ss ∧ ss.map (·.1) = l.map (·.1) ∧
      ∀ (i : Nat) n S, l[i]? = some (n, S) → ∃ s, ss[i]? = some (n, 1 + i, s) ∧ HasSides S.omcRegion s) := by
  constructor
  · clear hn
    induction l with
    | nil => exact ⟨[], rfl, rfl, by simp⟩
    | cons x l ih =>
      obtain ⟨n, S⟩ := x
      obtain ⟨ss, a1, a2, a3⟩ := ih (fun x hx => h x (by simp [hx]))
      obtain ⟨hW, hC⟩ := h (n, S) (by simp)
      obtain ⟨c, s, e1, e2, e3⟩ := back_mcnp ht hg hW hC
      refine ⟨(n, s) :: ss, ?_, by simp [a2], fun i m T hi => ?_⟩
      · simp only [roundMcnp, e1, e2, a1, Option.bind_eq_bind, Option.bind_some]
      · cases i with
        | zero =>
          simp only [List.getElem?_cons_zero, Option.some.injEq, Prod.mk.injEq] at hi
          obtain ⟨rfl, rfl⟩ := hi
          exact ⟨s, by simp, e3⟩
        | succ i => simpa using a3 i m T (by simpa using hi)
  · have key : ∃ cs, xmlElements t l = some cs ∧ cs.map (·.id) = l.map (·.1) ∧ ∀ (i : Nat) n S, l[i]? = some (n, S) →
        ∃ c s, cs[i]? = some c ∧ c.id = n ∧ makeXml eigh c.ty c.coeffs = some (some s) ∧ HasSides S.omcRegion s := by
      clear hn
      induction l with
      | nil => exact ⟨[], rfl, rfl, by simp⟩
      | cons x l ih =>
        obtain ⟨n, S⟩ := x
        obtain ⟨cs, a1, a2, a3⟩ := ih (fun x hx => h x (by simp [hx]))
        obtain ⟨hW, hC⟩ := h (n, S) (by simp)
        obtain ⟨c, s, e1, e2, e3⟩ := back_xml ht hg hW hC
        refine ⟨⟨n, c.mn, c.args⟩ :: cs, ?_, by simp [a2], fun i m T hi => ?_⟩
        · rw [xmlElements, e1, Option.bind_eq_bind, Option.bind_some, a1]; rfl
        · cases i with
          | zero =>
            simp only [List.getElem?_cons_zero, Option.some.injEq, Prod.mk.injEq] at hi
            obtain ⟨rfl, rfl⟩ := hi
            exact ⟨⟨n, c.mn, c.args⟩, s, by simp, rfl, e2, e3⟩
          | succ i => simpa using a3 i m T (by simpa using hi)
    obtain ⟨cs, b1, b2, b3⟩ := key
    have hlen : cs.length = l.length := by have := congrArg List.length b2; simpa using this
    obtain ⟨ss, a1, a2, a3⟩ := xml_loop eigh cs 1 (by rw [b2]; exact hn) (by
      intro c hc
      obtain ⟨i, hi⟩ := List.mem_iff_getElem?.mp hc
      have hlt : i < l.length := by
        rw [← hlen]; exact (List.getElem?_eq_some_iff.mp hi).1
      obtain ⟨c', s, e1, -, e2, -⟩ := b3 i l[i].1 l[i].2 (by simp [List.getElem?_eq_getElem hlt])
      rw [hi] at e1
      obtain rfl := Option.some.inj e1
      exact ⟨s, e2⟩)
    refine ⟨ss, by rw [roundXml, b1, Option.bind_some, a1], by rw [a2, b2], fun i n S hi => ?_⟩
    obtain ⟨c, s, e1, rfl, e2, e3⟩ := b3 i n S hi
    exact ⟨s, a3 i c e1 s e2, e3⟩

theorem oblique_writable (b : Bool) (S : Surface) (hS : S = .cyl ⟨⟨10, 0, 30⟩, oblique, 5⟩ ∨ S = .cone ⟨⟨1, 2, 3⟩, oblique, Real.pi / 4⟩ ∨ S = .cone ⟨⟨1, 2, 3⟩, oblique, Real.pi / 3⟩) :
    Writable (absTol (1 / 10000)) b S := by
  obtain ⟨n1, n2, n3⟩ := oblique_exact (tol := (absTol (1 / 10000)).angle) (by norm_num [absTol])
  have ex : ExactAxis (absTol (1 / 10000)).angle oblique := ⟨fun h => absurd h n1, fun h => absurd h n2, fun h => absurd h n3⟩
  have hpi := Real.pi_pos
  rcases hS with rfl | rfl | rfl
  · exact ⟨oblique_sq, by show (0:ℝ) < 5; norm_num, ex, trivial⟩
  · exact ⟨oblique_sq, by constructor <;> simp only <;> linarith, ex, trivial⟩
  · exact ⟨oblique_sq, by constructor <;> simp only <;> linarith, ex, trivial⟩

/-- the hypotheses are met by a sphere, an oblique cylinder, a cone along x that points backwards and an oblique cone of 45° -/
example : SaneTol (absTol (1 / 10000)) ∧ (∃ eigh : GQ → Eig, ∀ q, IsEigh q (eigh q)) ∧
    ∀ x ∈ ([(4, .cyl ⟨⟨10, 0, 30⟩, oblique, 5⟩), (2, .cone ⟨⟨1, 2, 3⟩, oblique, Real.pi / 4⟩), (9, .tor ⟨⟨0, 0, 0⟩, vX, 3, 1, 1⟩)] : List (Nat × Surface)),
      Writable (absTol (1 / 10000)) true x.2 ∧ ConesRight x.2 := by
  refine ⟨⟨by norm_num [absTol], by norm_num [absTol]⟩, eigh_exists, fun x hx => ?_⟩
  simp only [List.mem_cons, List.not_mem_nil, or_false] at hx
  rcases hx with rfl | rfl | rfl
  · exact ⟨oblique_writable _ _ (Or.inl rfl), trivial⟩
  · exact ⟨oblique_writable _ _ (Or.inr (Or.inl rfl)), Or.inr rfl⟩
  · refine ⟨⟨⟨vX_sq, by norm_num⟩, trivial, ?_, Or.inl rfl⟩, trivial⟩
    refine ⟨fun _ => Or.inl rfl, fun h => ?_, fun h => ?_⟩
    · exact absurd h (axis_not_parallel (by norm_num [vX, vY, Vec.dot]) vX_sq vY_sq (by norm_num [absTol]))
    · exact absurd h (axis_not_parallel (by norm_num [vX, vZ, Vec.dot]) vX_sq vZ_sq (by norm_num [absTol]))

/-- Every cone with an oblique axis and a half angle other than 45° (tangent at least 0.0032 for MCNP, 0.224 for XML: narrower ones are not treated here) comes back with a point
of its inside outside, or the other way round. -/
theorem C76_oblique_cone_violated (t : Tol) (prnt3P : Bool) (eigh : GQ → Eig) (ht : SaneTol t) (hg : ∀ q, IsEigh q (eigh q)) (s : ConeP) (hw : Writable t prnt3P (.cone s))
    (ho : ¬ Aligned s.axis) (h45 : s.semiAngle ≠ Real.pi / 4) :
    (1 / 10 ^ 5 ≤ Real.tan s.semiAngle ^ 2 → ∃ c s', mcnpSurface t prnt3P (.cone s) = some c ∧ readCard eigh c = some s' ∧
      ∃ p, ((coneRegion s.apex s.axis (Real.tan s.semiAngle)).pos p ∧ surfaceSide p s' = some false) ∨
        ((coneRegion s.apex s.axis (Real.tan s.semiAngle)).neg p ∧ surfaceSide p s' = some true)) ∧
    (1 / 20 ≤ Real.tan s.semiAngle ^ 2 → ∃ c s', omcXmlSurface t (.cone s) = some c ∧ makeXml eigh c.mn c.args = some (some s') ∧
      ∃ p, ((coneRegion s.apex s.axis (Real.tan s.semiAngle)).pos p ∧ surfaceSide p s' = some false) ∨
        ((coneRegion s.apex s.axis (Real.tan s.semiAngle)).neg p ∧ surfaceSide p s' = some true)) := by
  obtain ⟨hw, hp, he, -⟩ := hw
  replace hw : s.axis.sq = 1 := hw
  obtain ⟨hx, hy, hz⟩ := he
  have x1 : ¬ isParallel s.axis vX t.angle := fun h => ho (aligned_X (hx h))
  have x2 : ¬ isParallel s.axis vY t.angle := fun h => ho (aligned_Y (hy h))
  have x3 : ¬ isParallel s.axis vZ t.angle := fun h => ho (aligned_Z (hz h))
  have p10 : (0 : ℝ) < 1 / 10 := by norm_num
  have hne : (1 : ℝ) ≠ - -Real.tan s.semiAngle ^ 2 := by
    rw [neg_neg]
    intro h1
    have hpos := Real.tan_pos_of_pos_of_lt_pi_div_two hp.1 hp.2
    have ht1 : Real.tan s.semiAngle = 1 := by nlinarith
    apply h45
    rw [← Real.tan_pi_div_four] at ht1
    have hpi := Real.pi_pos
    exact Real.injOn_tan ⟨by linarith [hp.1], hp.2⟩ ⟨by linarith, by linarith⟩ ht1
  have back : ∀ (q : GQ) (s' : Surf), SameInCm (coneRegion s.apex s.axis (Real.tan s.semiAngle)) (.ofFun q.eval) →
      (∃ p, (0 < q.eval p ∧ surfaceSide (mm p) s' = some false) ∨ (q.eval p < 0 ∧ surfaceSide (mm p) s' = some true)) →
      ∃ p, ((coneRegion s.apex s.axis (Real.tan s.semiAngle)).pos p ∧ surfaceSide p s' = some false) ∨
        ((coneRegion s.apex s.axis (Real.tan s.semiAngle)).neg p ∧ surfaceSide p s' = some true) := by
    rintro q s' hs ⟨p, hp⟩
    have e : Vec.smul (1 / 10) (mm p) = p := by ext <;> simp [mm, Vec.smul]
    have := hs (mm p)
    rw [e] at this
    refine ⟨mm p, hp.imp (fun h => ⟨this.2.2 h.1, h.2⟩) (fun h => ⟨this.1.2 h.1, h.2⟩)⟩
  constructor
  · intro hk
    have n1 : ¬ isParallel (Vec.smul (1 / 10) s.axis) vX t.angle := fun h => x1 ((isParallel_smul _ p10 _).1 h)
    have n2 : ¬ isParallel (Vec.smul (1 / 10) s.axis) vY t.angle := fun h => x2 ((isParallel_smul _ p10 _).1 h)
    have n3 : ¬ isParallel (Vec.smul (1 / 10) s.axis) vZ t.angle := fun h => x3 ((isParallel_smul _ p10 _).1 h)
    obtain ⟨q, w, e1, e2⟩ := cone_principal (c := Vec.smul (1 / 10) s.apex) (k := Real.tan s.semiAngle) p10.ne' hw (slanted_of_not hw ht.1 x1)
    obtain ⟨q', e3, e4⟩ := cone_gq' ht hw x1
    rw [e1] at e3
    obtain rfl := Option.some.inj e3
    obtain ⟨s', f1, f2⟩ := C74_cone_violated q w _ _ _ e2 (by linarith) (by norm_num) hne _ (hg q)
    refine ⟨⟨"GQ", q.toList⟩, s', ?_, by rw [readCard_gq, f1], back q s' e4 f2⟩
    simp only [mcnpSurface, mcnpCone]
    rw [if_neg n1, if_neg n2, if_neg n3, e1]
    rfl
  · intro hk
    obtain ⟨q, w, e1, e2⟩ := cone_principal (c := Vec.smul (1 / 10) s.apex) (k := Real.tan s.semiAngle) one_ne_zero hw (slanted_of_not hw ht.1 x1)
    rw [one_smul'] at e1
    obtain ⟨q', e3, e4⟩ := cone_gq ht hw x1
    rw [e1] at e3
    obtain rfl := Option.some.inj e3
    obtain ⟨s', f1, f2⟩ := C75_cone_violated q w _ _ _ e2 (by linarith) (by norm_num) (by linarith) hne eigh hg
    refine ⟨⟨"quadric", q.toList⟩, s', ?_, f1, back q s' e4 f2⟩
    simp only [omcXmlSurface, omcXmlCone, normalize_unit hw]
    rw [if_neg x1, if_neg x2, if_neg x3, e1]
    rfl

theorem oblique_not_aligned : ¬ Aligned oblique := by
  obtain ⟨n1, n2, n3⟩ := oblique_exact (tol := 1 / 2) le_rfl
  exact not_aligned (by norm_num) n1 n2 n3

/-- The property is false: a cone of 60° with the axis (0, 0.6, 0.8). -/
theorem C76_violated : ¬ C76_statement := by
  intro H
  obtain ⟨eigh, hg⟩ := eigh_exists
  have hW := oblique_writable false (.cone ⟨⟨1, 2, 3⟩, oblique, Real.pi / 3⟩) (Or.inr (Or.inr rfl))
  have ht : SaneTol (absTol (1 / 10000)) := ⟨by norm_num [absTol], by norm_num [absTol]⟩
  have hpi := Real.pi_pos
  have htan : Real.tan (Real.pi / 3) ^ 2 = 3 := by rw [Real.tan_pi_div_three]; exact Real.sq_sqrt (by norm_num)
  obtain ⟨c, s', h1, h2, p, h3⟩ := (C76_oblique_cone_violated _ false eigh ht hg _ hW oblique_not_aligned (by show Real.pi / 3 ≠ _; intro h; linarith)).1
    (by show (1:ℝ) / 10 ^ 5 ≤ Real.tan (Real.pi / 3) ^ 2; rw [htan]; norm_num)
  obtain ⟨⟨ss, a1, a2, a3⟩, -⟩ := H _ false eigh ht hg [(1, .cone ⟨⟨1, 2, 3⟩, oblique, Real.pi / 3⟩)] (by simp) (by simpa using hW)
  obtain ⟨s, b1, b2⟩ := a3 0 _ _ rfl
  simp only [roundMcnp, h1, h2, Option.bind_eq_bind, Option.bind_some, Option.some.injEq] at a1
  subst a1
  simp at b1
  subst b1
  have := b2 p
  simp only [Surface.mcnpRegion, if_neg oblique_not_aligned] at this
  rcases h3 with ⟨a, b⟩ | ⟨a, b⟩
  · rw [this.1 a] at b; simp at b
  · rw [this.2 a] at b; simp at b

end Geouned.RSurf
