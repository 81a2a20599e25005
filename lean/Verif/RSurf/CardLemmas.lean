import Verif.RSurf.Lemmas
namespace Geouned.RSurf
open Geouned.Geom

/-- on both sides of the card's surface, off its facets, `surface_side` gives the side -/
def Agrees (off : Vec → Prop) (s : Surf) (r : Region) : Prop :=
  ∀ p, off p → (r.pos p → surfaceSide (mm p) s = some true) ∧ (r.neg p → surfaceSide (mm p) s = some false)

/-- the card is read as a surface that agrees with its meaning -/
def Good (mn : String) (args : List ℝ) (r : Region) : Prop :=
  ∃ s bp bR, makeSurf mn args = some (.surf s bp bR) ∧ s ≠ .bad ∧ Agrees (offFacets mn args) s r

theorem agrees_fun {off : Vec → Prop} {s : Surf} {f : Vec → ℝ} {k : ℝ} (hk : 0 < k) (h : ∀ p, inout (mm p) s = some (k * f p)) : Agrees off s (.ofFun f) := by
  intro p _
  exact ⟨fun hp => side_true (h p) (mul_pos hk hp), fun hn => side_false (h p) (mul_neg_of_pos_of_neg hk hn).le⟩

theorem good_plane {mn : String} {args : List ℝ} {r : Region} (h : planeCards mn args = some r) : Good mn args r := by
  unfold planeCards at h
  split at h
  · simp only [Option.some.injEq] at h
    subst h
    exact ⟨_, _, _, rfl, by simp, agrees_fun (k := 10) (by norm_num) fun p => by
      simp only [inout, mm, Vec.dot, Vec.smul, vX, Option.some.injEq]; ring⟩
  · simp only [Option.some.injEq] at h
    subst h
    exact ⟨_, _, _, rfl, by simp, agrees_fun (k := 10) (by norm_num) fun p => by
      simp only [inout, mm, Vec.dot, Vec.smul, vY, Option.some.injEq]; ring⟩
  · simp only [Option.some.injEq] at h
    subst h
    exact ⟨_, _, _, rfl, by simp, agrees_fun (k := 10) (by norm_num) fun p => by
      simp only [inout, mm, Vec.dot, Vec.smul, vZ, Option.some.injEq]; ring⟩
  · split at h
    · cases h
    · simp only [Option.some.injEq] at h
      subst h
      exact ⟨_, _, _, rfl, by simp, agrees_fun (k := 10) (by norm_num) fun p => by
        simp only [inout, mm, Vec.dot, Vec.smul, Option.some.injEq]; ring⟩
  · rename_i x1 y1 z1 x2 y2 z2 x3 y3 z3
    split at h
    · rename_i hn
      simp only [Option.some.injEq] at h
      subst h
      obtain ⟨a, d, ha, hu, q1, q2, q3, q4, q5⟩ := C38_points_to_coeffs _ _ _ hn
      have hm : makeSurf "P" [x1, y1, z1, x2, y2, z2, x3, y3, z3] = (threePlane ⟨x1, y1, z1⟩ ⟨x2, y2, z2⟩ ⟨x3, y3, z3⟩).map fun s => .surf s false false := rfl
      rw [threePlane_eq, ha] at hm
      refine ⟨_, _, _, hm, by simp, fun p _ => ?_⟩
      have hio : inout (mm p) (.plane a (d * 10)) = some (10 * (a.dot p - d)) := by
        simp only [inout, mm, Vec.dot, Vec.smul, Option.some.injEq]; ring
      constructor
      · rintro ⟨b, e, hb, hlt⟩
        obtain ⟨rfl, rfl⟩ := C38_convention_unique _ _ _ a b d e hn ⟨hu, q1, q2, q3, q4, q5⟩ hb
        exact side_true hio (by linarith)
      · rintro ⟨b, e, hb, hlt⟩
        obtain ⟨rfl, rfl⟩ := C38_convention_unique _ _ _ a b d e hn ⟨hu, q1, q2, q3, q4, q5⟩ hb
        exact side_false hio (by linarith)
    · cases h
  · cases h

theorem agrees_sphere {off : Vec → Prop} {P : Vec} {x y z r R : ℝ} (hr : 0 < r) (hP : P = Vec.smul 10 ⟨x, y, z⟩) (hR : R = r * 10) :
    Agrees off (.sphere P R) (.ofFun (eqSph x y z r)) := by
  intro p _
  have e : ((mm p).sub P).sq = 100 * (eqSph x y z r p + r ^ 2) := by
    rw [hP]; simp only [mm, Vec.sq, Vec.dot, Vec.sub, Vec.smul, eqSph]; ring
  constructor
  · intro hp
    exact sphere_out (by rw [e, hR]; have : 0 < eqSph x y z r p := hp; nlinarith)
  · intro hp
    exact sphere_in (by rw [hR]; positivity) (by rw [e, hR]; have : eqSph x y z r p < 0 := hp; nlinarith)

theorem good_sphere {mn : String} {args : List ℝ} {r : Region} (h : sphereCards mn args = some r) : Good mn args r := by
  unfold sphereCards at h
  split at h <;> first
    | (cases h; done)
    | (split at h <;> first
        | (cases h; done)
        | (rename_i hr
           simp only [Option.some.injEq] at h
           subst h
           exact ⟨_, _, _, rfl, by simp, agrees_sphere hr (by ext <;> simp [Vec.smul] <;> ring) rfl⟩))

theorem agrees_cyl {off : Vec → Prop} {P v : Vec} {r R : ℝ} {f : Vec → ℝ} (hr : 0 < r) (hR : R = r * 10) (hv : v.sq = 1)
    (hf : ∀ p, ((mm p).sub P).sq - ((mm p).sub P).dot v ^ 2 = 100 * (f p + r ^ 2)) : Agrees off (.cyl P v R) (.ofFun f) := by
  intro p _
  have e := hf p
  constructor
  · intro hp
    exact cyl_out hv (by rw [e, hR]; have : 0 < f p := hp; nlinarith)
  · intro hp
    exact cyl_in (by rw [hR]; positivity) hv (by rw [e, hR]; have : f p < 0 := hp; nlinarith)

theorem good_cyl {mn : String} {args : List ℝ} {r : Region} (h : cylCards mn args = some r) : Good mn args r := by
  unfold cylCards at h
  split at h <;> first
    | (cases h; done)
    | (split at h <;> first
        | (cases h; done)
        | (rename_i hr
           simp only [Option.some.injEq] at h
           subst h
           refine ⟨_, _, _, rfl, by simp, agrees_cyl hr rfl (by norm_num [vX, vY, vZ, Vec.sq, Vec.dot]) fun p => ?_⟩
           simp only [mm, Vec.sq, Vec.dot, Vec.sub, Vec.smul, vX, vY, vZ, eqCylX, eqCylY, eqCylZ]
           ring))

/-- a cone card: apex `q` in cm, axis `e`, equation `f`, height `h` -/
theorem good_coneMade {off : Vec → Prop} {q e : Vec} {t2 : ℝ} {rest : List ℝ} {f hgt : Vec → ℝ} {r : Region} (he : e.sq = 1) (ht : 0 < t2)
    (hf : ∀ p, ((mm p).sub (Vec.smul 10 q)).sq - ((mm p).sub (Vec.smul 10 q)).dot e ^ 2 = 100 * (f p + t2 * hgt p ^ 2))
    (hh : ∀ p, ((mm p).sub (Vec.smul 10 q)).dot e = 10 * hgt p) (h : coneCard f hgt rest = some r) :
    ∃ s bp bR, coneMade q e (Vec.smul (-1) e) t2 rest = some (.surf s bp bR) ∧ s ≠ .bad ∧ Agrees off s r := by
  have hs : Real.sqrt t2 ^ 2 = t2 := Real.sq_sqrt ht.le
  have hs0 : 0 < Real.sqrt t2 := Real.sqrt_pos.2 ht
  have hnt : ¬ t2 < 0 := not_lt.2 ht.le
  have hne : (Vec.smul (-1) e).sq = 1 := by rw [sq_smul]; linarith
  have hdn : ∀ d : Vec, d.dot (Vec.smul (-1) e) = -d.dot e := fun d => by simp only [Vec.dot, Vec.smul]; ring
  unfold coneCard at h
  split at h
  · simp only [Option.some.injEq] at h
    subst h
    refine ⟨.cone (Vec.smul 10 q) e (Real.sqrt t2) true, true, false, by simp [coneMade, coneAxis, hnt], by simp, fun p _ => ?_⟩
    have e1 := hf p
    have e2 := hh p
    constructor
    · intro hp
      have : 0 < f p := hp
      exact cone_out he hs0 (Or.inl (by rw [e1, e2, hs]; nlinarith))
    · intro hp
      have : f p < 0 := hp
      exact cone_in he hs0 (by simp) (by rw [e1, e2, hs]; nlinarith)
  · rename_i s
    split at h
    · rename_i hsh
      simp only [Option.some.injEq] at h
      subst h
      rcases hsh with rfl | rfl
      · refine ⟨.cone (Vec.smul 10 q) e (Real.sqrt t2) false, true, false, by norm_num [coneMade, coneAxis, hnt], by simp, fun p _ => ?_⟩
        have e1 := hf p
        have e2 := hh p
        constructor
        · intro hp
          have : 0 < f p ∨ 1 * hgt p < 0 := hp
          rcases this with hp | hp
          · exact cone_out he hs0 (Or.inl (by rw [e1, e2, hs]; nlinarith))
          · exact cone_out he hs0 (Or.inr ⟨rfl, by rw [e2]; linarith⟩)
        · intro hp
          have : f p < 0 ∧ 0 < 1 * hgt p := hp
          exact cone_in he hs0 (fun _ => by rw [e2]; linarith) (by rw [e1, e2, hs]; nlinarith)
      · refine ⟨.cone (Vec.smul 10 q) (Vec.smul (-1) e) (Real.sqrt t2) false, true, false, by norm_num [coneMade, coneAxis, hnt], by simp, fun p _ => ?_⟩
        have e1 := hf p
        have e2 := hh p
        constructor
        · intro hp
          have : 0 < f p ∨ -1 * hgt p < 0 := hp
          rcases this with hp | hp
          · exact cone_out hne hs0 (Or.inl (by rw [hdn, neg_sq, e1, e2, hs]; nlinarith))
          · exact cone_out hne hs0 (Or.inr ⟨rfl, by rw [hdn, e2]; linarith⟩)
        · intro hp
          have : f p < 0 ∧ 0 < -1 * hgt p := hp
          exact cone_in hne hs0 (fun _ => by rw [hdn, e2]; linarith) (by rw [hdn, neg_sq, e1, e2, hs]; nlinarith)
    · cases h
  · cases h

theorem nX_eq : nX = Vec.smul (-1) vX := by ext <;> simp [nX, vX, Vec.smul]
theorem nY_eq : nY = Vec.smul (-1) vY := by ext <;> simp [nY, vY, Vec.smul]
theorem nZ_eq : nZ = Vec.smul (-1) vZ := by ext <;> simp [nZ, vZ, Vec.smul]

theorem made_KX (x t2 : ℝ) (s : List ℝ) : makeSurf "KX" (x :: t2 :: s) = coneMade ⟨x, 0, 0⟩ vX nX t2 s := rfl
theorem made_KY (x t2 : ℝ) (s : List ℝ) : makeSurf "KY" (x :: t2 :: s) = coneMade ⟨0, x, 0⟩ vY nY t2 s := rfl
theorem made_KZ (x t2 : ℝ) (s : List ℝ) : makeSurf "KZ" (x :: t2 :: s) = coneMade ⟨0, 0, x⟩ vZ nZ t2 s := rfl
theorem made_KoX (x y z t2 : ℝ) (s : List ℝ) : makeSurf "K/X" (x :: y :: z :: t2 :: s) = coneMade ⟨x, y, z⟩ vX nX t2 s := rfl
theorem made_KoY (x y z t2 : ℝ) (s : List ℝ) : makeSurf "K/Y" (x :: y :: z :: t2 :: s) = coneMade ⟨x, y, z⟩ vY nY t2 s := rfl
theorem made_KoZ (x y z t2 : ℝ) (s : List ℝ) : makeSurf "K/Z" (x :: y :: z :: t2 :: s) = coneMade ⟨x, y, z⟩ vZ nZ t2 s := rfl

theorem good_cone {mn : String} {args : List ℝ} {r : Region} (h : coneCards mn args = some r) : Good mn args r := by
  unfold coneCards at h
  split at h <;> first
    | (cases h; done)
    | (split at h <;> first
        | (cases h; done)
        | (rename_i ht
           unfold Good
           simp only [made_KX, made_KY, made_KZ, made_KoX, made_KoY, made_KoZ, nX_eq, nY_eq, nZ_eq]
           refine good_coneMade (by norm_num [vX, vY, vZ, Vec.sq, Vec.dot]) ht (fun p => ?_) (fun p => ?_) h <;>
             simp only [mm, Vec.sq, Vec.dot, Vec.sub, Vec.smul, vX, vY, vZ, eqConeX, eqConeY, eqConeZ] <;> ring))

theorem good_torus {mn : String} {args : List ℝ} {r : Region} (h : torusCards mn args = some r) : Good mn args r := by
  unfold torusCards at h
  have key : ∀ (q e : Vec) (a b c : ℝ) (f : Vec → ℝ) (off : Vec → Prop), e.sq = 1 → 0 < b → 0 < c →
      (∀ p, f p = ((p.sub q).dot e / b) ^ 2 + ((Real.sqrt ((p.sub q).sq - (p.sub q).dot e ^ 2) - a) / c) ^ 2 - 1) →
      Agrees off (.torus (Vec.smul 10 q) e (a * 10) (b * 10) (c * 10)) (.ofFun f) := by
    intro q e a b c f off he hb hc hf
    refine agrees_fun (k := 1) (by norm_num) fun p => ?_
    rw [torus_inout he (by positivity) (by positivity), hf p]
    have h1 : ((mm p).sub (Vec.smul 10 q)).dot e = 10 * (p.sub q).dot e := by simp only [mm, Vec.dot, Vec.sub, Vec.smul]; ring
    have h2 : ((mm p).sub (Vec.smul 10 q)).sq = 100 * (p.sub q).sq := by simp only [mm, Vec.sq, Vec.dot, Vec.sub, Vec.smul]; ring
    have h3 : Real.sqrt (((mm p).sub (Vec.smul 10 q)).sq - ((mm p).sub (Vec.smul 10 q)).dot e ^ 2) = 10 * Real.sqrt ((p.sub q).sq - (p.sub q).dot e ^ 2) := by
      rw [h1, h2, show (100 * (p.sub q).sq - (10 * (p.sub q).dot e) ^ 2) = 10 ^ 2 * ((p.sub q).sq - (p.sub q).dot e ^ 2) by ring, Real.sqrt_mul (by norm_num),
        Real.sqrt_sq (by norm_num)]
    rw [h3, h1]
    congr 1
    field_simp
  split at h <;> first
    | (cases h; done)
    | (split at h <;> first
        | (cases h; done)
        | (rename_i hr
           simp only [Option.some.injEq] at h
           subst h
           refine ⟨_, _, _, rfl, by simp, key _ _ _ _ _ _ _ (by norm_num [vX, vY, vZ, Vec.sq, Vec.dot]) hr.1 hr.2 fun p => ?_⟩
           simp only [Vec.sq, Vec.dot, Vec.sub, vX, vY, vZ, eqTorX, eqTorY, eqTorZ, div_pow]
           ring_nf))

end Geouned.RSurf
