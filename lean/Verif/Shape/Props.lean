import Verif.Shape.Lemmas3
/-!
# C115: the planes that stand for a curved surface enclose it

`sides s` (`Shape/Spec.lean`) are the two sides of the surface with the parameters `s`; `convertToPlanes pos s` are the planes the program makes for it, around the surface
(`some false`), inside of it (`some true`), or between (`none`). What it means to be inside of a group of planes is `Group.Inside` of `Poly/Spec.lean`.
-/
namespace Geouned.Shape
open Geouned.Geom Geouned.RSurf Geouned.Poly

/-- C115, in full, for the surfaces that satisfy `plain`: planes are made without exception; those around a surface contain its inside, and those inside of a cone (the only
ones that are used for the outside of a surface) contain no point of its outside. -/
def Enclosed (plain : RSurf.Surf → Prop) : Prop :=
  ∀ s R, Proper s → sides s = some R → ¬ IsPlane s → plain s →
    (∀ pos, ∃ g, convertToPlanes pos s = some g ∧ g.Ok ∧ g ≠ .flat []) ∧
    ∀ q g, (convertToPlanes (some false) s = some g → R.neg q → g.Inside (Pl.On q)) ∧
      (convertToPlanes (some true) s = some g → g.twoSided = true → g.Inside (Pl.On q) → ¬ R.pos q)

theorem coneToPlanes_ne {P v : Vec} {t : ℝ} {pos : Option Bool} {ps : List Pl} (hv : v.sq = 1) (h : coneToPlanes P v t pos = some ps) : ps ≠ [] := by
  obtain ⟨x, y, -, e⟩ := cone_planes (P := P) hv t pos
  rw [e] at h
  cases h
  simp

/-- **C115**, proved part: every surface except tori that are elliptical, or whose axis is not along a coordinate axis. -/
theorem C115_enclosed_partial : Enclosed PlainTorus := by
  intro s R hp hs hn htor
  cases s with
  | plane => exact absurd trivial hn
  | sphere P r =>
    cases hs
    refine ⟨fun pos => ⟨.flat ((sixPlanes P (factor pos r) (factor pos r) (factor pos r)).map unitPl), by simp only [convertToPlanes, sphere_eq]; rfl, trivial, by simp [sixPlanes]⟩, fun q g => ⟨fun h hq => ?_, fun h h2 => ?_⟩⟩
    · obtain ⟨ps, e, hps⟩ := sphere_around hp hq
      simp only [convertToPlanes, e, Option.map_some, Option.some.injEq] at h
      subst h; exact hps
    · simp only [convertToPlanes, sphere_eq, Option.map_some, Option.some.injEq] at h
      subst h; simp [Group.twoSided] at h2
  | cyl P v r =>
    cases hs
    obtain ⟨hv, hr⟩ := hp
    refine ⟨fun pos => ?_, fun q g => ⟨fun h hq => ?_, fun h h2 => ?_⟩⟩
    · obtain ⟨x, y, -, e⟩ := cyl_planes (P := P) hv r pos
      refine ⟨.flat _, by simp only [convertToPlanes, e]; rfl, trivial, by simp⟩
    · obtain ⟨ps, e, hps⟩ := cyl_around hv hr hq
      simp only [convertToPlanes, e, Option.map_some, Option.some.injEq] at h
      subst h; exact hps
    · obtain ⟨x, y, -, e⟩ := cyl_planes (P := P) hv r (some true)
      simp only [convertToPlanes, e, Option.map_some, Option.some.injEq] at h
      subst h; simp [Group.twoSided] at h2
  | cone P v t dbl =>
    obtain ⟨hv, ht⟩ := hp
    refine ⟨fun pos => ?_, fun q g => ?_⟩
    · obtain ⟨x, y, -, e⟩ := cone_planes (P := P) hv t pos
      have hne := coneToPlanes_ne hv e
      refine ⟨_, by simp only [convertToPlanes, e]; rfl, ?_, ?_⟩ <;> cases dbl
      · exact hne
      · exact hne
      · exact nofun
      · exact nofun
    · obtain ⟨ps', e', w1, w2⟩ := cone_within (P := P) (q := q) hv ht
      cases dbl with
      | false =>
        cases hs
        refine ⟨fun h hq => ?_, fun h _ hi => ?_⟩
        · obtain ⟨ps, e, hps⟩ := sheet_around hv ht hq
          simp only [convertToPlanes, e, Option.map_some, Option.some.injEq] at h
          subst h; exact hps
        · simp only [convertToPlanes, e', Option.map_some, Option.some.injEq] at h
          subst h; exact (w1 hi).1
      | true =>
        cases hs
        refine ⟨fun h hq => ?_, fun h _ hi => ?_⟩
        · obtain ⟨ps, e, hps⟩ := cone_around hv ht hq
          simp only [convertToPlanes, e, Option.map_some, Option.some.injEq] at h
          subst h; exact hps
        · simp only [convertToPlanes, e', Option.map_some, Option.some.injEq] at h
          subst h
          rcases hi with hi | hi
          · exact (w1 hi).2
          · exact w2 hi
  | torus P v Ra Rb Rc =>
    cases hs
    obtain ⟨rfl, hax⟩ := htor
    refine ⟨fun pos => ?_, fun q g => ⟨fun h hq => ?_, fun h h2 => ?_⟩⟩
    · obtain ⟨e, i, he, hne⟩ := torus_planes (P := P) Ra Rb Rb pos hax
      exact ⟨.torus e i, by simp only [convertToPlanes, he]; rfl, hne, nofun⟩
    · obtain ⟨e, i, he, h1, h2⟩ := torus_around hp.2.1 hax hq
      simp only [convertToPlanes, he, Option.map_some, Option.some.injEq] at h
      subst h; exact ⟨h1, h2⟩
    · obtain ⟨e, i, he, hne⟩ := torus_planes (P := P) Ra Rb Rb (some true) hax
      simp only [convertToPlanes, he, Option.map_some, Option.some.injEq] at h
      subst h; simp [Group.twoSided] at h2
  | para P v f =>
    cases hs
    obtain ⟨ps, e, hne, hps⟩ := para_planes (P := P) hp.1 hp.2
    refine ⟨fun pos => ⟨.flat ps, by simp only [convertToPlanes, e]; rfl, trivial, by simpa using hne⟩, fun q g => ⟨fun h hq => ?_, fun h h2 => ?_⟩⟩ <;>
      simp only [convertToPlanes, e, Option.map_some, Option.some.injEq] at h <;> subst h
    · exact hps q hq
    · simp [Group.twoSided] at h2
  | box P v1 v2 v3 =>
    cases hs
    refine ⟨fun pos => ⟨.flat _, by simp only [convertToPlanes, box_planes hp]; rfl, trivial, by simp⟩, fun q g => ⟨fun h hq => ?_, fun h h2 => ?_⟩⟩
    · obtain ⟨ps, e, hps⟩ := box_around hp hq
      simp only [convertToPlanes, e, Option.map_some, Option.some.injEq] at h
      subst h; exact hps
    · simp only [convertToPlanes, box_planes hp, Option.map_some, Option.some.injEq] at h
      subst h; simp [Group.twoSided] at h2
  | can | tcone | econe | hyp | ell | ecyl | hcyl | bad => cases hs

/-- the hypotheses are met by an oblique cone of one sheet, a torus, a paraboloid and a box -/
example : ∀ s ∈ [RSurf.Surf.cone ⟨1, 2, 3⟩ ⟨3/5, 0, 4/5⟩ (1/2) false, .torus ⟨0, 0, 5⟩ ⟨0, 0, -1⟩ 10 2 2, .para ⟨0, 1, 0⟩ ⟨0, 1, 0⟩ 3,
    .box ⟨0, 0, 0⟩ ⟨1, 1, 0⟩ ⟨-1, 1, 0⟩ ⟨0, 0, 2⟩], Proper s ∧ (sides s).isSome ∧ ¬ IsPlane s ∧ PlainTorus s := by
  intro s hs
  simp only [List.mem_cons, List.not_mem_nil, or_false] at hs
  rcases hs with rfl | rfl | rfl | rfl <;> refine ⟨?_, rfl, id, ?_⟩ <;> norm_num [Proper, PlainTorus, Vec.sq, Vec.dot, Orth3]

/-- … and a point inside of that cone is found inside of its planes -/
example : (sheetRegion ⟨1, 2, 3⟩ ⟨3/5, 0, 4/5⟩ (1/2)).neg ⟨7, 2, 11⟩ := by
  refine ⟨⟨10, ⟨0, 0, 0⟩, ⟨?_, ?_⟩, ?_⟩, ?_⟩
  · ext <;> norm_num [Vec.sub, Vec.smul, Vec.add]
  all_goals norm_num [Vec.sub, Vec.smul, Vec.add, Vec.dot, Vec.sq]

/-- **C115**, violated: the two radii of an elliptical torus are taken for each other. Of the torus with its axis along z, a section 1 mm high and 3 mm wide (half axes) and
a major radius of 10 mm, the point (12, 0, 0) is inside, but it is outside of the planes, which end at 11 mm. -/
theorem C115_torus_violated : ¬ Enclosed fun _ => True := by
  intro h
  obtain ⟨h1, h2⟩ := h (.torus ⟨0, 0, 0⟩ ⟨0, 0, 1⟩ 10 1 3) _ (by norm_num [Proper, Vec.sq, Vec.dot]) rfl id trivial
  have hv : (⟨0, 0, 1⟩ : Vec) = ⟨0, 0, 1⟩ ∨ (⟨0, 0, 1⟩ : Vec) = ⟨0, 0, -1⟩ := .inl rfl
  obtain ⟨-, -, k1, k2, k3⟩ := tor_z hv
  obtain ⟨i, hi, -⟩ := holes (P := ⟨0, 0, 0⟩) (d := (torusDists 10 1 (some false)).2) vX_sq vY_sq
  have e : torusToPlanes ⟨0, 0, 0⟩ ⟨0, 0, 1⟩ 10 1 3 (some false) = some ((sixPlanes ⟨0, 0, 0⟩ (10 + 1) (10 + 1) 3).map unitPl, i) := by
    rw [torusToPlanes, if_neg k2, if_neg k3, if_pos k1, hi, partPlanes_eq (six_ne _ _ _ _)]; rfl
  have := (h2 ⟨12, 0, 0⟩ (.torus ((sixPlanes ⟨0, 0, 0⟩ (10 + 1) (10 + 1) 3).map unitPl) i)).1 (by rw [convertToPlanes, e]; rfl)
    ⟨0, ⟨12, 0, 0⟩, ⟨by ext <;> norm_num [Vec.sub, Vec.smul, Vec.add], by norm_num [Vec.dot]⟩, by
      have : Real.sqrt (⟨12, 0, 0⟩ : Vec).sq = 12 := by
        rw [show (⟨12, 0, 0⟩ : Vec).sq = 12 ^ 2 by norm_num [Vec.sq, Vec.dot]]; exact Real.sqrt_sq (by norm_num)
      rw [this]; norm_num⟩
  have := (unitPl_on (six_ne ⟨0, 0, 0⟩ (10 + 1) (10 + 1) 3 _ (.head _)) _).1 (this.1 _ (.head _))
  norm_num [opp, vX, Vec.smul, Vec.sub, Vec.add, Vec.dot] at this

/-- **C115**, violated: no planes for a torus with an oblique axis (a variable is used before it has a value), for every such torus. -/
theorem C115_oblique_torus_violated (P v : Vec) (Ra Rb Rc : ℝ) (hv : ∀ c ∈ [v.x, v.y, v.z], |c| ≤ 0.9999) (pos : Option Bool) :
    convertToPlanes pos (.torus P v Ra Rb Rc) = none := by
  have k : ∀ c : ℝ, |c| ≤ 0.9999 → ¬ |(|c| - 1)| < 1 / 10 ^ 5 := by
    intro c hc
    rw [abs_of_nonpos (by linarith), not_lt]
    norm_num at hc ⊢
    linarith
  simp only [List.mem_cons, List.not_mem_nil, or_false, forall_eq_or_imp, forall_eq] at hv
  simp only [convertToPlanes, torusToPlanes, dot_vX, dot_vY, dot_vZ, if_neg (k _ hv.1), if_neg (k _ hv.2.1), if_neg (k _ hv.2.2), Option.map_none]

/-- a torus rotated by 45° -/
example : Proper (.torus ⟨0, 0, 0⟩ ⟨3/5, 4/5, 0⟩ 10 1 1) ∧ ∀ c ∈ [(⟨3/5, 4/5, 0⟩ : Vec).x, (⟨3/5, 4/5, 0⟩ : Vec).y, (⟨3/5, 4/5, 0⟩ : Vec).z], |c| ≤ 0.9999 := by
  constructor
  · norm_num [Proper, Vec.sq, Vec.dot]
  · norm_num

/-- **C115.** For boxes the planes are exact: outside of the box is outside of the planes. -/
theorem C115_box {P v1 v2 v3 : Vec} (h : Orth3 v1 v2 v3) (pos : Option Bool) : ∃ g, convertToPlanes pos (.box P v1 v2 v3) = some g ∧
    ∀ q, ((boxRegion P v1 v2 v3).neg q → g.Inside (Pl.On q)) ∧ ((boxRegion P v1 v2 v3).pos q → ¬ g.Inside (Pl.On q)) := by
  refine ⟨_, by simp only [convertToPlanes, box_planes h]; rfl, fun q => ⟨fun hq => ?_, fun hq hi => ?_⟩⟩
  · obtain ⟨ps, e, hps⟩ := box_around h hq
    rw [box_planes h] at e
    cases e; exact hps
  · obtain ⟨a, b, c, e, hh⟩ := hq
    obtain ⟨d1, d2, d3⟩ := box_dots h e
    have k := (box_on_iff h).1 hi
    rw [d1, d2, d3] at k
    obtain ⟨-, -, -, h1, h2, h3⟩ := h
    obtain ⟨⟨a0, a1⟩, ⟨b0, b1⟩, c0, c1⟩ := k
    rcases hh with hh | hh | hh | hh | hh | hh <;> nlinarith

example : Orth3 ⟨1, 1, 0⟩ ⟨-1, 1, 0⟩ ⟨0, 0, 2⟩ := by norm_num [Orth3, Vec.sq, Vec.dot]

/-! ## Planes -/

/-- C115 for planes: the plane of the definition of planes has the same sides -/
def SamePlane (plain : RSurf.Surf → Prop) : Prop :=
  ∀ n d, Proper (.plane n d) → plain (.plane n d) → ∃ p, planeOf n d = some p ∧
    ∀ q R, sides (.plane n d) = some R → (R.pos q ↔ p.On q) ∧ (R.neg q → ¬ p.On q)

theorem plane_on {n : Vec} {d : ℝ} (h : n.sq = 1) : planeOf n d = some (unitPl (Vec.smul d n, n)) ∧ ∀ q, (unitPl (Vec.smul d n, n)).On q ↔ 0 < n.dot q - d := by
  refine ⟨partPlane_eq (ne_of_one h), fun q => ?_⟩
  rw [unitPl_on (ne_of_one h)]
  show 0 < n.dot (q.sub (Vec.smul d n)) ↔ _
  rw [dot_sub, dot_smul, ← Vec.sq, h, mul_one]

/-- **C115**, proved part: a plane given by its unit normal. -/
theorem C115_plane_partial : SamePlane UnitNormal := by
  intro n d _ hn
  obtain ⟨e, h⟩ := plane_on (d := d) hn
  refine ⟨_, e, fun q R hR => ?_⟩
  cases hR
  exact ⟨(h q).symm, fun hq => by rw [h q]; exact not_lt.2 (le_of_lt hq)⟩

/-- **C115**, violated: the card `P 0 0 0.5 1` (the plane z = 2 cm) stands at z = 0.5 cm in the definition of planes: the point at z = 1 cm changes sides. -/
theorem C115_plane_violated : ¬ SamePlane fun _ => True := by
  intro h
  obtain ⟨p, e, hp⟩ := h ⟨0, 0, 1/2⟩ 10 (by intro h; have := congrArg Vec.z h; norm_num at this) trivial
  have hne : (⟨0, 0, 1/2⟩ : Vec).sq ≠ 0 := by norm_num [Vec.sq, Vec.dot]
  rw [planeOf, partPlane_eq hne] at e
  cases e
  refine (hp ⟨0, 0, 10⟩ _ rfl).2 ?_ ?_
  · show (⟨0, 0, 1/2⟩ : Vec).dot ⟨0, 0, 10⟩ - 10 < 0
    norm_num [Vec.dot]
  · rw [unitPl_on hne]
    norm_num [Vec.smul, Vec.sub, Vec.dot]

/-- the card is read with this normal -/
example : makeSurf "P" [0, 0, 1/2, 1] = some (.surf (.plane ⟨0, 0, 1/2⟩ (1 * 10)) false false) := rfl

/-! ## Cells -/

/-- a surface with the planes that stand for it (`quadric_to_plane`, boundBox.py 421-467). Where planes cannot be made (an exception), there are none here. -/
noncomputable def withPlanes : RSurf.Surf → Poly.Surf Pl
  | .plane n d => .plane ((planeOf n d).getD ⟨n, n⟩)
  | s => .curved fun pos => (convertToPlanes pos s).getD (.flat [])

/-- the surfaces of a cell: known, with proper parameters, of the types for which there are planes; planes by unit normals; tori circular and along the axes -/
structure Fine (surfaces : Nat → Option RSurf.Surf) (d : Seq) : Prop where
  expr : d.NoBool
  list : ∃ op l es, d = .lst op l es
  known : ∀ n, Has n d → n ≠ 0 ∧ (surfaces n.natAbs).isSome
  good : ∀ n s, surfaces n = some s → Proper s ∧ (sides s).isSome ∧ UnitNormal s ∧ PlainTorus s
  one : ∀ (n : Nat) s, surfaces n = some s → Has n d → Has (-(n : Int)) d → IsPlane s ∨ IsBox s

open Classical in
/-- the point `q` is in the cell `d` -/
noncomputable def InCell (surfaces : Nat → Option RSurf.Surf) (d : Seq) (q : Vec) : Prop :=
  d.sem (fun n => decide (∃ s R, surfaces n = some s ∧ sides s = some R ∧ R.pos q)) = true

open Classical in
/-- the point `q` is in the region of the definition `r` of planes -/
noncomputable def InPlanes (planes : Nat → Option Pl) (r : Seq) (q : Vec) : Prop :=
  r.sem (fun n => decide (∃ p, planes n = some p ∧ p.On q)) = true

/-- `q` is on none of the surfaces -/
def OffSurfaces (surfaces : Nat → Option RSurf.Surf) (q : Vec) : Prop :=
  ∀ n s R, surfaces n = some s → sides s = some R → R.neg q ∨ R.pos q

theorem withPlanes_plane {s : RSurf.Surf} {p : Pl} (h : withPlanes s = .plane p) : ∃ n d, s = .plane n d ∧ p = (planeOf n d).getD ⟨n, n⟩ := by
  cases s <;> simp only [withPlanes, reduceCtorEq, Poly.Surf.plane.injEq] at h
  exact ⟨_, _, rfl, h.symm⟩

theorem withPlanes_curved {s : RSurf.Surf} {conv : Option Bool → Poly.Group Pl} (h : withPlanes s = .curved conv) :
    ¬ IsPlane s ∧ conv = fun pos => (convertToPlanes pos s).getD (.flat []) := by
  cases s <;> simp only [withPlanes, reduceCtorEq, Poly.Surf.curved.injEq] at h <;> exact ⟨id, h.symm⟩

theorem Fine.curved {surfaces : Nat → Option RSurf.Surf} {d : Seq} (h : Fine surfaces d) {n : Nat} {conv : Option Bool → Poly.Group Pl}
    (hn : (surfaces n).map withPlanes = some (.curved conv)) : ∃ s R, surfaces n = some s ∧ sides s = some R ∧ ¬ IsPlane s ∧
      (∀ pos, convertToPlanes pos s = some (conv pos) ∧ (conv pos).Ok ∧ conv pos ≠ .flat []) ∧
      ∀ q, (R.neg q → (conv (some false)).Inside (Pl.On q)) ∧
        ((conv (some true)).twoSided = true → (conv (some true)).Inside (Pl.On q) → ¬ R.pos q) := by
  obtain ⟨s, hs, hc⟩ := Option.map_eq_some_iff.1 hn
  obtain ⟨hp, rfl⟩ := withPlanes_curved hc
  obtain ⟨h1, h2, -, h4⟩ := h.good n s hs
  obtain ⟨R, hR⟩ := Option.isSome_iff_exists.1 h2
  obtain ⟨k1, k2⟩ := C115_enclosed_partial s R h1 hR hp h4
  have k1' : ∀ pos, convertToPlanes pos s = some ((convertToPlanes pos s).getD (.flat [])) := by
    intro pos
    obtain ⟨g, e, -⟩ := k1 pos
    rw [e]; rfl
  refine ⟨s, R, hs, hR, hp, fun pos => ⟨k1' pos, ?_⟩, fun q => ?_⟩
  · obtain ⟨g, e, e2⟩ := k1 pos
    dsimp only
    rw [e]; exact e2
  · exact ⟨(k2 q _).1 (k1' (some false)), (k2 q _).2 (k1' (some true))⟩

theorem Fine.cell {surfaces : Nat → Option RSurf.Surf} {d : Seq} (h : Fine surfaces d) : Cell (fun n => (surfaces n).map withPlanes) d :=
  ⟨h.expr, h.list, fun n hn => ⟨(h.known n hn).1, by simpa using (h.known n hn).2⟩, fun n conv hn pos => by
    obtain ⟨s, R, -, -, -, k, -⟩ := h.curved hn
    exact (k pos).2.1⟩

theorem Fine.supported {surfaces : Nat → Option RSurf.Surf} {d : Seq} (h : Fine surfaces d) : Supported (fun n => (surfaces n).map withPlanes) := by
  intro n conv hn pos
  obtain ⟨s, R, -, -, -, k, -⟩ := h.curved hn
  exact (k pos).2.2

theorem Fine.oneSign {surfaces : Nat → Option RSurf.Surf} {d : Seq} (h : Fine surfaces d) : OneSign (fun n => (surfaces n).map withPlanes) d := by
  intro n conv hn h1 h2
  obtain ⟨s, R, hs, -, hp, k, -⟩ := h.curved hn
  rcases h.one n s hs h1 h2 with hb | hb
  · exact absurd hb hp
  · cases s with
    | box P v1 v2 v3 =>
      have e1 := (k (some true)).1
      have e2 := (k (some false)).1
      have : convertToPlanes (some true) (.box P v1 v2 v3) = convertToPlanes (some false) (.box P v1 v2 v3) := rfl
      rw [e1, e2] at this
      exact Option.some.inj this
    | _ => exact absurd hb (by simp [IsBox])

open Classical in
theorem Fine.point {surfaces : Nat → Option RSurf.Surf} {d : Seq} (h : Fine surfaces d) {q : Vec} (hq : OffSurfaces surfaces q) :
    Point (fun n => (surfaces n).map withPlanes) (fun n => decide (∃ s R, surfaces n = some s ∧ sides s = some R ∧ R.pos q)) (fun p => decide (p.On q)) := by
  refine ⟨fun n p hn => ?_, fun n conv hn hσ => ?_, fun n conv hn ht hi => ?_⟩
  · obtain ⟨s, hs, hc⟩ := Option.map_eq_some_iff.1 hn
    obtain ⟨m, c, rfl, rfl⟩ := withPlanes_plane hc
    obtain ⟨h1, -, h3, -⟩ := h.good n _ hs
    obtain ⟨p, e, hp⟩ := C115_plane_partial m c h1 h3
    rw [e]
    refine decide_eq_decide.2 ⟨?_, fun ho => ⟨_, _, hs, rfl, ((hp q _ rfl).1).2 ho⟩⟩
    rintro ⟨s, R, hs', hR, hpos⟩
    rw [hs] at hs'
    cases hs'
    exact ((hp q R hR).1).1 hpos
  · obtain ⟨s, R, hs, hR, -, -, k⟩ := h.curved hn
    simp only [decide_eq_true_eq]
    refine (k q).1 ?_
    rcases hq n s R hs hR with hneg | hpos
    · exact hneg
    · exact absurd ⟨s, R, hs, hR, hpos⟩ (of_decide_eq_false hσ)
  · obtain ⟨s, R, hs, hR, -, -, k⟩ := h.curved hn
    simp only [decide_eq_true_eq] at hi
    refine decide_eq_false ?_
    rintro ⟨s', R', hs', hR', hpos⟩
    rw [hs] at hs'
    cases hs'
    rw [hR] at hR'
    cases hR'
    exact (k q).2 ht hi hpos

/-- **C115.** For every cell of planes, spheres, cylinders, cones, tori (circular, along the axes), paraboloids and boxes (no curved surface but boxes with both signs), of
any nesting, the definition of planes of orientation `Forward` contains the cell; the definition of planes of orientation `Reversed` is contained in the cell. -/
theorem C115_cell_partial (order : List Int → List Int) (horder : ∀ l n, n ∈ order l ↔ n ∈ l) (surfaces : Nat → Option RSurf.Surf) (d : Seq) (h : Fine surfaces d) :
    (∃ planes r, planesOf order (fun n => (surfaces n).map withPlanes) .forward d = .ok (planes, r) ∧
      ∀ q, OffSurfaces surfaces q → InCell surfaces d q → InPlanes planes r q) ∧
    ∃ planes r, planesOf order (fun n => (surfaces n).map withPlanes) .reversed d = .ok (planes, r) ∧
      ∀ q, OffSurfaces surfaces q → InPlanes planes r q → InCell surfaces d q := by
  classical
  constructor
  · obtain ⟨planes, r, e, hh⟩ := C114_forward_partial Pl order _ d horder h.cell h.supported h.oneSign
    refine ⟨planes, r, e, fun q hq hc => hh _ (fun p => decide (p.On q)) _ (h.point hq) (fun n p hn => ?_) hc⟩
    refine decide_eq_decide.2 ⟨?_, fun ho => ⟨p, hn, ho⟩⟩
    rintro ⟨p', hn', ho⟩
    rw [hn] at hn'
    cases hn'; exact ho
  · obtain ⟨planes, r, e, hh⟩ := C114_reversed_partial order horder _ d h.cell h.supported h.oneSign
    refine ⟨planes, r, e, fun q hq hc => hh _ (fun p => decide (p.On q)) _ (h.point hq) (fun n p hn => ?_) hc⟩
    refine decide_eq_decide.2 ⟨?_, fun ho => ⟨p, hn, ho⟩⟩
    rintro ⟨p', hn', ho⟩
    rw [hn] at hn'
    cases hn'; exact ho

/-! ### an example: a sphere without a cylinder, over a plane, or in a torus -/

def sampleSurf : Nat → Option RSurf.Surf
  | 1 => some (.sphere ⟨0, 0, 0⟩ 20)
  | 2 => some (.cyl ⟨0, 0, 0⟩ ⟨0, 0, 1⟩ 5)
  | 3 => some (.plane ⟨0, 0, 1⟩ 1)
  | 4 => some (.torus ⟨0, 0, 0⟩ ⟨0, 0, 1⟩ 10 2 2)
  | _ => none

def sampleCell : Seq := .lst .or 1 [.lst .and 0 [.int (-1), .int 2, .int 3], .int (-4)]

theorem sampleSurf_cases {n : Nat} {s : RSurf.Surf} (h : sampleSurf n = some s) :
    (n = 1 ∧ s = .sphere ⟨0, 0, 0⟩ 20) ∨ (n = 2 ∧ s = .cyl ⟨0, 0, 0⟩ ⟨0, 0, 1⟩ 5) ∨ (n = 3 ∧ s = .plane ⟨0, 0, 1⟩ 1) ∨ (n = 4 ∧ s = .torus ⟨0, 0, 0⟩ ⟨0, 0, 1⟩ 10 2 2) := by
  unfold sampleSurf at h
  split at h <;> cases h <;> simp

example : Fine sampleSurf sampleCell := by
  refine ⟨by simp [sampleCell, Seq.NoBool, Seq.NoBoolL], ⟨_, _, _, rfl⟩, fun n hn => ?_, fun n s hs => ?_, fun n s hs h1 h2 => ?_⟩
  · simp [sampleCell, Has, HasL] at hn
    rcases hn with (rfl | rfl | rfl) | rfl <;> exact ⟨by decide, rfl⟩
  · rcases sampleSurf_cases hs with ⟨-, rfl⟩ | ⟨-, rfl⟩ | ⟨-, rfl⟩ | ⟨-, rfl⟩ <;> refine ⟨?_, rfl, ?_, ?_⟩ <;>
      norm_num [Proper, UnitNormal, PlainTorus, Vec.sq, Vec.dot]
  · rcases sampleSurf_cases hs with ⟨rfl, -⟩ | ⟨rfl, -⟩ | ⟨rfl, rfl⟩ | ⟨rfl, -⟩
    · simp [sampleCell, Has, HasL] at h1
    · simp [sampleCell, Has, HasL] at h2
    · exact .inl trivial
    · simp [sampleCell, Has, HasL] at h1

end Geouned.Shape
