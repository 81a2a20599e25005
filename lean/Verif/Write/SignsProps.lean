import Verif.Write.SignsLemmas2
/-!
# C33: planes are turned at export without changing the cells
-/
namespace Geouned.Signs
open Geouned.Geom

theorem faithful_of_rel {s s' : St} {f : Fmt} {prnt3P : Bool} (h : Rel (fileRegion f prnt3P) s s') : Faithful s f prnt3P s' := h

theorem fileRegion_axis {f : Fmt} {prnt3P : Bool} {p : Pl} (h : f = .openmc ∨ prnt3P = false ∨ p.surf.points = none) :
    fileRegion f prnt3P p = axisRegion p := by
  unfold fileRegion
  split
  · rfl
  · rename_i hf
    rcases h with h | h | h
    · exact absurd h hf
    · subst h
      simp only [Surface.mcnpRegion]
      split
      · rename_i h2; cases h2
      · rfl
    · simp only [Surface.mcnpRegion]
      rw [h]
      rfl

theorem sideOf_congr {reg reg' : Pl → Region} {σ0 : Side} {planes : List Pl} {x : Vec} (h : ∀ p ∈ planes, reg p = reg' p) :
    sideOf reg σ0 planes x = sideOf reg' σ0 planes x := by
  funext i
  unfold sideOf
  cases hf : planes.find? (fun p => p.index == i) with
  | none => rfl
  | some p =>
    dsimp only
    have := h p (List.mem_of_find?_eq_some hf)
    exact decide_eq_decide.2 (by rw [this])

theorem Rel.congr {reg reg' : Pl → Region} {s s' : St} (h : Rel reg s s') (e : ∀ p ∈ s'.planes, reg p = reg' p) : Rel reg' s s' := by
  unfold Rel at *
  refine List.Forall₂.imp ?_ h
  rintro c c' ⟨a, b⟩
  refine ⟨a, fun hr σ0 x ho => ?_⟩
  rw [← sideOf_congr e]
  exact b hr σ0 x ho

theorem SamePlanes.points {a b : List Pl} (h : SamePlanes a b) (hp : ∀ p ∈ a, p.surf.points = none) : ∀ p ∈ b, p.surf.points = none := by
  unfold SamePlanes at h
  induction h with
  | nil => simp
  | cons hx _ ih =>
    simp only [List.mem_cons, forall_eq_or_imp] at hp ⊢
    exact ⟨hx.2.2.1.trans hp.1, ih hp.2⟩

/-- a writer without three-point planes -/
theorem construct_plain (f : Fmt) (prnt3P : Bool) (s : St) (hg : Good s)
    (h : f = .openmc ∨ prnt3P = false ∨ ∀ p ∈ s.planes, p.surf.points = none) :
    ∃ s', construct f prnt3P s = .ok s' ∧ Rel axisRegion s s' ∧ Good s' ∧ SamePlanes s.planes s'.planes := by
  obtain ⟨s1, s2, s3, e1, e2, e3, r, g, sp, t⟩ := align_all s hg
  unfold construct
  simp only [e1, e2, e3, bind, Except.bind]
  by_cases hc : (prnt3P && decide (f ≠ .openmc)) = true
  · rw [if_pos hc]
    have hpts : ∀ p ∈ s.planes, p.surf.points = none := by
      simp only [Bool.and_eq_true, decide_eq_true_eq] at hc
      rcases h with h | h | h
      · exact absurd h hc.2
      · rw [h] at hc; simp at hc
      · exact h
    have hpts3 := sp.points hpts
    have hloop : ∀ (ps : List Pl) (cells : List Cell), (∀ p ∈ ps, p.surf.points = none) → pointLoop (inTable s.cells) ps cells = .ok cells := by
      intro ps cells hps
      induction ps with
      | nil => rfl
      | cons p ps ih =>
        rw [pointLoop]
        have : pointsOpposite p.surf = some False := by unfold pointsOpposite; rw [hps p (by simp)]
        rw [this]
        dsimp only
        rw [if_neg (fun h => h)]
        split <;> exact ih fun q hq => hps q (by simp [hq])
    rw [hloop _ _ hpts3]
    exact ⟨s3, rfl, r, g, sp⟩
  · rw [if_neg hc]
    exact ⟨s3, rfl, r, g, sp⟩

/-- C33 when no plane is printed by three points: any number of files in any formats, all describe the cells. Missing for the full property: planes
printed by three points; see below. -/
theorem C33_no_three_points_partial (prnt3P : Bool) (fs : List Fmt) (s : St) (hg : Good s)
    (h : prnt3P = false ∨ ∀ p ∈ s.planes, p.surf.points = none) :
    ∃ out, exports prnt3P fs s = .ok out ∧ out.map Prod.fst = fs ∧ ∀ r ∈ out, Faithful s r.1 prnt3P r.2 := by
  induction fs generalizing s with
  | nil => exact ⟨[], rfl, rfl, by simp⟩
  | cons f fs ih =>
    obtain ⟨s', e, r, g, sp⟩ := construct_plain f prnt3P s hg (Or.inr h)
    have h' : prnt3P = false ∨ ∀ p ∈ s'.planes, p.surf.points = none := h.imp id sp.points
    obtain ⟨out, e2, hf, ho⟩ := ih s' g h'
    refine ⟨(f, s') :: out, by simp only [exports, e, e2, bind, Except.bind], by simp [hf], ?_⟩
    intro q hq
    rcases List.mem_cons.1 hq with rfl | hq
    · exact r.congr fun p hp => (fileRegion_axis (Or.inr (h'.imp id fun h => h p hp))).symm
    · exact Rel.trans r (ho q hq) sp.off

/-- C33 for one file with three-point planes, after any number of OpenMC files, when no aligned plane has points. -/
theorem C33_first_three_points_partial (n : Nat) (f : Fmt) (s : St) (hg : Good s) (h : ∀ p ∈ s.planes, p.surf.points ≠ none → p.kind = .p) :
    ∃ out, exports true (List.replicate n .openmc ++ [f]) s = .ok out ∧ out.map Prod.fst = List.replicate n .openmc ++ [f] ∧
      ∀ r ∈ out, Faithful s r.1 true r.2 := by
  induction n generalizing s with
  | zero =>
    simp only [List.replicate_zero, List.nil_append]
    by_cases hf : f = .openmc
    · obtain ⟨s', e, r, g, sp⟩ := construct_plain f true s hg (Or.inl hf)
      refine ⟨[(f, s')], by simp only [exports, e, bind, Except.bind], rfl, ?_⟩
      intro q hq
      simp only [List.mem_singleton] at hq
      subst hq
      exact r.congr fun p _ => (fileRegion_axis (Or.inl hf)).symm
    · obtain ⟨s1, s2, s3, e1, e2, e3, r, g, sp, t⟩ := align_all s hg
      obtain ⟨cells', e4, fl⟩ := pointLoop_spec (inTable s.cells) s3.planes s3.cells g.nodup t g.cells
        (fun p hp _ => pointsOpposite_some (g.planes p hp))
      have hc : construct f true s = .ok ⟨s3.planes, cells'⟩ := by
        unfold construct
        simp only [e1, e2, e3, bind, Except.bind]
        rw [if_pos (by simp [hf]), e4]
      refine ⟨[(f, ⟨s3.planes, cells'⟩)], by simp only [exports, hc, bind, Except.bind], rfl, ?_⟩
      intro q hq
      simp only [List.mem_singleton] at hq
      subst hq
      have hk : ∀ p ∈ s3.planes, p.surf.points ≠ none → p.kind = .p := by
        clear e1 e2 e3 e4 fl hc r g t
        unfold SamePlanes at sp
        generalize s.planes = A, s3.planes = B at *
        induction sp with
        | nil => simp
        | cons hx _ ih =>
          simp only [List.mem_cons, forall_eq_or_imp] at h ⊢
          exact ⟨fun hp => hx.1.trans (h.1 (by rw [← hx.2.2.1]; exact hp)), ih h.2⟩
      refine Rel.trans r ?_ sp.off
      refine rel_of_flips (s := s3) (s' := ⟨s3.planes, cells'⟩) g fl ?_
      intro σ0 x ho
      have := side_map axisRegion (fileRegion f true) PointFlip id (fun _ => rfl) σ0 x s3.planes g.nodup ?_
      · rwa [List.map_id] at this
      · intro p hp
        have hfr : fileRegion f true p = (Surface.plane p.surf).mcnpRegion true := by unfold fileRegion; rw [if_neg hf]
        cases hpt : p.surf.points with
        | none =>
          right
          have : pointsOpposite p.surf = some False := by unfold pointsOpposite; rw [hpt]
          refine ⟨?_, ?_⟩
          · rintro ⟨_, q, hq, hqq⟩
            rw [this] at hq
            cases hq
            exact hqq
          · rw [id, fileRegion_axis (Or.inr (Or.inr hpt))]
        | some pts =>
          obtain ⟨p1, p2, p3⟩ := pts
          have hkind := hk p hp (by rw [hpt]; simp)
          obtain ⟨a, d, ec, hcase⟩ := point_region (g.planes p hp) hpt x (ho p hp)
          have hpo : pointsOpposite p.surf = some (isOpposite a p.surf.axis (1 / 1000000)) := by
            unfold pointsOpposite
            rw [hpt]
            simp only [ec]
          have hreg : fileRegion f true (id p) = threePointRegion p1 p2 p3 := by
            rw [id, hfr]
            simp only [Surface.mcnpRegion, hpt]
          rw [hreg]
          rcases hcase with ⟨ho, -, hr⟩ | ⟨ho, -, hr⟩
          · exact Or.inl ⟨⟨hkind, _, hpo, ho⟩, hr⟩
          · refine Or.inr ⟨?_, hr⟩
            rintro ⟨_, q, hq, hqq⟩
            rw [hpo] at hq
            cases hq
            exact ho hqq
  | succ n ih =>
    obtain ⟨s', e, r, g, sp⟩ := construct_plain .openmc true s hg (Or.inl rfl)
    have hk : ∀ p ∈ s'.planes, p.surf.points ≠ none → p.kind = .p := by
      clear ih e r g
      unfold SamePlanes at sp
      generalize s.planes = A, s'.planes = B at *
      induction sp with
      | nil => simp
      | cons hx _ ih =>
        simp only [List.mem_cons, forall_eq_or_imp] at h ⊢
        exact ⟨fun hp => hx.1.trans (h.1 (by rw [← hx.2.2.1]; exact hp)), ih h.2⟩
    obtain ⟨out, e2, hf, ho⟩ := ih s' g hk
    refine ⟨(.openmc, s') :: out, by simp only [List.replicate_succ, List.cons_append, exports, e, e2, bind, Except.bind],
      by simp [List.replicate_succ, hf], ?_⟩
    intro q hq
    rcases List.mem_cons.1 hq with rfl | hq
    · exact r.congr fun p _ => (fileRegion_axis (Or.inl rfl)).symm
    · exact Rel.trans r (ho q hq) sp.off

/-! ## Where the code goes wrong -/

/-- an oblique plane below the origin, defined by three points, and one cell on its positive side -/
noncomputable def slantPlane : Pl :=
  ⟨.p, 1, ⟨⟨-3, -4, 0⟩, ⟨3 / 5, 4 / 5, 0⟩, 1, 1, some (⟨-3, -4, 0⟩, ⟨1, -7, 0⟩, ⟨-3, -4, 1⟩)⟩⟩
noncomputable def slant : St := ⟨[slantPlane], [⟨true, .lst .and 0 [.int 1]⟩]⟩

theorem slantPlane_ok : slantPlane.Ok where
  unit := by norm_num [slantPlane, Vec.sq, Vec.dot]
  px := by intro h; cases h
  py := by intro h; cases h
  pz := by intro h; cases h
  pts := by
    intro p1 p2 p3 h
    simp only [slantPlane, Option.some.injEq, Prod.mk.injEq] at h
    obtain ⟨rfl, rfl, rfl⟩ := h
    refine ⟨?_, ?_, ?_, ?_⟩ <;> norm_num [NonCollinear, slantPlane, Vec.sub, Vec.cross, Vec.sq, Vec.dot]

theorem slant_good : Good slant where
  nodup := by simp [slant]
  planes := by
    intro p hp
    simp only [slant, List.mem_singleton] at hp
    subst hp
    exact slantPlane_ok
  cells := by
    intro c hc _
    simp only [slant, List.mem_singleton] at hc
    subst hc
    refine ⟨?_, Or.inl ⟨_, _, _, rfl, ?_⟩⟩
    · simp [Seq.WF, Seq.WFL]
    · simp [Seq.NoBoolL, Seq.NoBool]

/-- the origin is off the plane, on its positive side -/
theorem slant_side : slantPlane.surf.axis.dot (Vec.sub ⟨0, 0, 0⟩ slantPlane.surf.pos) = 5 := by
  norm_num [slantPlane, Vec.sub, Vec.dot]

/-- and on the negative side of the written plane -/
theorem slant_points : (∃ q, pointsOpposite slantPlane.surf = some q ∧ q) ∧
    ¬ (fileRegion .mcnp true slantPlane).pos ⟨0, 0, 0⟩ := by
  have hx : slantPlane.surf.axis.dot (Vec.sub ⟨0, 0, 0⟩ slantPlane.surf.pos) ≠ 0 := by rw [slant_side]; norm_num
  obtain ⟨a, d, e, h⟩ := point_region slantPlane_ok (p1 := ⟨-3, -4, 0⟩) (p2 := ⟨1, -7, 0⟩) (p3 := ⟨-3, -4, 1⟩) rfl ⟨0, 0, 0⟩ hx
  have hpos : (axisRegion slantPlane).pos ⟨0, 0, 0⟩ := by
    change 0 < slantPlane.surf.axis.dot (Vec.sub ⟨0, 0, 0⟩ slantPlane.surf.pos)
    rw [slant_side]; norm_num
  have hpo : pointsOpposite slantPlane.surf = some (isOpposite a slantPlane.surf.axis (1 / 1000000)) := by
    change (match pointsToCoeffs ⟨-3, -4, 0⟩ ⟨1, -7, 0⟩ ⟨-3, -4, 1⟩ with
      | none => none
      | some (axis, _) => some (isOpposite axis slantPlane.surf.axis (1 / 1000000))) = _
    rw [e]
  have hreg : fileRegion .mcnp true slantPlane = threePointRegion ⟨-3, -4, 0⟩ ⟨1, -7, 0⟩ ⟨-3, -4, 1⟩ := rfl
  rcases h with ⟨h1, -, h3⟩ | ⟨-, h2, -⟩
  · exact ⟨⟨_, hpo, h1⟩, by rw [hreg, h3, not_not]; exact hpos⟩
  · exfalso
    obtain ⟨a', d', e', _, q1, _, _, hd, _⟩ := C38_points_to_coeffs ⟨-3, -4, 0⟩ ⟨1, -7, 0⟩ ⟨-3, -4, 1⟩
      (by norm_num [NonCollinear, Vec.sub, Vec.cross, Vec.sq, Vec.dot])
    rw [e] at e'
    cases e'
    rw [← h2] at q1
    norm_num [slantPlane, Vec.dot] at q1
    linarith

/-- what a three-point writer does to this geometry: it changes the sign, each time it runs -/
theorem slant_construct (n : Int) (hn : n.natAbs = 1) :
    construct .mcnp true ⟨[slantPlane], [⟨true, .lst .and 0 [.int n]⟩]⟩ = .ok ⟨[slantPlane], [⟨true, .lst .and 0 [.int (-n)]⟩]⟩ ∧
    construct .openmc true ⟨[slantPlane], [⟨true, .lst .and 0 [.int n]⟩]⟩ = .ok ⟨[slantPlane], [⟨true, .lst .and 0 [.int n]⟩]⟩ := by
  obtain ⟨⟨q, hq, hqq⟩, -⟩ := slant_points
  have hk : slantPlane.kind = .p := rfl
  have hi : slantPlane.index = 1 := rfl
  refine ⟨?_, ?_⟩
  · unfold construct
    simp only [alignLoop, hk, bind, Except.bind, reduceCtorEq, false_and, if_false]
    rw [if_pos (by decide)]
    simp only [pointLoop, hk, if_true, hq]
    rw [if_pos hqq]
    simp [hi, changeCells, inTable, Seq.surfaces, Seq.surfacesL, hn, changeSign, changeFlat, bind, Except.bind]
  · unfold construct
    simp [alignLoop, hk, bind, Except.bind]

/-- C33 is false in full: a second MCNP file of the same geometry has the cell on the wrong side of the plane. -/
theorem C33_second_export_violated : ¬ C33_statement := by
  intro h
  obtain ⟨out, e, -, hf⟩ := h true [.mcnp, .mcnp] slant slant_good
  have e' : exports true [.mcnp, .mcnp] slant =
      .ok [(.mcnp, ⟨[slantPlane], [⟨true, .lst .and 0 [.int (-1)]⟩]⟩), (.mcnp, ⟨[slantPlane], [⟨true, .lst .and 0 [.int (- -1)]⟩]⟩)] := by
    simp only [exports, slant, (slant_construct 1 rfl).1, (slant_construct (-1) rfl).1, bind, Except.bind]
  rw [e'] at e
  cases e
  have := hf (.mcnp, ⟨[slantPlane], [⟨true, .lst .and 0 [.int (- -1)]⟩]⟩) (by simp)
  cases this with
  | cons h1 _ =>
    have h2 := h1.2 rfl (fun _ => false) ⟨0, 0, 0⟩ (by
      intro p hp
      simp only [slant, List.mem_singleton] at hp
      subst hp
      rw [slant_side]; norm_num)
    have hpos : (axisRegion slantPlane).pos ⟨0, 0, 0⟩ := by
      change 0 < slantPlane.surf.axis.dot (Vec.sub ⟨0, 0, 0⟩ slantPlane.surf.pos)
      rw [slant_side]; norm_num
    have hi : slantPlane.index = 1 := rfl
    simp [Seq.sem, Seq.semAll, lit, sideOf, slant, hi, slant_points.2, hpos] at h2

/-- An OpenMC file written after the MCNP file (one call, both formats) has the cell on the wrong side. -/
theorem C33_openmc_after_mcnp_violated : ∃ s', exports true [.mcnp, .openmc] slant = .ok [(.mcnp, s'), (.openmc, s')] ∧
    ¬ Faithful slant .openmc true s' := by
  refine ⟨⟨[slantPlane], [⟨true, .lst .and 0 [.int (-1)]⟩]⟩, ?_, ?_⟩
  · simp only [exports, slant, (slant_construct 1 rfl).1, (slant_construct (-1) rfl).2, bind, Except.bind]
  · intro h
    cases h with
    | cons h1 _ =>
      have h2 := h1.2 rfl (fun _ => false) ⟨0, 0, 0⟩ (by
        intro p hp
        simp only [slant, List.mem_singleton] at hp
        subst hp
        rw [slant_side]; norm_num)
      have hpos : (axisRegion slantPlane).pos ⟨0, 0, 0⟩ := by
        change 0 < slantPlane.surf.axis.dot (Vec.sub ⟨0, 0, 0⟩ slantPlane.surf.pos)
        rw [slant_side]; norm_num
      have hi : slantPlane.index = 1 := rfl
      simp [Seq.sem, Seq.semAll, lit, sideOf, slant, hi, fileRegion, hpos] at h2

/-- a plane x = -10 defined by three points (as every facet is in facet mode) -/
noncomputable def facet : Pl :=
  ⟨.px, 1, ⟨⟨-10, 0, 0⟩, ⟨1, 0, 0⟩, 1, 1, some (⟨-10, 0, 0⟩, ⟨-10, 1, 0⟩, ⟨-10, 0, 1⟩)⟩⟩
noncomputable def facetSt : St := ⟨[facet], [⟨true, .lst .and 0 [.int 1]⟩]⟩

theorem facet_ok : facet.Ok where
  unit := by norm_num [facet, Vec.sq, Vec.dot]
  px := by intro _; simp [facet]
  py := by intro h; cases h
  pz := by intro h; cases h
  pts := by
    intro p1 p2 p3 h
    simp only [facet, Option.some.injEq, Prod.mk.injEq] at h
    obtain ⟨rfl, rfl, rfl⟩ := h
    refine ⟨?_, ?_, ?_, ?_⟩ <;> norm_num [NonCollinear, facet, Vec.sub, Vec.cross, Vec.sq, Vec.dot]

/-- Even the first MCNP file is wrong when a plane along X, Y or Z below the origin is printed by three points: its sense in the file is the opposite of that of
its axis, and only oblique planes are checked for this. -/
theorem C33_aligned_three_points_violated : Good facetSt ∧ ∃ s', exports true [.mcnp] facetSt = .ok [(.mcnp, s')] ∧
    ¬ Faithful facetSt .mcnp true s' := by
  refine ⟨⟨by simp [facetSt], ?_, ?_⟩, facetSt, ?_, ?_⟩
  · intro p hp
    simp only [facetSt, List.mem_singleton] at hp
    subst hp
    exact facet_ok
  · intro c hc _
    simp only [facetSt, List.mem_singleton] at hc
    subst hc
    refine ⟨?_, Or.inl ⟨_, _, _, rfl, ?_⟩⟩
    · simp [Seq.WF, Seq.WFL]
    · simp [Seq.NoBoolL, Seq.NoBool]
  · have hk : facet.kind = .px := rfl
    have hx : ¬ facet.surf.axis.x < 0 := by norm_num [facet]
    simp [exports, construct, facetSt, alignLoop, pointLoop, hk, hx, bind, Except.bind]
  · intro h
    have hside : facet.surf.axis.dot (Vec.sub ⟨0, 0, 0⟩ facet.surf.pos) = 10 := by norm_num [facet, Vec.sub, Vec.dot]
    cases h with
    | cons h1 _ =>
      have h2 := h1.2 rfl (fun _ => false) ⟨0, 0, 0⟩ (by
        intro p hp
        simp only [facetSt, List.mem_singleton] at hp
        subst hp
        rw [hside]; norm_num)
      have hpos : (axisRegion facet).pos ⟨0, 0, 0⟩ := by
        change 0 < facet.surf.axis.dot (Vec.sub ⟨0, 0, 0⟩ facet.surf.pos)
        rw [hside]; norm_num
      have hneg : ¬ (fileRegion .mcnp true facet).pos ⟨0, 0, 0⟩ := by
        obtain ⟨a, d, e, hh⟩ := point_region facet_ok (p1 := ⟨-10, 0, 0⟩) (p2 := ⟨-10, 1, 0⟩) (p3 := ⟨-10, 0, 1⟩) rfl ⟨0, 0, 0⟩
          (by rw [hside]; norm_num)
        have hreg : fileRegion .mcnp true facet = threePointRegion ⟨-10, 0, 0⟩ ⟨-10, 1, 0⟩ ⟨-10, 0, 1⟩ := rfl
        rcases hh with ⟨-, -, h3⟩ | ⟨-, h2, -⟩
        · rw [hreg, h3, not_not]; exact hpos
        · exfalso
          obtain ⟨a', d', e', _, q1, _, _, hd, _⟩ := C38_points_to_coeffs ⟨-10, 0, 0⟩ ⟨-10, 1, 0⟩ ⟨-10, 0, 1⟩
            (by norm_num [NonCollinear, Vec.sub, Vec.cross, Vec.sq, Vec.dot])
          rw [e] at e'
          cases e'
          rw [← h2] at q1
          norm_num [facet, Vec.dot] at q1
          linarith
      have hi : facet.index = 1 := rfl
      simp [Seq.sem, Seq.semAll, lit, sideOf, facetSt, hi, hneg, hpos] at h2

/-- non-vacuity of `C33_no_three_points_partial`: a PX plane with axis −X is turned and the cell changes sign; of
`C33_first_three_points_partial`: `slant` -/
example : construct .openmc false ⟨[⟨.px, 1, ⟨⟨5, 0, 0⟩, ⟨-1, 0, 0⟩, 1, 1, none⟩⟩], [⟨true, .lst .or 1 [.int 1, .lst .and 0 [.int (-1), .int 2]]⟩]⟩ =
    .ok ⟨[⟨.px, 1, ⟨⟨5, 0, 0⟩, vX, 1, 1, none⟩⟩], [⟨true, .lst .or 1 [.int (-1), .lst .and 0 [.int 1, .int 2]]⟩]⟩ := by
  simp [construct, alignLoop, changeCells, inTable, Seq.surfaces, Seq.surfacesL, changeSign, changeList, changeFlat, bind, Except.bind]

example : ∀ p ∈ slant.planes, p.surf.points ≠ none → p.kind = .p := by
  intro p hp _
  simp only [slant, List.mem_singleton] at hp
  subst hp
  rfl

end Geouned.Signs
