import Verif.Misc.ConesLemmas
import Verif.Void.Props
import Verif.Geom.CardSpec
/-!
# C56: oblique cones keep one sheet
-/
namespace Geouned.Cones
open Geouned.Geom

/-! ## Specification -/

/-- From the sides of the written surfaces (cones with two sheets) to those of the intended ones: a point is outside the one-sheet cone when
it is outside of the double cone or behind the plane through the apex. -/
def sheetSide (planeOf : Nat → Option Int) (σ : Side) : Side := fun c =>
  match planeOf c with
  | none => σ c
  | some pid => σ c || !(lit σ pid)

/-- This is the geometry: sides of the sheet, of the double cone, and of the plane through the apex (off both surfaces). -/
theorem C56_sheet_geometry (c a : Vec) (k : ℝ) (x : Vec) (hp : a.dot (x.sub c) ≠ 0) :
    ((sheetRegion c a k).pos x ↔ (coneRegion c a k).pos x ∨ ¬ (planeRegion c a).pos x) ∧
    ((sheetRegion c a k).neg x ↔ (coneRegion c a k).neg x ∧ (planeRegion c a).pos x) := by
  simp only [sheetRegion, coneRegion, planeRegion, Region.ofFun]
  refine ⟨?_, trivial⟩
  constructor
  · rintro (h | h)
    · exact Or.inl h
    · exact Or.inr (by linarith)
  · rintro (h | h)
    · exact Or.inl h
    · exact Or.inr (lt_of_le_of_ne (not_lt.1 h) hp)

/-- the cones which the code treats in a cell: those recorded for a solid, their negatives for the solids of a void cell -/
def Listed (coneInfo : List (Int × List Int)) (m : Cell) (n : Int) : Prop :=
  if m.void then ∃ ids, m.info = some (some ids) ∧ ∃ i ∈ ids, ∃ l, coneInfo.lookup i = some l ∧ -n ∈ l
  else ∃ l, coneInfo.lookup m.id = some l ∧ n ∈ l

/-- the iteration of a Python set -/
def SetOrder (order : List Int → List Int) : Prop := ∀ l, (order l).Nodup ∧ ∀ n, n ∈ order l ↔ n ∈ l

/-! ## Theorems -/

theorem lit_sheet (planeOf : Nat → Option Int) (hsep : Separate planeOf) (σ : Side) (n : Int) (hn : n ≠ 0) :
    lit (sheetSide planeOf σ) n = match planeOf n.natAbs with
      | none => lit σ n
      | some pid => if n > 0 then lit σ n || lit σ (-pid) else lit σ n && lit σ pid := by
  have hsh : sheetSide planeOf σ n.natAbs = match planeOf n.natAbs with
      | none => σ n.natAbs
      | some pid => σ n.natAbs || !(lit σ pid) := rfl
  cases hp : planeOf n.natAbs with
  | none =>
    rw [hp] at hsh
    simp only [lit, hsh]
  | some pid =>
    rw [hp] at hsh
    obtain ⟨hpn, hp0⟩ := hsep _ _ hp
    dsimp only at hsh ⊢
    have hneg : lit σ (-pid) = !(lit σ pid) := by
      unfold lit
      rw [Int.natAbs_neg]
      by_cases hp1 : pid < 0
      · rw [if_neg (by omega), if_pos hp1, Bool.not_not]
      · rw [if_pos (by omega), if_neg hp1]
    rw [hneg]
    by_cases h0 : n < 0
    · have h1 : ¬ n > 0 := by omega
      rw [if_neg h1]
      conv_lhs => unfold lit
      have h2 : lit σ n = !(σ n.natAbs) := by unfold lit; rw [if_pos h0]
      rw [if_pos h0, hsh, h2]
      cases σ n.natAbs <;> cases lit σ pid <;> rfl
    · have h1 : n > 0 := by omega
      rw [if_pos h1]
      conv_lhs => unfold lit
      have h2 : lit σ n = σ n.natAbs := by unfold lit; rw [if_neg h0]
      rw [if_neg h0, hsh, h2]

/-- C56 for one cell -/
theorem cell_sheet (planeOf : Nat → Option Int) (order : List Int → List Int) (coneInfo : List (Int × List Int)) (m : Cell)
    (hsep : Separate planeOf) (hord : SetOrder order) (hnd : ∀ p ∈ coneInfo, p.2.Nodup) (hm : Plain m.defn)
    (h0 : ∀ n ∈ lits m.defn, n ≠ 0)
    (hl : ∀ n ∈ lits m.defn, planeOf n.natAbs ≠ none → Listed coneInfo m n) :
    ∃ F, ∀ f ≥ F, ∃ s', processCell f planeOf order coneInfo m = .ok s' ∧ ∀ σ, s'.sem σ = m.defn.sem (sheetSide planeOf σ) := by
  have same : ∀ cs : List Int, (∀ n ∈ lits m.defn, planeOf n.natAbs ≠ none → n ∈ cs) → ∀ σ,
      semLit (conesLit planeOf (lit σ) cs) m.defn = m.defn.sem (sheetSide planeOf σ) := by
    intro cs hcs σ
    rw [← semLit_sem]
    apply semLit_congr
    intro n hn
    rw [lit_sheet planeOf hsep σ n (h0 n hn)]
    unfold conesLit
    cases hp : planeOf n.natAbs with
    | none => simp
    | some pid => rw [if_pos (hcs n hn (by rw [hp]; simp))]
  have none_case : (∀ n ∈ lits m.defn, planeOf n.natAbs ≠ none → False) → ∀ σ, m.defn.sem σ = m.defn.sem (sheetSide planeOf σ) := by
    intro hc σ
    rw [← same [] (fun n hn hp => (hc n hn hp).elim) σ, ← semLit_sem]
    congr 1
  have nd : ∀ i l, coneInfo.lookup i = some l → l.Nodup := by
    intro i l h
    obtain ⟨l1, l2, e, _⟩ := List.lookup_eq_some_iff.1 h
    exact hnd (i, l) (by rw [e]; simp)
  have add : ∀ cs : List Int, cs.Nodup → (∀ n ∈ lits m.defn, planeOf n.natAbs ≠ none → n ∈ cs) → ∃ F, ∀ f ≥ F, ∃ s',
      addConePlane f planeOf cs m.defn = .ok s' ∧ ∀ σ, s'.sem σ = m.defn.sem (sheetSide planeOf σ) := by
    intro cs hcs hin
    refine ⟨m.defn.depth + cs.length + 1, fun f hf => ?_⟩
    obtain ⟨s', e, -⟩ := addConePlane_spec planeOf hsep (lit fun _ => true) cs f m.defn hcs hm (by omega)
    refine ⟨s', e, fun σ => ?_⟩
    obtain ⟨s'', e', h⟩ := addConePlane_spec planeOf hsep (lit σ) cs f m.defn hcs hm (by omega)
    rw [e] at e'
    cases e'
    rw [← semLit_sem, h, same cs hin]
  unfold processCell
  by_cases hv : m.void = true
  · simp only [hv, Bool.not_true, Bool.and_false, Bool.false_eq_true, if_false]
    simp only [Listed, hv, if_true] at hl
    cases hi : m.info with
    | none =>
      refine ⟨0, fun f _ => ⟨_, rfl, none_case fun n hn hp => ?_⟩⟩
      obtain ⟨ids, e, _⟩ := hl n hn hp
      rw [hi] at e
      cases e
    | some o =>
      cases o with
      | none =>
        refine ⟨0, fun f _ => ⟨_, rfl, none_case fun n hn hp => ?_⟩⟩
        obtain ⟨ids, e, _⟩ := hl n hn hp
        rw [hi] at e
        cases e
      | some ids =>
        refine add (voidCones order coneInfo ids) (hord _).1 ?_
        intro n hn hp
        obtain ⟨ids', e, i, hii, l, hlk, hnl⟩ := hl n hn hp
        rw [hi] at e
        cases e
        unfold voidCones
        rw [(hord _).2]
        refine List.mem_flatMap.2 ⟨i, hii, ?_⟩
        rw [hlk]
        exact List.mem_map.2 ⟨-n, hnl, by simp⟩
  · have hv' : m.void = false := by simpa using hv
    simp only [hv', Bool.not_false, Bool.and_true]
    simp only [Listed, hv', Bool.false_eq_true, if_false] at hl
    cases hk : coneInfo.lookup m.id with
    | none =>
      refine ⟨0, fun f _ => ⟨m.defn, by simp, none_case fun n hn hp => ?_⟩⟩
      obtain ⟨l, e, _⟩ := hl n hn hp
      rw [hk] at e
      cases e
    | some l =>
      simp only [Option.isNone_some, Bool.false_eq_true, if_false, Option.getD_some]
      refine add l (nd _ _ hk) ?_
      intro n hn hp
      obtain ⟨l', e, h⟩ := hl n hn hp
      rw [hk] at e
      cases e
      exact h

/-- C56, proved part: when every oblique cone of every cell is recorded for it with its sign, the written cells (double cones and planes) hold
at the same points as the cells meant (one-sheet cones). Missing: cells with cones that are not recorded, see below. -/
theorem C56_one_sheet_partial (planeOf : Nat → Option Int) (order : List Int → List Int) (coneInfo : List (Int × List Int)) (ms : List Cell)
    (hsep : Separate planeOf) (hord : SetOrder order) (hnd : ∀ p ∈ coneInfo, p.2.Nodup)
    (hm : ∀ m ∈ ms, Plain m.defn ∧ (∀ n ∈ lits m.defn, n ≠ 0) ∧ ∀ n ∈ lits m.defn, planeOf n.natAbs ≠ none → Listed coneInfo m n) :
    ∃ F, ∀ f ≥ F, ∃ out, processCones f planeOf order coneInfo ms = .ok out ∧
      List.Forall₂ (fun m s' => ∀ σ, s'.sem σ = m.defn.sem (sheetSide planeOf σ)) ms out := by
  induction ms with
  | nil => exact ⟨0, fun f _ => ⟨[], rfl, .nil⟩⟩
  | cons m ms ih =>
    obtain ⟨F1, h1⟩ := ih fun m hm' => hm m (by simp [hm'])
    obtain ⟨a, b, c⟩ := hm m (by simp)
    obtain ⟨F2, h2⟩ := cell_sheet planeOf order coneInfo m hsep hord hnd a b c
    refine ⟨F1 + F2, fun f hf => ?_⟩
    obtain ⟨out, e1, r1⟩ := h1 f (by omega)
    obtain ⟨s', e2, r2⟩ := h2 f (by omega)
    exact ⟨s' :: out, by simp only [processCones, e1, e2, bind, Except.bind], .cons r2 r1⟩

/-- cells from definitions, numbered 1, 2, ... -/
def solidCells : Nat → List Seq → List Cell
  | _, [] => []
  | k, s :: ss => ⟨k + 1, false, none, s⟩ :: solidCells (k + 1) ss

/-- what is recorded when the definitions are made: the oblique cones of each solid with their signs -/
def recorded (planeOf : Nat → Option Int) : Nat → List Seq → List (Int × List Int)
  | _, [] => []
  | k, s :: ss =>
    let l := dedup ((lits s).filter fun n => (planeOf n.natAbs).isSome)
    if l.isEmpty then recorded planeOf (k + 1) ss else ((k : Int) + 1, l) :: recorded planeOf (k + 1) ss

/-- C56 in full, for the sequence of calls of `start` with option forceNoOverlap: the cones are recorded, then overlaps are removed, then the planes are added. -/
def C56_statement : Prop :=
  ∀ (planeOf : Nat → Option Int) (order : List Int → List Int) (ms : List (Meta Unit)) (r : List Seq),
    Separate planeOf → SetOrder order → (∀ m ∈ ms, ∀ q ∈ m.parts, q.OK) →
    noOverlapAll false Seq.surfaces 60 (fun _ _ => true) ms = .ok r → (∀ s ∈ r, Plain s) →
    ∃ F, ∀ f ≥ F, ∃ out, processCones f planeOf order (recorded planeOf 0 (ms.map Meta.defn)) (solidCells 0 r) = .ok out ∧
      List.Forall₂ (fun s s' => ∀ σ, s'.sem σ = s.sem (sheetSide planeOf σ)) r out

/-- cone 1 is oblique, with plane 9 -/
def cone1 : Nat → Option Int := fun c => if c = 1 then some 9 else none

set_option maxRecDepth 8000 in
/-- C56 is false in full: the second cell gets the complement of the first, with the cone of the first, which is not recorded for it. -/
theorem C56_no_overlap_violated : ¬ C56_statement := by
  intro h
  have e : noOverlapAll false Seq.surfaces 60 (fun _ _ => true)
      [plainCell (.lst .and 0 [.int (-1), .int 2]), plainCell (.lst .and 0 [.int (-3), .int 4])] =
      .ok [.lst .or 1 [.lst .and 0 [.int (-1), .int 2]],
        .lst .and 1 [.lst .and 0 [.int (-3), .int 4], .lst .or 0 [.int 1, .int (-2)]]] := by rfl
  obtain ⟨F, hF⟩ := h cone1 (fun l => l.dedup)
    [plainCell (.lst .and 0 [.int (-1), .int 2]), plainCell (.lst .and 0 [.int (-3), .int 4])] _
    (by
      intro c pid hc
      unfold cone1 at hc
      split at hc
      · cases hc; exact ⟨rfl, by decide⟩
      · cases hc)
    (by intro l; exact ⟨List.nodup_dedup l, fun n => List.mem_dedup⟩)
    (by
      intro m hm q hq
      simp only [List.mem_cons, List.not_mem_nil, or_false] at hm
      rcases hm with rfl | rfl
      all_goals
        simp only [plainCell, List.mem_cons, List.not_mem_nil, or_false] at hq
        subst hq
        exact ⟨by simp [Seq.WF, Seq.WFL], by simp [Seq.IsAnd]⟩)
    e
    (by
      intro s hs
      simp only [List.mem_cons, List.not_mem_nil, or_false] at hs
      rcases hs with rfl | rfl
      · exact ⟨⟨_, _, _, rfl⟩, by simp [Seq.NoBool, Seq.NoBoolL]⟩
      · exact ⟨⟨_, _, _, rfl⟩, by simp [Seq.NoBool, Seq.NoBoolL]⟩)
  obtain ⟨out, ho, hf⟩ := hF (F + 60) (by omega)
  cases hf with
  | cons h1 hf =>
    cases hf with
    | @cons _ s2 _ _ h2 hf =>
      cases hf
      have hs2 : s2 = .lst .and 1 [.lst .and 0 [.int (-3), .int 4], .lst .or 0 [.int 1, .int (-2)]] := by
        simp only [solidCells, processCones, bind_ok] at ho
        obtain ⟨s, hs, r, ⟨s', hs', r', hr', e1⟩, e2⟩ := ho
        cases hr'
        cases e1
        cases e2
        have : (.ok (.lst .and 1 [.lst .and 0 [.int (-3), .int 4], .lst .or 0 [.int 1, .int (-2)]]) : M Seq) = .ok s2 := hs'
        cases this
        rfl
      subst hs2
      have := h2 (fun i => i == 4 || i == 2)
      revert this
      decide

/-- non-vacuity of `C56_one_sheet_partial`: a solid inside cone 1, and the void cell around it -/
example : processCones 10 cone1 (fun l => l.dedup) [(1, [-1])]
    [⟨1, false, none, .lst .or 1 [.lst .and 0 [.int (-1), .int 2]]⟩, ⟨2, true, some (some [1]), .lst .and 1 [.lst .or 0 [.int 1, .int (-2)], .int 3]⟩] =
    .ok [.lst .or 2 [.lst .and 1 [.lst .and 0 [.int (-1), .int 9], .int 2]],
      .lst .and 2 [.lst .or 1 [.lst .or 0 [.int 1, .int (-9)], .int (-2)], .int 3]] ∧ Separate cone1 := by
  refine ⟨by rfl, ?_⟩
  intro c pid hc
  unfold cone1 at hc
  split at hc
  · cases hc; exact ⟨rfl, by decide⟩
  · cases hc

end Geouned.Cones
