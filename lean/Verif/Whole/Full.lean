import Verif.Whole.Example
import Verif.CTable.Props
/-!
# C122 with full simplification: the definitions of the solids are simplified after the void generation
-/
namespace Geouned.Whole
open Geouned Geouned.Geom Geouned.Box Geouned.Void

/-- core.py 535-544: the new definition of one cell; `t` is the table for the box of the cell. Definitions of level 0 are left as they are. (Enclosures are left out, too: there are none here.) -/
def simpDef (guard : Bool) (t : CTable) (enum : Seq → List Nat) (f : Nat) (s : Seq) : M Seq :=
  match s with
  | .lst op l es =>
    if l = 0 then .ok s
    else do
      let x ← (Seq.lst op l es).simplify guard enum (some t.constraintSet) f 0
      .ok x.clean
  | _ => .ok s

/-- the point is in the box of the solid enlarged by `e` (`get_box`, option enlargeBox) -/
def InLarge (m : VObj) (e : ℝ) (q : Vec) : Prop :=
  ∃ b, m.box = some b ∧ (b.xmin - e ≤ q.x ∧ q.x ≤ b.xmax + e) ∧ (b.ymin - e ≤ q.y ∧ q.y ≤ b.ymax + e) ∧ b.zmin - e ≤ q.z ∧ q.z ≤ b.zmax + e

/-- the region is kept where the table is right -/
theorem simpDef_sem {t : CTable} {enum : Seq → List Nat} {f : Nat} {s s' : Seq} (hw : s.WF) (hq : t.NoEquivalence) (h : simpDef true t enum f s = .ok s') {σ : Side} (hs : t.Sound σ) :
    s'.sem σ = s.sem σ := by
  unfold simpDef at h
  split at h
  · split_ifs at h with hl
    · cases h; rfl
    · rename_i op l es
      simp only [bind, Except.bind] at h
      cases hx : (Seq.lst op l es).simplify true enum (some t.constraintSet) f 0 with
      | error e => rw [hx] at h; cases h
      | ok x =>
        rw [hx] at h
        cases h
        rw [clean_sem]
        exact (C13_simplify_table_partial enum t f 0 _ _ hw hq hx).2.2 σ hs
  · cases h; rfl

/-- **C122**, proved part, with simplification "full": the tables are right in the enlarged boxes of the solids, and the new definitions hold no point outside of them. Missing: that
the latter is always so. -/
theorem C122_full_partial (C : Conversion) (h : C.Ran) (q : Vec) (σ : Side) (hq : C.At q σ) (e : ℝ) (he : 0 ≤ e) (enum : Seq → List Nat) (f : Nat) (ds : List Seq)
    (hd : List.Forall₂ (fun m s' => ∃ t : CTable, simpDef true t enum f m.defn = .ok s' ∧ t.NoEquivalence ∧ (InLarge m e q → t.Sound σ) ∧ (¬ InLarge m e q → s'.sem σ = false)) C.ms ds) :
    ExactlyOne (fun d : Seq => d.sem σ = true) (ds ++ (C.boxes.filterMap C.cell ++ [C.inC, C.outC])) := by
  have h0 := C122_cells_partial C h q σ hq
  refine ExactlyOne.forall₂ ?_ h0
  unfold Conversion.cells
  refine List.rel_append ?_ (List.forall₂_same.2 fun _ _ => Iff.rfl)
  have hall : ∀ m ∈ C.ms, Located ⟨q.x, q.y, q.z⟩ σ m := hq.solids
  clear h0 hq h
  generalize C.ms = ms at hd hall
  induction hd with
  | nil => exact .nil
  | @cons m s' ms ss hm _ ih =>
    refine .cons ?_ (ih fun x hx => hall x (List.mem_cons_of_mem _ hx))
    obtain ⟨t, h1, h2, h3, h4⟩ := hm
    obtain ⟨-, hw, hin⟩ := hall m List.mem_cons_self
    by_cases hl : InLarge m e q
    · rw [simpDef_sem hw h2 h1 (h3 hl)]
    · rw [h4 hl]
      constructor
      · intro hs
        obtain ⟨b, hb, ⟨a1, a2⟩, ⟨a3, a4⟩, a5, a6⟩ := hin hs
        dsimp only at a1 a2 a3 a4 a5 a6
        exact absurd ⟨b, hb, ⟨by linarith, by linarith⟩, ⟨by linarith, by linarith⟩, by linarith, by linarith⟩ hl
      · intro hs; cases hs

/-! ## the hypotheses are met -/

/-- the table of the enlarged box of the slab of the example: every surface crosses it; no pair is excluded -/
def slabTab : CTable where
  keys := [1, 2, 3, 4, 7, 8]
  get a b := if a = b then some (.diag 0) else some (.pair true true true true)
  diagonal := false

example (q : Vec) (hq : Off q) : ∃ s', ExactlyOne (fun d : Seq => d.sem (slabSides q) = true) ([s'] ++ (slabModel.boxes.filterMap slabModel.cell ++ [slabModel.inC, slabModel.outC])) := by
  obtain ⟨s', hs, he⟩ : ∃ s', simpDef true slabTab Seq.surfaces 60 slab.defn = .ok s' ∧ s' = .lst .and 0 ([1, 2, -3, 4, 7, -8].map .int) := ⟨_, rfl, rfl⟩
  refine ⟨s', C122_full_partial slabModel slab_ran q _ (slab_at hq) 1 (by norm_num) Seq.surfaces 60 [s'] (.cons ⟨slabTab, hs, ?_, ?_, ?_⟩ .nil)⟩
  · intro a b e h
    unfold slabTab at h
    dsimp only at h
    split_ifs at h <;> cases h <;> simp [CTVal.Equivalence]
  · intro _ a b e h
    unfold slabTab at h
    dsimp only at h
    split_ifs at h with hab
    · cases h; subst hab; simp [CTVal.Allows]
    · cases h; simp [CTVal.Allows]
  · intro hl
    rw [Bool.eq_false_iff, he]
    intro hs
    apply hl
    have : (Seq.lst .and 0 ([1, 2, -3, 4, 7, -8].map .int)).sem (slabSides q) = true → exBox.Mem ⟨q.x, q.y, q.z⟩ := by
      simp [Seq.sem, Seq.semAll, lit, slabSides, exBox, BBox.Mem]
      intro a b c d e f
      refine ⟨⟨?_, ?_⟩, ⟨?_, ?_⟩, ?_, ?_⟩ <;> linarith
    obtain ⟨⟨a1, a2⟩, ⟨a3, a4⟩, a5, a6⟩ := this hs
    dsimp only at a1 a2 a3 a4 a5 a6
    exact ⟨exBox, rfl, ⟨by linarith, by linarith⟩, ⟨by linarith, by linarith⟩, by linarith, by linarith⟩

end Geouned.Whole
