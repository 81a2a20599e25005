import Verif.Conv.ConesLemmas
import Verif.Conv.Cones
/-!
# C56, from the faces to the written cells
-/
namespace Geouned.Conv
open Geouned.Text Geouned.Cones

/-- Which numbers are oblique cones (those with a plane through the apex): a conical face has the number of its cone, negative when the face is forward and positive when it
is reversed; no other number of a face is that of an oblique cone. -/
def Face.ConesMarked (planeOf : Nat → Option Int) : Face → Prop
  | .ignored => True
  | .oblique => True
  | .reversed cone id plane => (if cone then 0 < id else planeOf id.natAbs = none) ∧ ∀ p, plane = some p → planeOf p.natAbs = none
  | .torus _ v u => ∀ n ∈ v.nums ++ u.nums, planeOf n.natAbs = none
  | .other cone var => if cone then var < 0 else planeOf var.natAbs = none

theorem Face.ConesMarked.listed {planeOf : Nat → Option Int} {F : Face} (h : F.ConesMarked planeOf) {n : Int} (hn : n ∈ F.nums) (hp : planeOf n.natAbs ≠ none) :
    (∃ p, F = .reversed true n p) ∨ F = .other true n := by
  cases F with
  | ignored => simp [Face.nums] at hn
  | oblique => simp [Face.nums] at hn
  | reversed c id plane =>
    simp only [Face.nums, List.mem_cons, Option.mem_toList] at hn
    rcases hn with rfl | hn
    · cases c with
      | true => exact .inl ⟨plane, rfl⟩
      | false => exact absurd h.1 hp
    · exact absurd (h.2 n hn) hp
  | torus i v u => exact absurd (h n hn) hp
  | other c var =>
    simp [Face.nums] at hn
    subst hn
    cases c with
    | true => exact .inr rfl
    | false => exact absurd h hp

theorem mem_conesOf {δ : Type} {solids : List (δ × List Face)} {planeOf : Nat → Option Int} (h : ∀ s ∈ solids, ∀ F ∈ s.2, F.ConesMarked planeOf)
    {s : δ × List Face} (hs : s ∈ solids) {F : Face} (hF : F ∈ s.2) {n : Int} (hn : n ∈ F.nums) (hp : planeOf n.natAbs ≠ none) : n ∈ conesOf solids := by
  unfold conesOf
  rw [mem_dedup']
  refine List.mem_filterMap.2 ⟨F, List.mem_flatMap.2 ⟨s, hs, hF⟩, ?_⟩
  have hm := h s hs F hF
  rcases hm.listed hn hp with ⟨p, rfl⟩ | rfl
  · rfl
  · have : n < 0 := hm
    simp only [Option.some.injEq]
    omega

theorem dedup_nodup' {α : Type} [DecidableEq α] : ∀ l : List α, (Geouned.dedup l).Nodup
  | [] => by simp [Geouned.dedup]
  | a :: l => by
    unfold Geouned.dedup
    split
    · exact dedup_nodup' l
    · next h => exact List.nodup_cons.2 ⟨fun h' => h (mem_dedup'.1 h'), dedup_nodup' l⟩

theorem cellDefs_spec {δ : Type} {order : List Int → List Int} (hord : ∀ l n, n ∈ order l ↔ n ∈ l) {planeOf : Nat → Option Int} :
    ∀ (cells : List (Int × List (δ × List Face))), (cells.map Prod.fst).Nodup →
    (∀ c ∈ cells, ∀ s ∈ c.2, SameGroups s.2 ∧ ∀ F ∈ s.2, F.Numbered ∧ F.ConesMarked planeOf) →
    ∃ N, ∀ f ≥ N, ∃ ms info, cellDefs order f cells = .ok (ms, info) ∧ (∀ p ∈ info, p.2.Nodup ∧ p.1 ∈ cells.map Prod.fst) ∧
      (∀ m ∈ ms, m.id ∈ cells.map Prod.fst ∧ Plain m.defn ∧ (∀ n ∈ lits m.defn, n ≠ 0) ∧ ∀ n ∈ lits m.defn, planeOf n.natAbs ≠ none → Listed info m n) ∧
      List.Forall₂ (fun c m => ∀ σ, m.defn.sem σ = true ↔ ∃ s ∈ c.2, PieceHolds σ s.2) cells ms
  | [], _, _ => ⟨0, fun f _ => ⟨[], [], rfl, by simp, by simp, .nil⟩⟩
  | (i, solids) :: cells, hn, h => by
    obtain ⟨hi, hn'⟩ := List.nodup_cons.1 hn
    obtain ⟨N1, h1⟩ := cellDefs_spec hord cells hn' fun c hc => h c (by simp [hc])
    have hh := h (i, solids) (by simp)
    obtain ⟨N2, h2⟩ := C60_cell_definition order hord solids fun s hs => ⟨(hh s hs).1, fun F hF => ((hh s hs).2 F hF).1⟩
    refine ⟨N1 + N2, fun f hf => ?_⟩
    obtain ⟨ms, info, e1, e2, e3, e4⟩ := h1 f (by omega)
    obtain ⟨d, kept, ps, d1, d2, d3, d4⟩ := h2 f (by omega)
    have hcone : ∀ s ∈ solids, ∀ F ∈ s.2, F.ConesMarked planeOf := fun s hs F hF => ((hh s hs).2 F hF).2
    have ham : Among (fun n => n ≠ 0 ∧ (planeOf n.natAbs ≠ none → n ∈ conesOf solids)) d := by
      refine pieceLoop_among hord f solids _ (d, kept) ?_ (among_lst.2 (by simp)) d1
      intro s hs F hF n hnF
      refine ⟨?_, mem_conesOf hcone hs hF hnF⟩
      have hnum := ((hh s hs).2 F hF).1
      cases F with
      | ignored => simp [Face.nums] at hnF
      | oblique => simp [Face.nums] at hnF
      | reversed c id plane =>
        simp only [Face.nums, List.mem_cons, Option.mem_toList] at hnF
        rcases hnF with rfl | hp
        · exact hnum.1
        · exact hnum.2 n hp
      | torus k v u =>
        obtain ⟨-, hv, hu⟩ := hnum
        simp only [Face.nums, List.mem_append] at hnF
        rcases hnF with hnF | hnF
        · cases v <;> simp [VCut.nums] at hnF hv <;> rcases hnF with rfl | rfl <;> simp_all
        · cases u <;> simp [UCut.nums] at hnF hu <;> rcases hnF with rfl | rfl <;> simp_all
      | other c var =>
        simp [Face.nums] at hnF
        subst hnF
        exact hnum
    have hplain : Plain d := by
      obtain ⟨l, hl⟩ := d3.defn
      refine ⟨⟨_, _, _, hl⟩, ?_⟩
      rcases ham.1 with ⟨_, _, _, hb⟩ | hb
      · rw [hl] at hb; cases hb
      · exact hb
    refine ⟨⟨i, false, none, d⟩ :: ms, if (conesOf solids).isEmpty then info else (i, conesOf solids) :: info, ?_, ?_, ?_, .cons d4 e4⟩
    · simp only [cellDefs, d1, e1, bind, Except.bind]
    · intro p hp
      have old : p ∈ info → p.2.Nodup ∧ p.1 ∈ ((i, solids) :: cells).map Prod.fst := fun hp => ⟨(e2 p hp).1, by simp only [List.map_cons, List.mem_cons]; exact .inr (e2 p hp).2⟩
      split at hp
      · exact old hp
      · rcases List.mem_cons.1 hp with rfl | hp
        · exact ⟨dedup_nodup' _, by simp⟩
        · exact old hp
    · intro m hm
      rcases List.mem_cons.1 hm with rfl | hm
      · refine ⟨by simp, hplain, fun n hn => (ham.2 n hn).1, fun n hn hp => ?_⟩
        have hmem := (ham.2 n hn).2 hp
        have hne : (conesOf solids).isEmpty = false := by
          cases hc : conesOf solids with
          | nil => rw [hc] at hmem; cases hmem
          | cons a l => rfl
        simp only [Listed, Bool.false_eq_true, if_false, hne]
        exact ⟨_, by simp [List.lookup], hmem⟩
      · obtain ⟨a1, a2, a3, a4⟩ := e3 m hm
        refine ⟨by simp only [List.map_cons, List.mem_cons]; exact .inr a1, a2, a3, fun n hn hp => ?_⟩
        have hv : m.void = false ∨ m.void = true := by cases m.void <;> simp
        have hl := a4 n hn hp
        have hmi : m.id ≠ i := fun e => hi (e ▸ a1)
        have keep : ∀ l j, j ∈ cells.map Prod.fst → info.lookup j = some l →
            (if (conesOf solids).isEmpty then info else (i, conesOf solids) :: info).lookup j = some l := by
          intro l j hj hl
          split
          · exact hl
          · have : (j == i) = false := by
              rw [beq_eq_false_iff_ne]
              rintro rfl
              exact hi hj
            simp [List.lookup, this, hl]
        rcases hv with hv | hv
        · simp only [Listed, hv, Bool.false_eq_true, if_false] at hl ⊢
          obtain ⟨l, h1, h2⟩ := hl
          exact ⟨l, keep l _ a1 h1, h2⟩
        · simp only [Listed, hv, if_true] at hl ⊢
          obtain ⟨ids, h1, j, hj, l, h2, h3⟩ := hl
          refine ⟨ids, h1, j, hj, l, keep l j ?_ h2, h3⟩
          obtain ⟨l1, l2, e, -⟩ := List.lookup_eq_some_iff.1 h2
          exact (e2 (j, l) (by rw [e]; simp)).2

/-- C56 for the solids, without option forceNoOverlap: the written cells, in which oblique cones have two sheets, hold at a point if and only if the faces of one of the pieces
of the solid agree there, with cones of one sheet. -/
theorem C56_solids_from_faces {δ : Type} (planeOf : Nat → Option Int) (order : List Int → List Int) (cells : List (Int × List (δ × List Face)))
    (hsep : Separate planeOf) (hord : SetOrder order) (hid : (cells.map Prod.fst).Nodup)
    (h : ∀ c ∈ cells, ∀ s ∈ c.2, SameGroups s.2 ∧ ∀ F ∈ s.2, F.Numbered ∧ F.ConesMarked planeOf) :
    ∃ N, ∀ f ≥ N, ∃ M, ∀ g ≥ M, ∃ out, solidDefs order f g planeOf cells = .ok out ∧
      List.Forall₂ (fun c d => ∀ σ, d.sem σ = true ↔ ∃ s ∈ c.2, PieceHolds (sheetSide planeOf σ) s.2) cells out := by
  obtain ⟨N, hN⟩ := cellDefs_spec (fun l n => (hord l).2 n) cells hid h
  refine ⟨N, fun f hf => ?_⟩
  obtain ⟨ms, info, e1, e2, e3, e4⟩ := hN f hf
  obtain ⟨M, hM⟩ := C56_one_sheet_partial planeOf order info ms hsep hord (fun p hp => (e2 p hp).1) fun m hm => (e3 m hm).2
  refine ⟨M, fun g hg => ?_⟩
  obtain ⟨out, o1, o2⟩ := hM g hg
  refine ⟨out, by simp only [solidDefs, e1, bind, Except.bind, o1], ?_⟩
  clear e1 e2 e3 o1 hid h hN hM
  induction e4 generalizing out with
  | nil => cases o2; exact .nil
  | cons h1 _ ih =>
    cases o2 with
    | cons g1 g2 => exact .cons (fun σ => by rw [g1 σ]; exact h1 _) (ih _ g2)

/-- cone 1 with plane 9: a solid inside the cone, and one outside of it (with the additional plane 4) -/
def coneCells : List (Int × List (Unit × List Face)) :=
  [(1, [((), [.other true (-1), .other false 2])]), (2, [((), [.reversed true 1 (some 4), .other false (-3)])])]

theorem coneCells_marked : ∀ c ∈ coneCells, ∀ s ∈ c.2, SameGroups s.2 ∧ ∀ F ∈ s.2, F.Numbered ∧ F.ConesMarked cone1 := by
  intro c hc s hs
  simp only [coneCells, List.mem_cons, List.not_mem_nil, or_false] at hc
  rcases hc with rfl | rfl
  all_goals
    simp only [List.mem_cons, List.not_mem_nil, or_false] at hs
    subst hs
    exact ⟨by simp [SameGroups], by simp [Face.Numbered, Face.ConesMarked, cone1]⟩

/-- non-vacuity: the planes are put where they belong -/
example : (∀ c ∈ coneCells, ∀ s ∈ c.2, SameGroups s.2 ∧ ∀ F ∈ s.2, F.Numbered ∧ F.ConesMarked cone1) ∧
    solidDefs id 20 20 cone1 coneCells = .ok [.lst .or 2 [.lst .and 1 [.lst .and 0 [.int (-1), .int 9], .int 2]],
      .lst .or 2 [.lst .and 1 [.lst .or 0 [.int 1, .int (-9)], .int (-3), .int 4]]] := by
  exact ⟨coneCells_marked, by rfl⟩

end Geouned.Conv
