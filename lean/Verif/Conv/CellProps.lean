import Verif.Conv.CellLemmas
import Verif.Void.BoxObjsProps
/-!
# Property C60: the definition of a cell says what the faces of its pieces say
-/
namespace Geouned.Conv
open Geouned.Text

/-- Specification of the result of `cellDef`: the definition is the OR of one sequence for each solid kept, in order; a solid kept is one of the solids given,
and its sequence holds exactly where the faces of the solid agree. -/
structure Translated {δ : Type} (solids : List (δ × List Face)) (d : Seq) (kept : List δ) (ps : List ((δ × List Face) × Seq)) : Prop where
  sub : (ps.map Prod.fst).Sublist solids
  kept : kept = ps.map fun p => p.1.1
  defn : ∃ l, d = .lst .or l (ps.map Prod.snd)
  seq : ∀ p ∈ ps, ∃ op l es, p.2 = .lst op l es
  means : ∀ p ∈ ps, ∀ σ, p.2.sem σ = true ↔ PieceHolds σ p.1.2

theorem pieceLoop_spec {δ : Type} {order : List Int → List Int} (hord : ∀ l n, n ∈ order l ↔ n ∈ l) :
    ∀ (solids : List (δ × List Face)), (∀ s ∈ solids, SameGroups s.2 ∧ ∀ F ∈ s.2, F.Numbered) →
    ∃ F, ∀ f ≥ F, ∀ (l : Int) (es : List Seq), (Seq.lst .or l es).WF → ∃ (l' : Int) (kept : List δ) (ps : List ((δ × List Face) × Seq)),
      pieceLoop order f solids (.lst .or l es) = .ok (.lst .or l' (es ++ ps.map Prod.snd), kept) ∧ (Seq.lst .or l' (es ++ ps.map Prod.snd)).WF ∧
      Translated solids (.lst .or l' (ps.map Prod.snd)) kept ps ∧
      ∀ s ∈ solids, ∀ σ, PieceHolds σ s.2 → ∃ p ∈ ps, p.1 = s
  | [], _ => ⟨0, fun f _ l es hw => ⟨l, [], [], by simp [pieceLoop], by simpa using hw, ⟨.slnil, rfl, ⟨l, rfl⟩, by simp, by simp⟩, by simp⟩⟩
  | (s, faces) :: r, h => by
    obtain ⟨F, ih⟩ := pieceLoop_spec hord r (fun s' hs' => h s' (by simp [hs']))
    obtain ⟨hs, hn⟩ := h (s, faces) (by simp)
    obtain ⟨hused, hnone⟩ := pieceText_spec hs hn
    refine ⟨F + ((pieceText faces).length + 1), fun f hf l es hw => ?_⟩
    by_cases hu : ∃ F ∈ faces, F.Used
    · obtain ⟨hne, ⟨σ0, b0, hm0⟩, ⟨σ1, hm1⟩, hval⟩ := hused hu
      obtain ⟨q, hq, hqw, hqs⟩ := C16_parse order hord (pieceText faces) ⟨σ0, b0, hm0⟩ f (by omega)
      have hqn : ∀ n, q ≠ .int n := by
        obtain ⟨q', h1, _, h2, _⟩ := setDef_spec hord f (pieceText faces) σ0 b0 (Nat.lt_of_le_of_lt (nums_le _) (by omega)) (reads_top hm0)
        rw [hq] at h1; cases h1; exact h2
      have hq1 : q.sem σ1 = false := ((hqs σ1 false).1 hm1).symm
      have hqv : ∀ σ, q.sem σ = true ↔ PieceHolds σ faces := by
        intro σ
        exact hval σ (q.sem σ) ((hqs σ _).2 rfl)
      have hread : readPiece order f (pieceText faces) = .ok (some q) := by
        cases ht : pieceText faces with
        | nil => exact absurd ht hne
        | cons t ts => rw [ht] at hq; simp [readPiece, hq, bind, Except.bind]
      cases q with
      | int n => exact absurd rfl (hqn n)
      | boo op k b =>
        have hb : b = false := by simpa [Seq.sem] using hq1
        subst hb
        obtain ⟨l', kept, ps, h1, h2, h3, h4⟩ := ih f (by omega) l es hw
        refine ⟨l', kept, ps, by simp [pieceLoop, hread, truthy, bind, Except.bind, h1], h2, ⟨h3.sub.cons _, h3.kept, h3.defn, h3.seq, h3.means⟩, ?_⟩
        intro s' hs' σ hp
        rcases List.mem_cons.1 hs' with rfl | hs'
        · have := (hqv σ).2 hp
          simp [Seq.sem] at this
        · exact h4 s' hs' σ hp
      | lst op k xs =>
        by_cases hx : xs = []
        · subst hx
          have hop : op = .or := by
            cases op with
            | or => rfl
            | and => simp [Seq.sem, Seq.semAll] at hq1
          subst hop
          obtain ⟨l', kept, ps, h1, h2, h3, h4⟩ := ih f (by omega) l es hw
          refine ⟨l', kept, ps, by simp [pieceLoop, hread, truthy, bind, Except.bind, h1], h2, ⟨h3.sub.cons _, h3.kept, h3.defn, h3.seq, h3.means⟩, ?_⟩
          intro s' hs' σ hp
          rcases List.mem_cons.1 hs' with rfl | hs'
          · have := (hqv σ).2 hp
            simp [Seq.sem, Seq.semAny] at this
          · exact h4 s' hs' σ hp
        · have ha : (Seq.lst .or l es).append [.seq (.lst op k xs)] = .ok (.lst .or (max l (k + 1)) (es ++ [.lst op k xs])) := by
            simp [Seq.append, appendLoop]
          obtain ⟨_, _, hw', _⟩ := append_one hw hqw ha
          obtain ⟨l', kept, ps, h1, h2, h3, h4⟩ := ih f (by omega) _ _ hw'
          refine ⟨l', s :: kept, ((s, faces), .lst op k xs) :: ps, ?_, ?_, ⟨?_, ?_, ⟨l', rfl⟩, ?_, ?_⟩, ?_⟩
          · simp only [pieceLoop, hread, truthy, ha, bind, Except.bind, h1]
            simp [hx]
          · simpa using h2
          · simpa using h3.sub
          · simp [h3.kept]
          · intro p hp
            rcases List.mem_cons.1 hp with rfl | hp
            · exact ⟨_, _, _, rfl⟩
            · exact h3.seq p hp
          · intro p hp
            rcases List.mem_cons.1 hp with rfl | hp
            · exact hqv
            · exact h3.means p hp
          · intro s' hs' σ hp
            rcases List.mem_cons.1 hs' with rfl | hs'
            · exact ⟨((s, faces), .lst op k xs), List.mem_cons_self, rfl⟩
            · obtain ⟨p, hp1, hp2⟩ := h4 s' hs' σ hp
              exact ⟨p, by simp [hp1], hp2⟩
    · have hnil := hnone hu
      obtain ⟨l', kept, ps, h1, h2, h3, h4⟩ := ih f (by omega) l es hw
      refine ⟨l', kept, ps, by simp [pieceLoop, hnil, readPiece, bind, Except.bind, h1], h2, ⟨h3.sub.cons _, h3.kept, h3.defn, h3.seq, h3.means⟩, ?_⟩
      intro s' hs' σ hp
      rcases List.mem_cons.1 hs' with rfl | hs'
      · exact absurd hp.1 hu
      · exact h4 s' hs' σ hp

/-- **C60.** For every solid, whatever its pieces and their faces (with surface numbers different from 0, and one set of limits for each group of torus faces):
`cellDef` returns; the cell holds at a point iff the faces of one of the pieces agree at that point; the definition has one sequence per solid kept, in order
(a solid is dropped with its sequence). `order`: the order in which Python iterates a set of ints; `f`: recursion depth. -/
theorem C60_cell_definition {δ : Type} (order : List Int → List Int) (hord : ∀ l n, n ∈ order l ↔ n ∈ l) (solids : List (δ × List Face))
    (h : ∀ s ∈ solids, SameGroups s.2 ∧ ∀ F ∈ s.2, F.Numbered) :
    ∃ N, ∀ f ≥ N, ∃ d kept ps, cellDef order f solids = .ok (d, kept) ∧ d.WF ∧ Translated solids d kept ps ∧
      ∀ σ, d.sem σ = true ↔ ∃ s ∈ solids, PieceHolds σ s.2 := by
  obtain ⟨N, hN⟩ := pieceLoop_spec hord solids h
  refine ⟨N, fun f hf => ?_⟩
  obtain ⟨l', kept, ps, h1, h2, h3, h4⟩ := hN f hf 0 [] (by simp [Seq.WF, Seq.WFL])
  simp only [List.nil_append] at h1 h2
  refine ⟨_, kept, ps, h1, h2, h3, fun σ => ?_⟩
  simp only [Seq.sem]
  rw [Void.semAny_iff]
  constructor
  · rintro ⟨e, he, hes⟩
    obtain ⟨p, hp, rfl⟩ := List.mem_map.1 he
    exact ⟨p.1, h3.sub.subset (List.mem_map.2 ⟨p, hp, rfl⟩), (h3.means p hp σ).1 hes⟩
  · rintro ⟨s, hs, hp⟩
    obtain ⟨p, hp1, rfl⟩ := h4 s hs σ hp
    exact ⟨p.2, List.mem_map.2 ⟨p, hp1, rfl⟩, (h3.means p hp1 σ).2 hp⟩

/-- a drilled block: planes 1 and 2, two reversed half cylinders 3 each with its additional plane 4 or 5, and a piece all of whose faces are too small -/
def exSolids : List (Nat × List Face) :=
  [(0, [.other false 1, .other false (-2), .reversed false 3 (some 4), .ignored, .reversed false 3 (some 5), .other false 1]), (1, [.ignored]),
   (2, [.torus 0 (.cut 6 (-7)) (.two true 8 (-9)), .torus 0 (.cut 6 (-7)) (.two true 8 (-9)), .other false 10])]

/-- Non-vacuity of C60. -/
example : (∀ s ∈ exSolids, SameGroups s.2 ∧ ∀ F ∈ s.2, F.Numbered) ∧
    cellDef id 30 exSolids = .ok (.lst .or 2 [.lst .and 1 [.lst .and 0 [.int 3, .int (-2), .int 1], .lst .or 0 [.int 4, .int 5]],
      .lst .and 1 [.lst .and 0 [.int 10, .int (-7), .int 6], .lst .or 0 [.int 8, .int (-9)]]], [0, 2]) := by
  refine ⟨?_, by rfl⟩
  intro s hs
  simp only [exSolids, List.mem_cons, List.not_mem_nil, or_false] at hs
  rcases hs with rfl | rfl | rfl
  · exact ⟨by simp [SameGroups], by simp [Face.Numbered]⟩
  · exact ⟨by simp [SameGroups], by simp [Face.Numbered]⟩
  · refine ⟨?_, by simp [Face.Numbered]⟩
    intro i v u v' u' h1 h2
    simp at h1 h2
    obtain ⟨_, a, b⟩ := h1
    obtain ⟨_, c, d⟩ := h2
    subst a b c d
    exact ⟨rfl, rfl⟩

open Geouned.Box Geouned.Void in
/-- C60 and C59 together: the cell that `cellDef` makes of a solid satisfies what the construction of void boxes needs, at every point at which the pieces are
inside the bounding boxes of their CAD solids. -/
theorem C60_feeds_void_boxes (order : List Int → List Int) (hord : ∀ l n, n ∈ order l ↔ n ∈ l) (solids : List (Option BBox × List Face))
    (h : ∀ s ∈ solids, SameGroups s.2 ∧ ∀ F ∈ s.2, F.Numbered) (q : Pt) (σ : Side)
    (hbox : ∀ s ∈ solids, PieceHolds σ s.2 → ∃ b, s.1 = some b ∧ b.Mem q) (i : Int) (e : Bool) :
    ∃ N, ∀ f ≥ N, ∃ d kept, cellDef order f solids = .ok (d, kept) ∧ Located q σ ⟨i, e, kept, hullAll (solids.map Prod.fst), d⟩ := by
  obtain ⟨N, hN⟩ := C60_cell_definition order hord solids h
  refine ⟨N, fun f hf => ?_⟩
  obtain ⟨d, kept, ps, h1, h2, h3, h4⟩ := hN f hf
  refine ⟨d, kept, h1, ⟨ps.map fun p => (p.1.1, p.2), ?_, ?_, ?_, ?_⟩, h2, ?_⟩
  · simp [h3.kept, Function.comp_def]
  · obtain ⟨l, hl⟩ := h3.defn
    exact ⟨l, by simpa [Function.comp_def] using hl⟩
  · intro p hp
    obtain ⟨p', hp', rfl⟩ := List.mem_map.1 hp
    exact h3.seq p' hp'
  · intro p hp hs
    obtain ⟨p', hp', rfl⟩ := List.mem_map.1 hp
    exact hbox p'.1 (h3.sub.subset (List.mem_map.2 ⟨p', hp', rfl⟩)) ((h3.means p' hp' σ).1 hs)
  · intro hs
    obtain ⟨s, hs1, hs2⟩ := (h4 σ).1 hs
    obtain ⟨b, hb, hbq⟩ := hbox s hs1 hs2
    exact hullAll_mem (List.mem_map.2 ⟨s, hs1, hb⟩) hbq

end Geouned.Conv
