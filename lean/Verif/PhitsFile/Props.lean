import Verif.PhitsFile.UniLemmas
/-!
# C109: the PHITS file says exactly what the model is; C110: unified void cells fill what the solids leave
-/
namespace Geouned.PhitsFile

/-- the writer ends, and the file says what the model is -/
def Written (f : Fmt) (i : Input) (uni : Bool) (r : Nat) : Prop :=
  ∃ K, ∀ k, K ≤ k → ∃ s cells, writePhits f r k i = .ok (s, cells) ∧ Says f i uni (Wrap.linesOf s)

/-- **C109.** For every model that can be written (`Good`) and every text of the STEP file, with or without labels of enclosures: the sections of the file say exactly the
model. There is one card for each cell (if there are no enclosures, only the solids, the inner void and the outer void), in order, with number, material, density, region and
universe; one card for each surface; with `dummyMat` one card for each material that is used, none twice; with `volCARD` one line for each cell card with its volume in cm³.
(`k`, the rounds of the loop in `wrap_line`, is only to be large enough; `r` is Python's recursion limit.) What is missing for all models: see the violations in
`Props2.lean`. -/
theorem C109_file_partial (f : Fmt) (i : Input) (uni : Bool) (text : List Char) (h : Good f i uni) (ht : i.stepText = some text) (hu : uni = true ↔ Unify text)
    (r : Nat) (hr : 30 ≤ r) : Written f i uni r := by
  obtain ⟨K, hK⟩ := writePhits_ok h ht hu r hr
  refine ⟨K, fun k hk => ?_⟩
  obtain ⟨s, cs, h1, _, h2⟩ := hK k hk
  exact ⟨s, cs, h1, h2⟩

/-- **C109.** The labels of the STEP file decide whether void cells are unified, whatever else the file contains. -/
theorem C109_labels (f : Fmt) (i : Input) (uni : Bool) (text : List Char) (ht : i.stepText = some text) (hu : uni = true ↔ Unify text) :
    unified i = some uni := unified_eq ht hu

/-- **C110.** Void cells unified: in the file each cell contains exactly the points of its region, where the inner void is the inside of the sphere without all solids. -/
theorem C110_regions_partial (f : Fmt) (i : Input) (text : List Char) (h : Good f i true) (hp : Positive i) (ht : i.stepText = some text) (hu : Unify text) (r : Nat) (hr : 30 ≤ r) :
    ∃ K, ∀ k, K ≤ k → ∃ s cells body rest file, writePhits f r k i = .ok (s, cells) ∧ split (Wrap.linesOf s) = ([], ("[CELL]".toList, body) :: rest) ∧ cards body = ([], file)
      ∧ List.Forall₂ (fun c w => number w = some c.label ∧ ∀ n, 2 ≤ n → ∀ σ, Inside file σ n w ↔ Region i c σ) (i.cells.filter (fun c => Shown true c)) file := by
  obtain ⟨K, hK⟩ := writePhits_ok h ht (uni := true) ⟨fun _ => hu, fun _ => rfl⟩ r hr
  refine ⟨K, fun k hk => ?_⟩
  obtain ⟨s, cs, h1, _, bs, ss, ms, vs, h2, ⟨ws, h3, h4⟩, _⟩ := hK k hk
  exact ⟨s, cs, bs, _, ws, h1, h2, h3, inside_region h hp h4⟩

/-- **C110.** Then no point is lost and none of the void is counted twice: if the outer void is the outside of the sphere, each point is in a cell of the file, and a point of
the inner void is in no solid and not in the outer void. -/
theorem C110_fills_partial (f : Fmt) (i : Input) (text : List Char) (h : Good f i true) (hp : Positive i) (ht : i.stepText = some text) (hu : Unify text) (r : Nat) (hr : 30 ≤ r)
    (a b : Cell) (ha : a ∈ i.cells) (har : a.real) (hai : a.inner) (hb : b ∈ i.cells) (hbr : b.real) (hbo : b.outer)
    (op : Op) (l n : Int) (es : List Seq) (hd : a.definition = .lst op l (.int n :: es)) (hn : ∀ σ, b.definition.sem σ = !lit σ n) :
    ∃ K, ∀ k, K ≤ k → ∃ s cells body rest file, writePhits f r k i = .ok (s, cells) ∧ split (Wrap.linesOf s) = ([], ("[CELL]".toList, body) :: rest) ∧ cards body = ([], file)
      ∧ ∀ σ m, 2 ≤ m → (∃ w ∈ file, Inside file σ m w)
        ∧ (∀ w ∈ file, number w = some a.label → Inside file σ m w → ∀ c ∈ i.cells, c.real → (c.void = false ∨ c = b) → c.definition.sem σ = false) := by
  obtain ⟨K, hK⟩ := C110_regions_partial f i text h hp ht hu r hr
  refine ⟨K, fun k hk => ?_⟩
  obtain ⟨s, cs, bs, rest, ws, h1, h2, h3, h4⟩ := hK k hk
  refine ⟨s, cs, bs, rest, ws, h1, h2, h3, fun σ m hm => ?_⟩
  have shown : ∀ c ∈ i.cells, Shown true c → ∃ w ∈ ws, ∀ n, 2 ≤ n → ∀ σ, Inside ws σ n w ↔ Region i c σ := fun c hc hs => by
    obtain ⟨w, g1, _, g2⟩ := forall2_right h4 (a := c) (List.mem_filter.mpr ⟨hc, by simpa using hs⟩)
    exact ⟨w, g1, g2⟩
  have hnum := h.numbered rfl
  have bi : ¬ b.inner := by
    intro hi
    unfold Cell.inner at hi
    unfold Cell.outer at hbo
    rw [hi] at hbo
    exact absurd hbo (by decide)
  constructor
  · by_cases hout : lit σ n = true
    · by_cases hsol : ∃ c ∈ solids i, c.definition.sem σ = true
      · obtain ⟨c, hc, hcs⟩ := hsol
        obtain ⟨m1, m2, m3⟩ := solid_mem hc
        obtain ⟨w, g1, g2⟩ := shown c m1 ⟨m2, fun _ => Or.inl m3⟩
        refine ⟨w, g1, (g2 m hm σ).mpr ?_⟩
        unfold Region
        rw [if_neg (fun hi => by
          have := ((h.cells c m1).grave (Or.inl hi)).1
          rw [m3] at this; cases this)]
        exact hcs
      · obtain ⟨w, g1, g2⟩ := shown a ha ⟨har, fun _ => Or.inr (Or.inl hai)⟩
        refine ⟨w, g1, (g2 m hm σ).mpr ?_⟩
        unfold Region
        rw [if_pos hai]
        refine ⟨op, l, n, es, hd, hout, fun c hc => ?_⟩
        by_contra hne
        exact hsol ⟨c, hc, by simpa using hne⟩
    · obtain ⟨w, g1, g2⟩ := shown b hb ⟨hbr, fun _ => Or.inr (Or.inr hbo)⟩
      refine ⟨w, g1, (g2 m hm σ).mpr ?_⟩
      unfold Region
      rw [if_neg bi, hn]
      simpa using hout
  · intro w hw hwn hin c hc hcr hcase
    obtain ⟨c0, hc0, q1, q2⟩ := forall2_left h4 hw
    have hc0' := List.mem_filter.mp hc0
    have hsh : Shown true c0 := by simpa using hc0'.2
    have : c0 = a := numbered_inj hnum hc0'.1 ha hsh.1 har (by rw [q1] at hwn; simpa using hwn)
    subst this
    have hreg := (q2 m hm σ).mp hin
    unfold Region at hreg
    rw [if_pos hai] at hreg
    obtain ⟨op', l', n', es', hd', hlit, hsol⟩ := hreg
    rw [hd] at hd'
    have hnn : n = n' := by simp at hd'; exact hd'.2.2.1
    subst hnn
    rcases hcase with hv | rfl
    · refine hsol c ?_
      unfold solids
      exact List.mem_filter.mpr ⟨hc, by simp [hcr, hv]⟩
    · rw [hn, hlit]
      rfl

end Geouned.PhitsFile
