import Verif.SerpFile.Props
import Verif.McnpFile.Props2
/-!
# C108: models that are written badly, and models that meet the hypotheses
-/
namespace Geouned.SerpFile

open Geouned.McnpFile

/-- the word `cell` occurs once for each cell -/
theorem count_cells {i : Input} (hg : Good i) {ws : List (List Char)} {cards : List (List (List Char))} (h : CardsOf ws cards) (hs : Says i cards) :
    ws.count "cell".toList = (i.cells.filter (fun c => c.real)).length := by
  obtain ⟨cs, ss, rfl, hc, hs⟩ := hs
  obtain ⟨rfl, hn⟩ := h
  have rest : ∀ c ∈ cs ++ ss ++ [["set".toList, "nps".toList, "1e6".toList], ["set".toList, "bc".toList, "1".toList]], ∀ name r, c = name :: r → "cell".toList ∉ r := by
    intro c hm name r e hx
    obtain ⟨n', r', e', -, h'⟩ := hn c hm
    rw [e] at e'
    cases e'
    exact h' _ hx (by decide)
  have key : ∀ (l : List Cell) (cs : List (List (List Char))), List.Forall₂ (CellSays i) l cs → (∀ c ∈ cs, ∀ name r, c = name :: r → "cell".toList ∉ r) →
      cs.flatten.count "cell".toList = l.length := by
    intro l cs h
    induction h with
    | nil => intro _; rfl
    | @cons c d l cs h _ ih =>
      intro hr
      obtain ⟨label, uni, mat, reg, rfl, -⟩ := h
      rw [List.flatten_cons, List.count_append, ih (fun c hc => hr c (List.mem_cons_of_mem _ hc)), List.count_cons_self,
        List.count_eq_zero.mpr (hr _ List.mem_cons_self _ _ rfl), List.length_cons]
      omega
  have key2 : ∀ (l : List Surf) (cs : List (List (List Char))), List.Forall₂ SurfSays l cs → (∀ c ∈ cs, ∀ name r, c = name :: r → "cell".toList ∉ r) →
      cs.flatten.count "cell".toList = 0 := by
    intro l cs h
    induction h with
    | nil => intro _; rfl
    | @cons c d l cs h _ ih =>
      intro hr
      obtain ⟨n, name, v, -, -, rfl⟩ := h
      rw [List.flatten_cons, List.count_append, ih (fun c hc => hr c (List.mem_cons_of_mem _ hc)), List.count_cons_of_ne (by decide),
        List.count_eq_zero.mpr (hr _ List.mem_cons_self _ _ rfl)]
  rw [List.flatten_append, List.flatten_append, List.count_append, List.count_append,
    key _ _ hc (fun c h => rest c (List.mem_append_left _ (List.mem_append_left _ h))),
    key2 _ _ hs (fun c h => rest c (List.mem_append_left _ (List.mem_append_right _ h)))]
  have : List.count "cell".toList [["set".toList, "nps".toList, "1e6".toList], ["set".toList, "bc".toList, "1".toList]].flatten = 0 := by decide
  omega

/-- the number of each surface occurs among the words after `surf` -/
theorem surf_number {i : Input} {ws : List (List Char)} {cards : List (List (List Char))} (h : CardsOf ws cards) (hs : Says i cards) :
    ∀ s ∈ i.surfaces, s.card ≠ none → ∃ w, IsNum w s.index ∧ ["surf".toList, w] <:+: ws := by
  obtain ⟨cs, ss, rfl, -, hs⟩ := hs
  obtain ⟨rfl, -⟩ := h
  have key : ∀ (l : List Surf) (cs : List (List (List Char))), List.Forall₂ SurfSays l cs → ∀ s ∈ l, ∃ w, IsNum w s.index ∧ ["surf".toList, w] <:+: cs.flatten := by
    intro l cs h
    induction h with
    | nil => intro s hs; cases hs
    | @cons c d l cs h _ ih =>
      intro s hs
      rcases List.mem_cons.mp hs with rfl | hs
      · obtain ⟨n, name, v, -, h2, rfl⟩ := h
        exact ⟨n, h2, [], name :: v.flatMap Wrap.wordsOf ++ cs.flatten, by simp⟩
      · obtain ⟨w, h1, h2⟩ := ih s hs
        exact ⟨w, h1, h2.trans (by rw [List.flatten_cons]; exact List.infix_append' d cs.flatten [] |>.trans (by simp))⟩
  intro s hs' hc
  obtain ⟨w, h1, h2⟩ := key _ _ hs s (List.mem_filter.mpr ⟨hs', by simpa using hc⟩)
  refine ⟨w, h1, h2.trans ?_⟩
  rw [List.flatten_append, List.flatten_append]
  exact List.infix_append _ _ _

def cellBare : Cell := ⟨some 4, 4, 2, some 1, .lst .and 0 [.int 1, .int (-2)], 5, false, true, [], none, none, none⟩
def surfA : Surf := ⟨1, some (T "px", [T "1.5"])⟩
def surfB : Surf := ⟨2, some (T "plane", List.replicate 9 (T " 2.5"))⟩
def surfC : Surf := ⟨3, some (T "sph", [T "0.0", T "0.0", T "0.0", T "1.0e+01"])⟩
def surfK : Surf := ⟨7, some (T "ckz", [T "7.0000", T "0.0", T "0.0", T "1.0", T "2.0"])⟩

/-- a model -/
def model (title : List Char) (uni : Option Int) (cells : List Cell) (surfaces : List Surf) : Input :=
  ⟨title, uni, cells, surfaces, T "a.stp", T "1.0", T "0.21.2", T "2024-01-01 00:00:00"⟩

theorem model_good (title : List Char) (uni : Option Int) (cells : List Cell) (surfaces : List Surf) (hu : ∀ u, uni = some u → u.natAbs < 10 ^ 8)
    (hc : ∀ c ∈ cells, c = cellA ∨ c = cellB ∨ c = cellC ∨ c = cellBare) (hs : ∀ s ∈ surfaces, s = surfA ∨ s = surfB ∨ s = surfC ∨ s = surfK) :
    Good (model title uni cells surfaces) where
  step := by show '\n' ∉ T "a.stp"; decide
  version := by show '\n' ∉ T "1.0"; decide
  freecad := by show '\n' ∉ T "0.21.2"; decide
  date := by show '\n' ∉ T "2024-01-01 00:00:00"; decide
  uni := hu
  cells c h hr := by
    rcases hc c h with rfl | rfl | rfl | rfl
    · obtain ⟨h1, h2, -, h3⟩ := cellA_ok.real hr
      exact ⟨h1, h2, h3⟩
    · exact absurd rfl hr
    · obtain ⟨h1, h2, -, h3⟩ := cellC_ok.real hr
      exact ⟨h1, h2, h3⟩
    · refine ⟨by decide, by decide, _, _, _, rfl, ?_, ?_, ?_, ?_, ?_⟩
      all_goals simp [Seq.WF, Seq.WFL, Seq.NoBool, Seq.NoBoolL, Text.Full, Text.FullL, Seq.depth, Seq.depthL, Text.Below, Text.BelowL]
  surfaces s h name v e := by
    have num : ∀ t ∈ [T "1.5", T "0.0", T "1.0e+01", T "7.0000", T "1.0", T "2.0"], NumText t := by
      intro t ht
      refine ⟨0, t, rfl, ?_⟩
      simp only [List.mem_cons, List.not_mem_nil, or_false] at ht
      rcases ht with rfl | rfl | rfl | rfl | rfl | rfl <;> exact ⟨token_of (by decide), by decide⟩
    rcases hs s h with rfl | rfl | rfl | rfl
    · cases e
      exact ⟨fun t ht => num t (by simp at ht; simp [ht]), by decide⟩
    · cases e
      refine ⟨fun t ht => ?_, by decide⟩
      rw [List.eq_of_mem_replicate ht]
      exact numText_of 1 (w := T "2.5") (by decide) (by decide) (by decide)
    · cases e
      exact ⟨fun t ht => num t (by simp only [List.mem_cons, List.not_mem_nil, or_false] at ht; rcases ht with rfl | rfl | rfl | rfl <;> simp), by decide⟩
    · cases e
      exact ⟨fun t ht => num t (by simp only [List.mem_cons, List.not_mem_nil, or_false] at ht; rcases ht with rfl | rfl | rfl | rfl | rfl <;> simp), by decide⟩

/-- **C108, violation.** A title such as the default one is written as it is: its words are taken for the name of a card. -/
theorem C108_title_violated : ¬ WrittenWell fun i => Line i.title ∧ i.uni = none ∧ (∀ c ∈ i.cells, c.real → Commented c) ∧ ∀ s ∈ i.surfaces, Numbered s := by
  intro h
  obtain ⟨K, hK⟩ := h (model (T "Converted with GEOUNED") none [] []) (model_good _ _ _ _ (by simp) (by simp) (by simp)) ⟨by unfold Line; decide, rfl, by simp [model], by simp [model]⟩ 30 (le_refl _)
  obtain ⟨t, cards, h1, h2, -⟩ := hK K (le_refl _)
  have e : writeInput 30 K (model (T "Converted with GEOUNED") none [] []) = writeInput 30 0 (model (T "Converted with GEOUNED") none [] []) := rfl
  rw [e] at h1
  have h3 : (match writeInput 30 0 (model (T "Converted with GEOUNED") none [] []) with | .ok t => (fileWords t).head? | .error _ => none) = some "Converted".toList := by decide +kernel
  rw [h1] at h3
  dsimp only at h3
  rw [h2.1] at h3
  cases cards with
  | nil => cases h3
  | cons c cs =>
    obtain ⟨n, r, rfl, hn, -⟩ := h2.2 c List.mem_cons_self
    simp only [List.flatten_cons, List.cons_append, List.head?_cons, Option.some.injEq] at h3
    rw [h3] at hn
    revert hn
    decide

/-- **C108, violation.** With a universe every cell is written twice, without the word for an empty cell. -/
theorem C108_universe_violated : ¬ WrittenWell fun i => fileWords i.title = [] ∧ (∀ c ∈ i.cells, c.real → Commented c) ∧ ∀ s ∈ i.surfaces, Numbered s := by
  intro h
  have hg : Good (model [] (some 5) [cellA] []) := model_good _ _ _ _ (by rintro u ⟨⟩; decide) (by simp) (by simp)
  obtain ⟨K, hK⟩ := h _ hg ⟨by decide, by
    intro c hc _
    obtain rfl : c = cellA := by simpa [model] using hc
    exact Or.inr (by decide), by simp [model]⟩ 30 (le_refl _)
  obtain ⟨t, cards, h1, h2, h4⟩ := hK K (le_refl _)
  have e : writeInput 30 K (model [] (some 5) [cellA] []) = writeInput 30 0 (model [] (some 5) [cellA] []) := rfl
  rw [e] at h1
  have h3 : (match writeInput 30 0 (model [] (some 5) [cellA] []) with | .ok t => (fileWords t).count "cell".toList | .error _ => 0) = 2 := by decide +kernel
  rw [h1] at h3
  dsimp only at h3
  rw [count_cells hg h2 h4] at h3
  revert h3
  decide

/-- **C108, violation.** After a cell without comments the next card does not begin on a new line: `-2cell` is read as one word. -/
theorem C108_comment_violated : ¬ WrittenWell fun i => fileWords i.title = [] ∧ i.uni = none ∧ ∀ s ∈ i.surfaces, Numbered s := by
  intro h
  have hg : Good (model [] none [cellBare, cellA] []) := model_good _ _ _ _ (by simp) (by simp) (by simp)
  obtain ⟨K, hK⟩ := h _ hg ⟨by decide, rfl, by simp [model]⟩ 30 (le_refl _)
  obtain ⟨t, cards, h1, h2, h4⟩ := hK K (le_refl _)
  have e : writeInput 30 K (model [] none [cellBare, cellA] []) = writeInput 30 0 (model [] none [cellBare, cellA] []) := rfl
  rw [e] at h1
  have h3 : (match writeInput 30 0 (model [] none [cellBare, cellA] []) with | .ok t => (fileWords t).count "cell".toList | .error _ => 0) = 1 := by decide +kernel
  rw [h1] at h3
  dsimp only at h3
  rw [count_cells hg h2 h4] at h3
  revert h3
  decide

/-- all pairs of neighbouring words -/
def pairs (ws : List (List Char)) : List (List Char × List Char) := ws.zip ws.tail

theorem mem_pairs {a b : List Char} {ws : List (List Char)} (h : [a, b] <:+: ws) : (a, b) ∈ pairs ws := by
  obtain ⟨u, v, rfl⟩ := h
  unfold pairs
  induction u with
  | nil => simp
  | cons x u ih =>
    have ih' := ih
    cases u with
    | nil => simp
    | cons y u =>
      simp only [List.cons_append, List.tail_cons, List.zip_cons_cons] at ih' ⊢
      exact List.mem_cons_of_mem _ ih'

/-- **C108, violation.** The card of a cone has no number: `surf ckz 7.0000 …` instead of `surf 7 ckz …`. -/
theorem C108_cone_violated : ¬ WrittenWell fun i => fileWords i.title = [] ∧ i.uni = none ∧ ∀ c ∈ i.cells, c.real → Commented c := by
  intro h
  have hg : Good (model [] none [] [surfK]) := model_good _ _ _ _ (by simp) (by simp) (by simp)
  obtain ⟨K, hK⟩ := h _ hg ⟨by decide, rfl, by simp [model]⟩ 30 (le_refl _)
  obtain ⟨t, cards, h1, h2, h4⟩ := hK K (le_refl _)
  have e : writeInput 30 K (model [] none [] [surfK]) = writeInput 30 0 (model [] none [] [surfK]) := rfl
  rw [e] at h1
  obtain ⟨w, g1, g2⟩ := surf_number h2 h4 surfK (by simp [model]) (by simp [surfK])
  have h3 : (match writeInput 30 0 (model [] none [] [surfK]) with
      | .ok t => (pairs (fileWords t)).all (fun p => p.1 ≠ "surf".toList || Text.tokOf p.2 ≠ some (.num 7)) | .error _ => false) = true := by decide +kernel
  rw [h1] at h3
  dsimp only at h3
  have := List.all_eq_true.mp h3 _ (mem_pairs g2)
  unfold IsNum at g1
  have g3 : Text.tokOf w = some (.num 7) := g1
  dsimp only at this
  rw [g3] at this
  simp only [ne_eq, not_true_eq_false, decide_false, Bool.or_self] at this
  cases this

/-! ## the hypotheses are met -/

example : ∃ K, ∀ k, K ≤ k → ∃ t cards, writeInput 30 k (model (T "% a title") none [cellA, cellB, cellC] [surfA, surfB, surfC]) = .ok t ∧ CardsOf (fileWords t) cards
    ∧ Says (model (T "% a title") none [cellA, cellB, cellC] [surfA, surfB, surfC]) cards := by
  refine C108_file_partial _ (model_good _ _ _ _ (by simp) (by simp) (by simp)) ⟨by decide, rfl, ?_, ?_⟩ 30 (le_refl _)
  · intro c hc hr
    simp only [model, List.mem_cons, List.not_mem_nil, or_false] at hc
    rcases hc with rfl | rfl | rfl
    · exact Or.inr (by decide)
    · exact absurd rfl hr
    · exact Or.inl ⟨_, rfl, by decide⟩
  · intro s hs name v e
    simp only [model, List.mem_cons, List.not_mem_nil, or_false] at hs
    rcases hs with rfl | rfl | rfl <;> (cases e; decide)

end Geouned.SerpFile
