import Verif.Face.IntervalLemmas
/-!
# C89: the ranges covered by the faces of a cylinder or cone

`getIntervals (uNodes rng l)`: the faces `l`, with the ranges `rng`, give a list of ranges `(first end, last end, indices of faces)`, an end being a value with the
index of a face.
-/
namespace Geouned.Face

open Relation

/-- two faces of `l` whose ranges overlap or are less than 1e-5 apart -/
def Near (rng : Nat → ℚ × ℚ) (l : List Nat) (i j : Nat) : Prop :=
  i ∈ l ∧ j ∈ l ∧ (rng i).1 < (rng j).2 + 1 / 100000 ∧ (rng j).1 < (rng i).2 + 1 / 100000

theorem near_iff {rng : Nat → ℚ × ℚ} {l : List Nat} {i j : Nat} : Near rng l i j ↔ Tch rng l i j := by
  unfold Near Tch uTol
  constructor
  · rintro ⟨a, b, c, d⟩
    exact ⟨a, b, by linarith, by linarith⟩
  · rintro ⟨a, b, c, d⟩
    exact ⟨a, b, by linarith, by linarith⟩

theorem tch_symm {rng : Nat → ℚ × ℚ} {l : List Nat} {i j : Nat} (h : ReflTransGen (Tch rng l) i j) : ReflTransGen (Tch rng l) j i := by
  induction h with
  | refl => exact ReflTransGen.refl
  | tail _ h ih => exact ReflTransGen.head ⟨h.2.1, h.1, h.2.2.2, h.2.2.1⟩ ih

theorem near_chain {rng : Nat → ℚ × ℚ} {l : List Nat} {i j : Nat} : ReflTransGen (Near rng l) i j ↔ ReflTransGen (Tch rng l) i j :=
  ⟨fun h => ReflTransGen.mono (fun _ _ h => near_iff.mp h) _ _ h, fun h => ReflTransGen.mono (fun _ _ h => near_iff.mpr h) _ _ h⟩

theorem indexSet_block {nodes : List Node} {rng : Nat → ℚ × ℚ} {ks : List Nat} {mn mx : Nat → Option Nat} {P Q : Nat → Nat}
    (h : NodesOK nodes rng ks mn mx P Q) {b : Nat × Nat} (hb : Block nodes rng ks P Q b.1 b.2)
    (h1 : ∀ i < b.1, (nodeAt nodes i).1 + uTol ≤ (nodeAt nodes b.1).1)
    (h2 : ∀ i, b.2 < i → i < nodes.length → (nodeAt nodes b.2).1 + uTol ≤ (nodeAt nodes i).1) (k : Nat) :
    k ∈ indexSet nodes (nodeAt nodes b.1, nodeAt nodes b.2) ↔ k ∈ ks ∧ b.1 ≤ P k ∧ P k ≤ b.2 := by
  have h0 := uTol_pos
  unfold indexSet
  rw [List.mem_map]
  constructor
  · rintro ⟨x, hx, rfl⟩
    obtain ⟨hx1, hx2⟩ := List.mem_filter.mp hx
    simp only [decide_eq_true_eq] at hx2
    obtain ⟨i, hi, rfl⟩ := List.getElem_of_mem hx1
    rw [← nodeAt_eq hi] at hx2 ⊢
    obtain ⟨hk, hpq⟩ := h.cover i hi
    have hi1 : b.1 ≤ i := by
      by_contra hcon
      have := h1 i (by omega)
      linarith [hx2.1]
    have hi2 : i ≤ b.2 := by
      by_contra hcon
      have := h2 i (by omega) hi
      linarith [hx2.2]
    have hP : b.1 ≤ P (nodeAt nodes i).2 := by
      rcases hpq with a | a
      · omega
      · exact hb.inQP _ hk (by omega)
    have := h.lt _ hk
    exact ⟨hk, hP, by omega⟩
  · rintro ⟨hk, a1, a2⟩
    have hl : P k < nodes.length := by have := hb.len; omega
    refine ⟨nodeAt nodes (P k), List.mem_filter.mpr ⟨by rw [nodeAt_eq hl]; exact List.getElem_mem _, ?_⟩, by rw [h.atP k hk]⟩
    rw [decide_eq_true_eq]
    have b1 := h.mono b.1 (P k) a1 hl
    have b2 := h.mono (P k) b.2 a2 hb.len
    constructor <;> linarith

/-- the ranges found, block by block -/
theorem getIntervals_blocks {rng : Nat → ℚ × ℚ} {l : List Nat} (hl : l.Nodup) (hne : l ≠ []) (hw : ∀ k ∈ l, (rng k).1 ≤ (rng k).2) :
    ∃ P Q mn mx bs, NodesOK (uNodes rng l) rng l mn mx P Q ∧ Good (uNodes rng l) rng l P Q 0 bs ∧
      getIntervals (uNodes rng l) = some (bs.map (fun b => (nodeAt (uNodes rng l) b.1, nodeAt (uNodes rng l) b.2,
        indexSet (uNodes rng l) (nodeAt (uNodes rng l) b.1, nodeAt (uNodes rng l) b.2)))) := by
  obtain ⟨P, Q, h⟩ := nodes_ok hl hw
  generalize hmn : (posLoop (uNodes rng l) 0 (fun _ => none) (fun _ => none)).1 = mn at h
  generalize hmx : (posLoop (uNodes rng l) 0 (fun _ => none) (fun _ => none)).2 = mx at h
  have hlen : 0 < (uNodes rng l).length := by
    obtain ⟨k, hk⟩ := List.exists_mem_of_ne_nil l hne
    have := h.len k hk
    omega
  have hk := (h.cover 0 hlen).1
  have hP0 : P (nodeAt (uNodes rng l) 0).2 = 0 := by
    rcases (h.cover 0 hlen).2 with a | a
    · exact a.symm
    · have := h.lt _ hk; omega
  obtain ⟨c1, c2⟩ := start_inv h hlen hP0
  obtain ⟨bs, hb1, hb2⟩ := intervalLoop_spec h (n := (uNodes rng l).length) (s := 0) (i := Q (nodeAt (uNodes rng l) 0).2) (by omega)
    (by have := h.lt _ hk; omega) (h.len _ hk) (fun _ _ _ => Nat.zero_le _) hP0 (by rw [h.atQ _ hk]) c1 c2
  refine ⟨P, Q, mn, mx, bs, h, hb2, ?_⟩
  have key : ∀ u us, uNodes rng l = u :: us → getIntervals (uNodes rng l) = some (bs.map (fun b => (nodeAt (uNodes rng l) b.1, nodeAt (uNodes rng l) b.2,
        indexSet (uNodes rng l) (nodeAt (uNodes rng l) b.1, nodeAt (uNodes rng l) b.2)))) := by
    intro u us he
    have hu : nodeAt (uNodes rng l) 0 = u := by rw [he]; rfl
    rw [hu] at hb1 hk
    have hq := h.mx_eq _ hk
    unfold getIntervals
    rw [he] at hb1 hmn hmx ⊢
    dsimp only
    rw [hmx, hmn, hq]
    dsimp only
    rw [hb1]
    simp [Function.comp_def]
  cases he : uNodes rng l with
  | nil => rw [he] at hlen; simp at hlen
  | cons u us =>
    rw [← he]
    exact key u us he

/-- the ranges are the connected sets of faces: every face is in one of them; the faces of the range of a face are those that a chain of overlapping ranges
links to it; a range goes from the first of their starts to the last of their ends, has no hole, and begins after the end of the one before -/
theorem C89_intervals (rng : Nat → ℚ × ℚ) (l : List Nat) (hl : l.Nodup) (hne : l ≠ []) (hw : ∀ k ∈ l, (rng k).1 ≤ (rng k).2) :
    ∃ rs, getIntervals (uNodes rng l) = some rs ∧
      (∀ k ∈ l, ∃ r ∈ rs, k ∈ r.2.2) ∧
      (∀ r ∈ rs, ∀ k ∈ r.2.2, k ∈ l ∧ ∀ m, m ∈ r.2.2 ↔ ReflTransGen (Near rng l) k m) ∧
      (∀ r ∈ rs, (r.1.2 ∈ r.2.2 ∧ r.1.1 = (rng r.1.2).1 ∧ ∀ k ∈ r.2.2, r.1.1 ≤ (rng k).1) ∧
        (r.2.1.2 ∈ r.2.2 ∧ r.2.1.1 = (rng r.2.1.2).2 ∧ ∀ k ∈ r.2.2, (rng k).2 ≤ r.2.1.1)) ∧
      (∀ r ∈ rs, ∀ t, r.1.1 ≤ t → t ≤ r.2.1.1 → ∃ k ∈ r.2.2, (rng k).1 - 1 / 100000 ≤ t ∧ t ≤ (rng k).2 + 1 / 100000) ∧
      rs.Pairwise (fun r r' => r.2.1.1 + 1 / 100000 ≤ r'.1.1) := by
  obtain ⟨P, Q, mn, mx, bs, h, hg, he⟩ := getIntervals_blocks hl hne hw
  obtain ⟨g1, g2, g3, _, _, _⟩ := good_spec h hg (by omega)
  refine ⟨_, he, fun k hk => ?_, fun r hr k hkr => ?_, fun r hr => ?_, fun r hr t t1 t2 => ?_, ?_⟩
  · obtain ⟨b, hb, b1, b2⟩ := g2 (P k) (Nat.zero_le _) ((h.lt k hk).trans (h.len k hk))
    obtain ⟨_, hB, hp, hn⟩ := g1 b hb
    exact ⟨_, List.mem_map.mpr ⟨b, hb, rfl⟩, (indexSet_block h hB hp hn k).mpr ⟨hk, b1, b2⟩⟩
  · obtain ⟨b, hb, rfl⟩ := List.mem_map.mp hr
    obtain ⟨_, hB, hp, hn⟩ := g1 b hb
    dsimp only at hkr ⊢
    obtain ⟨hk, k1, k2⟩ := (indexSet_block h hB hp hn k).mp hkr
    refine ⟨hk, fun m => ?_⟩
    rw [near_chain, indexSet_block h hB hp hn m]
    constructor
    · rintro ⟨hm, m1, m2⟩
      exact (tch_symm (hB.conn k hk k1 k2)).trans (hB.conn m hm m1 m2)
    · intro hc
      induction hc with
      | refl => exact ⟨hk, k1, k2⟩
      | @tail c d _ hcd ih =>
        obtain ⟨hcl, c1, c2⟩ := ih
        obtain ⟨_, hd, t1, t2⟩ := hcd
        refine ⟨hd, ?_, ?_⟩
        · by_contra hcon
          -- `d` ends before the block
          have hQ : Q d < b.1 := by
            by_contra hc2
            exact hcon (hB.inQP d hd (by omega))
          have a1 := hp (Q d) hQ
          have a2 := h.mono b.1 (P c) c1 ((h.lt c hcl).trans (h.len c hcl))
          rw [valQ h hd] at a1
          rw [valP h hcl] at a2
          linarith
        · by_contra hcon
          have a1 := hn (P d) (by omega) ((h.lt d hd).trans (h.len d hd))
          have a2 := h.mono (Q c) b.2 (hB.inPQ c hcl c1 c2) hB.len
          rw [valP h hd] at a1
          rw [valQ h hcl] at a2
          linarith
  · obtain ⟨b, hb, rfl⟩ := List.mem_map.mp hr
    obtain ⟨_, hB, hp, hn⟩ := g1 b hb
    dsimp only
    obtain ⟨s1, s2⟩ := hB.head
    obtain ⟨e1, e2⟩ := hB.last
    have hlt := hB.lt
    have hPQ := h.lt _ e1
    refine ⟨⟨(indexSet_block h hB hp hn _).mpr ⟨s1, by omega, by omega⟩, ?_, fun k hk => ?_⟩,
      (indexSet_block h hB hp hn _).mpr ⟨e1, hB.inQP _ e1 (by omega), by omega⟩, ?_, fun k hk => ?_⟩
    · rw [← valP h s1, s2]
    · obtain ⟨hkl, k1, k2⟩ := (indexSet_block h hB hp hn k).mp hk
      rw [← valP h hkl]
      exact h.mono _ _ k1 ((h.lt k hkl).trans (h.len k hkl))
    · rw [← valQ h e1, e2]
    · obtain ⟨hkl, k1, k2⟩ := (indexSet_block h hB hp hn k).mp hk
      rw [← valQ h hkl]
      exact h.mono _ _ (hB.inPQ k hkl k1 k2) hB.len
  · obtain ⟨b, hb, rfl⟩ := List.mem_map.mp hr
    obtain ⟨_, hB, hp, hn⟩ := g1 b hb
    obtain ⟨k, hk, k1, k2, k3, k4⟩ := hB.cov t t1 t2
    exact ⟨k, (indexSet_block h hB hp hn k).mpr ⟨hk, k1, k2⟩, k3, k4⟩
  · rw [List.pairwise_map]
    refine g3.imp_of_mem fun {b c} hb hc hbc => ?_
    have := (g1 b hb).2.2.2 c.1 hbc ((g1 c hc).2.1.lt.trans (g1 c hc).2.1.len)
    exact this

/-- non-vacuity: five faces, given out of order, one of them inside another, two ranges -/
example : getIntervals (uNodes (fun i => [(3, 4), (0, 2), (1, 3 / 2), (2, 5 / 2), (4, 5)].getD i (0, 0)) [0, 1, 2, 3, 4]) =
    some [((0, 1), (5 / 2, 3), [1, 2, 2, 1, 3, 3]), ((3, 0), (5, 4), [0, 0, 4, 4])] := by
  decide +kernel

end Geouned.Face
