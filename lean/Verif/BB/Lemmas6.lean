import Verif.BB.Lemmas5
/-!
# Lemmas: orientation, points near the cell, and the method always returns a box
-/
namespace Geouned.BB
open Geouned Geouned.Rev.Solid

variable {F : Type} [Field F] [LinearOrder F] [IsStrictOrderedRing F]

/-! ### regions -/

theorem region_and {pl : Nat → Plane F} {l : Int} {lits : List Int} {x : Pt F} :
    Region pl (.lst .and l (lits.map .int)) x ↔ ∀ n ∈ lits, lit (fun k => decide (0 < (pl k).ev x)) n = true := by
  unfold Region
  simp only [Seq.sem]
  induction lits with
  | nil => simp [Seq.semAll]
  | cons n lits ih => simp only [List.map_cons, Seq.semAll, Seq.sem, Bool.and_eq_true, ih, List.forall_mem_cons]

theorem region_or {pl : Nat → Plane F} {l : Int} {lits : List Int} {x : Pt F} :
    Region pl (.lst .or l (lits.map .int)) x ↔ ∃ n ∈ lits, lit (fun k => decide (0 < (pl k).ev x)) n = true := by
  unfold Region
  simp only [Seq.sem]
  induction lits with
  | nil => simp [Seq.semAny]
  | cons n lits ih => simp only [List.map_cons, Seq.semAny, Seq.sem, Bool.or_eq_true, ih, List.exists_mem_cons_iff]

theorem lit_true {pl : Nat → Plane F} {n : Int} {x : Pt F} (h : lit (fun k => decide (0 < (pl k).ev x)) n = true) :
    (0 < n → 0 ≤ (pl n.natAbs).ev x) ∧ (n < 0 → (pl n.natAbs).ev x ≤ 0) := by
  unfold lit at h
  constructor
  · intro hp
    rw [if_neg (by omega), decide_eq_true_iff] at h
    exact h.le
  · intro hp
    rw [if_pos hp] at h
    simpa using h

theorem lit_not_true {pl : Nat → Plane F} {n : Int} {x : Pt F} (h : ¬ lit (fun k => decide (0 < (pl k).ev x)) n = true) :
    (0 < -n → 0 ≤ (pl (-n).natAbs).ev x) ∧ (-n < 0 → (pl (-n).natAbs).ev x ≤ 0) := by
  unfold lit at h
  rw [Int.natAbs_neg]
  constructor
  · intro hp
    rw [if_pos (by omega)] at h
    simp at h
    exact h.le
  · intro hp
    rw [if_neg (by omega)] at h
    simpa using h

theorem region_and_allOf {pl : Nat → Plane F} {l : Int} {lits : List Int} {x : Pt F} (h : Region pl (.lst .and l (lits.map .int)) x) :
    AllOf pl lits x := fun n hn => lit_true (region_and.1 h n hn)

theorem region_or_oneOf {pl : Nat → Plane F} {l : Int} {lits : List Int} {x : Pt F} (h : Region pl (.lst .or l (lits.map .int)) x) :
    OneOf pl lits x := by
  obtain ⟨n, hn, h⟩ := region_or.1 h
  exact ⟨n, hn, lit_true h⟩

theorem not_region_or {pl : Nat → Plane F} {l : Int} {lits : List Int} {x : Pt F} (h : ¬ Region pl (.lst .or l (lits.map .int)) x) :
    AllOf pl (lits.map (fun n => -n)) x := by
  intro m hm
  obtain ⟨n, hn, rfl⟩ := List.mem_map.1 hm
  exact lit_not_true (fun ht => h (region_or.2 ⟨n, hn, ht⟩))

/-! ### points near the region are inside -/

theorem near_and {c : Comp F} {l : Int} {lits : List Int} (hd : c.definition = .lst .and l (lits.map .int)) (hn : ∀ n ∈ lits, n.natAbs ∈ c.nums)
    (h0 : ∀ n ∈ lits, n ≠ 0) (hu : ∀ k ∈ c.nums, dot (c.planes k).nrm (c.planes k).nrm = 1) (ht : 3 / 10 < c.tol) {v p : Pt F}
    (hv : AllOf c.planes lits v) (hp : Dev 3 p v) : isInside c p true = true := by
  rw [inside_true, hd]
  simp only [evaluate]
  rw [Ne, evaluate_and_false]
  rintro ⟨n, hm, hf⟩
  rw [litVal_false (hn n hm) (by linarith)] at hf
  have hev := dev_ev hp (hu _ (hn n hm))
  split at hf
  · rename_i hneg
    have := (hv n hm).2 hneg
    linarith [hev.1]
  · rename_i hneg
    have := (hv n hm).1 (by have := h0 n hm; omega)
    linarith [hev.2]

theorem near_or {c : Comp F} {l : Int} {lits : List Int} (hd : c.definition = .lst .or l (lits.map .int)) (hn : ∀ n ∈ lits, n.natAbs ∈ c.nums)
    (h0 : ∀ n ∈ lits, n ≠ 0) (hu : ∀ k ∈ c.nums, dot (c.planes k).nrm (c.planes k).nrm = 1) (ht : 3 / 10 < c.tol) {v p : Pt F}
    (hv : OneOf c.planes lits v) (hp : Dev 3 p v) : isInside c p true = true := by
  rw [inside_true, hd]
  simp only [evaluate]
  rw [Ne, evaluate_or_false]
  rintro ⟨_, hall⟩
  obtain ⟨n, hm, hv⟩ := hv
  have hf := hall n hm
  rw [litVal_false (hn n hm) (by linarith)] at hf
  have hev := dev_ev hp (hu _ (hn n hm))
  split at hf
  · rename_i hneg
    have := hv.2 hneg
    linarith [hev.1]
  · rename_i hneg
    have := hv.1 (by have := h0 n hm; omega)
    linarith [hev.2]

theorem near_or_out {c : Comp F} {l : Int} {lits : List Int} (hd : c.definition = .lst .or l (lits.map .int)) (hn : ∀ n ∈ lits, n.natAbs ∈ c.nums)
    (h0 : ∀ n ∈ lits, n ≠ 0) (hu : ∀ k ∈ c.nums, dot (c.planes k).nrm (c.planes k).nrm = 1) (ht : 3 / 10 < c.tol) {v p : Pt F}
    (hv : AllOf c.planes (lits.map (fun n => -n)) v) (hp : Dev 3 p v) : isInside c p false = true := by
  rw [inside_false, hd]
  simp only [evaluate]
  rw [Ne, evaluate_or_true]
  rintro ⟨n, hm, hf⟩
  rw [litVal_true (hn n hm) (by linarith)] at hf
  have hev := dev_ev hp (hu _ (hn n hm))
  have hv' := hv (-n) (List.mem_map_of_mem hm)
  rw [Int.natAbs_neg] at hv'
  split at hf
  · rename_i hneg
    have := hv'.1 (by omega)
    linarith [hev.2]
  · rename_i hneg
    have := hv'.2 (by have := h0 n hm; omega)
    linarith [hev.1]

/-! ### orientation -/

theorem points_length (b : Box F) : b.points.length = 8 := rfl

theorem orientation_rev {c : Comp F} (h : ∀ k, c.univ.Corner k → isInside c k true = true) : orientation c = .rev := by
  unfold orientation
  have : (c.univ.points.filter (fun p => isInside c p true)) = c.univ.points := by
    rw [List.filter_eq_self]
    exact fun k hk => h k (corner_mem.2 hk)
  rw [this, points_length]
  simp

theorem orientation_not_rev {c : Comp F} {k : Pt F} (hk : c.univ.Corner k) (h : isInside c k true = false) : orientation c ≠ .rev := by
  unfold orientation
  have hlt : (c.univ.points.filter (fun p => isInside c p true)).length < 8 := by
    rw [← points_length c.univ]
    apply List.length_filter_lt_length_iff_exists.2
    exact ⟨k, corner_mem.1 hk, by rw [h]; simp⟩
  dsimp only
  rw [if_neg (by omega)]
  split <;> simp

theorem orientation_fwd {c : Comp F} (h : ∀ k, c.univ.Corner k → isInside c k true = false) : orientation c = .fwd := by
  unfold orientation
  have : (c.univ.points.filter (fun p => isInside c p true)) = [] := by
    rw [List.filter_eq_nil_iff]
    intro k hk
    rw [h k (corner_mem.2 hk)]
    simp
  rw [this]
  simp

theorem orientation_und {c : Comp F} {k m : Pt F} (hk : c.univ.Corner k) (h : isInside c k true = false) (hm : c.univ.Corner m)
    (h' : isInside c m true = true) : orientation c = .und := by
  have hn := orientation_not_rev hk h
  unfold orientation at hn ⊢
  have hpos : (c.univ.points.filter (fun p => isInside c p true)).length ≠ 0 := by
    intro h0
    have := List.eq_nil_of_length_eq_zero h0
    have hmem : m ∈ c.univ.points.filter (fun p => isInside c p true) := List.mem_filter.2 ⟨corner_mem.1 hm, h'⟩
    rw [this] at hmem
    simp at hmem
  dsimp only at hn ⊢
  by_cases h8 : (c.univ.points.filter (fun p => isInside c p true)).length = 8
  · rw [if_pos h8] at hn
    exact absurd rfl hn
  · rw [if_neg h8, if_neg hpos]

theorem boxOri_fwd {o : Ori3} (h : o ≠ .rev) : boxOri o = .fwd := by cases o <;> simp_all [boxOri]

/-- a point farther than the tolerance on the wrong side of one plane of an intersection is outside -/
theorem clear_and {c : Comp F} {l : Int} {lits : List Int} (hd : c.definition = .lst .and l (lits.map .int)) (hn : ∀ n ∈ lits, n.natAbs ∈ c.nums)
    (h0 : ∀ n ∈ lits, n ≠ 0) (ht : 0 < c.tol) {p : Pt F} {n : Int} (hm : n ∈ lits) (h1 : 0 < n → (c.planes n.natAbs).ev p ≤ -c.tol)
    (h2 : n < 0 → c.tol ≤ (c.planes n.natAbs).ev p) : isInside c p true = false := by
  rw [← Bool.not_eq_true, inside_true, hd, not_not]
  simp only [evaluate]
  rw [evaluate_and_false]
  refine ⟨n, hm, ?_⟩
  rw [litVal_false (hn n hm) ht]
  split
  · rename_i h; exact h2 h
  · rename_i h; exact h1 (by have := h0 n hm; omega)

/-- a point farther than the tolerance on the wrong side of all planes of a union is outside -/
theorem clear_or {c : Comp F} {l : Int} {lits : List Int} (hd : c.definition = .lst .or l (lits.map .int)) (hn : ∀ n ∈ lits, n.natAbs ∈ c.nums)
    (h0 : ∀ n ∈ lits, n ≠ 0) (ht : 0 < c.tol) {p : Pt F}
    (h : ∀ n ∈ lits, (0 < n → (c.planes n.natAbs).ev p ≤ -c.tol) ∧ (n < 0 → c.tol ≤ (c.planes n.natAbs).ev p)) : isInside c p true = false := by
  rw [← Bool.not_eq_true, inside_true, hd, not_not]
  simp only [evaluate]
  rw [evaluate_or_false]
  refine ⟨rfl, ?_⟩
  intro n hm
  rw [litVal_false (hn n hm) ht]
  split
  · rename_i h'; exact (h n hm).2 h'
  · rename_i h'; exact (h n hm).1 (by have := h0 n hm; omega)

/-! ### the method returns a box -/

theorem removeClose_ne {l : List (Pt F)} (h : l ≠ []) : removeClose l ≠ [] := by
  unfold removeClose
  split
  · rename_i hl
    exact absurd (List.reverse_eq_nil_iff.1 hl) h
  · simp

theorem sortPoint_ne {a : Axis} {l : List (Pt F)} (h : l ≠ []) : sortPoint a l ≠ [] := by
  apply removeClose_ne
  match l, h with
  | p :: l, _ =>
    intro h0
    have : p ∈ sorted a (p :: l) := sorted_mem.2 (by simp)
    rw [h0] at this
    simp at this

theorem removeLower_ne {a : Axis} {l : List (Pt F)} (hl : Inc a l) {u : Pt F} (hu : u ∈ l) : removePoints l (u.ax a) a true ≠ [] := by
  intro h0
  have := removeLower_mem hl hu le_rfl
  rw [h0] at this
  simp at this

theorem removeUpper_ne {a : Axis} {l : List (Pt F)} (hl : Inc a l.reverse) {u : Pt F} (hu : u ∈ l) : removePoints l (u.ax a) a false ≠ [] := by
  intro h0
  have := removeUpper_mem hl hu le_rfl
  rw [h0] at this
  simp at this

theorem lastPoint_mem {ins : Pt F → Bool} {p : Pt F} {l : List (Pt F)} (d : Pt F) : lastPoint ((p :: l).find? ins) (p :: l) d ∈ p :: l := by
  unfold lastPoint
  split
  · rename_i h; exact List.mem_of_find?_eq_some h
  · rw [List.getLastD_cons, List.getLastD_eq_getLast?]
    cases hl : l.getLast? with
    | none => simp
    | some b => exact List.mem_cons_of_mem _ (List.mem_of_getLast? hl)

theorem phase_total {ins : Pt F → Bool} {a : Axis} {l : List (Pt F)} (h : l ≠ []) : ∃ lims l', phase ins a l = some (lims, l') ∧ l' ≠ [] := by
  unfold phase
  have hinc := sortPoint_inc a l
  cases hs : sortPoint a l with
  | nil => exact absurd hs (sortPoint_ne h)
  | cons p0 s0 =>
    dsimp only
    rw [hs] at hinc
    have h2 := removeLower_ne hinc (lastPoint_mem (ins := ins) (p := p0) (l := s0) p0)
    have hdec : ∀ w, Inc a (removePoints (p0 :: s0) w a true).reverse := by
      intro w
      unfold Inc
      rw [List.pairwise_reverse]
      unfold removePoints
      exact (List.pairwise_reverse.2 hinc : ((p0 :: s0).reverse).Pairwise (fun p q => q.ax a ≤ p.ax a)).sublist (List.takeWhile_sublist _)
    have h3 := hdec ((lastPoint ((p0 :: s0).find? ins) (p0 :: s0) p0).ax a)
    cases hr : removePoints (p0 :: s0) ((lastPoint ((p0 :: s0).find? ins) (p0 :: s0) p0).ax a) a true with
    | nil => exact absurd hr h2
    | cons p1 s1 =>
      dsimp only
      rw [hr] at h3
      exact ⟨_, _, rfl, removeUpper_ne h3 (lastPoint_mem p1)⟩

theorem phases_total {ins : Pt F → Bool} : ∀ (as : List Axis) {l : List (Pt F)}, l ≠ [] → ∃ lims, phases ins as l = some lims
  | [], _, _ => ⟨[], rfl⟩
  | a :: as, l, h => by
    obtain ⟨lims, l', he, hne⟩ := phase_total (ins := ins) (a := a) h
    obtain ⟨ls, hs⟩ := phases_total (ins := ins) as hne
    exact ⟨lims ++ ls, by simp [phases, he, hs]⟩

theorem attempt_total (c : Comp F) (fwd cut : Bool) : attempt c fwd cut ≠ .pyNone := by
  unfold attempt
  dsimp only
  split
  · simp
  · rename_i h
    obtain ⟨lims, hl⟩ := phases_total (ins := fun p => isInside c p fwd) [.x, .y, .z] (l := planeIntersect c.out (c.nums.map c.planes) cut)
      (by intro h0; rw [h0] at h; simp at h)
    rw [hl]
    dsimp only
    unfold finish
    split
    · split <;> simp
    · simp

theorem componentCut_total (c : Comp F) : ∃ b, componentCut c = some ⟨b, boxOri (orientation c)⟩ := by
  unfold componentCut
  dsimp only
  split
  · rename_i h; exact absurd h (attempt_total _ _ _)
  · unfold mkBox; split <;> exact ⟨_, rfl⟩
  · exact ⟨_, rfl⟩

theorem component_total (c : Comp F) : ∃ b, component c = some ⟨b, boxOri (orientation c)⟩ := by
  unfold component
  split
  · exact componentCut_total c
  · dsimp only
    split
    · rename_i h; exact absurd h (attempt_total _ _ _)
    · unfold mkBox; split <;> exact ⟨_, rfl⟩
    · exact componentCut_total c

theorem getBoundBox_total (c : Comp F) (e : F) : ∃ b, getBoundBox c e = some ⟨b, boxOri (orientation c)⟩ := by
  obtain ⟨b, hb⟩ := component_total c
  unfold getBoundBox
  rw [hb]
  dsimp only
  cases b with
  | none => exact ⟨_, rfl⟩
  | some b =>
    dsimp only
    split <;> exact ⟨_, rfl⟩

/-! ### half-spaces and corners -/

/-- a linear function on a box is not smaller than its least value at the corners -/
theorem corner_min {b : Box F} (n : Pt F) {x : Pt F} (hx : b.Mem x) : ∃ k, b.Corner k ∧ dot n k ≤ dot n x := by
  obtain ⟨⟨h1, h2⟩, ⟨h3, h4⟩, h5, h6⟩ := hx
  have one : ∀ (m lo hi t : F), lo ≤ t → t ≤ hi → ∃ s, (s = lo ∨ s = hi) ∧ m * s ≤ m * t := by
    intro m lo hi t hl hh
    rcases le_total 0 m with hm | hm
    · exact ⟨lo, .inl rfl, mul_le_mul_of_nonneg_left hl hm⟩
    · exact ⟨hi, .inr rfl, mul_le_mul_of_nonpos_left hh hm⟩
  obtain ⟨sx, hsx, lx⟩ := one n.x _ _ _ h1 h2
  obtain ⟨sy, hsy, ly⟩ := one n.y _ _ _ h3 h4
  obtain ⟨sz, hsz, lz⟩ := one n.z _ _ _ h5 h6
  refine ⟨⟨sx, sy, sz⟩, ⟨hsx, hsy, hsz⟩, ?_⟩
  simp only [dot]
  linarith

end Geouned.BB
