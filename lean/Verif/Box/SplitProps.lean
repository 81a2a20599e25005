import Verif.Box.Split
/-!
# Properties C24, C25: box subdivision
-/
namespace Geouned.Box

theorem mid_le {a b : ℝ} (h : a ≤ b) : a ≤ mid a b ∧ mid a b ≤ b := by
  unfold mid; constructor <;> linarith

/-- C24, coverage: the eight boxes hold exactly the points of the box. -/
theorem C24_divide_box_covers (B : BBox) (hB : B.Proper) (p : Pt) :
    B.Mem p ↔ ∃ b ∈ (divideBox B).1, b.Mem p := by
  obtain ⟨hx, hy, hz⟩ := hB
  obtain ⟨mx1, mx2⟩ := mid_le hx
  obtain ⟨my1, my2⟩ := mid_le hy
  obtain ⟨mz1, mz2⟩ := mid_le hz
  simp only [divideBox, List.mem_cons, List.not_mem_nil, or_false, exists_eq_or_imp, exists_eq_left, BBox.Mem]
  constructor
  · rintro ⟨⟨a, b⟩, ⟨c, d⟩, e, f⟩
    rcases le_total p.x (mid B.xmin B.xmax) with h1 | h1 <;>
    rcases le_total p.y (mid B.ymin B.ymax) with h2 | h2 <;>
    rcases le_total p.z (mid B.zmin B.zmax) with h3 | h3 <;> simp only [a, b, c, d, e, f, h1, h2, h3, and_self, true_or, or_true]
  · rintro (h | h | h | h | h | h | h | h) <;> obtain ⟨⟨a, b⟩, ⟨c, d⟩, e, f⟩ := h <;>
      refine ⟨⟨?_, ?_⟩, ⟨?_, ?_⟩, ?_, ?_⟩ <;> linarith

/-- C24, disjointness: no point is inside two of the eight boxes. -/
theorem C24_divide_box_disjoint (B : BBox) : (divideBox B).1.Pairwise (fun b c => ∀ p, b.Int p → ¬ c.Int p) := by
  simp only [divideBox, List.pairwise_cons, List.mem_cons, List.not_mem_nil, or_false, forall_eq_or_imp, forall_eq,
    IsEmpty.forall_iff, implies_true, List.Pairwise.nil, and_true, BBox.Int]
  refine ⟨⟨?_, ?_, ?_, ?_, ?_, ?_, ?_⟩, ⟨?_, ?_, ?_, ?_, ?_, ?_⟩, ⟨?_, ?_, ?_, ?_, ?_⟩, ⟨?_, ?_, ?_, ?_⟩, ⟨?_, ?_, ?_⟩,
    ⟨?_, ?_⟩, ?_⟩ <;>
  · rintro p ⟨⟨a, b⟩, ⟨c, d⟩, e, f⟩ ⟨⟨a', b'⟩, ⟨c', d'⟩, e', f'⟩
    linarith

/-- C24, centres: the i-th returned point lies in the i-th box, strictly inside when the box is not flat. -/
theorem C24_divide_box_centres (B : BBox) (hB : B.Proper) :
    List.Forall₂ (fun b p => b.Mem p) (divideBox B).1 (divideBox B).2 ∧
    (B.xmin < B.xmax → B.ymin < B.ymax → B.zmin < B.zmax →
      List.Forall₂ (fun b p => b.Int p) (divideBox B).1 (divideBox B).2) := by
  obtain ⟨hx, hy, hz⟩ := hB
  constructor
  · simp only [divideBox, BBox.Mem, mid, List.forall₂_cons, List.Forall₂.nil, and_true]
    refine ⟨?_, ?_, ?_, ?_, ?_, ?_, ?_, ?_⟩ <;> refine ⟨⟨?_, ?_⟩, ⟨?_, ?_⟩, ?_, ?_⟩ <;> linarith
  · intro hx hy hz
    simp only [divideBox, BBox.Int, mid, List.forall₂_cons, List.Forall₂.nil, and_true]
    refine ⟨?_, ?_, ?_, ?_, ?_, ?_, ?_, ?_⟩ <;> refine ⟨⟨?_, ?_⟩, ⟨?_, ?_⟩, ?_, ?_⟩ <;> linarith

/-- non-vacuity: a proper box -/
example : (⟨-1, 3, 0, 5, 2, 2⟩ : BBox).Proper := by norm_num [BBox.Proper]

theorem keepDims_mem {m : ℝ} {l : List (ℝ × Coord)} {d} : d ∈ keepDims m l ↔ d ∈ l ∧ m ≤ (1 / 2) * d.1 := by
  simp [keepDims]

theorem firstMax_mem : ∀ (b : ℝ × Coord) (l : List (ℝ × Coord)), firstMax b l ∈ b :: l
  | b, [] => by simp [firstMax]
  | b, d :: ds => by
    unfold firstMax
    split
    · exact List.mem_cons_of_mem _ (firstMax_mem d ds)
    · have := firstMax_mem b ds
      simp only [List.mem_cons] at this ⊢
      tauto

theorem firstMax_ge : ∀ (b : ℝ × Coord) (l : List (ℝ × Coord)), ∀ d ∈ b :: l, d.1 ≤ (firstMax b l).1
  | b, [] => by simp [firstMax]
  | b, d :: ds => by
    unfold firstMax
    intro e he
    split
    · rename_i h
      rcases List.mem_cons.1 he with rfl | he
      · exact le_trans h.le (firstMax_ge d ds d (by simp))
      · exact firstMax_ge d ds e he
    · rename_i h
      push Not at h
      rcases List.mem_cons.1 he with rfl | he
      · exact firstMax_ge e ds e (by simp)
      · rcases List.mem_cons.1 he with rfl | he
        · exact le_trans h (firstMax_ge b ds b (by simp))
        · exact firstMax_ge b ds e (List.mem_cons_of_mem _ he)

/-- length of a box along a direction -/
def len (B : BBox) : Coord → ℝ
  | .X => B.xmax - B.xmin
  | .Y => B.ymax - B.ymin
  | .Z => B.zmax - B.zmin

theorem split_some {m : ℝ} {B b1 b2 : BBox} (h : split m B = some (b1, b2)) :
    ∃ c, (b1, b2) = cutBox B c ∧ m ≤ (1 / 2) * len B c ∧ ∀ c', len B c' ≤ len B c ∨ (1 / 2) * len B c' < m := by
  unfold split at h
  split at h
  · cases h
  · rename_i d ds heq
    have hmem := firstMax_mem d ds
    rw [← heq] at hmem
    have hge : ∀ e ∈ keepDims m [(B.xmax - B.xmin, .X), (B.ymax - B.ymin, .Y), (B.zmax - B.zmin, .Z)],
        e.1 ≤ (firstMax d ds).1 := by
      intro e he; rw [heq] at he; exact firstMax_ge d ds e he
    rw [keepDims_mem] at hmem
    have hlen : (firstMax d ds).1 = len B (firstMax d ds).2 := by
      obtain ⟨hm, _⟩ := hmem
      simp only [List.mem_cons, List.not_mem_nil, or_false] at hm
      rcases hm with hm | hm | hm <;> rw [hm] <;> rfl
    refine ⟨(firstMax d ds).2, ?_, ?_, ?_⟩
    · simpa using h.symm
    · rw [← hlen]; exact hmem.2
    · intro c'
      by_cases hc : (1 / 2) * len B c' < m
      · exact .inr hc
      · left
        rw [← hlen]
        exact hge (len B c', c') (keepDims_mem.2 ⟨by cases c' <;> simp [len], by simpa using hc⟩)

/-- C25: when a void box is split, the two boxes hold exactly the points of the parent, no point is inside both, both
are inside the parent and each keeps at least half the minimum size in the cut direction (which is a longest one);
the common boundary is a single plane. -/
theorem C25_split_covers (minSize : ℝ) (B b1 b2 : BBox) (hB : B.Proper) (h : split minSize B = some (b1, b2)) :
    (∀ p, B.Mem p ↔ b1.Mem p ∨ b2.Mem p) ∧ (∀ p, b1.Int p → ¬ b2.Int p) ∧ b1.Proper ∧ b2.Proper ∧
    (∃ c, len b1 c = len B c / 2 ∧ len b2 c = len B c / 2 ∧ minSize ≤ len b1 c ∧
      ∀ c', c' ≠ c → len b1 c' = len B c' ∧ len b2 c' = len B c') := by
  obtain ⟨c, hcut, hmin, _⟩ := split_some h
  obtain ⟨hx, hy, hz⟩ := hB
  have h1 : b1 = (cutBox B c).1 := by rw [← hcut]
  have h2 : b2 = (cutBox B c).2 := by rw [← hcut]
  subst h1 h2
  refine ⟨?_, ?_, ?_, ?_, c, ?_, ?_, ?_, ?_⟩
  · intro p
    cases c <;> simp only [cutBox, BBox.Mem]
    · constructor
      · rintro ⟨⟨a, b⟩, r⟩
        rcases le_total p.x (B.xmin + 1 / 2 * (B.xmax - B.xmin)) with h | h
        · exact .inl ⟨⟨a, h⟩, r⟩
        · exact .inr ⟨⟨h, b⟩, r⟩
      · rintro (⟨⟨a, b⟩, r⟩ | ⟨⟨a, b⟩, r⟩)
        · exact ⟨⟨a, by linarith⟩, r⟩
        · exact ⟨⟨by linarith, b⟩, r⟩
    · constructor
      · rintro ⟨q, ⟨a, b⟩, r⟩
        rcases le_total p.y (B.ymin + 1 / 2 * (B.ymax - B.ymin)) with h | h
        · exact .inl ⟨q, ⟨a, h⟩, r⟩
        · exact .inr ⟨q, ⟨h, b⟩, r⟩
      · rintro (⟨q, ⟨a, b⟩, r⟩ | ⟨q, ⟨a, b⟩, r⟩)
        · exact ⟨q, ⟨a, by linarith⟩, r⟩
        · exact ⟨q, ⟨by linarith, b⟩, r⟩
    · constructor
      · rintro ⟨q, r, a, b⟩
        rcases le_total p.z (B.zmin + 1 / 2 * (B.zmax - B.zmin)) with h | h
        · exact .inl ⟨q, r, a, h⟩
        · exact .inr ⟨q, r, h, b⟩
      · rintro (⟨q, r, a, b⟩ | ⟨q, r, a, b⟩)
        · exact ⟨q, r, a, by linarith⟩
        · exact ⟨q, r, by linarith, b⟩
  · intro p
    cases c <;> simp only [cutBox, BBox.Int] <;> rintro ⟨⟨a, b⟩, ⟨c, d⟩, e, f⟩ ⟨⟨a', b'⟩, ⟨c', d'⟩, e', f'⟩ <;> linarith
  · cases c <;> simp only [cutBox, BBox.Proper] <;> refine ⟨?_, ?_, ?_⟩ <;> linarith
  · cases c <;> simp only [cutBox, BBox.Proper] <;> refine ⟨?_, ?_, ?_⟩ <;> linarith
  · cases c <;> simp only [cutBox, len] <;> linarith
  · cases c <;> simp only [cutBox, len] <;> linarith
  · cases c <;> simp only [cutBox, len] at * <;> linarith
  · intro c' hne
    cases c <;> cases c' <;> simp_all [cutBox, len]

/-- C25: a box is left whole exactly when every half length is below the minimum size. -/
theorem C25_split_none (minSize : ℝ) (B : BBox) : split minSize B = none ↔ ∀ c, (1 / 2) * len B c < minSize := by
  unfold split
  constructor
  · intro h
    split at h
    · rename_i heq
      intro c
      by_contra hc
      push Not at hc
      have : (len B c, c) ∈ keepDims minSize [(B.xmax - B.xmin, .X), (B.ymax - B.ymin, .Y), (B.zmax - B.zmin, .Z)] :=
        keepDims_mem.2 ⟨by cases c <;> simp [len], hc⟩
      rw [heq] at this
      simp at this
    · cases h
  · intro h
    split
    · rfl
    · rename_i d ds heq
      have : d ∈ keepDims minSize [(B.xmax - B.xmin, .X), (B.ymax - B.ymin, .Y), (B.zmax - B.zmin, .Z)] := by
        rw [heq]; simp
      rw [keepDims_mem] at this
      obtain ⟨hm, hle⟩ := this
      simp only [List.mem_cons, List.not_mem_nil, or_false] at hm
      exfalso
      rcases hm with rfl | rfl | rfl
      · have := h .X; simp only [len] at this hle; linarith
      · have := h .Y; simp only [len] at this hle; linarith
      · have := h .Z; simp only [len] at this hle; linarith

/-- `Below m k B`: in each direction `c` the box is shorter than `m * 2 ^ (k c + 1)` -/
def Below (m : ℝ) (k : Coord → Nat) (B : BBox) : Prop := ∀ c, len B c < m * 2 ^ (k c + 1)

/-- `Desc n B B'`: `B'` comes from `B` by `n` nested splits -/
inductive Desc (m : ℝ) : Nat → BBox → BBox → Prop
  | refl (B) : Desc m 0 B B
  | left {n B b1 b2 B'} : split m B = some (b1, b2) → Desc m n b1 B' → Desc m (n + 1) B B'
  | right {n B b1 b2 B'} : split m B = some (b1, b2) → Desc m n b2 B' → Desc m (n + 1) B B'

theorem split_below {m : ℝ} {k : Coord → Nat} {B b1 b2 : BBox} (hB : B.Proper) (hk : Below m k B)
    (h : split m B = some (b1, b2)) :
    ∃ k', Below m k' b1 ∧ Below m k' b2 ∧ k .X + k .Y + k .Z = k' .X + k' .Y + k' .Z + 1 := by
  obtain ⟨-, -, -, -, c, h1, h2, hmin, hoth⟩ := C25_split_covers m B b1 b2 hB h
  have hc0 : 1 ≤ k c := by
    by_contra hc
    have : k c = 0 := by omega
    have hb := hk c
    rw [this] at hb
    rw [h1] at hmin
    norm_num at hb
    linarith
  refine ⟨fun d => if d = c then k d - 1 else k d, ?_, ?_, ?_⟩
  · intro d
    by_cases hd : d = c
    · subst hd
      have hb := hk d
      simp only [if_true]
      rw [h1, Nat.sub_add_cancel hc0]
      rw [pow_succ] at hb
      linarith
    · simp only [if_neg hd]; rw [(hoth d hd).1]; exact hk d
  · intro d
    by_cases hd : d = c
    · subst hd
      have hb := hk d
      simp only [if_true]
      rw [h2, Nat.sub_add_cancel hc0]
      rw [pow_succ] at hb
      linarith
    · simp only [if_neg hd]; rw [(hoth d hd).2]; exact hk d
  · cases c <;> simp <;> omega

/-- C25: splitting stops: no more than `kx + ky + kz` nested splits are possible in a box shorter than
`minSize * 2 ^ (kx + 1)`, `minSize * 2 ^ (ky + 1)`, `minSize * 2 ^ (kz + 1)`. -/
theorem C25_split_depth (m : ℝ) (n : Nat) (B B' : BBox) (hB : B.Proper) (k : Coord → Nat)
    (hk : Below m k B) (h : Desc m n B B') : n ≤ k .X + k .Y + k .Z := by
  induction h generalizing k with
  | refl => omega
  | left hs _ ih =>
    obtain ⟨k', h1, _, h3⟩ := split_below hB hk hs
    have := ih (C25_split_covers m _ _ _ hB hs).2.2.1 k' h1
    omega
  | right hs _ ih =>
    obtain ⟨k', _, h2, h3⟩ := split_below hB hk hs
    have := ih (C25_split_covers m _ _ _ hB hs).2.2.2.1 k' h2
    omega

/-- non-vacuity: bounds for a 10 x 4 x 4 box with minimum size 2 -/
example : Below 2 (fun c => match c with | .X => 2 | _ => 1) ⟨0, 10, 0, 4, 0, 4⟩ := by
  intro c; cases c <;> norm_num [len]

/-- non-vacuity: a 10 x 4 x 4 box is cut across X with minimum size 2, and its halves stay proper -/
example : ∃ b1 b2, split 2 ⟨0, 10, 0, 4, 0, 4⟩ = some (b1, b2) := by
  cases h : split 2 ⟨0, 10, 0, 4, 0, 4⟩ with
  | some p => exact ⟨p.1, p.2, rfl⟩
  | none =>
    rw [C25_split_none] at h
    have := h .X
    norm_num [len] at this

end Geouned.Box
