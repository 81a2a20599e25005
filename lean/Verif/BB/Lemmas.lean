import Verif.BB.Model
/-!
# Lemmas: the vertices of a polyhedron
-/
namespace Geouned.BB
open Geouned Geouned.Rev.Solid

variable {F : Type} [Field F] [LinearOrder F] [IsStrictOrderedRing F]

/-! ### three planes -/

/-- the three planes meet in the point `v` and in no other -/
def Tri (p q r : Plane F) (v : Pt F) : Prop := det p q r ≠ 0 ∧ p.ev v = 0 ∧ q.ev v = 0 ∧ r.ev v = 0

theorem Tri.swap12 {p q r : Plane F} {v : Pt F} (h : Tri p q r v) : Tri q p r v := by
  obtain ⟨h0, h1, h2, h3⟩ := h
  refine ⟨fun hd => h0 ?_, h2, h1, h3⟩
  have : det p q r = -det q p r := by simp only [det, dot, cross]; ring
  rw [this, hd, neg_zero]

theorem Tri.swap23 {p q r : Plane F} {v : Pt F} (h : Tri p q r v) : Tri p r q v := by
  obtain ⟨h0, h1, h2, h3⟩ := h
  refine ⟨fun hd => h0 ?_, h1, h3, h2⟩
  have : det p q r = -det p r q := by simp only [det, dot, cross]; ring
  rw [this, hd, neg_zero]

theorem Tri.line {p q r : Plane F} {v : Pt F} (h : Tri p q r v) : hasLine p q = true := by
  unfold hasLine
  rw [decide_eq_true_iff]
  intro hc
  refine h.1 ?_
  unfold det
  rw [hc]
  simp [dot]

theorem Tri.meet {p q r : Plane F} {v : Pt F} (h : Tri p q r v) : meet3 p q r = some v := by
  obtain ⟨h0, h1, h2, h3⟩ := h
  unfold meet3
  rw [if_neg h0]
  have e1 : dot p.nrm p.pos = dot p.nrm v := by simp only [Plane.ev, dot, sub] at h1 ⊢; linarith
  have e2 : dot q.nrm q.pos = dot q.nrm v := by simp only [Plane.ev, dot, sub] at h2 ⊢; linarith
  have e3 : dot r.nrm r.pos = dot r.nrm v := by simp only [Plane.ev, dot, sub] at h3 ⊢; linarith
  dsimp only
  rw [e1, e2, e3]
  congr 1
  ext
  all_goals
    simp only
    rw [div_eq_iff h0]
    simp only [det, dot, cross]
    ring

theorem meet_tri {p q r : Plane F} {v : Pt F} (h : meet3 p q r = some v) : Tri p q r v := by
  unfold meet3 at h
  dsimp only at h
  split at h
  · cases h
  · rename_i h0
    injection h with h
    refine ⟨h0, ?_, ?_, ?_⟩
    all_goals
      rw [← h]
      simp only [Plane.ev, sub, dot]
      have hd : det p q r ≠ 0 := h0
      field_simp
      simp only [det, dot, cross]
      ring

/-! ### vertices -/

/-- linear constraints `c ≤ n · x` -/
def Poly (H : List (Pt F × F)) (x : Pt F) : Prop := ∀ h ∈ H, h.2 ≤ dot h.1 x

/-- all coordinates are between `-M` and `M` -/
def Within (M : F) (x : Pt F) : Prop := (-M ≤ x.x ∧ x.x ≤ M) ∧ (-M ≤ x.y ∧ x.y ≤ M) ∧ (-M ≤ x.z ∧ x.z ≤ M)

/-- `x + t u` -/
def along (x u : Pt F) (t : F) : Pt F := ⟨x.x + t * u.x, x.y + t * u.y, x.z + t * u.z⟩

theorem dot_along (n x u : Pt F) (t : F) : dot n (along x u t) = dot n x + t * dot n u := by
  simp only [dot, along]; ring

theorem far_coord {M a b : F} (hb : b ≠ 0) (h : ∀ t : F, 0 ≤ t → -M ≤ a + t * b ∧ a + t * b ≤ M) : False := by
  have h0 := h 0 le_rfl
  rcases lt_or_gt_of_ne hb with hb' | hb'
  · have ht : (0 : F) ≤ (2 * M + 1) / (-b) := div_nonneg (by linarith) (by linarith)
    have := (h _ ht).1
    have e : (2 * M + 1) / (-b) * b = -(2 * M + 1) := by field_simp
    rw [e] at this
    linarith
  · have ht : (0 : F) ≤ (2 * M + 1) / b := div_nonneg (by linarith) (by linarith)
    have := (h _ ht).2
    have e : (2 * M + 1) / b * b = 2 * M + 1 := by field_simp
    rw [e] at this
    linarith

theorem exists_min {α : Type} (f : α → F) : ∀ (l : List α), l ≠ [] → ∃ a ∈ l, ∀ b ∈ l, f a ≤ f b
  | [], h => absurd rfl h
  | [a], _ => ⟨a, by simp, by simp⟩
  | a :: b :: l, _ => by
    obtain ⟨m, hm, hmin⟩ := exists_min f (b :: l) (by simp)
    by_cases h : f a ≤ f m
    · refine ⟨a, by simp, ?_⟩
      intro c hc
      rcases List.mem_cons.1 hc with rfl | hc
      · exact le_rfl
      · exact h.trans (hmin c hc)
    · refine ⟨m, by simp [hm], ?_⟩
      intro c hc
      rcases List.mem_cons.1 hc with rfl | hc
      · exact (not_le.1 h).le
      · exact hmin c hc

/-- move from a point of the polyhedron along `u` up to the first constraint met -/
theorem step_along {H : List (Pt F × F)} {M : F} (hM : ∀ x, Poly H x → Within M x) {x u : Pt F} (hx : Poly H x)
    (hu : u ≠ ⟨0, 0, 0⟩) :
    ∃ t, 0 ≤ t ∧ Poly H (along x u t) ∧ ∃ h ∈ H, dot h.1 u ≠ 0 ∧ dot h.1 (along x u t) = h.2 := by
  classical
  let L := H.filter (fun h => decide (dot h.1 u < 0))
  have hne : L ≠ [] := by
    intro hL
    have hall : ∀ h ∈ H, 0 ≤ dot h.1 u := by
      intro h hh
      by_contra hc
      have : h ∈ L := List.mem_filter.2 ⟨hh, by simpa using hc⟩
      rw [hL] at this
      simp at this
    have hp : ∀ t : F, 0 ≤ t → Within M (along x u t) := by
      intro t ht
      apply hM
      intro h hh
      rw [dot_along]
      have := mul_nonneg ht (hall h hh)
      have := hx h hh
      linarith
    by_cases h1 : u.x = 0
    · by_cases h2 : u.y = 0
      · by_cases h3 : u.z = 0
        · exact hu (by ext <;> assumption)
        · exact far_coord h3 (fun t ht => (hp t ht).2.2)
      · exact far_coord h2 (fun t ht => (hp t ht).2.1)
    · exact far_coord h1 (fun t ht => (hp t ht).1)
  obtain ⟨m, hm, hmin⟩ := exists_min (fun h : Pt F × F => (dot h.1 x - h.2) / (-dot h.1 u)) L hne
  obtain ⟨hmH, hmu⟩ := List.mem_filter.1 hm
  rw [decide_eq_true_iff] at hmu
  have ht : 0 ≤ (dot m.1 x - m.2) / (-dot m.1 u) := div_nonneg (by linarith [hx m hmH]) (by linarith)
  refine ⟨_, ht, ?_, m, hmH, ne_of_lt hmu, ?_⟩
  · intro h hh
    rw [dot_along]
    by_cases hc : dot h.1 u < 0
    · have := hmin h (List.mem_filter.2 ⟨hh, by simpa using hc⟩)
      beta_reduce at this
      have hp : 0 < -dot h.1 u := by linarith
      rw [le_div_iff₀ hp] at this
      linarith
    · have := mul_nonneg ht (not_lt.1 hc)
      have := hx h hh
      linarith
  · rw [dot_along]
    have : dot m.1 u ≠ 0 := ne_of_lt hmu
    field_simp
    ring

/-- the same, without increasing `f · x`, along `u` or `-u` -/
theorem step_down {H : List (Pt F × F)} {M : F} (hM : ∀ x, Poly H x → Within M x) {x u : Pt F} (hx : Poly H x)
    (hu : u ≠ ⟨0, 0, 0⟩) (f : Pt F) :
    ∃ y, Poly H y ∧ dot f y ≤ dot f x ∧ (∃ h ∈ H, dot h.1 u ≠ 0 ∧ dot h.1 y = h.2) ∧
      ∀ n, dot n u = 0 → dot n y = dot n x := by
  by_cases hf : dot f u ≤ 0
  · obtain ⟨t, ht, hp, h, hh, hnu, hact⟩ := step_along hM hx hu
    refine ⟨_, hp, ?_, ⟨h, hh, hnu, hact⟩, ?_⟩
    · rw [dot_along]
      have := mul_nonneg ht (neg_nonneg.2 hf)
      linarith
    · intro n hn
      rw [dot_along, hn, mul_zero, add_zero]
  · have hneg : ∀ n : Pt F, dot n ⟨-u.x, -u.y, -u.z⟩ = -dot n u := by intro n; simp only [dot]; ring
    have hu' : (⟨-u.x, -u.y, -u.z⟩ : Pt F) ≠ ⟨0, 0, 0⟩ := by
      intro he
      apply hu
      rw [Pt.mk.injEq] at he
      ext
      · exact neg_eq_zero.1 he.1
      · exact neg_eq_zero.1 he.2.1
      · exact neg_eq_zero.1 he.2.2
    obtain ⟨t, ht, hp, h, hh, hnu, hact⟩ := step_along hM hx hu'
    refine ⟨_, hp, ?_, ⟨h, hh, ?_, hact⟩, ?_⟩
    · rw [dot_along, hneg]
      have := mul_nonneg ht (not_le.1 hf).le
      linarith
    · rw [hneg] at hnu
      exact fun h0 => hnu (by rw [h0, neg_zero])
    · intro n hn
      rw [dot_along, hneg, hn, neg_zero, mul_zero, add_zero]

theorem exists_perp (n : Pt F) : ∃ u : Pt F, u ≠ ⟨0, 0, 0⟩ ∧ dot n u = 0 := by
  by_cases h : n.x = 0 ∧ n.y = 0
  · refine ⟨⟨1, 0, 0⟩, by simp, ?_⟩
    simp [dot, h.1]
  · refine ⟨⟨-n.y, n.x, 0⟩, ?_, by simp only [dot]; ring⟩
    intro he
    rw [Pt.mk.injEq] at he
    exact h ⟨he.2.1, neg_eq_zero.1 he.1⟩

theorem cross_zero {a b u : Pt F} (ha : a ≠ ⟨0, 0, 0⟩) (h : cross a b = ⟨0, 0, 0⟩) (hu : dot a u = 0) : dot b u = 0 := by
  simp only [cross, Pt.mk.injEq] at h
  obtain ⟨h1, h2, h3⟩ := h
  simp only [dot] at hu ⊢
  by_cases hx : a.x = 0
  · by_cases hy : a.y = 0
    · have hz : a.z ≠ 0 := fun hz => ha (by ext <;> assumption)
      apply (mul_eq_zero.1 (?_ : a.z * (b.x * u.x + b.y * u.y + b.z * u.z) = 0)).resolve_left hz
      linear_combination b.z * hu + u.x * h2 - u.y * h1
    · apply (mul_eq_zero.1 (?_ : a.y * (b.x * u.x + b.y * u.y + b.z * u.z) = 0)).resolve_left hy
      linear_combination b.y * hu - u.x * h3 + u.z * h1
  · apply (mul_eq_zero.1 (?_ : a.x * (b.x * u.x + b.y * u.y + b.z * u.z) = 0)).resolve_left hx
    linear_combination b.x * hu + u.y * h3 - u.z * h2

/-- in a bounded polyhedron there is, for each point and each direction, a vertex that is not farther in this direction -/
theorem exists_vertex {H : List (Pt F × F)} {M : F} (hM : ∀ x, Poly H x → Within M x) {x : Pt F} (hx : Poly H x) (f : Pt F) :
    ∃ v, Poly H v ∧ dot f v ≤ dot f x ∧ ∃ h1 ∈ H, ∃ h2 ∈ H, ∃ h3 ∈ H,
      dot (cross h1.1 h2.1) h3.1 ≠ 0 ∧ dot h1.1 v = h1.2 ∧ dot h2.1 v = h2.2 ∧ dot h3.1 v = h3.2 := by
  obtain ⟨y, hy, hfy, ⟨h1, hh1, hn1, ha1⟩, _⟩ := step_down hM hx (u := ⟨1, 0, 0⟩) (by simp) f
  have h10 : h1.1 ≠ ⟨0, 0, 0⟩ := by
    intro h0
    rw [h0] at hn1
    simp [dot] at hn1
  obtain ⟨u, hu, hpu⟩ := exists_perp h1.1
  obtain ⟨w, hw, hfw, ⟨h2, hh2, hn2, ha2⟩, hk2⟩ := step_down hM hy hu f
  have h12 : cross h1.1 h2.1 ≠ ⟨0, 0, 0⟩ := fun hc => hn2 (cross_zero h10 hc hpu)
  obtain ⟨v, hv, hfv, ⟨h3, hh3, hn3, ha3⟩, hk3⟩ := step_down hM hw h12 f
  refine ⟨v, hv, (hfv.trans hfw).trans hfy, h1, hh1, h2, hh2, h3, hh3, ?_, ?_, ?_, ha3⟩
  · intro h0
    apply hn3
    rw [← h0]
    simp only [dot]; ring
  · rw [hk3, hk2 _ hpu, ha1]
    simp only [dot, cross]; ring
  · rw [hk3, ha2]
    simp only [dot, cross]; ring

end Geouned.BB
