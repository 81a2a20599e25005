import Verif.BB.Lemmas
/-!
# Lemmas: the vertices are among the points listed
-/
namespace Geouned.BB
open Geouned Geouned.Rev.Solid

variable {F : Type} [Field F] [LinearOrder F] [IsStrictOrderedRing F]

theorem Tri.ne12 {p q r : Plane F} {v : Pt F} (h : Tri p q r v) : p ≠ q := by
  rintro rfl
  apply h.1
  simp only [det, dot, cross]; ring

theorem Tri.ne23 {p q r : Plane F} {v : Pt F} (h : Tri p q r v) : q ≠ r := h.swap12.swap23.ne12
theorem Tri.ne13 {p q r : Plane F} {v : Pt F} (h : Tri p q r v) : p ≠ r := h.swap23.ne12

theorem loop3_mem {out : Box F} {p q r : Plane F} {v : Pt F} (h : Tri p q r v) (ho : out.Mem v) :
    ∀ {rs : List (Plane F)}, r ∈ rs → v ∈ loop3 out p q rs
  | a :: rs, hr => by
    unfold loop3
    rcases List.mem_cons.1 hr with rfl | hr
    · rw [h.meet]
      simp [ho]
    · have := loop3_mem h ho hr
      split
      · exact this
      · split
        · exact List.mem_cons_of_mem _ this
        · exact this

theorem tail_suffix {α : Type} {c : α} {l rest : List α} (h : (c :: l) <:+ rest) : l <:+ rest.tail := by
  obtain ⟨pre, rfl⟩ := h
  cases pre with
  | nil => exact List.suffix_refl _
  | cons a pre => exact ⟨pre ++ [c], by simp⟩

theorem loop2_mem {out : Box F} {p q r : Plane F} {v : Pt F} (h : Tri p q r v) (ho : out.Mem v) :
    ∀ (l rest : List (Plane F)), l.tail <:+ rest → q ∈ l → r ∈ l → v ∈ loop2 out p l.dropLast rest
  | [], _, _, hq, _ => by simp at hq
  | [b], _, _, hq, hr => by
    simp at hq hr
    exact absurd (hq.trans hr.symm) h.ne23
  | b :: c :: l, rest, hs, hq, hr => by
    have hs' : (c :: l) <:+ rest := hs
    rw [List.dropLast_cons_of_ne_nil (by simp)]
    unfold loop2
    by_cases hqb : q = b
    · subst hqb
      rw [if_pos h.line]
      have hr' : r ∈ rest := hs'.subset ((List.mem_cons.1 hr).resolve_left (Ne.symm h.ne23))
      exact List.mem_append_left _ (loop3_mem h ho hr')
    · by_cases hrb : r = b
      · subst hrb
        rw [if_pos h.swap23.line]
        have hq' : q ∈ rest := hs'.subset ((List.mem_cons.1 hq).resolve_left hqb)
        exact List.mem_append_left _ (loop3_mem h.swap23 ho hq')
      · have hq' := (List.mem_cons.1 hq).resolve_left hqb
        have hr' := (List.mem_cons.1 hr).resolve_left hrb
        split
        · exact List.mem_append_right _ (loop2_mem h ho (c :: l) rest.tail (tail_suffix hs') hq' hr')
        · exact loop2_mem h ho (c :: l) rest ((List.suffix_cons c l).trans hs') hq' hr'

theorem two_mem {α : Type} {a b : α} {l : List α} (ha : a ∈ l) (hb : b ∈ l) (h : a ≠ b) : ¬ l.length < 2 := by
  match l, ha, hb with
  | [c], ha, hb => simp at ha hb; exact absurd (ha.trans hb.symm) h
  | _ :: _ :: _, _, _ => simp

theorem loop1_mem {out : Box F} {p q r : Plane F} {v : Pt F} (h : Tri p q r v) (ho : out.Mem v) :
    ∀ (l : List (Plane F)), p ∈ l → q ∈ l → r ∈ l → v ∈ loop1 out l
  | [], hp, _, _ => by simp at hp
  | b :: l, hp, hq, hr => by
    unfold loop1
    by_cases hpb : p = b
    · subst hpb
      have hq' := (List.mem_cons.1 hq).resolve_left (Ne.symm h.ne12)
      have hr' := (List.mem_cons.1 hr).resolve_left (Ne.symm h.ne13)
      rw [if_neg (two_mem hq' hr' h.ne23)]
      exact List.mem_append_left _ (loop2_mem h ho l l.tail (List.suffix_refl _) hq' hr')
    · have hp' := (List.mem_cons.1 hp).resolve_left hpb
      by_cases hqb : q = b
      · subst hqb
        have hr' := (List.mem_cons.1 hr).resolve_left (Ne.symm h.ne23)
        rw [if_neg (two_mem hp' hr' h.ne13)]
        exact List.mem_append_left _ (loop2_mem h.swap12 ho l l.tail (List.suffix_refl _) hp' hr')
      · have hq' := (List.mem_cons.1 hq).resolve_left hqb
        rw [if_neg (two_mem hp' hq' h.ne12)]
        by_cases hrb : r = b
        · subst hrb
          exact List.mem_append_left _ (loop2_mem h.swap23.swap12 ho l l.tail (List.suffix_refl _) hp' hq')
        · have hr' := (List.mem_cons.1 hr).resolve_left hrb
          exact List.mem_append_right _ (loop1_mem h ho l hp' hq' hr')

theorem cut2_mem {out : Box F} {p q : Plane F} {v : Pt F} {rest : List (Plane F)} (hl : hasLine p q = true)
    (hv : v ∈ lineBoundary out p q ∨ v ∈ loop3 out p q rest) :
    ∀ (l : List (Plane F)), q ∈ l → v ∈ cut2 out p rest l
  | b :: l, hq => by
    unfold cut2
    rcases List.mem_cons.1 hq with rfl | hq
    · rw [if_pos hl]
      rcases hv with hv | hv <;> simp [hv]
    · have := cut2_mem hl hv l hq
      split
      · exact List.mem_append_right _ this
      · exact this

theorem cut2_tri {out : Box F} {p q r : Plane F} {v : Pt F} (h : Tri p q r v) (ho : out.Mem v) {l : List (Plane F)}
    (hq : q ∈ l) (hr : r ∈ l) : v ∈ cut2 out p l.tail l := by
  match l, hq, hr with
  | b :: l, hq, hr =>
    by_cases hrb : r = b
    · subst hrb
      have hq' := (List.mem_cons.1 hq).resolve_left h.ne23
      exact cut2_mem h.swap23.line (.inr (loop3_mem h.swap23 ho hq')) _ (by simp)
    · have hr' := (List.mem_cons.1 hr).resolve_left hrb
      exact cut2_mem h.line (.inr (loop3_mem h ho hr')) _ hq

theorem cut1_tri {out : Box F} {p q r : Plane F} {v : Pt F} (h : Tri p q r v) (ho : out.Mem v) :
    ∀ (l : List (Plane F)), p ∈ l → q ∈ l → r ∈ l → v ∈ cut1 out l
  | [], hp, _, _ => by simp at hp
  | b :: l, hp, hq, hr => by
    unfold cut1
    by_cases hpb : p = b
    · subst hpb
      have hq' := (List.mem_cons.1 hq).resolve_left (Ne.symm h.ne12)
      have hr' := (List.mem_cons.1 hr).resolve_left (Ne.symm h.ne13)
      exact List.mem_append_left _ (List.mem_append_right _ (cut2_tri h ho hq' hr'))
    · have hp' := (List.mem_cons.1 hp).resolve_left hpb
      by_cases hqb : q = b
      · subst hqb
        have hr' := (List.mem_cons.1 hr).resolve_left (Ne.symm h.ne23)
        exact List.mem_append_left _ (List.mem_append_right _ (cut2_tri h.swap12 ho hp' hr'))
      · have hq' := (List.mem_cons.1 hq).resolve_left hqb
        by_cases hrb : r = b
        · subst hrb
          exact List.mem_append_left _ (List.mem_append_right _ (cut2_tri h.swap23.swap12 ho hp' hq'))
        · have hr' := (List.mem_cons.1 hr).resolve_left hrb
          exact List.mem_append_right _ (cut1_tri h ho l hp' hq' hr')

/-- a point of the line of two planes, in a face -/
theorem cut1_line {out : Box F} {p q : Plane F} {v : Pt F} (hpq : p ≠ q) (hl : hasLine p q = true) (hl' : hasLine q p = true)
    (h1 : v ∈ lineBoundary out p q) (h2 : v ∈ lineBoundary out q p) :
    ∀ (l : List (Plane F)), p ∈ l → q ∈ l → v ∈ cut1 out l
  | [], hp, _ => by simp at hp
  | b :: l, hp, hq => by
    unfold cut1
    by_cases hpb : p = b
    · subst hpb
      have hq' := (List.mem_cons.1 hq).resolve_left (Ne.symm hpq)
      exact List.mem_append_left _ (List.mem_append_right _ (cut2_mem hl (.inl h1) _ hq'))
    · have hp' := (List.mem_cons.1 hp).resolve_left hpb
      by_cases hqb : q = b
      · subst hqb
        exact List.mem_append_left _ (List.mem_append_right _ (cut2_mem hl' (.inl h2) _ hp'))
      · have hq' := (List.mem_cons.1 hq).resolve_left hqb
        exact List.mem_append_right _ (cut1_line hpq hl hl' h1 h2 l hp' hq')

theorem cut1_plane {out : Box F} {p : Plane F} {v : Pt F} (h : v ∈ planeBoundary out p) :
    ∀ (l : List (Plane F)), p ∈ l → v ∈ cut1 out l
  | b :: l, hp => by
    unfold cut1
    rcases List.mem_cons.1 hp with rfl | hp
    · simp [h]
    · exact List.mem_append_right _ (cut1_plane h l hp)

/-! ### a plane and an edge -/

theorem seg_meet {p : Plane F} {a b : Pt F} {t : F} (h0 : 0 ≤ t) (h1 : t ≤ 1) (hab : p.ev a ≠ p.ev b)
    (hv : p.ev ⟨a.x + t * (b.x - a.x), a.y + t * (b.y - a.y), a.z + t * (b.z - a.z)⟩ = 0) :
    segMeet p a b = some ⟨a.x + t * (b.x - a.x), a.y + t * (b.y - a.y), a.z + t * (b.z - a.z)⟩ := by
  have hd : p.ev a - p.ev b ≠ 0 := sub_ne_zero.2 hab
  have ht : p.ev a / (p.ev a - p.ev b) = t := by
    rw [div_eq_iff hd]
    simp only [Plane.ev, dot, sub] at hv ⊢
    linear_combination hv
  unfold segMeet
  dsimp only
  rw [if_neg hab, ht, if_pos ⟨h0, h1⟩]

/-- the edge of the box through a point with two extreme coordinates: the remaining coordinate is along `a` -/
theorem edge_param {lo hi v : F} (h : lo < hi) (h1 : lo ≤ v) (h2 : v ≤ hi) :
    (0 ≤ (v - lo) / (hi - lo) ∧ (v - lo) / (hi - lo) ≤ 1 ∧ lo + (v - lo) / (hi - lo) * (hi - lo) = v) ∧
      (0 ≤ (v - hi) / (lo - hi) ∧ (v - hi) / (lo - hi) ≤ 1 ∧ hi + (v - hi) / (lo - hi) * (lo - hi) = v) := by
  have hp : 0 < hi - lo := by linarith
  have hn : lo - hi ≠ 0 := by linarith
  refine ⟨⟨div_nonneg (by linarith) hp.le, by rw [div_le_one hp]; linarith, by rw [div_mul_cancel₀ _ hp.ne']; ring⟩,
    ?_, ?_, by rw [div_mul_cancel₀ _ hn]; ring⟩
  · rw [← neg_div_neg_eq]
    exact div_nonneg (by linarith) (by linarith)
  · rw [← neg_div_neg_eq, div_le_one (by linarith)]
    linarith

theorem edge_hit {out : Box F} {p : Plane F} {v a b : Pt F} {t : F} (he : (a, b) ∈ out.edges) (h0 : 0 ≤ t) (h1 : t ≤ 1)
    (hv : v = ⟨a.x + t * (b.x - a.x), a.y + t * (b.y - a.y), a.z + t * (b.z - a.z)⟩) (hab : p.ev a ≠ p.ev b)
    (hp : p.ev v = 0) : v ∈ planeBoundary out p := by
  unfold planeBoundary
  rw [List.mem_filterMap]
  refine ⟨(a, b), he, ?_⟩
  subst hv
  exact seg_meet h0 h1 hab hp

theorem edge_x {out : Box F} {p : Plane F} {v : Pt F} (hs : out.Solid) (hm : out.Mem v) (hy : v.y = out.ymin ∨ v.y = out.ymax)
    (hz : v.z = out.zmin ∨ v.z = out.zmax) (hn : p.nrm.x ≠ 0) (hp : p.ev v = 0) : v ∈ planeBoundary out p := by
  obtain ⟨⟨a0, a1, a2⟩, b0, b1, b2⟩ := edge_param hs.1 hm.1.1 hm.1.2
  have hne : ∀ y z : F, p.ev ⟨out.xmin, y, z⟩ ≠ p.ev ⟨out.xmax, y, z⟩ := by
    intro y z h
    simp only [Plane.ev, dot, sub] at h
    have : p.nrm.x * (out.xmax - out.xmin) = 0 := by linear_combination -h
    rcases mul_eq_zero.1 this with h | h
    · exact hn h
    · have := hs.1; linarith
  rcases hy with hy | hy <;> rcases hz with hz | hz
  · exact edge_hit (a := ⟨out.xmin, out.ymin, out.zmin⟩) (b := ⟨out.xmax, out.ymin, out.zmin⟩) (by simp [Box.edges]) a0 a1
      (by ext <;> simp [a2, hy, hz]) (hne _ _) hp
  · exact edge_hit (a := ⟨out.xmin, out.ymin, out.zmax⟩) (b := ⟨out.xmax, out.ymin, out.zmax⟩) (by simp [Box.edges]) a0 a1
      (by ext <;> simp [a2, hy, hz]) (hne _ _) hp
  · exact edge_hit (a := ⟨out.xmax, out.ymax, out.zmin⟩) (b := ⟨out.xmin, out.ymax, out.zmin⟩) (by simp [Box.edges]) b0 b1
      (by ext <;> simp [b2, hy, hz]) (Ne.symm (hne _ _)) hp
  · exact edge_hit (a := ⟨out.xmax, out.ymax, out.zmax⟩) (b := ⟨out.xmin, out.ymax, out.zmax⟩) (by simp [Box.edges]) b0 b1
      (by ext <;> simp [b2, hy, hz]) (Ne.symm (hne _ _)) hp

theorem edge_y {out : Box F} {p : Plane F} {v : Pt F} (hs : out.Solid) (hm : out.Mem v) (hx : v.x = out.xmin ∨ v.x = out.xmax)
    (hz : v.z = out.zmin ∨ v.z = out.zmax) (hn : p.nrm.y ≠ 0) (hp : p.ev v = 0) : v ∈ planeBoundary out p := by
  obtain ⟨⟨a0, a1, a2⟩, b0, b1, b2⟩ := edge_param hs.2.1 hm.2.1.1 hm.2.1.2
  have hne : ∀ x z : F, p.ev ⟨x, out.ymin, z⟩ ≠ p.ev ⟨x, out.ymax, z⟩ := by
    intro x z h
    simp only [Plane.ev, dot, sub] at h
    have : p.nrm.y * (out.ymax - out.ymin) = 0 := by linear_combination -h
    rcases mul_eq_zero.1 this with h | h
    · exact hn h
    · have := hs.2.1; linarith
  rcases hx with hx | hx <;> rcases hz with hz | hz
  · exact edge_hit (a := ⟨out.xmin, out.ymax, out.zmin⟩) (b := ⟨out.xmin, out.ymin, out.zmin⟩) (by simp [Box.edges]) b0 b1
      (by ext <;> simp [b2, hx, hz]) (Ne.symm (hne _ _)) hp
  · exact edge_hit (a := ⟨out.xmin, out.ymax, out.zmax⟩) (b := ⟨out.xmin, out.ymin, out.zmax⟩) (by simp [Box.edges]) b0 b1
      (by ext <;> simp [b2, hx, hz]) (Ne.symm (hne _ _)) hp
  · exact edge_hit (a := ⟨out.xmax, out.ymin, out.zmin⟩) (b := ⟨out.xmax, out.ymax, out.zmin⟩) (by simp [Box.edges]) a0 a1
      (by ext <;> simp [a2, hx, hz]) (hne _ _) hp
  · exact edge_hit (a := ⟨out.xmax, out.ymin, out.zmax⟩) (b := ⟨out.xmax, out.ymax, out.zmax⟩) (by simp [Box.edges]) a0 a1
      (by ext <;> simp [a2, hx, hz]) (hne _ _) hp

theorem edge_z {out : Box F} {p : Plane F} {v : Pt F} (hs : out.Solid) (hm : out.Mem v) (hx : v.x = out.xmin ∨ v.x = out.xmax)
    (hy : v.y = out.ymin ∨ v.y = out.ymax) (hn : p.nrm.z ≠ 0) (hp : p.ev v = 0) : v ∈ planeBoundary out p := by
  obtain ⟨⟨a0, a1, a2⟩, b0, b1, b2⟩ := edge_param hs.2.2 hm.2.2.1 hm.2.2.2
  have hne : ∀ x y : F, p.ev ⟨x, y, out.zmin⟩ ≠ p.ev ⟨x, y, out.zmax⟩ := by
    intro x y h
    simp only [Plane.ev, dot, sub] at h
    have : p.nrm.z * (out.zmax - out.zmin) = 0 := by linear_combination -h
    rcases mul_eq_zero.1 this with h | h
    · exact hn h
    · have := hs.2.2; linarith
  rcases hx with hx | hx <;> rcases hy with hy | hy
  · exact edge_hit (a := ⟨out.xmin, out.ymin, out.zmin⟩) (b := ⟨out.xmin, out.ymin, out.zmax⟩) (by simp [Box.edges]) a0 a1
      (by ext <;> simp [a2, hx, hy]) (hne _ _) hp
  · exact edge_hit (a := ⟨out.xmin, out.ymax, out.zmin⟩) (b := ⟨out.xmin, out.ymax, out.zmax⟩) (by simp [Box.edges]) a0 a1
      (by ext <;> simp [a2, hx, hy]) (hne _ _) hp
  · exact edge_hit (a := ⟨out.xmax, out.ymin, out.zmin⟩) (b := ⟨out.xmax, out.ymin, out.zmax⟩) (by simp [Box.edges]) a0 a1
      (by ext <;> simp [a2, hx, hy]) (hne _ _) hp
  · exact edge_hit (a := ⟨out.xmax, out.ymax, out.zmin⟩) (b := ⟨out.xmax, out.ymax, out.zmax⟩) (by simp [Box.edges]) a0 a1
      (by ext <;> simp [a2, hx, hy]) (hne _ _) hp

theorem corner_mem {out : Box F} {v : Pt F} : out.Corner v ↔ v ∈ out.points := by
  constructor
  · rintro ⟨hx, hy, hz⟩
    obtain ⟨x, y, z⟩ := v
    dsimp only at hx hy hz
    rcases hx with rfl | rfl <;> rcases hy with rfl | rfl <;> rcases hz with rfl | rfl <;> simp [Box.points]
  · intro h
    simp only [Box.points, List.mem_cons, List.not_mem_nil, or_false] at h
    rcases h with rfl | rfl | rfl | rfl | rfl | rfl | rfl | rfl <;> simp [Box.Corner]

end Geouned.BB
