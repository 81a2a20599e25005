import Verif.BB.Lemmas2
/-!
# Lemmas: the line of two planes and the faces of the box; all vertices of a polyhedron cut by the box
-/
namespace Geouned.BB
open Geouned Geouned.Rev.Solid

variable {F : Type} [Field F] [LinearOrder F] [IsStrictOrderedRing F]

/-- the point where the line meets a face -/
def hit (out : Box F) (p q : Plane F) (f : Axis × Plane F) : Option (Pt F) :=
  match meet3 p q f.2 with
  | none => none
  | some v => if inFace out f.1 v then some v else none

theorem lineLoop_eq {out : Box F} {p q : Plane F} : ∀ (fs : List (Axis × Plane F)) (pts : List (Pt F)), pts.length < 2 →
    pts.length + (fs.filterMap (hit out p q)).length ≤ 2 → lineLoop out p q pts fs = pts ++ fs.filterMap (hit out p q)
  | [], pts, _, _ => by simp [lineLoop]
  | f :: fs, pts, h2, hle => by
    unfold lineLoop
    cases hm : meet3 p q f.2 with
    | none =>
      have hh : hit out p q f = none := by unfold hit; rw [hm]
      rw [List.filterMap_cons_none hh] at hle ⊢
      exact lineLoop_eq fs pts h2 hle
    | some v =>
      dsimp only
      by_cases hi : inFace out f.1 v = true
      · have hh : hit out p q f = some v := by unfold hit; rw [hm]; simp [hi]
        rw [List.filterMap_cons_some hh] at hle ⊢
        rw [if_pos hi]
        simp only [List.length_cons] at hle
        split
        · rename_i hl
          rw [List.length_append, List.length_singleton] at hl
          have : (fs.filterMap (hit out p q)) = [] := List.eq_nil_of_length_eq_zero (by omega)
          rw [this]
        · rename_i hl
          rw [List.length_append, List.length_singleton] at hl
          rw [lineLoop_eq fs (pts ++ [v]) (by simp; omega) (by simp; omega)]
          simp
      · have hh : hit out p q f = none := by unfold hit; rw [hm]; simp [hi]
        rw [List.filterMap_cons_none hh] at hle ⊢
        rw [if_neg hi, if_neg (by omega)]
        exact lineLoop_eq fs pts h2 hle

theorem count_le_one {α : Type} (P : α → Bool) : ∀ l : List α, l.Pairwise (fun a b => ¬ (P a = true ∧ P b = true)) → l.countP P ≤ 1
  | [], _ => by simp
  | a :: l, h => by
    rw [List.pairwise_cons] at h
    rw [List.countP_cons]
    by_cases ha : P a = true
    · have : l.countP P = 0 := by
        rw [List.countP_eq_zero]
        intro b hb hp
        exact h.1 b hb ⟨ha, hp⟩
      rw [this]; simp [ha]
    · have := count_le_one P l h.2
      simp [ha, this]

theorem length_filterMap_le_two {α β : Type} (hit : α → Option β) (dir : α → Bool) (l : List α)
    (h : l.Pairwise (fun a b => ∀ u v, hit a = some u → hit b = some v → dir a ≠ dir b)) : (l.filterMap hit).length ≤ 2 := by
  have e : (l.filterMap hit).length = l.countP (fun a => (hit a).isSome) := by
    clear h
    induction l with
    | nil => rfl
    | cons a l ih =>
      cases ha : hit a with
      | none => rw [List.filterMap_cons_none ha, ih, List.countP_cons]; simp [ha]
      | some v => rw [List.filterMap_cons_some ha, List.length_cons, ih, List.countP_cons]; simp [ha]
  have e2 : ∀ l : List α, l.countP (fun a => (hit a).isSome) =
      l.countP (fun a => (hit a).isSome && dir a) + l.countP (fun a => (hit a).isSome && !dir a) := by
    intro l
    induction l with
    | nil => rfl
    | cons a l ih =>
      simp only [List.countP_cons, ih]
      cases (hit a).isSome <;> cases dir a <;> simp <;> omega
  rw [e, e2]
  have h1 := count_le_one (fun a => (hit a).isSome && dir a) l (h.imp (by
    intro a b hab hc
    simp only [Bool.and_eq_true, Option.isSome_iff_exists] at hc
    obtain ⟨⟨⟨u, hu⟩, hda⟩, ⟨v, hv⟩, hdb⟩ := hc
    exact hab u v hu hv (hda.trans hdb.symm)))
  have h2 := count_le_one (fun a => (hit a).isSome && !dir a) l (h.imp (by
    intro a b hab hc
    simp only [Bool.and_eq_true, Option.isSome_iff_exists, Bool.not_eq_true'] at hc
    obtain ⟨⟨⟨u, hu⟩, hda⟩, ⟨v, hv⟩, hdb⟩ := hc
    exact hab u v hu hv (hda.trans hdb.symm)))
  omega

/-- unit vector along an axis -/
def unit : Axis → Pt F
  | .x => ⟨1, 0, 0⟩
  | .y => ⟨0, 1, 0⟩
  | .z => ⟨0, 0, 1⟩

/-- limits of the box along an axis -/
def Box.lo (b : Box F) : Axis → F
  | .x => b.xmin
  | .y => b.ymin
  | .z => b.zmin

def Box.hi (b : Box F) : Axis → F
  | .x => b.xmax
  | .y => b.ymax
  | .z => b.zmax

theorem Box.mem_ax {b : Box F} {p : Pt F} : b.Mem p ↔ ∀ a, b.lo a ≤ p.ax a ∧ p.ax a ≤ b.hi a := by
  constructor
  · rintro ⟨h1, h2, h3⟩ a
    cases a <;> assumption
  · intro h
    exact ⟨h .x, h .y, h .z⟩

theorem Box.solid_ax {b : Box F} : b.Solid ↔ ∀ a, b.lo a < b.hi a := by
  constructor
  · rintro ⟨h1, h2, h3⟩ a
    cases a <;> assumption
  · intro h
    exact ⟨h .x, h .y, h .z⟩

/-- a face of the box: normal along its axis, and the limit it stands at -/
theorem face_props {b : Box F} {f : Axis × Plane F} (hf : f ∈ faces b) :
    f.2.nrm = unit f.1 ∧ (f.2.pos.ax f.1 = b.lo f.1 ∨ f.2.pos.ax f.1 = b.hi f.1) := by
  simp only [faces, List.mem_cons, List.not_mem_nil, or_false] at hf
  rcases hf with rfl | rfl | rfl | rfl | rfl | rfl <;> simp [unit, Pt.ax, Box.lo, Box.hi]

theorem dot_unit (a : Axis) (v : Pt F) : dot (unit a) v = v.ax a := by cases a <;> simp [dot, unit, Pt.ax]

theorem face_ev {b : Box F} {f : Axis × Plane F} (hf : f ∈ faces b) (v : Pt F) : f.2.ev v = v.ax f.1 - f.2.pos.ax f.1 := by
  unfold Plane.ev
  rw [(face_props hf).1, dot_unit]
  cases f.1 <;> rfl

theorem face_hit {out : Box F} (hs : out.Solid) {p q : Plane F} {f : Axis × Plane F} (hf : f ∈ faces out) {v : Pt F} (h : hit out p q f = some v) :
    Tri p q f.2 v ∧ out.Mem v ∧ v.ax f.1 = f.2.pos.ax f.1 := by
  unfold hit at h
  split at h
  · cases h
  · rename_i u hu
    split at h
    · rename_i hi
      injection h with h
      subst h
      have ht := meet_tri hu
      have hv : u.ax f.1 = f.2.pos.ax f.1 := by
        have := ht.2.2.2
        rw [face_ev hf] at this
        linarith
      refine ⟨ht, ?_, hv⟩
      have hlim := (face_props hf).2
      rw [← hv] at hlim
      have hs1 := hs.1
      have hs2 := hs.2.1
      have hs3 := hs.2.2
      cases ha : f.1 <;> rw [ha] at hi hlim <;> simp only [inFace, decide_eq_true_iff] at hi <;>
        simp only [Pt.ax, Box.lo, Box.hi] at hlim
      · refine ⟨?_, hi⟩
        rcases hlim with h | h <;> rw [h] <;> constructor <;> linarith
      · refine ⟨hi.1, ?_, hi.2⟩
        rcases hlim with h | h <;> rw [h] <;> constructor <;> linarith
      · refine ⟨hi.1, hi.2, ?_⟩
        rcases hlim with h | h <;> rw [h] <;> constructor <;> linarith
    · cases h

theorem hit_of {out : Box F} {p q : Plane F} {f : Axis × Plane F} {v : Pt F} (h : Tri p q f.2 v) (hm : out.Mem v) :
    hit out p q f = some v := by
  unfold hit
  rw [h.meet]
  have : inFace out f.1 v = true := by
    obtain ⟨h1, h2, h3⟩ := hm
    cases f.1 <;> simp [inFace, h1, h2, h3]
  simp [this]

/-- two points of the line of two planes -/
theorem line_param {p q : Plane F} {u v : Pt F} (hl : hasLine p q = true) (h1 : p.ev u = 0) (h2 : q.ev u = 0) (h3 : p.ev v = 0)
    (h4 : q.ev v = 0) : ∃ s, v = along u (cross p.nrm q.nrm) s := by
  unfold hasLine at hl
  rw [decide_eq_true_iff] at hl
  set d := cross p.nrm q.nrm with hd
  have hdd : dot d d ≠ 0 := by
    intro h0
    apply hl
    have hx := mul_self_nonneg d.x
    have hy := mul_self_nonneg d.y
    have hz := mul_self_nonneg d.z
    simp only [dot] at h0
    ext
    · exact mul_self_eq_zero.1 (by linarith)
    · exact mul_self_eq_zero.1 (by linarith)
    · exact mul_self_eq_zero.1 (by linarith)
  have e1 : dot p.nrm (sub v u) = 0 := by simp only [Plane.ev, dot, sub] at *; linarith
  have e2 : dot q.nrm (sub v u) = 0 := by simp only [Plane.ev, dot, sub] at *; linarith
  refine ⟨dot (sub v u) d / dot d d, ?_⟩
  have key : ∀ a b : F, a * dot d d = b → a = b / dot d d := by
    intro a b h
    rw [eq_div_iff hdd, h]
  have kx : (v.x - u.x) * dot d d = dot (sub v u) d * d.x := by
    simp only [dot, sub, hd, cross] at e1 e2 ⊢
    linear_combination
      (-(p.nrm.x * (q.nrm.y * q.nrm.y + q.nrm.z * q.nrm.z)) * (-1) - q.nrm.x * (p.nrm.y * q.nrm.y + p.nrm.z * q.nrm.z)) * e1 +
        (q.nrm.x * (p.nrm.y * p.nrm.y + p.nrm.z * p.nrm.z) - p.nrm.x * (p.nrm.y * q.nrm.y + p.nrm.z * q.nrm.z)) * e2
  have ky : (v.y - u.y) * dot d d = dot (sub v u) d * d.y := by
    simp only [dot, sub, hd, cross] at e1 e2 ⊢
    linear_combination
      (p.nrm.y * (q.nrm.x * q.nrm.x + q.nrm.z * q.nrm.z) - q.nrm.y * (p.nrm.x * q.nrm.x + p.nrm.z * q.nrm.z)) * e1 +
        (q.nrm.y * (p.nrm.x * p.nrm.x + p.nrm.z * p.nrm.z) - p.nrm.y * (p.nrm.x * q.nrm.x + p.nrm.z * q.nrm.z)) * e2
  have kz : (v.z - u.z) * dot d d = dot (sub v u) d * d.z := by
    simp only [dot, sub, hd, cross] at e1 e2 ⊢
    linear_combination
      (p.nrm.z * (q.nrm.y * q.nrm.y + q.nrm.x * q.nrm.x) - q.nrm.z * (p.nrm.y * q.nrm.y + p.nrm.x * q.nrm.x)) * e1 +
        (q.nrm.z * (p.nrm.y * p.nrm.y + p.nrm.x * p.nrm.x) - p.nrm.z * (p.nrm.y * q.nrm.y + p.nrm.x * q.nrm.x)) * e2
  ext
  · simp only [along]; rw [div_mul_eq_mul_div, ← key _ _ kx]; ring
  · simp only [along]; rw [div_mul_eq_mul_div, ← key _ _ ky]; ring
  · simp only [along]; rw [div_mul_eq_mul_div, ← key _ _ kz]; ring

theorem ax_along (u d : Pt F) (s : F) (a : Axis) : (along u d s).ax a = u.ax a + s * d.ax a := by cases a <;> rfl

/-- does the direction `d` point into the box at this face -/
def dirIn (out : Box F) (d : Pt F) (f : Axis × Plane F) : Bool :=
  decide (0 < d.ax f.1) == decide (f.2.pos.ax f.1 = out.lo f.1)

theorem dir_face {out : Box F} (hs : out.Solid) {d : Pt F} {f : Axis × Plane F} (hf : f ∈ faces out) (hd : d.ax f.1 ≠ 0) {u : Pt F} {s : F}
    (hu : u.ax f.1 = f.2.pos.ax f.1) (hv : out.Mem (along u d s)) :
    (dirIn out d f = true → 0 ≤ s) ∧ (dirIn out d f = false → s ≤ 0) := by
  have h := Box.mem_ax.1 hv f.1
  rw [ax_along, hu] at h
  have hlt := Box.solid_ax.1 hs f.1
  have hlim := (face_props hf).2
  have prod : ∀ {a b : F}, 0 < b → 0 ≤ a * b → 0 ≤ a := fun hb hab => nonneg_of_mul_nonneg_left hab hb
  unfold dirIn
  rcases hlim with hl | hl
  · rw [hl] at h ⊢
    have h1 : 0 ≤ s * d.ax f.1 := by linarith [h.1]
    rcases lt_or_gt_of_ne hd with hd' | hd'
    · have hs' : s ≤ 0 := by
        by_contra hc
        have := mul_neg_of_pos_of_neg (not_le.1 hc) hd'
        linarith
      simp [hd', not_lt.2 hd'.le, hs']
    · have hs' := prod hd' h1
      simp [hd', hs']
  · rw [hl] at h ⊢
    have h1 : s * d.ax f.1 ≤ 0 := by linarith [h.2]
    have hne : out.hi f.1 ≠ out.lo f.1 := ne_of_gt hlt
    rcases lt_or_gt_of_ne hd with hd' | hd'
    · have hs' : 0 ≤ s := by
        by_contra hc
        have := mul_pos_of_neg_of_neg (not_le.1 hc) hd'
        linarith
      simp [not_lt.2 hd'.le, hs', hne]
    · have hs' : s ≤ 0 := by
        by_contra hc
        have := mul_pos (not_le.1 hc) hd'
        linarith
      simp [hd', hs', hne]

theorem faces_differ {out : Box F} (hs : out.Solid) : (faces out).Pairwise (fun f g => f.1 = g.1 → f.2.pos.ax f.1 ≠ g.2.pos.ax g.1) := by
  have h1 := hs.1.ne
  have h2 := hs.2.1.ne
  have h3 := hs.2.2.ne
  simp [faces, Pt.ax, h1, h2, h3]

theorem edge_of {out : Box F} {v : Pt F} (hm : out.Mem v) {a b : Axis} (hab : a ≠ b) (ha : v.ax a = out.lo a ∨ v.ax a = out.hi a)
    (hb : v.ax b = out.lo b ∨ v.ax b = out.hi b) : out.Edge v := by
  refine ⟨hm, ?_⟩
  cases a <;> cases b <;> simp only [Pt.ax, Box.lo, Box.hi] at ha hb <;> first | exact absurd rfl hab | simp [ha, hb]

/-- no point of an edge of the box is on two planes that are not parallel -/
theorem lineBoundary_mem {out : Box F} (hs : out.Solid) {p q : Plane F} (hl : hasLine p q = true)
    (hno : ∀ e, out.Edge e → p.ev e = 0 → q.ev e = 0 → False) {f : Axis × Plane F} (hf : f ∈ faces out) {v : Pt F} (h : Tri p q f.2 v)
    (hm : out.Mem v) : v ∈ lineBoundary out p q := by
  have hdet : ∀ g ∈ faces out, ∀ u, hit out p q g = some u → (cross p.nrm q.nrm).ax g.1 ≠ 0 := by
    intro g hg u hu h0
    apply (face_hit hs hg hu).1.1
    unfold det
    rw [(face_props hg).1]
    rw [← h0, ← dot_unit]
    simp only [dot]; ring
  have hle : ((faces out).filterMap (hit out p q)).length ≤ 2 := by
    refine length_filterMap_le_two _ (dirIn out (cross p.nrm q.nrm)) _ ?_
    refine List.Pairwise.imp_of_mem ?_ (faces_differ hs)
    intro f g hf hg hfg u v hu hv hdir
    obtain ⟨tu, mu, au⟩ := face_hit hs hf hu
    obtain ⟨tv, mv, av⟩ := face_hit hs hg hv
    obtain ⟨s, hsv⟩ := line_param hl tu.2.1 tu.2.2.1 tv.2.1 tv.2.2.1
    have hsu : u = along v (cross p.nrm q.nrm) (-s) := by
      rw [hsv]
      ext <;> simp only [along] <;> ring
    have d1 := dir_face hs hf (hdet f hf u hu) au (hsv ▸ mv)
    have d2 := dir_face hs hg (hdet g hg v hv) av (s := -s) (hsu ▸ mu)
    have hs0 : s = 0 := by
      cases hb : dirIn out (cross p.nrm q.nrm) f
      · have a := d1.2 hb
        have b := d2.2 (hdir ▸ hb)
        linarith
      · have a := d1.1 hb
        have b := d2.1 (hdir ▸ hb)
        linarith
    have huv : v = u := by
      rw [hsv, hs0]
      ext <;> simp [along]
    subst huv
    by_cases hax : f.1 = g.1
    · apply hfg hax
      rw [← au, ← av, hax]
    · refine hno v (edge_of mv hax ?_ ?_) tu.2.1 tu.2.2.1
      · rw [au]; exact (face_props hf).2
      · rw [av]; exact (face_props hg).2
  unfold lineBoundary
  rw [lineLoop_eq _ _ (by simp) (by simpa using hle), List.nil_append, List.mem_filterMap]
  exact ⟨f, hf, hit_of h hm⟩

/-- the plane crosses an edge of the box -/
theorem planeBoundary_mem {out : Box F} (hs : out.Solid) {p : Plane F} {f g : Axis × Plane F} (hf : f ∈ faces out) (hg : g ∈ faces out)
    {v : Pt F} (h : Tri p f.2 g.2 v) (hm : out.Mem v) : v ∈ planeBoundary out p := by
  have hfv : v.ax f.1 = out.lo f.1 ∨ v.ax f.1 = out.hi f.1 := by
    have := h.2.2.1
    rw [face_ev hf, sub_eq_zero] at this
    rw [this]; exact (face_props hf).2
  have hgv : v.ax g.1 = out.lo g.1 ∨ v.ax g.1 = out.hi g.1 := by
    have := h.2.2.2
    rw [face_ev hg, sub_eq_zero] at this
    rw [this]; exact (face_props hg).2
  have hd := h.1
  unfold det at hd
  rw [(face_props hf).1, (face_props hg).1] at hd
  have hp := h.2.1
  cases hfa : f.1 <;> cases hga : g.1 <;> rw [hfa] at hfv hd <;> rw [hga] at hgv hd <;>
    simp only [Pt.ax, Box.lo, Box.hi] at hfv hgv <;>
    simp only [dot, cross, unit, mul_zero, mul_one, sub_zero, zero_sub, add_zero, zero_add, ne_eq, neg_eq_zero, not_true_eq_false, sub_self] at hd
  · exact edge_z hs hm hfv hgv hd hp
  · exact edge_y hs hm hfv hgv hd hp
  · exact edge_z hs hm hgv hfv hd hp
  · exact edge_x hs hm hfv hgv hd hp
  · exact edge_y hs hm hgv hfv hd hp
  · exact edge_x hs hm hgv hfv hd hp

theorem corner_of {out : Box F} {f g k : Axis × Plane F} (hf : f ∈ faces out) (hg : g ∈ faces out) (hk : k ∈ faces out)
    {v : Pt F} (h : Tri f.2 g.2 k.2 v) : out.Corner v := by
  have lim : ∀ f ∈ faces out, f.2.ev v = 0 → v.ax f.1 = out.lo f.1 ∨ v.ax f.1 = out.hi f.1 := by
    intro f hf this
    rw [face_ev hf, sub_eq_zero] at this
    rw [this]; exact (face_props hf).2
  have hfv := lim f hf h.2.1
  have hgv := lim g hg h.2.2.1
  have hkv := lim k hk h.2.2.2
  have hd := h.1
  unfold det at hd
  rw [(face_props hf).1, (face_props hg).1, (face_props hk).1] at hd
  cases hfa : f.1 <;> cases hga : g.1 <;> cases hka : k.1 <;> rw [hfa] at hfv hd <;> rw [hga] at hgv hd <;>
    rw [hka] at hkv hd <;> simp only [Pt.ax, Box.lo, Box.hi] at hfv hgv hkv <;>
    first
      | exact ⟨hfv, hgv, hkv⟩ | exact ⟨hfv, hkv, hgv⟩ | exact ⟨hgv, hfv, hkv⟩ | exact ⟨hgv, hkv, hfv⟩ | exact ⟨hkv, hfv, hgv⟩
      | exact ⟨hkv, hgv, hfv⟩ | exact absurd (by simp [dot, cross, unit]) hd

end Geouned.BB
