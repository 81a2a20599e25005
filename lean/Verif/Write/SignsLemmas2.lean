import Verif.Write.SignsLemmas
/-! More lemmas for the orientation of planes at export -/
namespace Geouned.Signs
open Geouned.Geom

theorem side_map (reg reg' : Pl → Region) (P : Pl → Prop) (g : Pl → Pl) (hg : ∀ p, (g p).index = p.index) (σ0 : Side) (x : Vec)
    (planes : List Pl) (hn : (planes.map Pl.index).Nodup)
    (h : ∀ p ∈ planes, P p ∧ ((reg' (g p)).pos x ↔ ¬ (reg p).pos x) ∨ ¬ P p ∧ ((reg' (g p)).pos x ↔ (reg p).pos x)) :
    xorSide (setOf P planes) (sideOf reg' σ0 (planes.map g) x) = sideOf reg σ0 planes x := by
  classical
  funext i
  have hc : ((fun p : Pl => p.index == i) ∘ g) = fun p => p.index == i := by
    funext p
    simp [hg]
  simp only [xorSide, sideOf, List.find?_map, hc]
  cases hf : planes.find? (fun p => p.index == i) with
  | none =>
    simp only [Option.map_none]
    have : ¬ ∃ p ∈ planes, p.index = i ∧ P p := by
      rintro ⟨p, hp, e, _⟩
      have := List.find?_eq_none.1 hf p hp
      simp [e] at this
    simp only [setOf, this, decide_false, Bool.xor_false]
  | some p =>
    simp only [Option.map_some]
    have hp := List.mem_of_find?_eq_some hf
    have hi : p.index = i := by simpa using List.find?_some hf
    have hP : (∃ q ∈ planes, q.index = i ∧ P q) ↔ P p := by
      constructor
      · rintro ⟨q, hq, e, hh⟩
        have : q = p := List.inj_on_of_nodup_map hn hq hp (e.trans hi.symm)
        rwa [← this]
      · exact fun hh => ⟨p, hp, hi, hh⟩
    have e1 : setOf P planes i = decide (P p) := by
      simp only [setOf]
      exact decide_eq_decide.2 hP
    rw [e1]
    rcases h p hp with ⟨a, b⟩ | ⟨a, b⟩
    · simp only [b, a, decide_true, Bool.xor_true, decide_not, Bool.not_not]
    · simp only [b, a, decide_false, Bool.xor_false]

/-- `s'` with the sides `reg` describes the cells of `s` -/
def Rel (reg : Pl → Region) (s s' : St) : Prop :=
  List.Forall₂ (fun c c' => c'.real = c.real ∧ (c.real = true → ∀ (σ0 : Side) (x : Vec), Off s.planes x →
    c'.defn.sem (sideOf reg σ0 s'.planes x) = c.defn.sem (sideOf axisRegion σ0 s.planes x))) s.cells s'.cells

theorem rel_of_flips {reg : Pl → Region} {V : Nat → Bool} {s s' : St} (hg : Good s) (hf : Flips V s.cells s'.cells)
    (h : ∀ σ0 x, Off s.planes x → xorSide V (sideOf reg σ0 s'.planes x) = sideOf axisRegion σ0 s.planes x) : Rel reg s s' := by
  have hc := hg.cells
  unfold Flips at hf
  unfold Rel
  generalize s.cells = A, s'.cells = B at *
  induction hf with
  | nil => exact .nil
  | @cons c c' cs cs' hx _ ih =>
    refine .cons ⟨hx.1, fun hr σ0 x ho => ?_⟩ (ih fun c hc' => hc c (by simp [hc']))
    rw [(hx.2.2 hr (hc c (by simp) hr)).2, h σ0 x ho]

theorem Rel.trans {reg : Pl → Region} {s1 s2 s3 : St} (h1 : Rel axisRegion s1 s2) (h2 : Rel reg s2 s3)
    (ho : ∀ x, Off s1.planes x → Off s2.planes x) : Rel reg s1 s3 := by
  unfold Rel at *
  generalize s1.cells = a, s2.cells = b, s3.cells = c at *
  induction h1 generalizing c with
  | nil => cases h2; exact .nil
  | cons hx _ ih =>
    cases h2 with
    | cons hy hys =>
      refine .cons ⟨hy.1.trans hx.1, fun hr σ0 x o => ?_⟩ (ih _ hys)
      rw [hy.2 (hx.1.trans hr) σ0 x (ho x o), hx.2 hr σ0 x o]

/-- `planes'` are `planes` up to the direction of the axes -/
def SamePlanes (planes planes' : List Pl) : Prop := List.Forall₂ (fun p p' => p'.kind = p.kind ∧ p'.index = p.index ∧
  p'.surf.points = p.surf.points ∧ p'.surf.pos = p.surf.pos ∧ (p'.surf.axis = p.surf.axis ∨ p'.surf.axis = p.surf.axis.neg)) planes planes'

theorem neg_neg' (a : Vec) : a.neg.neg = a := by ext <;> simp [Vec.neg]

theorem SamePlanes.trans {a b c : List Pl} (h1 : SamePlanes a b) (h2 : SamePlanes b c) : SamePlanes a c := by
  unfold SamePlanes at *
  induction h1 generalizing c with
  | nil => cases h2; exact .nil
  | cons hx _ ih =>
    cases h2 with
    | cons hy hys =>
      obtain ⟨a1, a2, a3, a4, a5⟩ := hx
      obtain ⟨b1, b2, b3, b4, b5⟩ := hy
      refine .cons ⟨b1.trans a1, b2.trans a2, b3.trans a3, b4.trans a4, ?_⟩ (ih hys)
      rcases a5 with a5 | a5 <;> rcases b5 with b5 | b5 <;> rw [b5, a5]
      · exact Or.inl rfl
      · exact Or.inr rfl
      · exact Or.inr rfl
      · exact Or.inl (neg_neg' _)

theorem dot_neg (a b : Vec) : a.neg.dot b = -(a.dot b) := by simp only [Vec.neg, Vec.dot]; ring

theorem SamePlanes.off {a b : List Pl} (h : SamePlanes a b) (x : Vec) (ho : Off a x) : Off b x := by
  unfold SamePlanes at h
  unfold Off at *
  induction h with
  | nil => simp
  | cons hx _ ih =>
    simp only [List.mem_cons, forall_eq_or_imp] at ho ⊢
    refine ⟨?_, ih ho.2⟩
    obtain ⟨_, _, _, a4, a5⟩ := hx
    rw [a4]
    rcases a5 with a5 | a5 <;> rw [a5]
    · exact ho.1
    · rw [dot_neg]; exact neg_ne_zero.2 ho.1

theorem SamePlanes.ok {a b : List Pl} (h : SamePlanes a b) (ho : ∀ p ∈ a, p.Ok) : ∀ p ∈ b, p.Ok := by
  unfold SamePlanes at h
  induction h with
  | nil => simp
  | @cons p p' ps ps' hx _ ih =>
    simp only [List.mem_cons, forall_eq_or_imp] at ho ⊢
    refine ⟨?_, ih ho.2⟩
    obtain ⟨a1, a2, a3, a4, a5⟩ := hx
    obtain ⟨u, x1, y1, z1, q⟩ := ho.1
    constructor
    · rcases a5 with a5 | a5 <;> rw [a5]
      · exact u
      · rw [← u]; simp only [Vec.neg, Vec.sq, Vec.dot]; ring
    · intro hk
      have := x1 (a1 ▸ hk)
      rcases a5 with a5 | a5 <;> rw [a5] <;> simp [Vec.neg, this]
    · intro hk
      have := y1 (a1 ▸ hk)
      rcases a5 with a5 | a5 <;> rw [a5] <;> simp [Vec.neg, this]
    · intro hk
      have := z1 (a1 ▸ hk)
      rcases a5 with a5 | a5 <;> rw [a5] <;> simp [Vec.neg, this]
    · intro p1 p2 p3 hp
      obtain ⟨n, h1, h2, h3⟩ := q p1 p2 p3 (a3 ▸ hp)
      refine ⟨n, ?_⟩
      rw [a4]
      rcases a5 with a5 | a5 <;> rw [a5]
      · exact ⟨h1, h2, h3⟩
      · rw [dot_neg, dot_neg, dot_neg, h1, h2, h3]; simp

theorem SamePlanes.index {a b : List Pl} (h : SamePlanes a b) : b.map Pl.index = a.map Pl.index := by
  unfold SamePlanes at h
  induction h with
  | nil => rfl
  | cons hx _ ih => simp [hx.2.1, ih]

theorem samePlanes_turn {k : Kind} {coord : Vec → ℝ} {e : Vec} (planes : List Pl)
    (h : ∀ p ∈ planes, p.kind = k → coord p.surf.axis < 0 → p.surf.axis = e.neg) : SamePlanes planes (planes.map (turn k coord e)) := by
  unfold SamePlanes
  induction planes with
  | nil => exact .nil
  | cons p ps ih =>
    refine .cons ?_ (ih fun q hq => h q (by simp [hq]))
    unfold turn
    split
    · rename_i hc
      refine ⟨rfl, rfl, rfl, rfl, Or.inr ?_⟩
      rw [h p (by simp) hc.1 hc.2, neg_neg']
    · exact ⟨rfl, rfl, rfl, rfl, Or.inl rfl⟩

/-- one of the three loops keeps the meaning of the cells -/
theorem align_step {k : Kind} {coord : Vec → ℝ} {e : Vec} {table : Nat → Nat → Bool} (s : St) (hg : Good s) (ht : TableOk table 0 s.cells)
    (h : ∀ p ∈ s.planes, p.kind = k → coord p.surf.axis < 0 → p.surf.axis = e.neg) :
    ∃ s', alignLoop table k coord e s.planes s.cells = .ok (s'.planes, s'.cells) ∧ Rel axisRegion s s' ∧ Good s' ∧
      SamePlanes s.planes s'.planes ∧ TableOk table 0 s'.cells := by
  obtain ⟨cells', e1, f1⟩ := alignLoop_spec table k coord e s.planes s.cells hg.nodup ht hg.cells
  have hsp := samePlanes_turn s.planes h
  refine ⟨⟨s.planes.map (turn k coord e), cells'⟩, e1, ?_, ⟨by rw [hsp.index]; exact hg.nodup, hsp.ok hg.planes, f1.fine hg.cells⟩, hsp,
    ht.flips f1⟩
  apply rel_of_flips hg f1
  intro σ0 x ho
  refine side_map axisRegion axisRegion (fun p => p.kind = k ∧ coord p.surf.axis < 0) (turn k coord e)
    (fun p => by unfold turn; split <;> rfl) σ0 x s.planes hg.nodup ?_
  intro p hp
  by_cases hc : p.kind = k ∧ coord p.surf.axis < 0
  · refine Or.inl ⟨hc, ?_⟩
    have ha := h p hp hc.1 hc.2
    have h0 := ho p hp
    have : (turn k coord e p) = { p with surf := { p.surf with axis := e } } := by unfold turn; rw [if_pos hc]
    rw [this]
    simp only [axisRegion, planeRegion, Region.ofFun]
    rw [ha] at h0 ⊢
    rw [dot_neg] at h0 ⊢
    constructor
    · intro hh; linarith
    · intro hh
      rcases lt_or_gt_of_ne h0 with h1 | h1
      · linarith
      · exact absurd h1 hh
  · refine Or.inr ⟨hc, ?_⟩
    have : turn k coord e p = p := by unfold turn; rw [if_neg hc]
    rw [this]

/-- a unit vector along one axis -/
theorem neg_unit {a : ℝ} (h : a * a = 1) (hn : a < 0) : a = -1 := by
  nlinarith [mul_self_nonneg (a + 1)]

theorem align_all (s : St) (hg : Good s) : ∃ s1 s2 s' : St,
    alignLoop (inTable s.cells) .px Vec.x vX s.planes s.cells = .ok (s1.planes, s1.cells) ∧
    alignLoop (inTable s.cells) .py Vec.y vY s1.planes s1.cells = .ok (s2.planes, s2.cells) ∧
    alignLoop (inTable s.cells) .pz Vec.z vZ s2.planes s2.cells = .ok (s'.planes, s'.cells) ∧
    Rel axisRegion s s' ∧ Good s' ∧ SamePlanes s.planes s'.planes ∧ TableOk (inTable s.cells) 0 s'.cells := by
  obtain ⟨s1, e1, r1, g1, p1, t1⟩ := align_step (k := .px) (coord := Vec.x) (e := vX) s hg (tableOk_init s.cells) (by
    intro p hp hk hx
    obtain ⟨hy, hz⟩ := (hg.planes p hp).px hk
    have hu := (hg.planes p hp).unit
    have := neg_unit (a := p.surf.axis.x) (by simpa [Vec.sq, Vec.dot, hy, hz] using hu) hx
    ext <;> simp [vX, Vec.neg, this, hy, hz])
  obtain ⟨s2, e2, r2, g2, p2, t2⟩ := align_step (k := .py) (coord := Vec.y) (e := vY) s1 g1 t1 (by
    intro p hp hk hx
    obtain ⟨hy, hz⟩ := (g1.planes p hp).py hk
    have hu := (g1.planes p hp).unit
    have := neg_unit (a := p.surf.axis.y) (by simpa [Vec.sq, Vec.dot, hy, hz] using hu) hx
    ext <;> simp [vY, Vec.neg, this, hy, hz])
  obtain ⟨s3, e3, r3, g3, p3, t3⟩ := align_step (k := .pz) (coord := Vec.z) (e := vZ) s2 g2 t2 (by
    intro p hp hk hx
    obtain ⟨hy, hz⟩ := (g2.planes p hp).pz hk
    have hu := (g2.planes p hp).unit
    have := neg_unit (a := p.surf.axis.z) (by simpa [Vec.sq, Vec.dot, hy, hz] using hu) hx
    ext <;> simp [vZ, Vec.neg, this, hy, hz])
  exact ⟨s1, s2, s3, e1, e2, e3, (r1.trans r2 p1.off).trans r3 (p1.trans p2).off, g3, (p1.trans p2).trans p3, t3⟩

theorem pointsOpposite_some {p : Pl} (h : p.Ok) : pointsOpposite p.surf ≠ none := by
  unfold pointsOpposite
  cases hp : p.surf.points with
  | none => simp
  | some t =>
    obtain ⟨p1, p2, p3⟩ := t
    obtain ⟨axis, d, e, _⟩ := C38_points_to_coeffs p1 p2 p3 (h.pts p1 p2 p3 hp).1
    simp [e]

/-- the axis of the points is the stored one or its opposite -/
theorem parallel_of_points {a b : Vec} {p1 p2 p3 : Vec} (hn : NonCollinear p1 p2 p3) (ha : a.sq = 1) (hb : b.sq = 1) {d e : ℝ}
    (a1 : a.dot p1 = d) (a2 : a.dot p2 = d) (a3 : a.dot p3 = d) (b1 : b.dot p1 = e) (b2 : b.dot p2 = e) (b3 : b.dot p3 = e) :
    b = a ∨ b = a.neg := by
  set n := (p2.sub p1).cross (p3.sub p1) with hnn
  have hN : n.sq ≠ 0 := hn
  have par : ∀ (v : Vec) (f : ℝ), v.dot p1 = f → v.dot p2 = f → v.dot p3 = f → Vec.smul n.sq v = Vec.smul (v.dot n) n := by
    intro v f h1 h2 h3
    have e1 : v.dot (p2.sub p1) = 0 := by simp only [Vec.dot, Vec.sub] at *; linarith
    have e2 : v.dot (p3.sub p1) = 0 := by simp only [Vec.dot, Vec.sub] at *; linarith
    set u := p2.sub p1
    set w := p3.sub p1
    simp only [Vec.dot] at e1 e2
    have cx : v.y * n.z - v.z * n.y = 0 := by
      rw [hnn]; simp only [Vec.cross]; linear_combination u.x * e2 - w.x * e1
    have cy : v.z * n.x - v.x * n.z = 0 := by
      rw [hnn]; simp only [Vec.cross]; linear_combination u.y * e2 - w.y * e1
    have cz : v.x * n.y - v.y * n.x = 0 := by
      rw [hnn]; simp only [Vec.cross]; linear_combination u.z * e2 - w.z * e1
    ext <;> simp only [Vec.smul, Vec.sq, Vec.dot]
    · linear_combination n.y * cz - n.z * cy
    · linear_combination n.z * cx - n.x * cz
    · linear_combination n.x * cy - n.y * cx
  have pa := par a d a1 a2 a3
  have pb := par b e b1 b2 b3
  have nrm : ∀ v : Vec, v.sq = 1 → Vec.smul n.sq v = Vec.smul (v.dot n) n → (v.dot n) ^ 2 = n.sq := by
    intro v hv h
    have h2 : (Vec.smul n.sq v).sq = (Vec.smul (v.dot n) n).sq := by rw [h]
    rw [sq_smul, sq_smul, hv, mul_one] at h2
    have : n.sq * (n.sq - (v.dot n) ^ 2) = 0 := by linear_combination h2
    rcases mul_eq_zero.1 this with h | h
    · exact absurd h hN
    · linarith
  have hab : (b.dot n) ^ 2 = (a.dot n) ^ 2 := by rw [nrm a ha pa, nrm b hb pb]
  have cancel : ∀ v w : Vec, Vec.smul n.sq v = Vec.smul n.sq w → v = w := by
    intro v w h
    simp only [Vec.smul, Vec.mk.injEq] at h
    ext
    · exact mul_left_cancel₀ hN h.1
    · exact mul_left_cancel₀ hN h.2.1
    · exact mul_left_cancel₀ hN h.2.2
  rcases sq_eq_sq_iff_eq_or_eq_neg.1 hab with h | h
  · left
    exact cancel _ _ (by rw [pa, pb, h])
  · right
    apply cancel
    rw [pb, h]
    have : Vec.smul n.sq a.neg = (Vec.smul n.sq a).neg := by ext <;> simp only [Vec.smul, Vec.neg] <;> ring
    rw [this, pa]
    ext <;> simp only [Vec.smul, Vec.neg] <;> ring

/-- the sides of a plane written by three points, against those of its axis -/
theorem point_region {p : Pl} (h : p.Ok) {p1 p2 p3 : Vec} (hp : p.surf.points = some (p1, p2, p3)) (x : Vec)
    (hx : p.surf.axis.dot (x.sub p.surf.pos) ≠ 0) :
    ∃ a d, pointsToCoeffs p1 p2 p3 = some (a, d) ∧
      ((isOpposite a p.surf.axis (1 / 1000000) ∧ p.surf.axis = a.neg ∧ ((threePointRegion p1 p2 p3).pos x ↔ ¬ (axisRegion p).pos x)) ∨
       (¬ isOpposite a p.surf.axis (1 / 1000000) ∧ p.surf.axis = a ∧ ((threePointRegion p1 p2 p3).pos x ↔ (axisRegion p).pos x))) := by
  obtain ⟨hn, q1, q2, q3⟩ := h.pts p1 p2 p3 hp
  obtain ⟨a, d, e, hu, a1, a2, a3, hd, hs⟩ := C38_points_to_coeffs p1 p2 p3 hn
  refine ⟨a, d, e, ?_⟩
  have ht : ThreePoint p1 p2 p3 a d := ⟨hu, a1, a2, a3, hd, hs⟩
  have hreg : (threePointRegion p1 p2 p3).pos x ↔ d < a.dot x := by
    constructor
    · rintro ⟨b, f, hb, hlt⟩
      obtain ⟨e1, e2⟩ := C38_convention_unique p1 p2 p3 b a f d hn hb ht
      rw [← e1, ← e2]; exact hlt
    · exact fun hlt => ⟨a, d, ht, hlt⟩
  have s1 : ∀ q : Vec, p.surf.axis.dot (q.sub p.surf.pos) = p.surf.axis.dot q - p.surf.axis.dot p.surf.pos := by
    intro q; simp only [Vec.dot, Vec.sub]; ring
  rw [s1] at q1 q2 q3 hx
  have hpar := parallel_of_points hn hu h.unit a1 a2 a3 (e := p.surf.axis.dot p.surf.pos) (by linarith) (by linarith) (by linarith)
  rcases hpar with hb | hb
  · right
    refine ⟨?_, hb, ?_⟩
    · rw [hb]; exact isOpposite_self hu (by norm_num)
    · rw [hreg]
      simp only [axisRegion, planeRegion, Region.ofFun]
      rw [hb] at q1
      rw [s1, hb]
      constructor <;> intro hh <;> linarith
  · left
    refine ⟨?_, hb, ?_⟩
    · rw [hb]; exact isOpposite_neg hu (by norm_num)
    · rw [hreg]
      simp only [axisRegion, planeRegion, Region.ofFun]
      rw [hb, dot_neg, dot_neg] at q1 hx
      rw [s1, hb, dot_neg, dot_neg]
      constructor
      · intro hh; linarith
      · intro hh
        rcases lt_or_gt_of_ne hx with h1 | h1
        · linarith
        · exact absurd (by linarith) hh

end Geouned.Signs
