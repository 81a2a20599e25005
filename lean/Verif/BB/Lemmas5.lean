import Verif.BB.Lemmas4
/-!
# Lemmas: from the vertices to the box
-/
namespace Geouned.BB
open Geouned Geouned.Rev.Solid

variable {F : Type} [Field F] [LinearOrder F] [IsStrictOrderedRing F]

/-! ### constraints -/

/-- the constraint of a signed plane -/
def litH (pl : Nat → Plane F) (n : Int) : Pt F × F :=
  let p := pl n.natAbs
  if n < 0 then (⟨-p.nrm.x, -p.nrm.y, -p.nrm.z⟩, -dot p.nrm p.pos) else (p.nrm, dot p.nrm p.pos)

theorem litH_iff (pl : Nat → Plane F) (n : Int) (x : Pt F) :
    (litH pl n).2 ≤ dot (litH pl n).1 x ↔ if n < 0 then (pl n.natAbs).ev x ≤ 0 else 0 ≤ (pl n.natAbs).ev x := by
  unfold litH
  dsimp only
  split
  · simp only [Plane.ev, dot, sub]
    constructor <;> intro h <;> linarith
  · simp only [Plane.ev, dot, sub]
    constructor <;> intro h <;> linarith

theorem poly_lits {pl : Nat → Plane F} {lits : List Int} (h0 : ∀ n ∈ lits, n ≠ 0) (x : Pt F) :
    Poly (lits.map (litH pl)) x ↔ AllOf pl lits x := by
  unfold Poly AllOf
  rw [List.forall_mem_map]
  constructor
  · intro h n hn
    have := (litH_iff pl n x).1 (h n hn)
    constructor
    · intro hp
      rwa [if_neg (by omega)] at this
    · intro hp
      rwa [if_pos hp] at this
  · intro h n hn
    apply (litH_iff pl n x).2
    split
    · rename_i hp; exact (h n hn).2 hp
    · rename_i hp; exact (h n hn).1 (by have := h0 n hn; omega)

/-- the constraints of the box -/
def boxH (b : Box F) : List (Pt F × F) :=
  [(⟨1, 0, 0⟩, b.xmin), (⟨-1, 0, 0⟩, -b.xmax), (⟨0, 1, 0⟩, b.ymin), (⟨0, -1, 0⟩, -b.ymax), (⟨0, 0, 1⟩, b.zmin), (⟨0, 0, -1⟩, -b.zmax)]

theorem poly_box (b : Box F) (x : Pt F) : Poly (boxH b) x ↔ b.Mem x := by
  unfold Poly boxH Box.Mem
  simp [dot]
  tauto

/-- the constraint belongs to the plane -/
def Of (h : Pt F × F) (p : Plane F) : Prop :=
  ∃ ε : F, ε ≠ 0 ∧ h.1 = ⟨ε * p.nrm.x, ε * p.nrm.y, ε * p.nrm.z⟩ ∧ h.2 = ε * dot p.nrm p.pos

theorem lit_of (pl : Nat → Plane F) (n : Int) : Of (litH pl n) (pl n.natAbs) := by
  unfold litH
  dsimp only
  split
  · exact ⟨-1, by norm_num, by simp, by simp⟩
  · exact ⟨1, by norm_num, by simp, by simp⟩

theorem box_of {b : Box F} {h : Pt F × F} (hh : h ∈ boxH b) : ∃ f ∈ faces b, Of h f.2 := by
  simp only [boxH, List.mem_cons, List.not_mem_nil, or_false] at hh
  rcases hh with rfl | rfl | rfl | rfl | rfl | rfl
  · exact ⟨_, .head _, 1, by norm_num, by simp, by simp [dot]⟩
  · exact ⟨_, .tail _ (.head _), -1, by norm_num, by simp, by simp [dot]⟩
  · exact ⟨_, .tail _ (.tail _ (.head _)), 1, by norm_num, by simp, by simp [dot]⟩
  · exact ⟨_, .tail _ (.tail _ (.tail _ (.head _))), -1, by norm_num, by simp, by simp [dot]⟩
  · exact ⟨_, .tail _ (.tail _ (.tail _ (.tail _ (.head _)))), 1, by norm_num, by simp, by simp [dot]⟩
  · exact ⟨_, .tail _ (.tail _ (.tail _ (.tail _ (.tail _ (.head _))))), -1, by norm_num, by simp, by simp [dot]⟩

theorem tri_of {h1 h2 h3 : Pt F × F} {p q r : Plane F} {v : Pt F} (o1 : Of h1 p) (o2 : Of h2 q) (o3 : Of h3 r)
    (hd : dot (cross h1.1 h2.1) h3.1 ≠ 0) (a1 : dot h1.1 v = h1.2) (a2 : dot h2.1 v = h2.2) (a3 : dot h3.1 v = h3.2) :
    Tri p q r v := by
  obtain ⟨e1, n1, x1, y1⟩ := o1
  obtain ⟨e2, n2, x2, y2⟩ := o2
  obtain ⟨e3, n3, x3, y3⟩ := o3
  have ev : ∀ {e : F} {s : Plane F} {h : Pt F × F}, e ≠ 0 → h.1 = ⟨e * s.nrm.x, e * s.nrm.y, e * s.nrm.z⟩ → h.2 = e * dot s.nrm s.pos →
      dot h.1 v = h.2 → s.ev v = 0 := by
    intro e s h hne hx hy ha
    rw [hx, hy] at ha
    refine (mul_eq_zero.1 (?_ : e * s.ev v = 0)).resolve_left hne
    simp only [Plane.ev, dot, sub] at ha ⊢
    linear_combination ha
  refine ⟨?_, ev n1 x1 y1 a1, ev n2 x2 y2 a2, ev n3 x3 y3 a3⟩
  intro h0
  apply hd
  have : dot (cross h1.1 h2.1) h3.1 = e1 * e2 * e3 * det p q r := by
    rw [x1, x2, x3]
    simp only [det, dot, cross]; ring
  rw [this, h0, mul_zero]

theorem box_within (b : Box F) : ∃ M, ∀ x, b.Mem x → Within M x := by
  refine ⟨|b.xmin| + |b.xmax| + |b.ymin| + |b.ymax| + |b.zmin| + |b.zmax|, ?_⟩
  rintro x ⟨⟨h1, h2⟩, ⟨h3, h4⟩, h5, h6⟩
  have a1 := neg_abs_le b.xmin
  have a2 := le_abs_self b.xmax
  have a3 := neg_abs_le b.ymin
  have a4 := le_abs_self b.ymax
  have a5 := neg_abs_le b.zmin
  have a6 := le_abs_self b.zmax
  have p1 := abs_nonneg b.xmin
  have p2 := abs_nonneg b.xmax
  have p3 := abs_nonneg b.ymin
  have p4 := abs_nonneg b.ymax
  have p5 := abs_nonneg b.zmin
  have p6 := abs_nonneg b.zmax
  refine ⟨⟨?_, ?_⟩, ⟨?_, ?_⟩, ?_, ?_⟩ <;> linarith

/-! ### the vertices are listed -/

/-- a polyhedron in the box -/
theorem vertex_bounded {pl : Nat → Plane F} {lits : List Int} {nums : List Nat} {out : Box F} (h0 : ∀ n ∈ lits, n ≠ 0)
    (hn : ∀ n ∈ lits, n.natAbs ∈ nums) (hb : ∀ x, AllOf pl lits x → out.Mem x) (cut : Bool) {x : Pt F} (hx : AllOf pl lits x) (f : Pt F) :
    ∃ v, v ∈ planeIntersect out (nums.map pl) cut ∧ AllOf pl lits v ∧ dot f v ≤ dot f x := by
  obtain ⟨M, hM⟩ := box_within out
  obtain ⟨v, hv, hf, h1, hh1, h2, hh2, h3, hh3, hd, a1, a2, a3⟩ :=
    exists_vertex (H := lits.map (litH pl)) (fun x hx => hM x (hb x ((poly_lits h0 x).1 hx))) ((poly_lits h0 x).2 hx) f
  have hv' := (poly_lits h0 v).1 hv
  refine ⟨v, ?_, hv', hf⟩
  obtain ⟨n1, m1, rfl⟩ := List.mem_map.1 hh1
  obtain ⟨n2, m2, rfl⟩ := List.mem_map.1 hh2
  obtain ⟨n3, m3, rfl⟩ := List.mem_map.1 hh3
  have ht := tri_of (lit_of pl n1) (lit_of pl n2) (lit_of pl n3) hd a1 a2 a3
  have k1 := List.mem_map_of_mem (f := pl) (hn n1 m1)
  have k2 := List.mem_map_of_mem (f := pl) (hn n2 m2)
  have k3 := List.mem_map_of_mem (f := pl) (hn n3 m3)
  unfold planeIntersect
  cases cut
  · exact loop1_mem ht (hb v hv') _ k1 k2 k3
  · exact List.mem_append_left _ (cut1_tri ht (hb v hv') _ k1 k2 k3)

/-- a point where the constraints of planes and of faces meet is listed -/
theorem cut_listed {pl : Nat → Plane F} {nums : List Nat} {out : Box F} (hs : out.Solid) {lits : List Int} (hn : ∀ n ∈ lits, n.natAbs ∈ nums)
    (hno : ∀ m ∈ lits, ∀ n ∈ lits, hasLine (pl m.natAbs) (pl n.natAbs) = true → ∀ e, out.Edge e → (pl m.natAbs).ev e = 0 → (pl n.natAbs).ev e = 0 → False)
    {h1 h2 h3 : Pt F × F} {v : Pt F} (hm : out.Mem v) (hh1 : h1 ∈ lits.map (litH pl) ++ boxH out) (hh2 : h2 ∈ lits.map (litH pl) ++ boxH out)
    (hh3 : h3 ∈ lits.map (litH pl) ++ boxH out) (hd : dot (cross h1.1 h2.1) h3.1 ≠ 0) (a1 : dot h1.1 v = h1.2) (a2 : dot h2.1 v = h2.2)
    (a3 : dot h3.1 v = h3.2) : v ∈ planeIntersect out (nums.map pl) true := by
  have kind : ∀ h ∈ lits.map (litH pl) ++ boxH out, (∃ n ∈ lits, Of h (pl n.natAbs)) ∨ ∃ f ∈ faces out, Of h f.2 := by
    intro h hh
    rcases List.mem_append.1 hh with hh | hh
    · obtain ⟨n, m, rfl⟩ := List.mem_map.1 hh
      exact .inl ⟨n, m, lit_of pl n⟩
    · exact .inr (box_of hh)
  have mem : ∀ n ∈ lits, pl n.natAbs ∈ nums.map pl := fun n m => List.mem_map_of_mem (f := pl) (hn n m)
  have line : ∀ m ∈ lits, ∀ n ∈ lits, ∀ f ∈ faces out, Tri (pl m.natAbs) (pl n.natAbs) f.2 v → v ∈ planeIntersect out (nums.map pl) true := by
    intro m hm' n hn' f hf ht
    refine List.mem_append_left _ (cut1_line ht.ne12 ht.line ht.swap12.line ?_ ?_ _ (mem m hm') (mem n hn'))
    · exact lineBoundary_mem hs ht.line (fun e he => hno m hm' n hn' ht.line e he) hf ht hm
    · exact lineBoundary_mem hs ht.swap12.line (fun e he => hno n hn' m hm' ht.swap12.line e he) hf ht.swap12 hm
  have edge : ∀ n ∈ lits, ∀ f ∈ faces out, ∀ g ∈ faces out, Tri (pl n.natAbs) f.2 g.2 v → v ∈ planeIntersect out (nums.map pl) true :=
    fun n hn' f hf g hg ht => List.mem_append_left _ (cut1_plane (planeBoundary_mem hs hf hg ht hm) _ (mem n hn'))
  rcases kind h1 hh1 with ⟨n1, m1, o1⟩ | ⟨f1, m1, o1⟩ <;> rcases kind h2 hh2 with ⟨n2, m2, o2⟩ | ⟨f2, m2, o2⟩ <;>
    rcases kind h3 hh3 with ⟨n3, m3, o3⟩ | ⟨f3, m3, o3⟩ <;> have ht := tri_of o1 o2 o3 hd a1 a2 a3
  · exact List.mem_append_left _ (cut1_tri ht hm _ (mem n1 m1) (mem n2 m2) (mem n3 m3))
  · exact line n1 m1 n2 m2 f3 m3 ht
  · exact line n1 m1 n3 m3 f2 m2 ht.swap23
  · exact edge n1 m1 f2 m2 f3 m3 ht
  · exact line n2 m2 n3 m3 f1 m1 ht.swap12.swap23
  · exact edge n2 m2 f1 m1 f3 m3 ht.swap12
  · exact edge n3 m3 f1 m1 f2 m2 ht.swap23.swap12
  · exact List.mem_append_right _ (corner_mem.1 (corner_of m1 m2 m3 ht))

/-- a polyhedron cut by the box -/
theorem vertex_cut {pl : Nat → Plane F} {nums : List Nat} {out : Box F} (hs : out.Solid) {lits : List Int} (h0 : ∀ n ∈ lits, n ≠ 0)
    (hn : ∀ n ∈ lits, n.natAbs ∈ nums)
    (hno : ∀ m ∈ lits, ∀ n ∈ lits, hasLine (pl m.natAbs) (pl n.natAbs) = true → ∀ e, out.Edge e → (pl m.natAbs).ev e = 0 → (pl n.natAbs).ev e = 0 → False)
    {x : Pt F} (hx : AllOf pl lits x) (hm : out.Mem x) (f : Pt F) :
    ∃ v, v ∈ planeIntersect out (nums.map pl) true ∧ AllOf pl lits v ∧ out.Mem v ∧ dot f v ≤ dot f x := by
  have split : ∀ x, Poly (lits.map (litH pl) ++ boxH out) x ↔ AllOf pl lits x ∧ out.Mem x := by
    intro x
    rw [← poly_lits h0 x, ← poly_box out x]
    unfold Poly
    rw [List.forall_mem_append]
  obtain ⟨M, hM⟩ := box_within out
  obtain ⟨v, hv, hf, h1, hh1, h2, hh2, h3, hh3, hd, a1, a2, a3⟩ :=
    exists_vertex (H := lits.map (litH pl) ++ boxH out) (fun x hx => hM x ((split x).1 hx).2) ((split x).2 ⟨hx, hm⟩) f
  obtain ⟨hv1, hv2⟩ := (split v).1 hv
  exact ⟨v, cut_listed hs hn hno hv2 hh1 hh2 hh3 hd a1 a2 a3, hv1, hv2, hf⟩

/-! ### the box -/

/-- one pass: a set whose extreme points are listed and taken as inside gets a box, which holds it up to 0.3 mm -/
theorem attempt_near {c : Comp F} {fwd cut : Bool} {Q : Pt F → Prop}
    (hpts : ∀ x, Q x → ∀ f, ∃ v, v ∈ planeIntersect c.out (c.nums.map c.planes) cut ∧ Q v ∧ dot f v ≤ dot f x)
    (hins : ∀ v, Q v → ∀ p, Dev 3 p v → isInside c p fwd = true) (hw : Wide Q)
    (h6 : ¬ (planeIntersect c.out (c.nums.map c.planes) cut).length < 6) (o : Ori) :
    ∃ b, attempt c fwd cut = .box b ∧ mkBox b o = ⟨some b, o⟩ ∧ ∀ x, Q x → b.Near (3 / 10) x := by
  obtain ⟨⟨ax, bx, hax, hbx, hx⟩, ⟨ay, bY, hay, hby, hy⟩, az, bz, haz, hbz, hz⟩ := hw
  obtain ⟨v0, hv0, hq0, _⟩ := hpts ax hax ⟨0, 0, 0⟩
  obtain ⟨x0, x1, y0, y1, z0, z1, hph, hall⟩ := phases_ok (V := fun v => Q v ∧ v ∈ planeIntersect c.out (c.nums.map c.planes) cut)
    (fun v hv => hins v hv.1) (fun v hv => hv.2) ⟨v0, hq0, hv0⟩
  have bound : ∀ x, Q x → (x0 - 1 / 10 ≤ x.x ∧ x.x ≤ x1 + 1 / 10) ∧ (y0 - 2 / 10 ≤ x.y ∧ x.y ≤ y1 + 2 / 10) ∧
      (z0 - 3 / 10 ≤ x.z ∧ x.z ≤ z1 + 3 / 10) := by
    intro x hx
    obtain ⟨v1, m1, q1, l1⟩ := hpts x hx ⟨1, 0, 0⟩
    obtain ⟨v2, m2, q2, l2⟩ := hpts x hx ⟨-1, 0, 0⟩
    obtain ⟨v3, m3, q3, l3⟩ := hpts x hx ⟨0, 1, 0⟩
    obtain ⟨v4, m4, q4, l4⟩ := hpts x hx ⟨0, -1, 0⟩
    obtain ⟨v5, m5, q5, l5⟩ := hpts x hx ⟨0, 0, 1⟩
    obtain ⟨v6, m6, q6, l6⟩ := hpts x hx ⟨0, 0, -1⟩
    simp only [dot, one_mul, zero_mul, add_zero, zero_add, neg_mul, neg_le_neg_iff] at l1 l2 l3 l4 l5 l6
    have r1 := (hall v1 ⟨q1, m1⟩).1.1
    have r2 := (hall v2 ⟨q2, m2⟩).1.2
    have r3 := (hall v3 ⟨q3, m3⟩).2.1.1
    have r4 := (hall v4 ⟨q4, m4⟩).2.1.2
    have r5 := (hall v5 ⟨q5, m5⟩).2.2.1
    have r6 := (hall v6 ⟨q6, m6⟩).2.2.2
    exact ⟨⟨r1.trans l1, l2.trans r2⟩, ⟨r3.trans l3, l4.trans r4⟩, r5.trans l5, l6.trans r6⟩
  have wx : 19 / 10 ≤ x1 - x0 := by
    have a := (bound ax hax).1.1
    have b := (bound bx hbx).1.2
    linarith
  have wy : 17 / 10 ≤ y1 - y0 := by
    have a := (bound ay hay).2.1.1
    have b := (bound bY hby).2.1.2
    linarith
  have wz : 15 / 10 ≤ z1 - z0 := by
    have a := (bound az haz).2.2.1
    have b := (bound bz hbz).2.2.2
    linarith
  have tiny : (1 : F) / 1000000000000 < 1 := by norm_num
  refine ⟨⟨x0, x1, y0, y1, z0, z1⟩, ?_, ?_, ?_⟩
  · unfold attempt
    dsimp only
    rw [if_neg h6, hph]
    dsimp only [finish]
    rw [if_neg]
    push Not
    refine ⟨?_, ?_, ?_⟩ <;> linarith
  · unfold mkBox
    rw [if_neg]
    push Not
    refine ⟨?_, ?_, ?_⟩ <;> dsimp only <;> linarith
  · intro x hx
    obtain ⟨⟨b1, b2⟩, ⟨b3, b4⟩, b5, b6⟩ := bound x hx
    refine ⟨⟨?_, ?_⟩, ⟨?_, ?_⟩, ?_, ?_⟩ <;> dsimp only <;> linarith

/-- a box that holds a wide set up to 0.3 mm holds it once enlarged -/
theorem near_enlarge {Q : Pt F → Prop} (hw : Wide Q) {b : Box F} (h : ∀ x, Q x → b.Near (3 / 10) x) {e : F} (he : 1 / 5 ≤ e) :
    ∀ x, Q x → (enlarge b e).Mem x := by
  obtain ⟨⟨ax, bx, hax, hbx, hx⟩, ⟨ay, bY, hay, hby, hy⟩, az, bz, haz, hbz, hz⟩ := hw
  have wx : 15 / 10 ≤ b.xmax - b.xmin := by
    have a := (h ax hax).1.1
    have b := (h bx hbx).1.2
    linarith
  have wy : 15 / 10 ≤ b.ymax - b.ymin := by
    have a := (h ay hay).2.1.1
    have b := (h bY hby).2.1.2
    linarith
  have wz : 15 / 10 ≤ b.zmax - b.zmin := by
    have a := (h az haz).2.2.1
    have b := (h bz hbz).2.2.2
    linarith
  intro x hx
  obtain ⟨⟨b1, b2⟩, ⟨b3, b4⟩, b5, b6⟩ := h x hx
  have ex : 3 / 10 ≤ (b.xmax - b.xmin) * e := by
    have := mul_le_mul wx he (by norm_num) (by linarith)
    linarith
  have ey : 3 / 10 ≤ (b.ymax - b.ymin) * e := by
    have := mul_le_mul wy he (by norm_num) (by linarith)
    linarith
  have ez : 3 / 10 ≤ (b.zmax - b.zmin) * e := by
    have := mul_le_mul wz he (by norm_num) (by linarith)
    linarith
  unfold enlarge Box.Mem
  dsimp only
  refine ⟨⟨?_, ?_⟩, ⟨?_, ?_⟩, ?_, ?_⟩ <;> linarith

theorem cut_long (out : Box F) (ps : List (Plane F)) : ¬ (planeIntersect out ps true).length < 6 := by
  unfold planeIntersect
  simp [Box.points]

/-- the box with the boundary points -/
theorem componentCut_near {c : Comp F} {Q : Pt F → Prop} {o : Ori} (ho : boxOri (orientation c) = o)
    (hpts : ∀ x, Q x → ∀ f, ∃ v, v ∈ planeIntersect c.out (c.nums.map c.planes) true ∧ Q v ∧ dot f v ≤ dot f x)
    (hins : ∀ v, Q v → ∀ p, Dev 3 p v → isInside c p (o = .fwd) = true) (hw : Wide Q) :
    ∃ b, componentCut c = some ⟨some b, o⟩ ∧ ∀ x, Q x → b.Near (3 / 10) x := by
  obtain ⟨b, h1, h2, h3⟩ := attempt_near hpts hins hw (cut_long _ _) o
  refine ⟨b, ?_, h3⟩
  unfold componentCut
  simp only [ho, h1, h2]

theorem getBoundBox_of {c : Comp F} {b : Box F} {o : Ori} (h : component c = some ⟨some b, o⟩) {e : F} (he : 1 / 5 ≤ e) :
    getBoundBox c e = some ⟨some (enlarge b e), o⟩ := by
  unfold getBoundBox
  rw [h]
  dsimp only
  rw [if_pos (lt_of_lt_of_le (by norm_num) he)]

/-- both passes -/
theorem component_near {c : Comp F} {Q : Pt F → Prop} {o : Ori} (ho : boxOri (orientation c) = o)
    (hpts : ∀ cut, (orientation c = .und → cut = true) → ∀ x, Q x → ∀ f, ∃ v, v ∈ planeIntersect c.out (c.nums.map c.planes) cut ∧ Q v ∧ dot f v ≤ dot f x)
    (hins : ∀ v, Q v → ∀ p, Dev 3 p v → isInside c p (o = .fwd) = true) (hw : Wide Q) :
    ∃ b, component c = some ⟨some b, o⟩ ∧ ∀ x, Q x → b.Near (3 / 10) x := by
  obtain ⟨bc, hc, hcall⟩ := componentCut_near ho (hpts true (fun _ => rfl)) hins hw
  by_cases hu : orientation c = .und
  · refine ⟨bc, ?_, hcall⟩
    unfold component
    rw [if_pos hu, hc]
  · by_cases h6 : (planeIntersect c.out (c.nums.map c.planes) false).length < 6
    · refine ⟨bc, ?_, hcall⟩
      unfold component
      rw [if_neg hu]
      have : attempt c (decide (boxOri (orientation c) = .fwd)) false = .fail := by
        unfold attempt
        dsimp only
        rw [if_pos h6]
      simp only [this]
      exact hc
    · obtain ⟨b, h1, h2, h3⟩ := attempt_near (hpts false (fun h => absurd h hu)) hins hw h6 o
      refine ⟨b, ?_, h3⟩
      unfold component
      rw [if_neg hu]
      simp only [ho, h1, h2]

end Geouned.BB
