import Verif.BB.Lemmas7
import Mathlib.Algebra.Order.Ring.Rat
import Mathlib.Algebra.Field.Rat
import Mathlib.Tactic.NormNum
/-!
# Property C78: the bounding box computed for a cell holds the cell

`getBoundBox c e` is the box computed for a cell whose definition has level 0 (an intersection or a union of half-spaces),
enlarged by the part `e` of its lengths on every side; the program calls it with `e = 0.2` and `e = 10`. Lengths in mm.
-/
namespace Geouned.BB
open Geouned Geouned.Rev.Solid

variable {F : Type} [Field F] [LinearOrder F] [IsStrictOrderedRing F]

/-- C78, in full: the oriented box says the truth about the cell, within the external box. -/
def C78_statement : Prop :=
  ∀ (c : Comp ℚ) (op : Op) (lits : List Int), Fine c op lits →
    ∃ m, getBoundBox c (1 / 5) = some m ∧ BoxSays Box.Mem c.out (Region c.planes c.definition) m

/-- C78: for every input the computation ends with an oriented box (the method never returns `None`). -/
theorem C78_returns (c : Comp F) (e : F) : ∃ m, getBoundBox c e = some m := by
  obtain ⟨b, h⟩ := getBoundBox_total c e
  exact ⟨_, h⟩

/-- C78, partial: an intersection of half-spaces that lies in the external box, is at least 2.1 mm wide along each axis and
does not come near one of the corners of the universe. Its box is `Forward` and holds it. -/
theorem C78_intersection_partial (c : Comp F) (lits : List Int) (h : Fine c .and lits) (hin : ∀ x, AllOf c.planes lits x → c.out.Mem x)
    (hw : Wide (AllOf c.planes lits))
    (hfar : ∃ k, c.univ.Corner k ∧ ∃ n ∈ lits, (0 < n → (c.planes n.natAbs).ev k ≤ -c.tol) ∧ (n < 0 → c.tol ≤ (c.planes n.natAbs).ev k))
    (e : F) (he : 1 / 5 ≤ e) :
    ∃ b, getBoundBox c e = some ⟨some b, .fwd⟩ ∧ (∀ x, AllOf c.planes lits x → b.Mem x) ∧
      BoxSays Box.Mem c.out (Region c.planes c.definition) ⟨some b, .fwd⟩ := by
  obtain ⟨b, hb, hb'⟩ := intersection_near c lits h hin hw hfar
  have hall := near_enlarge (Q := AllOf c.planes lits) hw hb' he
  refine ⟨enlarge b e, getBoundBox_of hb he, hall, ?_⟩
  intro x _ hx
  rw [h.definition] at hx
  exact hall x (region_and_allOf hx)

/-- C78, partial: an intersection of half-spaces that goes on outside of the universe: some corner of the universe is in it
(or nearer than the tolerance), some corner is clearly not. If no line of two planes goes through an edge of the external
box, and the part in the external box is at least 2.1 mm wide along each axis, the box is `Forward` and holds this part. -/
theorem C78_intersection_cut_partial (c : Comp F) (lits : List Int) (h : Fine c .and lits)
    (hw : Wide (fun x => AllOf c.planes lits x ∧ c.out.Mem x))
    (hfar : ∃ k, c.univ.Corner k ∧ ∃ n ∈ lits, (0 < n → (c.planes n.natAbs).ev k ≤ -c.tol) ∧ (n < 0 → c.tol ≤ (c.planes n.natAbs).ev k))
    (hnear : ∃ k, c.univ.Corner k ∧ ∀ n ∈ lits, (0 < n → -c.tol < (c.planes n.natAbs).ev k) ∧ (n < 0 → (c.planes n.natAbs).ev k < c.tol))
    (hedge : ∀ m ∈ lits, ∀ n ∈ lits, cross (c.planes m.natAbs).nrm (c.planes n.natAbs).nrm ≠ ⟨0, 0, 0⟩ →
      ∀ p, c.out.Edge p → ¬ ((c.planes m.natAbs).ev p = 0 ∧ (c.planes n.natAbs).ev p = 0))
    (e : F) (he : 1 / 5 ≤ e) :
    ∃ b, getBoundBox c e = some ⟨some b, .fwd⟩ ∧ (∀ x, AllOf c.planes lits x → c.out.Mem x → b.Mem x) ∧
      BoxSays Box.Mem c.out (Region c.planes c.definition) ⟨some b, .fwd⟩ := by
  obtain ⟨b, hb, hb'⟩ := intersection_cut_near c lits h hw hfar hnear hedge
  have hall := near_enlarge (Q := fun x => AllOf c.planes lits x ∧ c.out.Mem x) hw (fun x hx => hb' x hx.1 hx.2) he
  refine ⟨enlarge b e, getBoundBox_of hb he, fun x h1 h2 => hall x ⟨h1, h2⟩, ?_⟩
  intro x hm hx
  rw [h.definition] at hx
  exact hall x ⟨region_and_allOf hx, hm⟩

/-- C78, partial: a union of half-spaces with some corner of the universe in it, some corner clearly not, and a part in the
external box that is at least 2.1 mm wide along each axis. The box is `Forward` and holds this part. -/
theorem C78_union_partial (c : Comp F) (lits : List Int) (h : Fine c .or lits)
    (hw : Wide (fun x => OneOf c.planes lits x ∧ c.out.Mem x))
    (hfar : ∃ k, c.univ.Corner k ∧ ∀ n ∈ lits, (0 < n → (c.planes n.natAbs).ev k ≤ -c.tol) ∧ (n < 0 → c.tol ≤ (c.planes n.natAbs).ev k))
    (hnear : ∃ k, c.univ.Corner k ∧ OneOf c.planes lits k) (e : F) (he : 1 / 5 ≤ e) :
    ∃ b, getBoundBox c e = some ⟨some b, .fwd⟩ ∧ (∀ x, OneOf c.planes lits x → c.out.Mem x → b.Mem x) ∧
      BoxSays Box.Mem c.out (Region c.planes c.definition) ⟨some b, .fwd⟩ := by
  obtain ⟨b, hb, hb'⟩ := union_near c lits h hw hfar hnear
  have hall := near_enlarge (Q := fun x => OneOf c.planes lits x ∧ c.out.Mem x) hw (fun x hx => hb' x hx.1 hx.2) he
  refine ⟨enlarge b e, getBoundBox_of hb he, fun x h1 h2 => hall x ⟨h1, h2⟩, ?_⟩
  intro x hm hx
  rw [h.definition] at hx
  exact hall x ⟨region_or_oneOf hx, hm⟩

/-- C78, partial: a union of half-spaces that holds all corners of the universe, and whose complement lies in the external box and is
at least 2.1 mm wide along each axis. The box is `Reversed` and holds the complement. -/
theorem C78_outside_partial (c : Comp F) (lits : List Int) (h : Fine c .or lits)
    (hin : ∀ x, AllOf c.planes (lits.map (fun n => -n)) x → c.out.Mem x) (hw : Wide (AllOf c.planes (lits.map (fun n => -n))))
    (hnear : ∀ k, c.univ.Corner k → OneOf c.planes lits k) (e : F) (he : 1 / 5 ≤ e) :
    ∃ b, getBoundBox c e = some ⟨some b, .rev⟩ ∧ (∀ x, AllOf c.planes (lits.map (fun n => -n)) x → b.Mem x) ∧
      BoxSays Box.Mem c.out (Region c.planes c.definition) ⟨some b, .rev⟩ := by
  obtain ⟨b, hb, hb'⟩ := outside_near c lits h hin hw hnear
  have hall := near_enlarge (Q := AllOf c.planes (lits.map (fun n => -n))) hw hb' he
  refine ⟨enlarge b e, getBoundBox_of hb he, hall, ?_⟩
  intro x _ hx
  rw [h.definition] at hx
  exact hall x (not_region_or hx)

/-- C78, partial: the external box lies in the universe, and all corners of the universe are clearly in an intersection of
half-spaces. The box is `Reversed` and what it says is true: the cell fills the external box. -/
theorem C78_everywhere_partial (c : Comp F) (lits : List Int) (h : Fine c .and lits) (hu : ∀ x, c.out.Mem x → c.univ.Mem x)
    (hin : ∀ k, c.univ.Corner k → ∀ n ∈ lits, (0 < n → 0 < (c.planes n.natAbs).ev k) ∧ (n < 0 → (c.planes n.natAbs).ev k < 0)) (e : F) :
    ∃ b, getBoundBox c e = some ⟨b, .rev⟩ ∧ BoxSays Box.Mem c.out (Region c.planes c.definition) ⟨b, .rev⟩ := by
  obtain ⟨b, hb, hall⟩ := everywhere_near c lits h hu hin
  cases b with
  | none => exact ⟨none, by simp [getBoundBox, hb], hall⟩
  | some b =>
    refine ⟨some (if 0 < e then enlarge b e else b), ?_, fun x hx hn => absurd (hall x hx) hn⟩
    simp only [getBoundBox, hb]
    split <;> rfl

/-- C78, partial: the external box lies in the universe, and all corners of the universe are farther than the tolerance outside a union of
half-spaces. The box is `Forward` and what it says is true: nothing of the cell is in the external box. -/
theorem C78_nowhere_partial (c : Comp F) (lits : List Int) (h : Fine c .or lits) (hu : ∀ x, c.out.Mem x → c.univ.Mem x)
    (hin : ∀ k, c.univ.Corner k → ∀ n ∈ lits, (0 < n → (c.planes n.natAbs).ev k ≤ -c.tol) ∧ (n < 0 → c.tol ≤ (c.planes n.natAbs).ev k)) (e : F) :
    ∃ b, getBoundBox c e = some ⟨b, .fwd⟩ ∧ BoxSays Box.Mem c.out (Region c.planes c.definition) ⟨b, .fwd⟩ := by
  obtain ⟨b, hb, hall⟩ := nowhere_near c lits h hu hin
  cases b with
  | none => exact ⟨none, by simp [getBoundBox, hb], hall⟩
  | some b =>
    refine ⟨some (if 0 < e then enlarge b e else b), ?_, fun x hx hn => absurd hn (hall x hx)⟩
    simp only [getBoundBox, hb]
    split <;> rfl

/-! ### examples: the hypotheses are met -/

/-- the planes x = ±10, y = ±10, z = ±10 -/
def cubePl : Nat → Plane ℚ
  | 1 => ⟨⟨-10, 0, 0⟩, ⟨1, 0, 0⟩⟩
  | 2 => ⟨⟨10, 0, 0⟩, ⟨1, 0, 0⟩⟩
  | 3 => ⟨⟨0, -10, 0⟩, ⟨0, 1, 0⟩⟩
  | 4 => ⟨⟨0, 10, 0⟩, ⟨0, 1, 0⟩⟩
  | 5 => ⟨⟨0, 0, -10⟩, ⟨0, 0, 1⟩⟩
  | _ => ⟨⟨0, 0, 10⟩, ⟨0, 0, 1⟩⟩

def bigBox : Box ℚ := ⟨-1000, 1000, -1000, 1000, -1000, 1000⟩

/-- a cube -/
def cube : Comp ℚ := ⟨cubePl, [1, 2, 3, 4, 5, 6], .lst .and 0 ([1, -2, 3, -4, 5, -6].map .int), 1, bigBox, bigBox⟩

/-- everything but a cube -/
def cubeOut : Comp ℚ := ⟨cubePl, [1, 2, 3, 4, 5, 6], .lst .or 0 ([-1, 2, -3, 4, -5, 6].map .int), 1, bigBox, bigBox⟩

/-- an intersection and a union of two half-spaces -/
def wedge (op : Op) : Comp ℚ := ⟨cubePl, [2, 4], .lst op 0 ([2, 4].map .int), 1, bigBox, bigBox⟩

theorem cube_fine : Fine cube .and [1, -2, 3, -4, 5, -6] :=
  ⟨rfl, by intro k; simp [cube, eq_comm], by decide, by decide +kernel, by decide +kernel, by simp [cube, bigBox, Box.Solid]⟩

theorem cubeOut_fine : Fine cubeOut .or [-1, 2, -3, 4, -5, 6] :=
  ⟨rfl, by intro k; simp [cubeOut, eq_comm], by decide, by decide +kernel, by decide +kernel, by simp [cubeOut, bigBox, Box.Solid]⟩

theorem wedge_fine (op : Op) : Fine (wedge op) op [2, 4] :=
  ⟨rfl, by intro k; simp [wedge, eq_comm], by decide, by simp [wedge, cubePl, dot], by simp [wedge]; norm_num, by simp [wedge, bigBox, Box.Solid]⟩

theorem cube_allOf {x : Pt ℚ} : AllOf cubePl [1, -2, 3, -4, 5, -6] x ↔ (-10 ≤ x.x ∧ x.x ≤ 10) ∧ (-10 ≤ x.y ∧ x.y ≤ 10) ∧ -10 ≤ x.z ∧ x.z ≤ 10 := by
  simp [AllOf, cubePl, Plane.ev, dot, sub]
  constructor
  · rintro ⟨h1, h2, h3, h4, h5, h6⟩
    exact ⟨⟨by linarith, by linarith⟩, ⟨by linarith, by linarith⟩, by linarith, by linarith⟩
  · rintro ⟨⟨h1, h2⟩, ⟨h3, h4⟩, h5, h6⟩
    exact ⟨by linarith, by linarith, by linarith, by linarith, by linarith, by linarith⟩

theorem cube_wide : Wide (AllOf cubePl [1, -2, 3, -4, 5, -6]) := by
  refine ⟨⟨⟨-10, 0, 0⟩, ⟨10, 0, 0⟩, ?_, ?_, ?_⟩, ⟨⟨0, -10, 0⟩, ⟨0, 10, 0⟩, ?_, ?_, ?_⟩, ⟨0, 0, -10⟩, ⟨0, 0, 10⟩, ?_, ?_, ?_⟩ <;>
    first | (rw [cube_allOf]; norm_num) | norm_num

theorem cube_in (x : Pt ℚ) (h : AllOf cubePl [1, -2, 3, -4, 5, -6] x) : bigBox.Mem x := by
  rw [cube_allOf] at h
  obtain ⟨⟨h1, h2⟩, ⟨h3, h4⟩, h5, h6⟩ := h
  refine ⟨⟨?_, ?_⟩, ⟨?_, ?_⟩, ?_, ?_⟩ <;> simp only [bigBox] <;> linarith

-- a cube has a box
example : ∃ b, getBoundBox cube (1 / 5) = some ⟨some b, .fwd⟩ ∧ ∀ x, AllOf cubePl [1, -2, 3, -4, 5, -6] x → b.Mem x := by
  obtain ⟨b, h1, h2, _⟩ := C78_intersection_partial cube _ cube_fine cube_in cube_wide
    ⟨⟨-1000, -1000, -1000⟩, by simp [cube, bigBox, Box.Corner], 1, by simp, by decide +kernel, by decide⟩ (1 / 5) le_rfl
  exact ⟨b, h1, h2⟩

-- the outside of a cube has a reversed box
example : ∃ b, getBoundBox cubeOut (1 / 5) = some ⟨some b, .rev⟩ ∧ ∀ x, AllOf cubePl [1, -2, 3, -4, 5, -6] x → b.Mem x := by
  obtain ⟨b, h1, h2, _⟩ := C78_outside_partial cubeOut _ cubeOut_fine cube_in cube_wide (by
    intro k hk
    obtain ⟨h1 | h1, _⟩ := hk
    · refine ⟨-1, by simp, by simp, ?_⟩
      intro _
      simp [cubeOut, cubePl, Plane.ev, dot, sub, h1, bigBox]; norm_num
    · refine ⟨2, by simp, ?_, by simp⟩
      intro _
      simp [cubeOut, cubePl, Plane.ev, dot, sub, h1, bigBox]; norm_num) (1 / 5) le_rfl
  exact ⟨b, h1, h2⟩

theorem wedge_lits {x : Pt ℚ} : AllOf cubePl [2, 4] x ↔ 10 ≤ x.x ∧ 10 ≤ x.y := by
  simp [AllOf, cubePl, Plane.ev, dot, sub]

-- a cell that goes on outside of the universe
example : ∃ b, getBoundBox (wedge .and) 10 = some ⟨some b, .fwd⟩ ∧ ∀ x, AllOf cubePl [2, 4] x → bigBox.Mem x → b.Mem x := by
  obtain ⟨b, h1, h2, _⟩ := C78_intersection_cut_partial (wedge .and) _ (wedge_fine .and) (by
      refine ⟨⟨⟨10, 10, 0⟩, ⟨20, 10, 0⟩, ?_, ?_, ?_⟩, ⟨⟨10, 10, 0⟩, ⟨10, 20, 0⟩, ?_, ?_, ?_⟩, ⟨10, 10, 0⟩, ⟨10, 10, 10⟩, ?_, ?_, ?_⟩ <;>
        first | (refine ⟨wedge_lits.2 ?_, ?_⟩ <;> norm_num [wedge, bigBox, Box.Mem]) | norm_num)
    ⟨⟨-1000, -1000, -1000⟩, by simp [wedge, bigBox, Box.Corner], 2, by simp, by
      intro _; norm_num [wedge, cubePl, Plane.ev, dot, sub], by decide⟩
    ⟨⟨1000, 1000, 1000⟩, by simp [wedge, bigBox, Box.Corner], by
      simp [wedge, cubePl, Plane.ev, dot, sub]; norm_num⟩ (by
      intro m hm n hn _ p hp ⟨e1, e2⟩
      obtain ⟨-, hp⟩ := hp
      simp at hm hn
      rcases hm with rfl | rfl <;> rcases hn with rfl | rfl <;> simp [wedge, cubePl, cross] at * <;>
        simp [Plane.ev, dot, sub, bigBox] at e1 e2 hp
      · rcases hp with ⟨h, _⟩ | ⟨h, _⟩ | ⟨h, _⟩ <;> rcases h with h | h <;> linarith
      · rcases hp with ⟨h, _⟩ | ⟨h, _⟩ | ⟨h, _⟩ <;> rcases h with h | h <;> linarith) 10 (by norm_num)
  exact ⟨b, h1, h2⟩

-- a union of two half-spaces
example : ∃ b, getBoundBox (wedge .or) (1 / 5) = some ⟨some b, .fwd⟩ ∧ ∀ x, OneOf cubePl [2, 4] x → bigBox.Mem x → b.Mem x := by
  obtain ⟨b, h1, h2, _⟩ := C78_union_partial (wedge .or) _ (wedge_fine .or) (by
      have : ∀ x : Pt ℚ, 10 ≤ x.x → OneOf cubePl [2, 4] x := by
        intro x hx
        refine ⟨2, by simp, ?_, by simp⟩
        intro _
        simp [cubePl, Plane.ev, dot, sub, hx]
      refine ⟨⟨⟨10, 10, 0⟩, ⟨20, 10, 0⟩, ?_, ?_, ?_⟩, ⟨⟨10, 10, 0⟩, ⟨10, 20, 0⟩, ?_, ?_, ?_⟩, ⟨10, 10, 0⟩, ⟨10, 10, 10⟩, ?_, ?_, ?_⟩ <;>
        first | (refine ⟨this _ ?_, ?_⟩ <;> norm_num [wedge, bigBox, Box.Mem]) | norm_num)
    ⟨⟨-1000, -1000, -1000⟩, by simp [wedge, bigBox, Box.Corner], by
      simp [wedge, cubePl, Plane.ev, dot, sub]; norm_num⟩
    ⟨⟨1000, 1000, 1000⟩, by simp [wedge, bigBox, Box.Corner], 2, by simp, by
      simp [wedge, cubePl, Plane.ev, dot, sub]; norm_num⟩ (1 / 5) le_rfl
  exact ⟨b, h1, h2⟩

/-- one plane, outside of the universe -/
def farPlane (op : Op) (n : Int) : Comp ℚ := ⟨fun _ => ⟨⟨-5000, 0, 0⟩, ⟨1, 0, 0⟩⟩, [1], .lst op 0 ([n].map .int), 1, bigBox, bigBox⟩

theorem farPlane_fine (op : Op) (n : Int) (h : n.natAbs = 1) : Fine (farPlane op n) op [n] :=
  ⟨rfl, by intro k; simp [farPlane, h, eq_comm], by simp; omega, by simp [farPlane, dot], by simp [farPlane]; norm_num, by simp [farPlane, bigBox, Box.Solid]⟩

-- a half-space that holds the universe, and one that does not touch it
example : ∃ b, getBoundBox (farPlane .and 1) (1 / 5) = some ⟨b, .rev⟩ := by
  obtain ⟨b, h1, _⟩ := C78_everywhere_partial (farPlane .and 1) _ (farPlane_fine .and 1 rfl) (fun x hx => hx) (by
    intro k hk n hn
    simp at hn
    subst hn
    refine ⟨fun _ => ?_, fun h => absurd h (by decide)⟩
    obtain ⟨h | h, _⟩ := hk <;> simp [farPlane, Plane.ev, dot, sub, h, bigBox] <;> norm_num) (1 / 5)
  exact ⟨b, h1⟩

example : ∃ b, getBoundBox (farPlane .or (-1)) (1 / 5) = some ⟨b, .fwd⟩ := by
  obtain ⟨b, h1, _⟩ := C78_nowhere_partial (farPlane .or (-1)) _ (farPlane_fine .or (-1) rfl) (fun x hx => hx) (by
    intro k hk n hn
    simp at hn
    subst hn
    refine ⟨fun h => absurd h (by decide), fun _ => ?_⟩
    obtain ⟨h | h, _⟩ := hk <;> simp [farPlane, Plane.ev, dot, sub, h, bigBox] <;> norm_num) (1 / 5)
  exact ⟨b, h1⟩

/-! ### cells whose box is wrong -/

/-- a prism with a pointed end that goes on outside of the universe: |y| < 10, |z| < 10, and two planes that meet at x = -50 -/
def prismPl : Nat → Plane ℚ
  | 1 => ⟨⟨0, -10, 0⟩, ⟨0, 1, 0⟩⟩
  | 2 => ⟨⟨0, 10, 0⟩, ⟨0, 1, 0⟩⟩
  | 3 => ⟨⟨0, 0, -10⟩, ⟨0, 0, 1⟩⟩
  | 4 => ⟨⟨0, 0, 10⟩, ⟨0, 0, 1⟩⟩
  | 5 => ⟨⟨-50, 0, 0⟩, ⟨3 / 5, 4 / 5, 0⟩⟩
  | _ => ⟨⟨-50, 0, 0⟩, ⟨3 / 5, -4 / 5, 0⟩⟩

def prism : Comp ℚ := ⟨prismPl, [1, 2, 3, 4, 5, 6], .lst .and 0 ([1, -2, 3, -4, 5, 6].map .int), 1, bigBox, bigBox⟩

theorem prism_fine : Fine prism .and [1, -2, 3, -4, 5, 6] :=
  ⟨rfl, by intro k; simp [prism, eq_comm], by decide, by decide +kernel, by decide +kernel, by simp [prism, bigBox, Box.Solid]⟩

/-- compare results -/
def sameBox (r : Option (MBox (Box ℚ))) (b : Option (Box ℚ)) (o : Ori) : Bool :=
  match r with
  | none => false
  | some m => decide (m.box = b) && decide (m.ori = o)

theorem of_sameBox {r : Option (MBox (Box ℚ))} {b : Option (Box ℚ)} {o : Ori} (h : sameBox r b o = true) : r = some ⟨b, o⟩ := by
  unfold sameBox at h
  split at h
  · cases h
  · rename_i m
    simp only [Bool.and_eq_true, decide_eq_true_iff] at h
    obtain ⟨h1, h2⟩ := h
    rw [← h1, ← h2]

/-- C78 is violated: no corner of the universe is in the prism, so it is taken to be bounded; its six corners are found, and the box
ends at x = -34 although the prism goes on to the end of the universe. -/
theorem C78_unbounded_violated : ∃ (c : Comp ℚ) (lits : List Int) (b : Box ℚ), Fine c .and lits ∧ getBoundBox c (1 / 5) = some ⟨some b, .fwd⟩ ∧
    ∃ x, c.out.Mem x ∧ Region c.planes c.definition x ∧ ¬ b.Mem x := by
  refine ⟨prism, [1, -2, 3, -4, 5, 6], ⟨-158 / 3, -34, -14, 14, -14, 14⟩, prism_fine, of_sameBox (by decide +kernel), ⟨500, 0, 0⟩, ?_, ?_, ?_⟩
  · decide +kernel
  · unfold Region; decide +kernel
  · decide +kernel

/-- a foil: 100 mm by 100 mm, 0.05 mm thick -/
def foilPl : Nat → Plane ℚ
  | 1 => ⟨⟨-50, 0, 0⟩, ⟨1, 0, 0⟩⟩
  | 2 => ⟨⟨50, 0, 0⟩, ⟨1, 0, 0⟩⟩
  | 3 => ⟨⟨0, -50, 0⟩, ⟨0, 1, 0⟩⟩
  | 4 => ⟨⟨0, 50, 0⟩, ⟨0, 1, 0⟩⟩
  | 5 => ⟨⟨0, 0, 0⟩, ⟨0, 0, 1⟩⟩
  | _ => ⟨⟨0, 0, 1 / 20⟩, ⟨0, 0, 1⟩⟩

def foil : Comp ℚ := ⟨foilPl, [1, 2, 3, 4, 5, 6], .lst .and 0 ([1, -2, 3, -4, 5, -6].map .int), 1, bigBox, bigBox⟩

theorem foil_fine : Fine foil .and [1, -2, 3, -4, 5, -6] :=
  ⟨rfl, by intro k; simp [foil, eq_comm], by decide, by decide +kernel, by decide +kernel, by simp [foil, bigBox, Box.Solid]⟩

/-- C78 is violated: the corners of a foil thinner than 0.1 mm are taken two by two for the same point, the box is flat and is
dropped: the foil is said to be empty, and no solid is made of it. -/
theorem C78_foil_violated : ∃ (c : Comp ℚ) (lits : List Int), Fine c .and lits ∧ getBoundBox c (1 / 5) = some ⟨none, .fwd⟩ ∧
    ∃ x, c.out.Mem x ∧ Region c.planes c.definition x := by
  refine ⟨foil, [1, -2, 3, -4, 5, -6], foil_fine, of_sameBox (by decide +kernel), ⟨0, 0, 1 / 40⟩, ?_, ?_⟩
  · decide +kernel
  · unfold Region; decide +kernel

theorem C78_violated : ¬ C78_statement := by
  intro h
  obtain ⟨c, lits, hf, hb, x, hx, hr⟩ := C78_foil_violated
  obtain ⟨m, hm, hs⟩ := h c .and lits hf
  rw [hb] at hm
  injection hm with hm
  subst hm
  exact hs x hx hr

end Geouned.BB
