import Verif.Poly.Lemmas8
/-!
# C114: a cell described by planes

For the bounding box of a cell GEOReverse makes a definition of planes only (`solid_plane_box`). What a cell, its planes and a point are is
specified in `Poly/Spec.lean`; `planesOf` gives the planes by their numbers, and the definition.
-/
namespace Geouned.Poly
open Geouned Geouned.Text

variable {P : Type}

/-- **C114.** For every cell, orientation and order of the surfaces, the planes and the definition are made without exception; if there are planes
for every curved surface of the cell, every number in the new definition is that of a plane. -/
theorem C114_planes (order : List Int → List Int) (horder : ∀ l n, n ∈ order l ↔ n ∈ l) (surfaces : Nat → Option (Surf P)) (d : Seq)
    (hd : Cell surfaces d) (o : Orient) :
    ∃ planes r, planesOf order surfaces o d = .ok (planes, r) ∧ (Supported surfaces → ∀ n, Has n r → ∃ p, planes n.natAbs = some p) := by
  obtain ⟨planes, r, N, dict, h1, h2⟩ := planesOf_outcome horder hd o
  exact ⟨planes, r, h1, fun hs => h2.supported hd hs⟩

/-- what the definition of planes is for, in orientation `Forward`: the cell is contained in it -/
def Contained (P : Type) (one : (Nat → Option (Surf P)) → Seq → Prop) : Prop :=
  ∀ (order : List Int → List Int) (surfaces : Nat → Option (Surf P)) (d : Seq), (∀ l n, n ∈ order l ↔ n ∈ l) → Cell surfaces d → Supported surfaces →
    one surfaces d → ∃ planes r, planesOf order surfaces .forward d = .ok (planes, r) ∧
      ∀ σ on τ, Point surfaces σ on → (∀ n p, planes n = some p → τ n = on p) → d.sem σ = true → r.sem τ = true

/-- **C114**, proved part: every cell that uses no curved surface with both signs is contained in its definition of planes. -/
theorem C114_forward_partial (P : Type) : Contained P OneSign := by
  intro order surfaces d horder hd hs hone
  obtain ⟨planes, r, N, dict, h1, h2⟩ := planesOf_outcome horder hd .forward
  refine ⟨planes, r, h1, fun σ on τ hp hτ hσ => ?_⟩
  rw [← h2.mix_r hd hs hp.plane hτ]
  rw [← h2.mix_d σ τ] at hσ
  refine h2.result _ (fun x hx => ?_) hσ
  obtain ⟨n, conv, k1, k2, k3, k4, -, k5⟩ := h2.inside (σ := σ) hτ hx
  have hN : x.1 ≤ N := by rw [← k2]; exact h2.le n k1
  have hm : mix σ τ N x.1 = σ x.1 := by simp [mix, hN]
  have hn0 := (hd.known n k1).1
  refine ⟨fun a b => k5.2 ?_, fun a b c d => ?_⟩
  · rw [hm] at b
    have e : conv (posOf .forward n) = conv (some false) := by
      by_cases hpos : 0 < n
      · have : n = (x.1 : Int) := by omega
        have := hone x.1 conv k3 (this ▸ k1) a
        simp only [posOf, hpos]; simpa using this
      · simp [posOf, hpos]
    rw [e]
    exact hp.around x.1 conv k3 b
  · rw [hm] at c
    have e : conv (posOf .forward n) = conv (some true) := by
      by_cases hpos : 0 < n
      · simp [posOf, hpos]
      · have : n = -(x.1 : Int) := by omega
        have := hone x.1 conv k3 b (this ▸ k1)
        simp only [posOf, hpos]; simpa using this.symm
    rw [k5, e] at d
    rw [k4, e] at a
    rw [hp.within x.1 conv k3 a d] at c
    cases c

/-! ### a curved surface with both signs -/

/-- the cell `(-5 3):(5 -3)` -/
def bothCell : Seq := .lst .or 1 [.lst .and 0 [.int (-5), .int 3], .lst .and 0 [.int 5, .int (-3)]]

/-- surface 3 is plane 7; surface 5 is curved, with one plane (0) around it and one (1) inside of it -/
def bothSurf : Nat → Option (Surf Nat)
  | 3 => some (.plane 7)
  | 5 => some (.curved fun pos => .flat [if pos = some true then 1 else 0])
  | _ => none

theorem bothSurf_cases {n : Nat} {x : Surf Nat} (h : bothSurf n = some x) :
    n = 3 ∧ x = .plane 7 ∨ n = 5 ∧ x = .curved fun pos => .flat [if pos = some true then 1 else 0] := by
  unfold bothSurf at h
  split at h
  · cases h; exact .inl ⟨rfl, rfl⟩
  · cases h; exact .inr ⟨rfl, rfl⟩
  · cases h

theorem bothSurf_cell : Cell bothSurf bothCell := by
  refine ⟨by simp [bothCell, Seq.NoBool, Seq.NoBoolL], ⟨_, _, _, rfl⟩, fun n hn => ?_, fun n conv hn pos => ?_⟩
  · simp [bothCell, Has, HasL] at hn
    rcases hn with (rfl | rfl) | rfl | rfl <;> exact ⟨by decide, rfl⟩
  · rcases bothSurf_cases hn with ⟨-, h⟩ | ⟨-, h⟩ <;> cases h
    trivial

theorem bothSurf_supported : Supported bothSurf := by
  intro n conv hn pos
  rcases bothSurf_cases hn with ⟨-, h⟩ | ⟨-, h⟩ <;> cases h
  simp

/-- on the positive side of surface 3, and inside surface 5, but not inside of plane 1 -/
theorem bothSurf_point : Point bothSurf (fun n => n == 3) (fun p => p == 7 || p == 0) := by
  refine ⟨fun n p hn => ?_, fun n conv hn _ => ?_, fun n conv hn ht => ?_⟩
  · rcases bothSurf_cases hn with ⟨rfl, h⟩ | ⟨rfl, h⟩ <;> cases h
    rfl
  · rcases bothSurf_cases hn with ⟨rfl, h⟩ | ⟨rfl, h⟩ <;> cases h
    intro p hp
    simp at hp
    subst hp; rfl
  · rcases bothSurf_cases hn with ⟨rfl, h⟩ | ⟨rfl, h⟩ <;> cases h
    simp [Group.twoSided] at ht

/-- **C114**, violated: with a curved surface of both signs, the planes of the sign that comes last are used for both; here a point of the cell
(between the planes inside of the surface and those around it) is not in the definition of planes. -/
theorem C114_forward_violated : ¬ Contained Nat fun _ _ => True := by
  intro h
  obtain ⟨planes, r, h1, h2⟩ := h id bothSurf bothCell (fun _ _ => Iff.rfl) bothSurf_cell bothSurf_supported trivial
  have e : (planesOf id bothSurf .forward bothCell).map (fun x => (x.1 3, x.1 7, x.2)) =
      .ok (some 7, some 1, .lst .or 1 [.lst .or 0 [.int (-3)], .lst .and 0 [.int 3, .int 7]]) := rfl
  rw [h1] at e
  obtain ⟨e3, e⟩ := Prod.mk.inj (Except.ok.inj e)
  obtain ⟨e7, er⟩ := Prod.mk.inj e
  dsimp only at e3 e7 er
  subst er
  have := h2 (fun n => n == 3) (fun p => p == 7 || p == 0) (fun n => match planes n with | some p => p == 7 || p == 0 | none => false) bothSurf_point
    (fun n p hn => by rw [hn]) rfl
  simp [Seq.sem, Seq.semAny, Seq.semAll, lit, e3, e7] at this

/-! ### orientation `Reversed` -/

/-- **C114.** In orientation `Reversed` the definition of planes is contained in the cell (again without curved surfaces of both signs). -/
theorem C114_reversed_partial (order : List Int → List Int) (horder : ∀ l n, n ∈ order l ↔ n ∈ l) (surfaces : Nat → Option (Surf P)) (d : Seq)
    (hd : Cell surfaces d) (hs : Supported surfaces) (hone : OneSign surfaces d) :
    ∃ planes r, planesOf order surfaces .reversed d = .ok (planes, r) ∧
      ∀ σ on τ, Point surfaces σ on → (∀ n p, planes n = some p → τ n = on p) → r.sem τ = true → d.sem σ = true := by
  obtain ⟨planes, r, N, dict, h1, h2⟩ := planesOf_outcome horder hd .reversed
  refine ⟨planes, r, h1, fun σ on τ hp hτ hr => ?_⟩
  rw [← h2.mix_r hd hs hp.plane hτ] at hr
  rw [← h2.mix_d σ τ]
  refine h2.result _ (fun x hx => ?_) hr
  obtain ⟨n, conv, k1, k2, k3, k4, -, k5⟩ := h2.inside (σ := σ) hτ hx
  have hN : x.1 ≤ N := by rw [← k2]; exact h2.le n k1
  have hm : mix σ τ N x.1 = σ x.1 := by simp [mix, hN]
  have hn0 := (hd.known n k1).1
  refine ⟨fun a b => ?_, fun a b c => ?_⟩
  · rw [hm]
    have e : conv (posOf .reversed n) = conv (some false) := by
      by_cases hpos : 0 < n
      · simp [posOf, hpos]
      · have : n = -(x.1 : Int) := by omega
        have := hone x.1 conv k3 a (this ▸ k1)
        simp only [posOf, hpos]; simpa using this
    rw [k5, e] at b
    cases hσ : σ x.1 with
    | true => rfl
    | false => exact absurd (hp.around x.1 conv k3 hσ) b
  · rw [hm]
    have e : conv (posOf .reversed n) = conv (some true) := by
      by_cases hpos : 0 < n
      · have : n = (x.1 : Int) := by omega
        have := hone x.1 conv k3 (this ▸ k1) b
        simp only [posOf, hpos]; simpa using this.symm
      · simp [posOf, hpos]
    rw [k5, e] at c
    rw [k4, e] at a
    exact hp.within x.1 conv k3 a c

/-! ### where the planes are as good as the surfaces -/

/-- the sign of curved surface `n` for which no planes are used: the outside of a surface in a `Forward` cell, its inside in a `Reversed` cell -/
def Dropped (o : Orient) (d : Seq) (n : Nat) : Prop := (o = .forward ∧ Has n d) ∨ (o = .reversed ∧ Has (-(n : Int)) d)

/-- At a point that is inside a curved surface exactly when it is inside its planes (whichever are used), and outside of the surfaces of which a sign
is dropped, the cell and its definition of planes agree. `plain`: a condition on the cell. -/
def Exact (P : Type) (plain : (Nat → Option (Surf P)) → Orient → Seq → Prop) : Prop :=
  ∀ (order : List Int → List Int) (surfaces : Nat → Option (Surf P)) (d : Seq) (o : Orient), (∀ l n, n ∈ order l ↔ n ∈ l) → Cell surfaces d → Supported surfaces →
    plain surfaces o d → ∃ planes r, planesOf order surfaces o d = .ok (planes, r) ∧
      ∀ (σ : Side) (on : P → Bool) (τ : Side), (∀ n p, surfaces n = some (.plane p) → σ n = on p) →
        (∀ n conv, surfaces n = some (.curved conv) → ∀ pos, ((conv pos).Inside fun p => on p = true) ↔ σ n = false) →
        (∀ n conv, surfaces n = some (.curved conv) → ∀ pos, (conv pos).twoSided = false → Dropped o d n → σ n = true) →
        (∀ n p, planes n = some p → τ n = on p) → r.sem τ = d.sem σ

/-- **C114**, proved part: the cell and its definition of planes agree at such points if no sign of a surface is dropped (always in orientation
`Undefined`). -/
theorem C114_exact_partial (P : Type) :
    Exact P fun surfaces o d => ∀ n conv pos, surfaces n = some (.curved conv) → (conv pos).twoSided = false → ¬ Dropped o d n := by
  intro order surfaces d o horder hd hs hplain
  obtain ⟨planes, r, N, dict, h1, h2⟩ := planesOf_outcome horder hd o
  refine ⟨planes, r, h1, fun σ on τ hp hin _ hτ => ?_⟩
  rw [← h2.mix_r hd hs hp hτ, ← h2.mix_d σ τ]
  refine h2.exact' _ fun x hx hne => ?_
  obtain ⟨n, conv, k1, k2, k3, k4, -, k5⟩ := h2.inside (σ := σ) hτ hx
  have hN : x.1 ≤ N := by rw [← k2]; exact h2.le n k1
  have hm : mix σ τ N x.1 = σ x.1 := by simp [mix, hN]
  refine ⟨?_, by rw [k5, hm]; exact hin x.1 conv k3 _⟩
  cases o with
  | forward => exact fun a b => hplain x.1 conv _ k3 (k4 ▸ a) (.inl ⟨rfl, b⟩)
  | reversed => exact fun a b => hplain x.1 conv _ k3 (k4 ▸ a) (.inr ⟨rfl, b⟩)
  | undefined => trivial

/-- surface 1 is plane 7; surface 5 is curved, with plane 0 -/
def oneSurf : Nat → Option (Surf Nat)
  | 1 => some (.plane 7)
  | 5 => some (.curved fun _ => .flat [0])
  | _ => none

theorem oneSurf_cases {n : Nat} {x : Surf Nat} (h : oneSurf n = some x) : n = 1 ∧ x = .plane 7 ∨ n = 5 ∧ x = .curved fun _ => .flat [0] := by
  unfold oneSurf at h
  split at h
  · cases h; exact .inl ⟨rfl, rfl⟩
  · cases h; exact .inr ⟨rfl, rfl⟩
  · cases h

/-- **C114**, violated: in the cell `1 5` surface 5 is replaced by `True`, and `clean` removes surface number 1 instead of it, since `True == 1` in
Python: the definition is `True`. -/
theorem C114_exact_violated : ¬ Exact Nat fun _ _ _ => True := by
  intro h
  obtain ⟨planes, r, h1, h2⟩ := h id oneSurf (.lst .and 0 [.int 1, .int 5]) .forward (fun _ _ => Iff.rfl)
    ⟨by simp [Seq.NoBool, Seq.NoBoolL], ⟨_, _, _, rfl⟩, fun n hn => by
      simp [Has, HasL] at hn
      rcases hn with rfl | rfl <;> exact ⟨by decide, rfl⟩, fun n conv hn pos => by
      rcases oneSurf_cases hn with ⟨-, h⟩ | ⟨-, h⟩ <;> cases h
      trivial⟩
    (fun n conv hn pos => by
      rcases oneSurf_cases hn with ⟨-, h⟩ | ⟨-, h⟩ <;> cases h
      simp) trivial
  have e : (planesOf id oneSurf .forward (.lst .and 0 [.int 1, .int 5])).map (fun x => x.2) = .ok (.boo .and 0 true) := rfl
  rw [h1] at e
  have er : r = .boo .and 0 true := Except.ok.inj e
  subst er
  have := h2 (fun n => n == 5) (fun _ => false) (fun n => match planes n with | some p => false | none => false)
    (fun n p hn => by rcases oneSurf_cases hn with ⟨rfl, h⟩ | ⟨rfl, h⟩ <;> cases h; rfl)
    (fun n conv hn pos => by
      rcases oneSurf_cases hn with ⟨rfl, h⟩ | ⟨rfl, h⟩ <;> cases h
      simp [Group.Inside])
    (fun n conv hn pos _ _ => by rcases oneSurf_cases hn with ⟨rfl, h⟩ | ⟨rfl, h⟩ <;> cases h; rfl)
    (fun n p hn => by simp only [hn])
  simp [Seq.sem, Seq.semAll, lit] at this

/-! ### surfaces without planes -/

/-- **C114**, violated: a surface of a type for which there are no planes stays in the definition, and has no entry among the planes, whatever the
cell `-5`; looking the plane up then raises `KeyError`. -/
theorem C114_unsupported_violated (order : List Int → List Int) (horder : order [-5] = [-5]) (o : Orient) :
    ∃ r, planesOf order (fun n => if n = 5 then some (.curved fun _ => (.flat [] : Group P)) else none) o (.lst .and 0 [.int (-5)]) = .ok (fun _ => none, r) ∧
      Has (-5) r := by
  refine ⟨.lst .and 0 [.int (-5)], ?_, by simp [Has, HasL]⟩
  have : dedup (signed (.lst .and 0 [.int (-5)])) = [-5] := rfl
  simp only [planesOf, quadricToPlane, this, horder, bind, Except.bind]
  rfl

/-! ### a concrete cell

`-5 3 (-4 : 8)` with a curved surface 5 of four planes, a two-sided surface 8 and two planes. -/

def sampleSurf : Nat → Option (Surf Nat)
  | 3 => some (.plane 100)
  | 4 => some (.plane 101)
  | 5 => some (.curved fun pos => .flat (if pos = some true then [20, 21] else [10, 11]))
  | 8 => some (.curved fun pos => .cone (if pos = some true then [40, 41] else [30, 31]))
  | _ => none

def sampleCell : Seq := .lst .and 2 [.lst .and 0 [.int (-5), .int 3], .lst .or 0 [.int (-4), .int 8]]

theorem sampleSurf_cases {n : Nat} {x : Surf Nat} (h : sampleSurf n = some x) : n = 3 ∧ x = .plane 100 ∨ n = 4 ∧ x = .plane 101 ∨
    n = 5 ∧ x = (.curved fun pos => .flat (if pos = some true then [20, 21] else [10, 11])) ∨
    n = 8 ∧ x = (.curved fun pos => .cone (if pos = some true then [40, 41] else [30, 31])) := by
  unfold sampleSurf at h
  split at h <;> cases h <;> simp

/-- the hypotheses of the theorems hold for it, at a point inside of surface 5 and outside of surface 8 -/
example : Cell sampleSurf sampleCell ∧ Supported sampleSurf ∧ OneSign sampleSurf sampleCell ∧
    Point sampleSurf (fun n => n == 3 || n == 4 || n == 8) (fun p => p == 100 || p == 101 || p == 10 || p == 11 || p == 30) ∧
    sampleCell.sem (fun n => n == 3 || n == 4 || n == 8) = true := by
  refine ⟨⟨by simp [sampleCell, Seq.NoBool, Seq.NoBoolL], ⟨_, _, _, rfl⟩, fun n hn => ?_, fun n conv hn pos => ?_⟩, fun n conv hn pos => ?_, fun n conv hn h1 h2 => ?_,
    ⟨fun n p hn => ?_, fun n conv hn hσ => ?_, fun n conv hn ht hi => ?_⟩, by decide⟩
  · simp [sampleCell, Has, HasL] at hn
    rcases hn with (rfl | rfl) | rfl | rfl <;> exact ⟨by decide, rfl⟩
  · rcases sampleSurf_cases hn with ⟨-, h⟩ | ⟨-, h⟩ | ⟨-, h⟩ | ⟨-, h⟩ <;> cases h
    · trivial
    · simp only [Group.Ok]; split <;> simp
  · rcases sampleSurf_cases hn with ⟨-, h⟩ | ⟨-, h⟩ | ⟨-, h⟩ | ⟨-, h⟩ <;> cases h <;> dsimp only <;> split <;> simp
  · simp [sampleCell, Has, HasL] at h1 h2
    omega
  · rcases sampleSurf_cases hn with ⟨rfl, h⟩ | ⟨rfl, h⟩ | ⟨-, h⟩ | ⟨-, h⟩ <;> cases h <;> rfl
  · rcases sampleSurf_cases hn with ⟨-, h⟩ | ⟨-, h⟩ | ⟨rfl, h⟩ | ⟨rfl, h⟩ <;> cases h
    · simp [Group.Inside]
    · simp at hσ
  · rcases sampleSurf_cases hn with ⟨-, h⟩ | ⟨-, h⟩ | ⟨rfl, h⟩ | ⟨rfl, h⟩ <;> cases h
    · simp [Group.twoSided] at ht
    · simp [Group.Inside] at hi

/-- its definition of planes: surface 5 becomes planes 9 and 10 (around it), `8` the complement of planes 11 and 12 (inside of it) -/
example : (planesOf id sampleSurf .forward sampleCell).map (fun x => (x.2, [9, 10, 11, 12].map x.1)) =
    .ok (.lst .and 1 [.lst .and 0 [.int 3, .int 9, .int 10], .lst .or 0 [.int (-4), .int (-11), .int (-12)]], [some 10, some 11, some 40, some 41]) := by rfl

end Geouned.Poly
