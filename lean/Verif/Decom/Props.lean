import Verif.Decom.CountLemmas
import Mathlib.Tactic.Ring
/-!
# C83: the pieces of a decomposed solid
-/
namespace Geouned.Decom

variable {S T Pt : Type}

/-- the property in full: with a kernel whose cuts are divisions, the decomposition of solids without common points is a division of them -/
def C83_statement : Prop :=
  ∀ (S T Pt : Type) (k : Cad S T) (mem : S → Pt → Prop) (o : Options) (n : Nat) (solids out : List S) (err : Nat),
    Exact k mem → solids.Pairwise (Apart mem) → splitSolid k o n solids = .ok (out, err) → Divides k mem out solids

/-- pieces may be dropped, each of at most 0.01 mm³ and each either one of the solids or a piece cut by the kernel; with them, the result is a division -/
theorem C83_dropped_partial (k : Cad S T) (mem : S → Pt → Prop) (o : Options) (n : Nat) (solids out : List S) (err : Nat)
    (hk : Exact k mem) (hs : solids.Pairwise (Apart mem)) (h : splitSolid k o n solids = .ok (out, err)) :
    ∃ dropped : List S, (∀ p ∈ dropped, k.vol p ≤ 1 / 100 ∧ (p ∈ solids ∨ ∃ s ts tol ps, k.slice s ts tol = some ps ∧ p ∈ ps)) ∧
      Divides k mem (out ++ dropped) solids := by
  obtain ⟨d, hd, hsum⟩ := solidLoop_sum (I := fun x => x ∈ solids) (exact_cons hk) (fun x hx => hx) h
  refine ⟨d, hd, (divides_iff k mem hs).mpr ?_⟩
  rw [List.map_append, List.sum_append, hsum]
  simp

/-- if the solids and all pieces cut by the kernel are larger than 0.01 mm³, the decomposition is a division -/
theorem C83_exact_partial (k : Cad S T) (mem : S → Pt → Prop) (o : Options) (n : Nat) (solids out : List S) (err : Nat)
    (hk : Exact k mem) (hs : solids.Pairwise (Apart mem)) (hv : ∀ s ∈ solids, 1 / 100 < k.vol s)
    (hp : ∀ s ts tol ps, k.slice s ts tol = some ps → ∀ p ∈ ps, 1 / 100 < k.vol p) (h : splitSolid k o n solids = .ok (out, err)) :
    Divides k mem out solids := by
  obtain ⟨d, hd, hdiv⟩ := C83_dropped_partial k mem o n solids out err hk hs h
  have : d = [] := by
    refine List.eq_nil_iff_forall_not_mem.mpr fun x hx => ?_
    obtain ⟨h1, h2 | ⟨s, ts, tol, ps, h2, h3⟩⟩ := hd x hx
    · exact absurd (hv x h2) (not_lt.mpr h1)
    · exact absurd (hp s ts tol ps h2 x h3) (not_lt.mpr h1)
  rw [this, List.append_nil] at hdiv
  exact hdiv

/-- no point is added, and no point is in two pieces, whatever is dropped -/
theorem C83_sound_partial (k : Cad S T) (mem : S → Pt → Prop) (o : Options) (n : Nat) (solids out : List S) (err : Nat)
    (hk : Exact k mem) (hs : solids.Pairwise (Apart mem)) (h : splitSolid k o n solids = .ok (out, err)) :
    out.Pairwise (Apart mem) ∧ ∀ x, (∃ p ∈ out, mem p x) → ∃ s ∈ solids, mem s x := by
  obtain ⟨d, -, hdiv⟩ := C83_dropped_partial k mem o n solids out err hk hs h
  refine ⟨(List.pairwise_append.mp hdiv.apart).1, fun x ⟨p, hp, hm⟩ => (hdiv.same x).mp ⟨p, List.mem_append_left _ hp, hm⟩⟩

/-! ## A kernel

The solids are the intervals `[a, b)` of the line, of integers; a tool is a cutting position; the volume is the length times `scale`. The solid is cut
at all the positions of the tools that are inside it; the kernel raises for an empty interval. -/

/-- cut `[a, b)` at a position -/
def cutAt (c : ℤ) (i : ℤ × ℤ) : List (ℤ × ℤ) := if i.1 < c ∧ c < i.2 then [(i.1, c), (c, i.2)] else [i]

/-- the kernel of intervals: `pl` the planes of a solid, `cy` the cylinders, `ax` the auxiliary planes -/
def lineCad (scale : ℚ) (cl : ℤ × ℤ → List ℤ) (pl : ℤ × ℤ → List ℤ) (cy : ℤ × ℤ → List ℤ) (ax : ℤ × ℤ → List ℤ) : Cad (ℤ × ℤ) ℤ where
  vol i := (i.2 - i.1 : ℤ) * scale
  slice i ts _ := if i.1 < i.2 then some (ts.foldl (fun l c => l.flatMap (cutAt c)) [i]) else none
  cylPlanes := cl
  cyl i := i.1
  planes := pl
  second kd i := if kd = .cyl then cy i else []
  aux := ax
  par _ _ := true
  pos _ p := p
  depth := 30

/-- the points of an interval -/
def lineMem (i : ℤ × ℤ) (x : ℤ) : Prop := i.1 ≤ x ∧ x < i.2

theorem divides_refl (k : Cad S T) (mem : S → Pt → Prop) {l : List S} (h : l.Pairwise (Apart mem)) : Divides k mem l l :=
  ⟨fun _ => Iff.rfl, h, rfl⟩

theorem cutAt_divides {scale : ℚ} {cl pl cy ax : ℤ × ℤ → List ℤ} (c : ℤ) (i : ℤ × ℤ) :
    Divides (lineCad scale cl pl cy ax) lineMem (cutAt c i) [i] := by
  unfold cutAt
  split
  · next h =>
    refine ⟨fun x => ?_, ?_, ?_⟩
    · simp only [List.mem_cons, List.not_mem_nil, or_false, exists_eq_or_imp, exists_eq_left, lineMem]
      omega
    · simp only [List.pairwise_cons, List.mem_cons, List.not_mem_nil, or_false, forall_eq, false_imp_iff, implies_true, List.Pairwise.nil, and_true,
        Apart, lineMem]
      intro x
      omega
    · simp only [List.map_cons, List.map_nil, List.sum_cons, List.sum_nil, lineCad]
      push_cast
      ring
  · exact divides_refl _ _ (by simp)

theorem line_exact (scale : ℚ) (cl pl cy ax : ℤ × ℤ → List ℤ) : Exact (lineCad scale cl pl cy ax) lineMem := by
  intro s ts tol ps h
  have hx : ts.foldl (fun l c => l.flatMap (cutAt c)) [s] = ps := by
    simp only [lineCad] at h
    split at h
    · exact Option.some.inj h
    · cases h
  rw [divides_iff _ _ (by simp), ← hx]
  have gen : ∀ (ts : List ℤ) (l : List (ℤ × ℤ)), ((ts.foldl (fun l c => l.flatMap (cutAt c)) l).map (weight (lineCad scale cl pl cy ax) lineMem)).sum =
      (l.map (weight (lineCad scale cl pl cy ax) lineMem)).sum := by
    intro ts
    induction ts with
    | nil => intro l; rfl
    | cons t ts ih =>
      intro l
      rw [List.foldl_cons, ih]
      induction l with
      | nil => rfl
      | cons a l ihl =>
        rw [List.flatMap_cons, List.map_append, List.sum_append, ihl, List.map_cons, List.sum_cons]
        congr 1
        have := (divides_iff _ _ (by simp)).mp (cutAt_divides (scale := scale) (cl := cl) (pl := pl) (cy := cy) (ax := ax) t a)
        simpa using this
  exact gen ts [s]

/-- the hypotheses and a run: `[0, 6)` of 6 mm³ with a plane at 2, cut there, then at 4 by the cylinder at 4 and at 5 by the auxiliary plane at 5 -/
example : Exact (lineCad 1 (fun _ => []) (fun _ => [2]) (fun _ => [4]) (fun _ => [5])) lineMem ∧
    ([(0, 6), (7, 9)] : List (ℤ × ℤ)).Pairwise (Apart lineMem) ∧
    splitSolid (lineCad 1 (fun _ => []) (fun _ => [2]) (fun _ => [4]) (fun _ => [5])) {} 5 [(0, 6), (7, 9)] =
      .ok ([(0, 2), (2, 4), (4, 5), (5, 6), (7, 9)], 0) := by
  refine ⟨line_exact _ _ _ _ _, ?_, by decide +kernel⟩
  simp only [List.pairwise_cons, List.mem_cons, List.not_mem_nil, or_false, forall_eq, false_imp_iff, implies_true, List.Pairwise.nil, and_true,
    Apart, lineMem]
  intro x
  omega

theorem foldl_cutAt_pos : ∀ (ts : List ℤ) (l : List (ℤ × ℤ)), (∀ i ∈ l, i.1 < i.2) →
    ∀ i ∈ ts.foldl (fun l c => l.flatMap (cutAt c)) l, i.1 < i.2 := by
  intro ts
  induction ts with
  | nil => intro l h; exact h
  | cons t ts ih =>
    intro l h
    refine ih _ fun i hi => ?_
    obtain ⟨a, ha, hi⟩ := List.mem_flatMap.mp hi
    unfold cutAt at hi
    split at hi
    · next hc =>
      simp only [List.mem_cons, List.not_mem_nil, or_false] at hi
      rcases hi with rfl | rfl
      · exact hc.1
      · exact hc.2
    · rw [List.mem_singleton.mp hi]; exact h a ha

/-- the hypotheses of `C83_exact_partial` for the same kernel: every piece is an interval of integers, hence of 1 mm³ or more -/
example (cl pl cy ax : ℤ × ℤ → List ℤ) :
    (∀ s ∈ ([(0, 6), (7, 9)] : List (ℤ × ℤ)), 1 / 100 < (lineCad 1 cl pl cy ax).vol s) ∧
    ∀ s ts tol ps, (lineCad 1 cl pl cy ax).slice s ts tol = some ps → ∀ p ∈ ps, 1 / 100 < (lineCad 1 cl pl cy ax).vol p := by
  constructor
  · intro s hs
    simp only [List.mem_cons, List.not_mem_nil, or_false] at hs
    rcases hs with rfl | rfl <;> norm_num [lineCad]
  · intro s ts tol ps h p hp
    simp only [lineCad] at h ⊢
    split at h
    · next h0 =>
      have hx := Option.some.inj h
      rw [← hx] at hp
      have h1 : p.1 < p.2 := foldl_cutAt_pos ts [s] (by simpa using h0) p hp
      have h2 : (1 : ℚ) ≤ ((p.2 - p.1 : ℤ) : ℚ) := by exact_mod_cast (by omega : (1 : ℤ) ≤ p.2 - p.1)
      linarith
    · cases h

/-- the property fails: a solid of 0.015 mm³ that an auxiliary plane cuts in two vanishes -/
theorem C83_violated : ¬ C83_statement := by
  intro h
  have h2 := h (ℤ × ℤ) ℤ ℤ (lineCad (3 / 400) (fun _ => []) (fun _ => []) (fun _ => []) (fun _ => [1])) lineMem {} 5 [(0, 2)] [] 6
    (line_exact _ _ _ _ _) (by simp) (by decide +kernel)
  have := (h2.same 0).mpr ⟨(0, 2), by simp, by simp [lineMem]⟩
  simp at this

end Geouned.Decom
