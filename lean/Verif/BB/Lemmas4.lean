import Verif.BB.Lemmas3
/-!
# Lemmas: which points are taken to be inside; the vertices of a cell
-/
namespace Geouned.BB
open Geouned Geouned.Rev.Solid

variable {F : Type} [Field F] [LinearOrder F] [IsStrictOrderedRing F]

/-! ### `evaluate` on a list of surfaces -/

theorem evaluate_and_false {vs : Known} : ∀ (lits : List Int) (nv : Bool),
    evaluateL vs .and nv (lits.map .int) = some false ↔ ∃ n ∈ lits, litVal vs n = some false
  | [], nv => by cases nv <;> simp [evaluateL]
  | n :: lits, nv => by
    simp only [List.map_cons, evaluateL, evaluate]
    cases h : litVal vs n with
    | none =>
      dsimp only
      rw [evaluate_and_false lits]
      simp [h]
    | some b =>
      cases b
      · simp [h]
      · simp only [Bool.not_true, Bool.and_false, beq_iff_eq, reduceCtorEq, Bool.false_eq_true, if_false]
        simp only [beq_self_eq_true, Bool.and_true]
        rw [if_neg (by decide), evaluate_and_false lits]
        simp [h]

theorem evaluate_or_true {vs : Known} : ∀ (lits : List Int) (nv : Bool),
    evaluateL vs .or nv (lits.map .int) = some true ↔ ∃ n ∈ lits, litVal vs n = some true
  | [], nv => by cases nv <;> simp [evaluateL]
  | n :: lits, nv => by
    simp only [List.map_cons, evaluateL, evaluate]
    cases h : litVal vs n with
    | none =>
      dsimp only
      rw [evaluate_or_true lits]
      simp [h]
    | some b =>
      cases b
      · simp only [Bool.not_false, Bool.and_true, Bool.and_false, Bool.false_eq_true, if_false]
        rw [if_neg (by decide), evaluate_or_true lits]
        simp [h]
      · simp [h]

theorem evaluate_and_true {vs : Known} : ∀ (lits : List Int) (nv : Bool),
    evaluateL vs .and nv (lits.map .int) = some true ↔ nv = false ∧ ∀ n ∈ lits, litVal vs n = some true
  | [], nv => by cases nv <;> simp [evaluateL]
  | n :: lits, nv => by
    simp only [List.map_cons, evaluateL, evaluate]
    cases h : litVal vs n with
    | none =>
      dsimp only
      rw [evaluate_and_true lits]
      simp [h]
    | some b =>
      cases b
      · simp [h]
      · simp only [Bool.not_true, Bool.and_false, Bool.false_eq_true, if_false, Bool.and_true]
        rw [if_neg (by decide), evaluate_and_true lits]
        simp [h]

theorem evaluate_or_false {vs : Known} : ∀ (lits : List Int) (nv : Bool),
    evaluateL vs .or nv (lits.map .int) = some false ↔ nv = false ∧ ∀ n ∈ lits, litVal vs n = some false
  | [], nv => by cases nv <;> simp [evaluateL]
  | n :: lits, nv => by
    simp only [List.map_cons, evaluateL, evaluate]
    cases h : litVal vs n with
    | none =>
      dsimp only
      rw [evaluate_or_false lits]
      simp [h]
    | some b =>
      cases b
      · simp only [Bool.not_false, Bool.and_true, Bool.and_false, Bool.false_eq_true, if_false]
        rw [if_neg (by decide), evaluate_or_false lits]
        simp [h]
      · simp [h]

theorem inside_true {c : Comp F} {p : Pt F} : isInside c p true = true ↔ evaluate (surfValue c p) c.definition ≠ some false := by
  unfold isInside
  cases evaluate (surfValue c p) c.definition with
  | none => simp
  | some b => cases b <;> simp

theorem inside_false {c : Comp F} {p : Pt F} : isInside c p false = true ↔ evaluate (surfValue c p) c.definition ≠ some true := by
  unfold isInside
  cases evaluate (surfValue c p) c.definition with
  | none => simp
  | some b => cases b <;> simp

/-- value of a signed surface: positive or negative by at least the tolerance -/
theorem litVal_true {c : Comp F} {p : Pt F} {n : Int} (hn : n.natAbs ∈ c.nums) (h0 : 0 < c.tol) :
    litVal (surfValue c p) n = some true ↔
      if n < 0 then (c.planes n.natAbs).ev p ≤ -c.tol else c.tol ≤ (c.planes n.natAbs).ev p := by
  unfold litVal surfValue
  rw [if_pos hn]
  by_cases ha : |(c.planes n.natAbs).ev p| < c.tol
  · rw [if_pos ha]
    rw [abs_lt] at ha
    simp only [reduceCtorEq, false_iff]
    split <;> rw [not_le] <;> linarith [ha.1, ha.2]
  · rw [if_neg ha]
    rw [not_lt, le_abs] at ha
    simp only [Option.some.injEq]
    by_cases hneg : n < 0
    · rw [if_pos hneg, if_pos hneg]
      simp only [Bool.not_eq_true', decide_eq_false_iff_not, not_lt]
      constructor
      · intro h; rcases ha with ha | ha <;> linarith
      · intro h; linarith
    · rw [if_neg hneg, if_neg hneg]
      simp only [decide_eq_true_iff]
      constructor
      · intro h; rcases ha with ha | ha <;> linarith
      · intro h; linarith

theorem litVal_false {c : Comp F} {p : Pt F} {n : Int} (hn : n.natAbs ∈ c.nums) (h0 : 0 < c.tol) :
    litVal (surfValue c p) n = some false ↔
      if n < 0 then c.tol ≤ (c.planes n.natAbs).ev p else (c.planes n.natAbs).ev p ≤ -c.tol := by
  unfold litVal surfValue
  rw [if_pos hn]
  by_cases ha : |(c.planes n.natAbs).ev p| < c.tol
  · rw [if_pos ha]
    rw [abs_lt] at ha
    simp only [reduceCtorEq, false_iff]
    split <;> rw [not_le] <;> linarith [ha.1, ha.2]
  · rw [if_neg ha]
    rw [not_lt, le_abs] at ha
    simp only [Option.some.injEq]
    by_cases hneg : n < 0
    · rw [if_pos hneg, if_pos hneg]
      simp only [Bool.not_eq_false', decide_eq_true_iff]
      constructor
      · intro h; rcases ha with ha | ha <;> linarith
      · intro h; linarith
    · rw [if_neg hneg, if_neg hneg]
      simp only [decide_eq_false_iff_not, not_lt]
      constructor
      · intro h; rcases ha with ha | ha <;> linarith
      · intro h; linarith

/-! ### points that are near -/

/-- `p` is at most `k` times 0.1 away from `v`, along each axis and along each unit vector -/
def Dev (k : F) (p v : Pt F) : Prop := ∀ n : Pt F, dot n n = 1 → |dot n (sub p v)| ≤ k * (1 / 10)

theorem dev_refl (v : Pt F) : Dev 0 v v := by
  intro n _
  have : dot n (sub v v) = 0 := by simp [dot, sub]
  rw [this]; simp

theorem dev_close {k : F} {p q v : Pt F} (hc : close p q = true) (h : Dev k q v) : Dev (k + 1) p v := by
  intro n hn
  have h1 := h n hn
  unfold close at hc
  rw [decide_eq_true_iff] at hc
  have h2 : |dot n (sub p q)| ≤ 1 / 10 := by
    have hcs : dot n (sub p q) * dot n (sub p q) ≤ dot n n * dot (sub p q) (sub p q) := by
      simp only [dot, sub]
      have a := mul_self_nonneg (n.x * (p.y - q.y) - n.y * (p.x - q.x))
      have b := mul_self_nonneg (n.x * (p.z - q.z) - n.z * (p.x - q.x))
      have d := mul_self_nonneg (n.y * (p.z - q.z) - n.z * (p.y - q.y))
      linarith
    rw [hn, one_mul] at hcs
    apply abs_le_of_sq_le_sq _ (by norm_num)
    have : dot n (sub p q) ^ 2 = dot n (sub p q) * dot n (sub p q) := by ring
    rw [this]
    have e : ((1 : F) / 10) ^ 2 = 1 / 100 := by norm_num
    rw [e]
    linarith
  have e : dot n (sub p v) = dot n (sub p q) + dot n (sub q v) := by simp only [dot, sub]; ring
  rw [e]
  have := abs_add_le (dot n (sub p q)) (dot n (sub q v))
  linarith

theorem dev_mono {k l : F} (hkl : k ≤ l) {p v : Pt F} (h : Dev k p v) : Dev l p v := fun n hn => (h n hn).trans (by linarith)

theorem dev_ax {k : F} {p v : Pt F} (h : Dev k p v) (a : Axis) : p.ax a ≤ v.ax a + k * (1 / 10) ∧ v.ax a ≤ p.ax a + k * (1 / 10) := by
  have := h (unit a) (by cases a <;> simp [dot, unit])
  rw [dot_unit, abs_le] at this
  have e : (sub p v).ax a = p.ax a - v.ax a := by cases a <;> rfl
  rw [e] at this
  constructor <;> linarith

theorem dev_ev {k : F} {p v : Pt F} (h : Dev k p v) {q : Plane F} (hq : dot q.nrm q.nrm = 1) :
    q.ev p ≤ q.ev v + k * (1 / 10) ∧ q.ev v ≤ q.ev p + k * (1 / 10) := by
  have := h q.nrm hq
  rw [abs_le] at this
  have e : dot q.nrm (sub p v) = q.ev p - q.ev v := by simp only [Plane.ev, dot, sub]; ring
  rw [e] at this
  constructor <;> linarith

/-! ### sorting and removing -/

theorem insert_mem {a : Axis} {p q : Pt F} : ∀ {l : List (Pt F)}, q ∈ insertPt a p l ↔ q = p ∨ q ∈ l
  | [] => by simp [insertPt]
  | b :: l => by
    unfold insertPt
    split
    · simp
    · rw [List.mem_cons, insert_mem, List.mem_cons]
      tauto

theorem sorted_mem {a : Axis} {q : Pt F} : ∀ {l : List (Pt F)}, q ∈ sorted a l ↔ q ∈ l
  | [] => by simp [sorted]
  | b :: l => by
    unfold sorted
    rw [insert_mem, sorted_mem, List.mem_cons]

/-- increasing coordinates -/
def Inc (a : Axis) (l : List (Pt F)) : Prop := l.Pairwise (fun p q => p.ax a ≤ q.ax a)

theorem insert_inc {a : Axis} {p : Pt F} : ∀ {l : List (Pt F)}, Inc a l → Inc a (insertPt a p l)
  | [], _ => by simp [insertPt, Inc]
  | b :: l, h => by
    unfold insertPt
    unfold Inc at h ⊢
    rw [List.pairwise_cons] at h
    split
    · rename_i hle
      rw [List.pairwise_cons]
      refine ⟨?_, List.pairwise_cons.2 h⟩
      intro q hq
      rcases List.mem_cons.1 hq with rfl | hq
      · exact hle
      · exact hle.trans (h.1 q hq)
    · rename_i hle
      rw [List.pairwise_cons]
      refine ⟨?_, insert_inc h.2⟩
      intro q hq
      rcases insert_mem.1 hq with rfl | hq
      · exact (not_le.1 hle).le
      · exact h.1 q hq

theorem sorted_inc {a : Axis} : ∀ (l : List (Pt F)), Inc a (sorted a l)
  | [] => by simp [sorted, Inc]
  | b :: l => by
    unfold sorted
    exact insert_inc (sorted_inc l)

theorem close_self (p : Pt F) : close p p = true := by
  unfold close
  have : dot (sub p p) (sub p p) = (0 : F) := by simp [dot, sub]
  rw [this]
  simp

theorem dropClose_sub {p : Pt F} : ∀ {l : List (Pt F)}, (dropClose p l).Sublist l
  | [] => by simp [dropClose]
  | q :: l => by
    unfold dropClose
    split
    · exact (dropClose_sub).trans (List.sublist_cons_self _ _)
    · exact (dropClose_sub).cons_cons _

theorem dropClose_near {p v : Pt F} : ∀ {l : List (Pt F)}, v ∈ l → ∃ r, (r = p ∨ r ∈ dropClose p l) ∧ close r v = true
  | q :: l, hv => by
    unfold dropClose
    by_cases hc : close p q = true
    · rw [if_pos hc]
      rcases List.mem_cons.1 hv with rfl | hv
      · exact ⟨p, .inl rfl, hc⟩
      · exact dropClose_near hv
    · rw [if_neg hc]
      rcases List.mem_cons.1 hv with rfl | hv
      · exact ⟨v, .inr (by simp), close_self v⟩
      · obtain ⟨r, hr, hcr⟩ := dropClose_near (p := q) hv
        refine ⟨r, .inr ?_, hcr⟩
        rcases hr with rfl | hr
        · simp
        · exact List.mem_cons_of_mem _ hr

theorem removeClose_sub {l : List (Pt F)} : (removeClose l).Sublist l := by
  unfold removeClose
  split
  · exact List.nil_sublist _
  · rename_i p qs hl
    rw [← List.reverse_sublist, List.reverse_reverse, hl]
    exact dropClose_sub.cons_cons _

theorem removeClose_near {l : List (Pt F)} {v : Pt F} (hv : v ∈ l) : ∃ r ∈ removeClose l, close r v = true := by
  unfold removeClose
  have hv' := List.mem_reverse.2 hv
  split
  · rename_i hl
    rw [hl] at hv'
    simp at hv'
  · rename_i p qs hl
    rw [hl] at hv'
    rcases List.mem_cons.1 hv' with rfl | hv'
    · exact ⟨v, by simp, close_self v⟩
    · obtain ⟨r, hr, hc⟩ := dropClose_near (p := p) hv'
      refine ⟨r, ?_, hc⟩
      rw [List.mem_reverse, List.mem_cons]
      exact hr

theorem sortPoint_near {a : Axis} {l : List (Pt F)} {v : Pt F} (hv : v ∈ l) : ∃ r ∈ sortPoint a l, close r v = true :=
  removeClose_near (sorted_mem.2 hv)

theorem sortPoint_inc (a : Axis) (l : List (Pt F)) : Inc a (sortPoint a l) := (sorted_inc l).sublist removeClose_sub

theorem mem_takeWhile_of {α : Type} {P : α → Bool} {v : α} : ∀ {l : List α}, (∀ pre post, l = pre ++ v :: post → ∀ u ∈ pre, P u = true) →
    v ∈ l → P v = true → v ∈ l.takeWhile P
  | b :: l, h, hv, hp => by
    by_cases hb : P b = true
    · rw [List.takeWhile_cons_of_pos hb]
      rcases List.mem_cons.1 hv with rfl | hv
      · simp
      · refine List.mem_cons_of_mem _ (mem_takeWhile_of ?_ hv hp)
        intro pre post hl u hu
        exact h (b :: pre) post (by rw [hl]; rfl) u (by simp [hu])
    · exfalso
      rcases List.mem_cons.1 hv with rfl | hv
      · exact hb hp
      · obtain ⟨pre, post, hl⟩ := List.append_of_mem hv
        exact hb (h (b :: pre) post (by rw [hl]; rfl) b (by simp))

theorem removeLower_mem {a : Axis} {l : List (Pt F)} (hl : Inc a l) {w : F} {v : Pt F} (hv : v ∈ l) (hw : w ≤ v.ax a) :
    v ∈ removePoints l w a true := by
  unfold removePoints
  refine mem_takeWhile_of ?_ (List.mem_reverse.2 hv) (by simpa using hw)
  intro pre post he u hu
  have hinc : (l.reverse).Pairwise (fun p q => q.ax a ≤ p.ax a) := List.pairwise_reverse.2 hl
  rw [he, List.pairwise_append] at hinc
  have := hinc.2.2 u hu v (by simp)
  simp only [if_true, Bool.not_eq_true', decide_eq_false_iff_not, not_lt]
  exact hw.trans this

theorem removeUpper_mem {a : Axis} {l : List (Pt F)} (hl : Inc a l.reverse) {w : F} {v : Pt F} (hv : v ∈ l) (hw : v.ax a ≤ w) :
    v ∈ removePoints l w a false := by
  unfold removePoints
  refine mem_takeWhile_of ?_ (List.mem_reverse.2 hv) (by simpa using hw)
  intro pre post he u hu
  unfold Inc at hl
  rw [he, List.pairwise_append] at hl
  have := hl.2.2 u hu v (by simp)
  simp only [Bool.false_eq_true, if_false, Bool.not_eq_true', decide_eq_false_iff_not, not_lt]
  exact this.trans hw

/-- what one axis gives: the limits hold all inside points that are kept by `sort_point`, and all these go on -/
theorem phase_ok {ins : Pt F → Bool} {a : Axis} {pts : List (Pt F)} {v0 : Pt F} (h0 : v0 ∈ sortPoint a pts) (hi0 : ins v0 = true) :
    ∃ lo hi pts', phase ins a pts = some ([lo, hi], pts') ∧
      ∀ v ∈ sortPoint a pts, ins v = true → v ∈ pts' ∧ lo ≤ v.ax a ∧ v.ax a ≤ hi := by
  have hinc := sortPoint_inc a pts
  cases hs : sortPoint a pts with
  | nil => rw [hs] at h0; simp at h0
  | cons p0 s0 =>
    rw [hs] at h0 hinc
    obtain ⟨f1, hf1⟩ : ∃ f1, (p0 :: s0).find? ins = some f1 := by
      rw [← Option.isSome_iff_exists, List.find?_isSome]
      exact ⟨v0, h0, hi0⟩
    have hlo : ∀ v ∈ p0 :: s0, ins v = true → f1.ax a ≤ v.ax a := by
      intro v hv hiv
      obtain ⟨_, as, bs, he, hno⟩ := List.find?_eq_some_iff_append.1 hf1
      unfold Inc at hinc
      rw [he, List.pairwise_append] at hinc
      rw [he] at hv
      rcases List.mem_append.1 hv with hv | hv
      · have := hno v hv
        rw [hiv] at this
        simp at this
      · rcases List.mem_cons.1 hv with rfl | hv
        · exact le_rfl
        · exact (List.pairwise_cons.1 hinc.2.1).1 v hv
    have hs2 : ∀ v ∈ p0 :: s0, ins v = true → v ∈ removePoints (p0 :: s0) (f1.ax a) a true :=
      fun v hv hiv => removeLower_mem hinc hv (hlo v hv hiv)
    have hdec : Inc a (removePoints (p0 :: s0) (f1.ax a) a true).reverse := by
      unfold Inc
      rw [List.pairwise_reverse]
      unfold removePoints
      exact (List.pairwise_reverse.2 hinc : ((p0 :: s0).reverse).Pairwise (fun p q => q.ax a ≤ p.ax a)).sublist (List.takeWhile_sublist _)
    obtain ⟨f2, hf2⟩ : ∃ f2, (removePoints (p0 :: s0) (f1.ax a) a true).find? ins = some f2 := by
      rw [← Option.isSome_iff_exists, List.find?_isSome]
      exact ⟨v0, hs2 v0 h0 hi0, hi0⟩
    have hhi : ∀ v ∈ p0 :: s0, ins v = true → v.ax a ≤ f2.ax a := by
      intro v hv hiv
      have hv := hs2 v hv hiv
      obtain ⟨_, as, bs, he, hno⟩ := List.find?_eq_some_iff_append.1 hf2
      unfold Inc at hdec
      rw [List.pairwise_reverse, he, List.pairwise_append] at hdec
      rw [he] at hv
      rcases List.mem_append.1 hv with hv | hv
      · have := hno v hv
        rw [hiv] at this
        simp at this
      · rcases List.mem_cons.1 hv with rfl | hv
        · exact le_rfl
        · exact (List.pairwise_cons.1 hdec.2.1).1 v hv
    refine ⟨f1.ax a, f2.ax a, removePoints (removePoints (p0 :: s0) (f1.ax a) a true) (f2.ax a) a false, ?_, ?_⟩
    · unfold phase
      rw [hs]
      dsimp only
      rw [hf1]
      simp only [lastPoint]
      cases hr : removePoints (p0 :: s0) (f1.ax a) a true with
      | nil =>
        have := hs2 v0 h0 hi0
        rw [hr] at this
        simp at this
      | cons p1 s1 =>
        dsimp only
        rw [hr] at hf2
        rw [hf2]
        simp
    · intro v hv hiv
      exact ⟨removeUpper_mem hdec (hs2 v hv hiv) (hhi v hv hiv), hlo v hv hiv, hhi v hv hiv⟩

/-- three axes: the limits enclose all the points of `V`, up to 0.1, 0.2 and 0.3 -/
theorem phases_ok {ins : Pt F → Bool} {V : Pt F → Prop} (hins : ∀ v, V v → ∀ p, Dev 3 p v → ins p = true) {pts : List (Pt F)}
    (hV : ∀ v, V v → v ∈ pts) (hne : ∃ v, V v) :
    ∃ x0 x1 y0 y1 z0 z1, phases ins [.x, .y, .z] pts = some [x0, x1, y0, y1, z0, z1] ∧
      ∀ v, V v → (x0 - 1 / 10 ≤ v.x ∧ v.x ≤ x1 + 1 / 10) ∧ (y0 - 2 / 10 ≤ v.y ∧ v.y ≤ y1 + 2 / 10) ∧
        (z0 - 3 / 10 ≤ v.z ∧ v.z ≤ z1 + 3 / 10) := by
  obtain ⟨w, hw⟩ := hne
  have stage : ∀ (k : F) (a : Axis) (l : List (Pt F)), k + 1 ≤ 3 → (∀ v, V v → ∃ p ∈ l, Dev k p v) →
      ∃ lo hi l', phase ins a l = some ([lo, hi], l') ∧
        (∀ v, V v → ∃ p ∈ l', Dev (k + 1) p v) ∧ ∀ v, V v → lo - (k + 1) * (1 / 10) ≤ v.ax a ∧ v.ax a ≤ hi + (k + 1) * (1 / 10) := by
    intro k a l hk hl
    have rep : ∀ v, V v → ∃ p ∈ sortPoint a l, Dev (k + 1) p v ∧ ins p = true := by
      intro v hv
      obtain ⟨p, hp, hd⟩ := hl v hv
      obtain ⟨r, hr, hc⟩ := sortPoint_near (a := a) hp
      have := dev_close hc hd
      exact ⟨r, hr, this, hins v hv r (dev_mono hk this)⟩
    obtain ⟨p, hp, _, hip⟩ := rep w hw
    obtain ⟨lo, hi, l', he, hall⟩ := phase_ok hp hip
    refine ⟨lo, hi, l', he, ?_, ?_⟩
    · intro v hv
      obtain ⟨p, hp, hd, hi⟩ := rep v hv
      exact ⟨p, (hall p hp hi).1, hd⟩
    · intro v hv
      obtain ⟨p, hp, hd, hi⟩ := rep v hv
      obtain ⟨_, h1, h2⟩ := hall p hp hi
      have := dev_ax hd a
      constructor <;> linarith [this.1, this.2]
  obtain ⟨x0, x1, l1, e1, r1, b1⟩ := stage 0 .x pts (by norm_num) (fun v hv => ⟨v, hV v hv, dev_refl v⟩)
  obtain ⟨y0, y1, l2, e2, r2, b2⟩ := stage (0 + 1) .y l1 (by norm_num) r1
  obtain ⟨z0, z1, l3, e3, r3, b3⟩ := stage (0 + 1 + 1) .z l2 (by norm_num) r2
  refine ⟨x0, x1, y0, y1, z0, z1, ?_, ?_⟩
  · simp [phases, e1, e2, e3]
  · intro v hv
    have hx := b1 v hv
    have hy := b2 v hv
    have hz := b3 v hv
    simp only [Pt.ax] at hx hy hz
    refine ⟨⟨?_, ?_⟩, ⟨?_, ?_⟩, ?_, ?_⟩ <;> linarith [hx.1, hx.2, hy.1, hy.2, hz.1, hz.2]

end Geouned.BB
