import Verif.Void.Lemmas
import Verif.Void.OverlapLemmas
import Mathlib.Data.Nat.Find
/-!
# Properties C26 (void cells) and C28 (`forceNoOverlap`)
-/
namespace Geouned

/-- a table that excludes nothing, with rows 1..7 -/
def freeTable (diagonal : Bool) : CTable :=
  ⟨[1, 2, 3, 4, 5, 6, 7], fun a b => if a == b then some (.diag 0) else some (.pair true true true true), diagonal⟩

theorem freeTable_sound (d : Bool) (σ : Side) : (freeTable d).Sound σ := by
  intro k1 k2 e h
  simp only [freeTable] at h
  split at h
  · next hk => simp at hk; subst hk; simp at h; subst h; simp [CTVal.Allows]
  · simp at h; subst h; simp [CTVal.Allows]

theorem freeTable_noEq (d : Bool) : (freeTable d).NoEquivalence := by
  intro k1 k2 e h
  simp only [freeTable] at h
  split at h <;> (simp at h; subst h; simp [CTVal.Equivalence])

/-! ### C26 -/

/-- C26 in full: whenever `get_void_complementary` returns, with a table that holds in the box, the cell it returns
(no cell: the empty region) holds at exactly the points of the box that are in none of the solids. -/
def C26_statement : Prop :=
  ∀ (mode : Simp) (enclosure : Bool) (box : Seq) (objs : List Seq) (t : CTable) (enum : Seq → List Nat) (f : Nat)
    (r : Option Seq),
    box.WF → (enclosure = false → FlatAnd box) → (∀ d ∈ objs, d.WF) → t.NoEquivalence →
    voidCell false mode enclosure box objs t enum f = .ok r →
    ∀ σ, (box.sem σ = true → t.Sound σ) →
      ((∃ c, r = some c ∧ c.sem σ = true) ↔ (box.sem σ = true ∧ ∀ d ∈ objs, d.sem σ = false))

/-- a solid (a union inside an intersection) whose void cell is wrong: 1 2 (3 4 : 5 7) -/
def badSolid : Seq :=
  .lst .and 2 [.lst .and 0 [.int 1, .int 2],
    .lst .or 1 [.lst .and 0 [.int 3, .int 4], .lst .and 0 [.int 5, .int 7]]]

/-- the void cell the code makes for it in a box 6 -/
def badCell : Option Seq :=
  match voidCell false .diag false (.lst .and 0 [.int 6]) [badSolid] (freeTable true) Seq.surfaces 60 with
  | .ok r => r
  | .error _ => none

set_option maxRecDepth 8000 in
/-- C26 is false of the code, and part of space is lost: for the single solid 1 2 (3 4 : 5 7) in the box 6 the void cell
leaves out the points where only the surfaces 3, 4 and 6 are positive, which are outside the solid. -/
theorem C26_void_cell_lost_violated : ¬ C26_statement := by
  intro h
  have hr : voidCell false .diag false (.lst .and 0 [.int 6]) [badSolid] (freeTable true) Seq.surfaces 60
      = .ok badCell := by rfl
  have := h .diag false (.lst .and 0 [.int 6]) [badSolid] (freeTable true) Seq.surfaces 60 badCell
    (by simp [Seq.WF, Seq.WFL]) (fun _ => ⟨[6], by simp, by simp⟩)
    (by intro d hd; simp at hd; subst hd; simp [badSolid, Seq.WF, Seq.WFL])
    (freeTable_noEq _) hr (fun n => n == 6 || n == 3 || n == 4) (fun _ => freeTable_sound _ _)
  have h2 := this.2 ⟨by decide, by intro d hd; simp at hd; subst hd; decide⟩
  obtain ⟨c, hc, hs⟩ := h2
  have : badCell.map (fun c => c.sem (fun n => n == 6 || n == 3 || n == 4)) = some false := by rfl
  rw [hc] at this
  simp at this
  rw [this] at hs
  cases hs

set_option maxRecDepth 8000 in
/-- The call may also raise: two solids, each reduced to one half-space, make `get_void_complementary` fail. -/
theorem C26_void_cell_raises_violated :
    (voidCell false .diag false (.lst .and 0 [.int 6]) [.lst .or 0 [.int (-1)], .lst .and 0 [.int (-2)]]
      (freeTable true) Seq.surfaces 60) = .error .attributeError := by rfl

/-- solids with a sub-cell that `check()` finds empty: the whole void cell is lost -/
def lostSolids : List Seq :=
  [.lst .and 1 [.lst .or 0 [.int (-1)], .lst .or 0 [.int 3, .int (-2)], .lst .or 0 [.int 1]],
    .lst .and 0 [.int (-4), .int (-3)]]

set_option maxRecDepth 8000 in
/-- The whole void of a box may be lost: no cell is made although the points where all of 1, 2, 3, 4 and 6 are
positive are in the box and in none of the two solids. -/
theorem C26_void_cell_none_violated :
    (voidCell false .diag false (.lst .and 0 [.int 6]) lostSolids (freeTable true) Seq.surfaces 60) = .ok none ∧
    (Seq.lst .and 0 [.int 6]).sem (fun _ => true) = true ∧ ∀ d ∈ lostSolids, d.sem (fun _ => true) = false := by
  refine ⟨by rfl, by decide, ?_⟩
  intro d hd
  simp only [lostSolids, List.mem_cons, List.not_mem_nil, or_false] at hd
  rcases hd with rfl | rfl <;> decide

/-- C26, proved part. `guard = true` is the same program that reports `lossy` where line 336 of boolean_solids.py
negates, where `update()` of `simplify` overwrites a sibling, and where the union of the solids has become an
intersection. Whenever it does not, the code returns the same cell, and this cell holds at exactly the points of the box
that are in none of the solids, for all points at which the table may be used: the table holds at the point if the point
is in the box, and everywhere for an enclosure piece in mode "full". In mode "no" no table is used.
Missing: executions that report `lossy` (there C26 is false); tables with an entry that says that two surfaces are
equal (C20 is false for them). -/
theorem C26_void_cell_partial (mode : Simp) (enclosure : Bool) (box : Seq) (objs : List Seq) (t : CTable)
    (enum : Seq → List Nat) (f : Nat) (r : Option Seq) (hq : mode ≠ .no → t.NoEquivalence) (hbw : box.WF)
    (hb : enclosure = false → FlatAnd box) (ho : ∀ d ∈ objs, d.WF)
    (hout : ∃ σ, Trusted mode enclosure box t σ ∧ box.sem σ = false)
    (h : voidCell true mode enclosure box objs t enum f = .ok r) :
    voidCell false mode enclosure box objs t enum f = .ok r ∧
    ∀ σ, (mode ≠ .no → box.sem σ = true → t.Sound σ) → (mode = .full → enclosure = true → t.Sound σ) →
      ((∃ c, r = some c ∧ c.sem σ = true) ↔ (box.sem σ = true ∧ ∀ d ∈ objs, d.sem σ = false)) := by
  refine ⟨voidCell_code h, fun σ h1 h2 => ?_⟩
  have key := voidCell_spec hq hb hbw ho hout h
  have hany : (box.sem σ && !objs.any (·.sem σ)) = true ↔ (box.sem σ = true ∧ ∀ d ∈ objs, d.sem σ = false) := by
    simp [List.any_eq_true]
  cases r with
  | none =>
    have := key σ ⟨h1, h2⟩
    simp only [reduceCtorEq, false_and, exists_false, false_iff]
    rw [← hany, this]; simp
  | some c =>
    have := key.2 σ ⟨h1, h2⟩
    rw [← hany, ← this]
    simp

/-- Non-vacuity: two solids in a box, mode "full", the call returns a cell. -/
example : ∃ c, voidCell true .full false (.lst .and 0 [.int 6])
      [.lst .and 0 [.int 1, .int 2], .lst .and 0 [.int 6, .int 3, .int (-4)]] (freeTable false) Seq.surfaces 60
        = .ok (some c) ∧
    (∃ σ, Trusted .full false (.lst .and 0 [.int 6]) (freeTable false) σ ∧ (Seq.lst .and 0 [.int 6]).sem σ = false) :=
  ⟨_, by rfl, fun _ => false, ⟨fun _ _ => freeTable_sound _ _, fun _ h => by cases h⟩, by decide⟩

/-- Non-vacuity: a solid of two pieces, mode "no". -/
example : ∃ c, voidCell true .no false (.lst .and 0 [.int 6])
      [.lst .or 1 [.lst .and 0 [.int 1, .int 2], .lst .and 0 [.int 3, .int (-4)]]] (freeTable false) Seq.surfaces 60
        = .ok (some c) := ⟨_, by rfl⟩

/-- the table of an enclosure piece in which surface 2 is always negative -/
def enclTable : CTable :=
  ⟨[1, 2, 3], fun a b => if a == b then some (.diag (if a == 2 then -1 else 0)) else
    if a == 2 then some (.pair false false true true) else
    if b == 2 then some (.pair false true true false) else some (.pair true true true true), false⟩

/-- the void cell of the enclosure piece 1 -2 that holds the solid 3 -/
def enclCell : Option Seq :=
  match voidCell false .full true (.lst .and 0 [.int 1, .int (-2)]) [.lst .and 0 [.int 3]] enclTable Seq.surfaces 60 with
  | .ok r => r
  | .error _ => none

set_option maxRecDepth 8000 in
/-- For an enclosure piece in mode "full" the void cell may reach outside the piece: with a table that holds in the
enclosure 1 -2 the cell of the enclosure also holds where surface 2 is positive. -/
theorem C26_void_enclosure_violated : ¬ C26_statement := by
  intro h
  have hr : voidCell false .full true (.lst .and 0 [.int 1, .int (-2)]) [.lst .and 0 [.int 3]] enclTable Seq.surfaces 60
      = .ok enclCell := by rfl
  have := h .full true (.lst .and 0 [.int 1, .int (-2)]) [.lst .and 0 [.int 3]] enclTable Seq.surfaces 60 enclCell
    (by simp [Seq.WF, Seq.WFL]) (fun h => by cases h)
    (by intro d hd; simp at hd; subst hd; simp [Seq.WF, Seq.WFL])
    (by
      intro k1 k2 e h
      simp only [enclTable] at h
      repeat' split at h
      all_goals (simp at h; subst h; simp [CTVal.Equivalence]))
    hr (fun n => n == 1 || n == 2) (fun h => absurd h (by decide))
  have hc : enclCell.map (fun c => c.sem (fun n => n == 1 || n == 2)) = some true := by rfl
  have h2 := this.1 (by
    cases he : enclCell with
    | none => rw [he] at hc; cases hc
    | some c => rw [he] at hc; exact ⟨c, rfl, by simpa using hc⟩)
  exact absurd h2.1 (by decide)

/-! ### C28 -/

/-- C28 in full: the call returns one definition per cell, no point is in two of them and they hold the same points as
before, at every point at which the constraint tables and the bounding-box tests are right. -/
def C28_statement : Prop :=
  ∀ (enum : Seq → List Nat) (f : Nat) (inter : Unit → Unit → Bool) (m : Meta Unit) (ms : List (Meta Unit)),
    (∀ m' ∈ m :: ms, ∀ q ∈ m'.parts, q.OK) →
    (∀ m' ∈ m :: ms, m'.diagTable.NoEquivalence ∧ m'.fullTable.NoEquivalence) → f ≥ 60 →
    ∃ r, noOverlapAll false enum f inter (m :: ms) = .ok r ∧ r.length = ms.length + 1

/-- a cell of one piece, with free tables -/
def plainCell (s : Seq) : Meta Unit := ⟨false, [⟨s, ()⟩], freeTable true, freeTable false⟩

set_option maxRecDepth 8000 in
/-- C28 is false of the code: for two cells with the same half-space as definition the call raises TypeError. -/
theorem C28_no_overlap_violated : ¬ C28_statement := by
  intro h
  obtain ⟨r, hr, -⟩ := h Seq.surfaces 60 (fun _ _ => true) (plainCell (.lst .and 0 [.int (-1)]))
    [plainCell (.lst .and 0 [.int (-1)])]
    (by
      intro m' hm q hq
      simp only [List.mem_cons, List.not_mem_nil, or_false, or_self] at hm
      subst hm
      simp only [plainCell, List.mem_cons, List.not_mem_nil, or_false] at hq
      subst hq
      exact ⟨by simp [Seq.WF, Seq.WFL], by simp [Seq.IsAnd]⟩)
    (by
      intro m' hm
      simp only [List.mem_cons, List.not_mem_nil, or_false, or_self] at hm
      subst hm
      exact ⟨freeTable_noEq _, freeTable_noEq _⟩)
    (Nat.le_refl 60)
  have : noOverlapAll false Seq.surfaces 60 (fun _ _ => true)
    [plainCell (.lst .and 0 [.int (-1)]), plainCell (.lst .and 0 [.int (-1)])] = .error .typeError := by rfl
  rw [this] at hr
  cases hr

/-- where the bounding-box tests and the tables of all cells are right -/
def AllRight {β : Type} (inter : β → β → Bool) (ms : List (Meta β)) (σ : Side) : Prop :=
  (∀ m ∈ ms, m.diagTable.Sound σ ∧ m.fullTable.Sound σ) ∧
  (∀ m ∈ ms, ∀ m' ∈ ms, ∀ p ∈ m.parts, ∀ q ∈ m'.parts,
    inter p.cad q.cad = false → p.defn.sem σ = true → q.defn.sem σ = false)

/-- C28, proved part: whenever the call (with the guards of the model) returns, the code returns the same
definitions, one per cell; each cell has become its old region minus the old regions of the cells before it. Hence no
point is in two of the new cells, and a point is in some new cell iff it was in some old one.
Missing: calls that raise, and executions that report `lossy` (C12, C23 false). -/
theorem C28_no_overlap_partial {β : Type} (enum : Seq → List Nat) (f : Nat) (inter : β → β → Bool)
    (ms : List (Meta β)) (r : List Seq)
    (hok : ∀ m ∈ ms, ∀ q ∈ m.parts, q.OK)
    (hq : ∀ m ∈ ms, m.diagTable.NoEquivalence ∧ m.fullTable.NoEquivalence)
    (h : noOverlapAll true enum f inter ms = .ok r) :
    noOverlapAll false enum f inter ms = .ok r ∧ r.length = ms.length ∧
    ∀ σ, AllRight inter ms σ →
      (∀ (k : Nat) (m : Meta β) (s : Seq), ms[k]? = some m → r[k]? = some s →
        s.sem σ = (m.defn.sem σ && !(ms.take k).any (·.defn.sem σ))) ∧
      (∀ (i j : Nat) (s s' : Seq), r[i]? = some s → r[j]? = some s' → s.sem σ = true → s'.sem σ = true → i = j) ∧
      ((∃ s ∈ r, s.sem σ = true) ↔ ∃ m ∈ ms, m.defn.sem σ = true) := by
  cases ms with
  | nil => simp [noOverlapAll] at h
  | cons m0 ms =>
    simp only [noOverlapAll, bind_ok] at h ⊢
    obtain ⟨r0, h0, h⟩ := h
    simp at h; subst h
    obtain ⟨l, sp⟩ := noOverlap_spec ms [m0] r0 (by simpa using hok) (fun x hx => hq x (by simp [hx])) h0
    refine ⟨⟨r0, noOverlap_code _ _ _ h0, rfl⟩, by simp [l], fun σ hσ => ?_⟩
    have hin : ∀ l : List (Meta β), InAny σ l = l.any (·.defn.sem σ) := by
      intro l; unfold InAny; congr 1; funext m; rw [metaDefn_sem]
    have key : ∀ (k : Nat) (m : Meta β) (s : Seq), (m0 :: ms)[k]? = some m → (m0.defn :: r0)[k]? = some s →
        s.sem σ = (m.defn.sem σ && !((m0 :: ms).take k).any (·.defn.sem σ)) := by
      intro k m s hm hs
      cases k with
      | zero => simp at hm hs; subst hm; subst hs; simp
      | succ k =>
        simp at hm hs
        have hmem : m ∈ ms := List.mem_of_getElem? hm
        have := sp k m s hm hs σ (hσ.1 m (by simp [hmem])).1 (hσ.1 m (by simp [hmem])).2
          (fun a ha b hb p hp q hq => by
            intro hi hpσ
            exact hσ.2 a (by simpa using ha) b (by simpa using hb) p hp q hq hi hpσ)
        rw [this, hin]
        simp
    refine ⟨key, ?_, ?_⟩
    · have lt : ∀ (i j : Nat) (s s' : Seq), (m0.defn :: r0)[i]? = some s → (m0.defn :: r0)[j]? = some s' →
          s.sem σ = true → s'.sem σ = true → ¬ i < j := by
        intro i j s s' hi hj hs hs' hij
        have li : i < (m0 :: ms).length := by
          have := (List.getElem?_eq_some_iff.1 hi).1; simpa [l] using this
        have lj : j < (m0 :: ms).length := by
          have := (List.getElem?_eq_some_iff.1 hj).1; simpa [l] using this
        have ki := key i _ s (List.getElem?_eq_getElem li) hi
        have kj := key j _ s' (List.getElem?_eq_getElem lj) hj
        rw [hs] at ki
        rw [hs'] at kj
        have ki := ki.symm; have kj := kj.symm
        simp only [Bool.and_eq_true, Bool.not_eq_true'] at ki kj
        have hm : (m0 :: ms)[i] ∈ (m0 :: ms).take j := by
          rw [List.mem_take_iff_getElem]
          exact ⟨i, by omega, rfl⟩
        have := List.any_eq_false.1 kj.2 _ hm
        exact this ki.1
      intro i j s s' hi hj hs hs'
      have a := lt i j s s' hi hj hs hs'
      have b := lt j i s' s hj hi hs' hs
      omega
    · constructor
      · rintro ⟨s, hs, hsem⟩
        obtain ⟨k, hk, hk2⟩ := List.mem_iff_getElem.1 hs
        have lk : k < (m0 :: ms).length := by simpa [l] using hk
        have kk := key k _ s (List.getElem?_eq_getElem lk) (by rw [List.getElem?_eq_getElem hk, hk2])
        rw [hsem] at kk
        have kk := kk.symm
        simp only [Bool.and_eq_true] at kk
        exact ⟨_, List.getElem_mem lk, kk.1⟩
      · rintro ⟨m, hm, hsem⟩
        -- the first cell that holds the point
        have hex : ∃ k, ∃ hk : k < (m0 :: ms).length, ((m0 :: ms)[k]).defn.sem σ = true := by
          obtain ⟨k, hk, rfl⟩ := List.mem_iff_getElem.1 hm
          exact ⟨k, hk, hsem⟩
        classical
        obtain ⟨hk, hk2⟩ := Nat.find_spec hex
        have hmin := fun j (hj : j < Nat.find hex) => Nat.find_min hex hj
        have hk' : Nat.find hex < (m0.defn :: r0).length := by simpa [l] using hk
        refine ⟨(m0.defn :: r0)[Nat.find hex], List.getElem_mem hk', ?_⟩
        rw [key _ _ _ (List.getElem?_eq_getElem hk) (List.getElem?_eq_getElem hk'), hk2]
        simp only [Bool.true_and, Bool.not_eq_true']
        rw [List.any_eq_false]
        intro x hx hxs
        rw [List.mem_take_iff_getElem] at hx
        obtain ⟨j, hj, rfl⟩ := hx
        exact hmin j (by omega) ⟨by omega, hxs⟩

set_option maxRecDepth 8000 in
/-- Non-vacuity: two overlapping cells, the call returns; the second one loses the first. -/
example : ∃ r, noOverlapAll true Seq.surfaces 60 (fun _ _ => true)
      [plainCell (.lst .and 0 [.int (-1), .int 2]), plainCell (.lst .and 0 [.int (-3), .int 4])] = .ok r ∧
    (∀ σ, AllRight (fun _ _ => true)
      [plainCell (.lst .and 0 [.int (-1), .int 2]), plainCell (.lst .and 0 [.int (-3), .int 4])] σ) := by
  refine ⟨_, by rfl, fun σ => ⟨?_, by intro _ _ _ _ _ _ _ _ h; cases h⟩⟩
  intro m hm
  simp only [List.mem_cons, List.not_mem_nil, or_false] at hm
  rcases hm with rfl | rfl <;> exact ⟨freeTable_sound _ _, freeTable_sound _ _⟩

end Geouned
