import Verif.CTable.Lemmas2
import Verif.Bool.Props
/-!
# Properties C19 - C23, C45 (and C13 for real tables): constraint tables

Meaning of tables: `Verif/CTable/Spec.lean` (`Allows`, `Sound`). Code model: `Verif/CTable/Model.lean`.
-/
namespace Geouned

/-! ### an example table: 1 is x > 1, 2 is x > 0, 3 does not cut the box, which lies on its negative side -/

def exTab : CTable where
  keys := [1, 2, 3]
  diagonal := false
  get := fun a b => match a, b with
    | 1, 1 => some (.diag 0)
    | 2, 2 => some (.diag 0)
    | 3, 3 => some (.diag (-1))
    | 1, 2 => some (.pair true false true true)
    | _, _ => none

theorem exTab_get {a b : Nat} {e : CTVal} (h : exTab.get a b = some e) :
    (a = 1 ∧ b = 1 ∧ e = .diag 0) ∨ (a = 2 ∧ b = 2 ∧ e = .diag 0) ∨ (a = 3 ∧ b = 3 ∧ e = .diag (-1)) ∨
    (a = 1 ∧ b = 2 ∧ e = .pair true false true true) := by
  simp only [exTab] at h
  split at h <;> simp_all

theorem exTab_shape : exTab.DiagOK ∧ exTab.PairsOK ∧ exTab.NoEquivalence ∧ exTab.keys.Nodup := by
  refine ⟨?_, ?_, ?_, by decide⟩
  · intro k hk
    simp [exTab] at hk
    rcases hk with rfl | rfl | rfl
    · exact ⟨0, rfl, by simp⟩
    · exact ⟨0, rfl, by simp⟩
    · exact ⟨-1, rfl, by simp⟩
  · intro a b e hab h
    rcases exTab_get h with ⟨rfl, rfl, rfl⟩ | ⟨rfl, rfl, rfl⟩ | ⟨rfl, rfl, rfl⟩ | ⟨rfl, rfl, rfl⟩
    · exact absurd rfl hab
    · exact absurd rfl hab
    · exact absurd rfl hab
    · exact ⟨_, _, _, _, rfl⟩
  · intro a b e h
    rcases exTab_get h with ⟨rfl, rfl, rfl⟩ | ⟨rfl, rfl, rfl⟩ | ⟨rfl, rfl, rfl⟩ | ⟨rfl, rfl, rfl⟩ <;>
      simp [CTVal.Equivalence]

/-- a point with 0 < x < 1 -/
theorem exTab_sound : exTab.Sound (fun v => v == 2) := by
  intro a b e h
  rcases exTab_get h with ⟨rfl, rfl, rfl⟩ | ⟨rfl, rfl, rfl⟩ | ⟨rfl, rfl, rfl⟩ | ⟨rfl, rfl, rfl⟩ <;>
    simp [CTVal.Allows]

/-! ### C19 -/

/-- C19: the transpose of an entry of the pair (s1, s2) allows (y, x) exactly when the entry allows (x, y), and
transposing twice gives the entry back. -/
theorem C19_transpose (a b c d : Bool) :
    ∃ e', (CTVal.pair a b c d).transpose = .ok e' ∧ e'.transpose = .ok (.pair a b c d) ∧
      ∀ x y, e'.Allows y x ↔ (CTVal.pair a b c d).Allows x y := by
  refine ⟨_, rfl, rfl, ?_⟩
  intro x y
  cases x <;> cases y <;> simp [CTVal.Allows]

/-- C19 fails for diagonal entries: the "transpose" is a bare integer, not an entry, so that it cannot be
transposed again (AttributeError). -/
theorem C19_transpose_diag_violated (d : Int) :
    ∃ e', (CTVal.diag d).transpose = .ok e' ∧ e' = .raw d ∧ e'.transpose = .error .attributeError := ⟨_, rfl, rfl, rfl⟩

example : ∃ e', (CTVal.pair true false true true).transpose = .ok e' ∧ e' = .pair true true true false := ⟨_, rfl, rfl⟩

/-! ### C20 -/

/-- C20 in full: the constraint sets of a table only state facts about the points the table allows. -/
def C20_statement : Prop :=
  ∀ (t : CTable) (v : Nat) (ts fs : Option Vals), t.constraintSet v = .ok (ts, fs) →
    ∀ σ, t.Sound σ → Consistent σ v ts fs

/-- surfaces 1 and 2 with s1 → -s2 and -s1 → s2 -/
def exOpp : CTable where
  keys := [1, 2]
  diagonal := false
  get := fun a b => match a, b with
    | 1, 1 => some (.diag 0)
    | 2, 2 => some (.diag 0)
    | 1, 2 => some (.pair false true false true)
    | 2, 1 => some (.pair false true false true)
    | _, _ => none

/-- C20 is false of the code: when an entry says that two surfaces are always on opposite sides,
(0, 1, 0, 1), `get_dependence` answers (True, True), as it does for (1, 0, 0, 1). -/
theorem C20_constraint_set_violated : ¬ C20_statement := by
  intro h
  have hc : exOpp.constraintSet 1 = .ok (some [(1, some true), (2, some true)], some [(1, some false), (2, some true)]) := rfl
  have := h exOpp 1 _ _ hc (fun v => v == 1) (by
    intro a b e hg
    have : (a = 1 ∧ b = 1 ∧ e = .diag 0) ∨ (a = 2 ∧ b = 2 ∧ e = .diag 0) ∨
        (a = 1 ∧ b = 2 ∧ e = .pair false true false true) ∨ (a = 2 ∧ b = 1 ∧ e = .pair false true false true) := by
      simp only [exOpp] at hg
      split at hg <;> simp_all
    rcases this with ⟨rfl, rfl, rfl⟩ | ⟨rfl, rfl, rfl⟩ | ⟨rfl, rfl, rfl⟩ | ⟨rfl, rfl, rfl⟩ <;> simp [CTVal.Allows])
  obtain ⟨vs, h1, h2⟩ := this.1 rfl
  cases h1
  have := h2 2 true (by simp)
  simp at this

/-- C20, partial: the constraint sets only state facts, for every table in which no entry says that two surfaces
are opposite or equal in the box, at every point the table allows. Missing: those two tuples, for which the claim is
false. -/
theorem C20_constraint_set_partial (t : CTable) (v : Nat) (ts fs : Option Vals) (hq : t.NoEquivalence)
    (h : t.constraintSet v = .ok (ts, fs)) : ∀ σ, t.Sound σ → Consistent σ v ts fs :=
  fun _ hs => constraintSet_sound hs hq h

/-- C20: after `fill_missing_elements` the constraint sets of every surface of the table exist (the call returns). -/
theorem C20_constraint_set_returns (t : CTable) (hd : t.DiagOK) (hp : t.PairsOK) (hn : t.keys.Nodup) (v : Nat) (hv : v ∈ t.keys) :
    ∃ t' ts fs, t.fill = .ok t' ∧ t'.constraintSet v = .ok (ts, fs) := by
  obtain ⟨t', h1, -⟩ := fill_total ⟨hd, hp⟩ hn
  obtain ⟨ts, fs, h2⟩ := constraintSet_total ⟨hd, hp⟩ hn h1 hv
  exact ⟨t', ts, fs, h1, h2⟩

/-- C20, completeness of one entry: a side that no combination allows is reported as empty ("Null"), and a side of
the second surface forced by a side of the first one is reported, unless the other side of the first one is empty. -/
theorem C20_entry_complete_partial (a b c d : Bool) (tv fv : Dep) (hq : ¬ (CTVal.pair a b c d).Equivalence)
    (h : (CTVal.pair a b c d).dependence = .ok (tv, fv)) :
    (tv = .null ↔ ∀ y, ¬ (CTVal.pair a b c d).Allows true y) ∧
    (fv = .null ↔ ∀ y, ¬ (CTVal.pair a b c d).Allows false y) ∧
    (∀ v, (CTVal.pair a b c d).Allows true v → ¬ (CTVal.pair a b c d).Allows true (!v) → tv = .val v ∨ fv = .null) ∧
    (∀ v, (CTVal.pair a b c d).Allows false v → ¬ (CTVal.pair a b c d).Allows false (!v) → fv = .val v ∨ tv = .null) :=
  dependence_complete h hq

example : exTab.NoEquivalence ∧ exTab.DiagOK ∧ exTab.PairsOK ∧ exTab.keys.Nodup ∧ 2 ∈ exTab.keys ∧
    exTab.Sound (fun v => v == 2) :=
  ⟨exTab_shape.2.2.1, exTab_shape.1, exTab_shape.2.1, exTab_shape.2.2.2, by simp [exTab], exTab_sound⟩

/-! ### C21 -/

/-- C21: the entry made of two diagonal ones allows exactly the combinations both allow. -/
theorem C21_combine_diag (d1 d2 : Int) (h1 : d1 = -1 ∨ d1 = 0 ∨ d1 = 1) (h2 : d2 = -1 ∨ d2 = 0 ∨ d2 = 1) :
    ∃ e, combineDiag (.diag d1) (.diag d2) = .ok e ∧
      ∀ x y, e.Allows x y ↔ (CTVal.diag d1).Allows x x ∧ (CTVal.diag d2).Allows y y := by
  obtain ⟨a, b, c, d, h, -⟩ := combineDiag_total h1 h2
  exact ⟨_, h, combineDiag_spec h⟩

/-- C21: `fill_missing_elements` returns on every table as built from the solids, keeps it sound at every point,
fills every pair of surfaces and invents no equivalence. -/
theorem C21_fill_missing (t : CTable) (hd : t.DiagOK) (hp : t.PairsOK) (hn : t.keys.Nodup) :
    ∃ t', t.fill = .ok t' ∧ t'.keys = t.keys ∧ (∀ σ, t.Sound σ → t'.Sound σ) ∧
      (∀ a ∈ t.keys, ∀ b ∈ t.keys, ∃ e, t'.get a b = some e) ∧
      (t.NoEquivalence → t'.NoEquivalence) := by
  obtain ⟨t', h1, h2⟩ := fill_total ⟨hd, hp⟩ hn
  refine ⟨t', h1, fill_keys h1, fun σ hs => fill_sound hs h1, ?_, fun hq => fill_noEq hq h1⟩
  intro a ha b hb
  by_cases hab : a = b
  · subst hab
    obtain ⟨d, hd, -⟩ := hd a ha
    exact Option.isSome_iff_exists.1 (fill_diag h1 (by simp [hd]))
  · exact Option.isSome_iff_exists.1 (fill_complete h1 ha hb hab)

/-- non-vacuity: the entry (1, 3) is missing in `exTab` -/
example : exTab.DiagOK ∧ exTab.PairsOK ∧ exTab.keys.Nodup ∧ exTab.get 1 3 = none ∧
    (∃ t', exTab.fill = .ok t' ∧ t'.get 1 3 = some (.pair false true true false)) :=
  ⟨exTab_shape.1, exTab_shape.2.1, exTab_shape.2.2.2, rfl, _, rfl, rfl⟩

/-! ### C22 -/

/-- `enum` lists the surfaces of an expression, in any order (the iteration order of a Python set) -/
def EnumOK (enum : Seq → List Nat) : Prop := ∀ s v, v ∈ enum s ↔ s.Occurs v

theorem surfaces_enumOK : EnumOK Seq.surfaces := fun s v => mem_surfaces v s

/-- C22 in full: a boolean answer of `solid_in_box` is the value of the cell at all points of the box. -/
def C22_statement : Prop :=
  ∀ (t : CTable) (enum : Seq → List Nat) (f : Nat) (s s' : Seq) (b : Bool), EnumOK enum → s.WF →
    t.solidInBox enum f s = .ok (s', some b) → ∀ σ, t.Sound σ → s.sem σ = b

theorem exOpp_sound : exOpp.Sound (fun v => v == 1) := by
  intro a b e hg
  have : (a = 1 ∧ b = 1 ∧ e = .diag 0) ∨ (a = 2 ∧ b = 2 ∧ e = .diag 0) ∨
      (a = 1 ∧ b = 2 ∧ e = .pair false true false true) ∨ (a = 2 ∧ b = 1 ∧ e = .pair false true false true) := by
    simp only [exOpp] at hg
    split at hg <;> simp_all
  rcases this with ⟨rfl, rfl, rfl⟩ | ⟨rfl, rfl, rfl⟩ | ⟨rfl, rfl, rfl⟩ | ⟨rfl, rfl, rfl⟩ <;> simp [CTVal.Allows]

/-- OR[ AND[1 2] AND[-1 2] ] -/
def exOppCell : Seq := .lst .or 1 [.lst .and 0 [.int 1, .int 2], .lst .and 0 [.int (-1), .int 2]]

/-- C22 is false of the code for tables that hold an equivalence (consequence of C20): with 1 and 2 opposite, the cell
OR[AND[1 2] AND[-1 2]] (which is half of the box) is said to cover the box. -/
theorem C22_solid_in_box_violated : ¬ C22_statement := by
  intro h
  have := h exOpp Seq.surfaces 20 exOppCell exOppCell true surfaces_enumOK (by simp [exOppCell, Seq.WF, Seq.WFL]) rfl
    (fun v => v == 1) exOpp_sound
  revert this; decide

/-- C22, partial: for tables without equivalences, in both modes, every order of the surfaces and every cell: a boolean
answer is the value of the cell at all points of the box; the cell keeps its region. -/
theorem C22_solid_in_box_partial (t : CTable) (enum : Seq → List Nat) (f : Nat) (s s' : Seq) (r : Option Bool)
    (hw : s.WF) (hq : t.NoEquivalence) (h : t.solidInBox enum f s = .ok (s', r)) :
    (∀ σ, s'.sem σ = s.sem σ) ∧ ∀ b, r = some b → ∀ σ, t.Sound σ → s.sem σ = b :=
  (solidInBox_spec hw hq h).2

theorem seqValues_sound_ok {t : CTable} {σ : Side} (hs : t.Sound σ) (hd : t.DiagOK) : ∀ ss : List Nat,
    (∀ v ∈ ss, v ∈ t.keys) → ∃ vs, seqValues t ss = .ok vs := by
  intro ss
  induction ss with
  | nil => intro _; exact ⟨_, rfl⟩
  | cons s ss ih =>
    intro h
    obtain ⟨vs, hv⟩ := ih (fun v hv => h v (by simp [hv]))
    obtain ⟨d, hg, hd'⟩ := hd s (h s (by simp))
    simp only [seqValues, CTable.at, hg, bind, Except.bind, hv]
    rcases hd' with rfl | rfl | rfl <;> exact ⟨_, rfl⟩

/-- C22: in the diagonal mode, which reads no pair entry, the answer is right for every table, with no condition on
equivalences. -/
theorem C22_solid_in_box_diag (t : CTable) (enum : Seq → List Nat) (f : Nat) (s s' : Seq) (r : Option Bool)
    (hw : s.WF) (hm : t.diagonal = true) (h : t.solidInBox enum f s = .ok (s', r)) :
    (∀ σ, s'.sem σ = s.sem σ) ∧ ∀ b, r = some b → ∀ σ, t.Sound σ → s.sem σ = b := by
  simp only [CTable.solidInBox, hm, if_true, bind_ok] at h
  obtain ⟨vs, hv, ⟨s1, r1⟩, he, h⟩ := h
  simp at h; obtain ⟨rfl, rfl⟩ := h
  obtain ⟨e1, e2, e3, e4⟩ := evaluate_spec hw he
  refine ⟨e3, fun b hb σ hs => ?_⟩
  rw [← e4 σ (seqValues_spec hs _ _ hv)]
  exact bool?_sem hb σ

/-- C22: in the diagonal mode `solid_in_box` returns for every cell over the surfaces of the table. -/
theorem C22_solid_in_box_diag_returns (t : CTable) (enum : Seq → List Nat) (f : Nat) (op : Op) (l : Int) (es : List Seq)
    (hw : (Seq.lst op l es).WF) (hn : (Seq.lst op l es).NoBool) (hdep : (Seq.lst op l es).depth + 2 < f)
    (hm : t.diagonal = true) (hd : t.DiagOK) (hs : ∃ σ, t.Sound σ) (he : EnumOK enum)
    (hk : ∀ v, (Seq.lst op l es).Occurs v → v ∈ t.keys) :
    ∃ r, t.solidInBox enum f (.lst op l es) = .ok r := by
  obtain ⟨σ, hs⟩ := hs
  obtain ⟨vs, hv⟩ := seqValues_sound_ok hs hd (enum (.lst op l es)) (fun v hv => hk v ((he _ v).1 hv))
  obtain ⟨⟨s1, r1⟩, hr⟩ := evaluate_total (vs := vs) hw trivial hn hdep
  simp only [CTable.solidInBox, hm, if_true, bind, Except.bind, hv, hr]
  exact ⟨_, rfl⟩

/-- non-vacuity: with the filled example table, the cell 1 ∧ -2 is outside the box -/
example : ∃ t' s', exTab.fill = .ok t' ∧ t'.NoEquivalence ∧ t'.Sound (fun v => v == 2) ∧
    t'.solidInBox Seq.surfaces 20 (.lst .and 0 [.int 1, .int (-2)]) = .ok (s', some false) :=
  ⟨_, _, rfl, fill_noEq exTab_shape.2.2.1 rfl, fill_sound exTab_sound rfl, rfl⟩

/-! ### C23 -/

/-- C23 in full: the reduced definition of a cell is the cell, at all points of the box. -/
def C23_statement : Prop :=
  ∀ (t : CTable) (enum : Seq → List Nat) (f : Nat) (s s' : Seq), EnumOK enum → s.WF → t.NoEquivalence →
    removeExtra true t enum f s = .ok s' → ∀ σ, t.Sound σ → s'.sem σ = s.sem σ

/-- OR[ AND[1 2] AND[3 -3] ] : the second sub-cell is empty -/
def exExtra : Seq := .lst .or 1 [.lst .and 0 [.int 1, .int 2], .lst .and 0 [.int 3, .int (-3)]]

/-- a diagonal table of three surfaces that all cut the box -/
def exDiag : CTable where
  keys := [1, 2, 3]
  diagonal := true
  get := fun a b => if a = b ∧ 1 ≤ a ∧ a ≤ 3 then some (.diag 0) else none

theorem exDiag_sound (σ : Side) : exDiag.Sound σ ∧ exDiag.NoEquivalence ∧ exDiag.DiagOK := by
  refine ⟨?_, ?_, ?_⟩
  · intro a b e h
    simp [exDiag] at h
    obtain ⟨⟨rfl, _⟩, rfl⟩ := h
    simp [CTVal.Allows]
  · intro a b e h
    simp [exDiag] at h
    obtain ⟨⟨rfl, _⟩, rfl⟩ := h
    simp [CTVal.Equivalence]
  · intro k hk
    simp [exDiag] at hk
    exact ⟨0, by rcases hk with rfl | rfl | rfl <;> rfl, by simp⟩

/-- C23 is false of the code: a cell with an empty sub-cell is said to cover the whole box, because the result of
`check()` is negated (`chk = not subCell.elements`). -/
theorem C23_remove_extra_violated : ¬ C23_statement := by
  intro h
  have := h exDiag Seq.surfaces 20 exExtra (.boo .or (-1) true) surfaces_enumOK (by simp [exExtra, Seq.WF, Seq.WFL])
    (exDiag_sound (fun _ => false)).2.1 rfl (fun _ => false) (exDiag_sound _).1
  revert this; decide

/-- C23, partial: when `check()` finds no sub-cell empty or full, the result is the cell at all points of the box
(tables without equivalences). Missing: cells with a sub-cell found empty or full by `check()`, where the claim is
false. -/
theorem C23_remove_extra_partial (t : CTable) (enum : Seq → List Nat) (f : Nat) (op : Op) (l : Int) (es : List Seq) (s' : Seq)
    (hw : (Seq.lst op l es).WF) (hq : t.NoEquivalence)
    (hc : ∀ s ∈ subCells (.lst op l es), ∀ s1, s.check f = .ok s1 → s1.boolOf = none)
    (h : removeExtra true t enum f (.lst op l es) = .ok s') :
    ∀ σ, t.Sound σ → s'.sem σ = (Seq.lst op l es).sem σ := by
  rw [removeExtra_same hc] at h
  exact removeExtra_spec hw hq h

/-- C23, with the test of 336 corrected (`invert = false`: `chk = subCell.elements`, as the comments of 340-345 say),
the claim holds for every cell: the negation is the only defect. -/
theorem C23_remove_extra_corrected_partial (t : CTable) (enum : Seq → List Nat) (f : Nat) (op : Op) (l : Int) (es : List Seq) (s' : Seq)
    (hw : (Seq.lst op l es).WF) (hq : t.NoEquivalence) (h : removeExtra false t enum f (.lst op l es) = .ok s') :
    ∀ σ, t.Sound σ → s'.sem σ = (Seq.lst op l es).sem σ :=
  removeExtra_spec hw hq h

/-- non-vacuity: OR[AND[1 2] AND[-1 3]] with a table in which 3 is out of the box: the second sub-cell goes away -/
example : ∃ t' s', exTab.fill = .ok t' ∧ t'.NoEquivalence ∧ t'.Sound (fun v => v == 2) ∧
    (∀ s ∈ subCells (.lst .or 1 [.lst .and 0 [.int 1, .int 2], .lst .and 0 [.int (-1), .int 3]]),
      ∀ s1, s.check 20 = .ok s1 → s1.boolOf = none) ∧
    removeExtra true t' Seq.surfaces 20 (.lst .or 1 [.lst .and 0 [.int 1, .int 2], .lst .and 0 [.int (-1), .int 3]]) = .ok s' ∧
    s'.surfaces.contains 3 = false ∧ s'.surfaces.contains 1 = true := by
  refine ⟨_, _, rfl, fill_noEq exTab_shape.2.2.1 rfl, fill_sound exTab_sound rfl, ?_, rfl, rfl, rfl⟩
  intro s hs s1 h1
  simp only [subCells, List.mem_cons, List.not_mem_nil, or_false] at hs
  rcases hs with rfl | rfl <;> (cases h1; rfl)

/-! ### C13 with a real table -/

/-- C13, partial, for the tables of the code: `simplify(CT)` with a table sound in the box and without equivalences keeps
the region at all points of the box, in every execution in which `update` overwrites no sibling by a neutral boolean. -/
theorem C13_simplify_table_partial (enum : Seq → List Nat) (t : CTable) (f depth : Nat) (s s' : Seq) (hw : s.WF)
    (hq : t.NoEquivalence) (h : s.simplify true enum (some t.constraintSet) f depth = .ok s') :
    s.simplify false enum (some t.constraintSet) f depth = .ok s' ∧ s'.WF ∧
      ∀ σ, t.Sound σ → s'.sem σ = s.sem σ := by
  obtain ⟨h1, h2⟩ := simplify_spec f depth s s' hw h
  refine ⟨simplify_guard f depth s s' h, h1, fun σ hs => h2 σ ?_⟩
  intro ct hct v a b hab
  cases hct
  exact constraintSet_sound hs hq hab

example : ∃ t' s', exTab.fill = .ok t' ∧ t'.NoEquivalence ∧ t'.Sound (fun v => v == 2) ∧
    (Seq.lst .and 1 [.lst .and 0 [.int 1, .int 2], .lst .or 0 [.int 3, .int 1]]).simplify true Seq.surfaces
      (some t'.constraintSet) 30 0 = .ok s' ∧ s'.boolOf = none ∧ s'.surfaces.contains 3 = false :=
  ⟨_, _, rfl, fill_noEq exTab_shape.2.2.1 rfl, fill_sound exTab_sound rfl, rfl, rfl, rfl⟩

/-! ### C45 -/

/-- A piece of one side of `s1` reports `(p, n)`: `p` (`n`) tells whether it has points on the positive (negative) side
of `s2`; a piece reports (0,1), (1,0) or (1,1), never (0,0). -/
def PieceOK (p : Bool × Bool) : Prop := p.1 = true ∨ p.2 = true

/-- C45: the pair entry built from the pieces excludes no combination that occurs: if some piece of the positive
(negative) side of `s1` has points on a side of `s2`, the entry allows that combination, whatever values the variables had
left from the previous surface. -/
theorem C45_pair_entry_sound (posS negS : List (Bool × Bool)) (pos neg : Option (Bool × Bool)) (e : CTVal) (p n : Bool × Bool)
    (h1 : ∀ q ∈ posS, PieceOK q) (h2 : ∀ q ∈ negS, PieceOK q)
    (h : pairEntry posS negS pos neg = .ok (e, p, n)) :
    (∀ q ∈ posS, (q.1 = true → e.Allows true true) ∧ (q.2 = true → e.Allows true false)) ∧
    (∀ q ∈ negS, (q.1 = true → e.Allows false true) ∧ (q.2 = true → e.Allows false false)) := by
  simp only [pairEntry] at h
  cases hp : sideLoop posS none pos with
  | none => simp [hp] at h
  | some p' =>
    cases hn : sideLoop negS none neg with
    | none => simp [hp, hn] at h
    | some n' =>
      simp [hp, hn] at h
      obtain ⟨rfl, rfl, rfl⟩ := h
      have a := (sideLoop_spec posS none pos _ (by simp) h1 (by simp) hp).1
      have b := (sideLoop_spec negS none neg _ (by simp) h2 (by simp) hn).1
      refine ⟨fun q hq => ?_, fun q hq => ?_⟩
      · simpa [CTVal.Allows] using a q hq
      · simpa [CTVal.Allows] using b q hq

/-- with at least one piece on each side the call returns -/
theorem C45_pair_entry_returns (q : Bool × Bool) (posS : List (Bool × Bool)) (q' : Bool × Bool) (negS : List (Bool × Bool))
    (pos neg : Option (Bool × Bool)) : ∃ r, pairEntry (q :: posS) (q' :: negS) pos neg = .ok r := by
  have key : ∀ (ps : List (Bool × Bool)) (p0 : Option (Bool × Bool)) (c : Bool × Bool), ∃ r, sideLoop ps p0 (some c) = some r := by
    intro ps
    induction ps with
    | nil => intro p0 c; exact ⟨_, rfl⟩
    | cons p ps ih =>
      intro p0 c
      simp only [sideLoop]
      split
      · exact ⟨_, rfl⟩
      · cases p0 with
        | none => exact ih _ _
        | some q => simp only; split
                    · exact ⟨_, rfl⟩
                    · exact ih _ _
  have key2 : ∀ q ps c, ∃ r, sideLoop (q :: ps) none c = some r := by
    intro q ps c
    simp only [sideLoop]
    split
    · exact ⟨_, rfl⟩
    · exact key _ _ _
  obtain ⟨p, hp⟩ := key2 q posS pos
  obtain ⟨n, hn⟩ := key2 q' negS neg
  simp only [pairEntry, hp, hn]; exact ⟨_, rfl⟩

example : pairEntry [(true, false), (false, true)] [(false, true), (false, true)] none none =
    .ok (.pair true true true false, (true, true), (false, true)) := rfl

/-- C45 fails when one side of `s1` has no piece (all pieces were found on the other side): the value left over from the
previous surface is used, here excluding the combination (s1, s2) or not depending on history only. -/
theorem C45_pair_entry_stale_violated (p n : Bool × Bool) :
    ∃ e, pairEntry [] [(false, true)] (some p) (some n) = .ok (e, p, (false, true)) ∧
      (e.Allows true true ↔ p.1 = true) ∧ (e.Allows true false ↔ p.2 = true) := by
  refine ⟨_, rfl, ?_⟩
  simp [CTVal.Allows]

end Geouned
