import Verif.Bool.Lemmas4
/-!
# Properties C01 - C15: the boolean expressions of cell definitions

Meaning of the objects: `Verif/Bool/Spec.lean`. Code model: `Verif/Bool/Model.lean`.
Each theorem states (a) that the call returns (no exception, given the stated recursion budget) wherever the
code guarantees it, and (b) what the result denotes at *every* point `σ`.
-/
namespace Geouned

/-! ### examples used for non-vacuity -/

/-- AND[ 1 -2 OR[3 4 AND[-1 5]] ] -/
def ex1 : Seq :=
  .lst .and 2 [.int 1, .int (-2), .lst .or 1 [.int 3, .int 4, .lst .and 0 [.int (-1), .int 5]]]

theorem ex1_WF : ex1.WF := by simp [ex1, Seq.WF, Seq.WFL]
theorem ex1_NoBool : ex1.NoBool := by simp [ex1, Seq.NoBool, Seq.NoBoolL]
theorem ex1_depth : ex1.depth = 3 := by decide
/-- the example is neither everywhere true nor everywhere false -/
theorem ex1_nontrivial : ∃ σ τ, ex1.sem σ = true ∧ ex1.sem τ = false :=
  ⟨fun n => n == 1 || n == 3, fun _ => false, by decide, by decide⟩

/-! ### C01 -/

theorem appendLoop_total (op : Op) : ∀ (items : List Item) (l : Int) (es : List Seq),
    ∃ s', appendLoop op l es items = .ok s' := by
  intro items
  induction items with
  | nil => intro l es; exact ⟨_, rfl⟩
  | cons i r ih =>
    intro l es
    cases i with
    | int n =>
      simp only [appendLoop]
      split
      · exact ih _ _
      · split
        · exact ⟨_, rfl⟩
        · exact ih _ _
    | bool b =>
      simp only [appendLoop]
      split
      · exact ih _ _
      · exact ⟨_, rfl⟩
    | seq s =>
      cases s with
      | int n =>
        simp only [appendLoop]
        split
        · exact ih _ _
        · split
          · exact ⟨_, rfl⟩
          · exact ih _ _
      | boo o l' b =>
        simp only [appendLoop]
        split
        · exact ih _ _
        · exact ⟨_, rfl⟩
      | lst o l' xs => simp only [appendLoop]; exact ih _ _

theorem itemsSem_and (σ : Side) (items : List Item) :
    itemsSem .and σ items = true ↔ ∀ i ∈ items, i.sem σ = true := by
  induction items with
  | nil => simp [itemsSem, Op.neutral]
  | cons i r ih => simp [itemsSem, Op.app, ih]

theorem itemsSem_or (σ : Side) (items : List Item) :
    itemsSem .or σ items = true ↔ ∃ i ∈ items, i.sem σ = true := by
  induction items with
  | nil => simp [itemsSem, Op.neutral]
  | cons i r ih => simp [itemsSem, Op.app, ih]

/-- C01, AND: `append` intersects with every item, for every expression that is a list and any items. -/
theorem C01_append_and (l : Int) (es : List Seq) (items : List Item)
    (hw : (Seq.lst .and l es).WF) (hi : ∀ i ∈ items, i.WF) :
    ∃ s', (Seq.lst .and l es).append items = .ok s' ∧ s'.WF ∧
      ∀ σ, s'.sem σ = true ↔ ((Seq.lst .and l es).sem σ = true ∧ ∀ i ∈ items, i.sem σ = true) := by
  obtain ⟨s', h⟩ := appendLoop_total .and items l es
  obtain ⟨h1, h2⟩ := append_spec hw hi (s' := s') h
  refine ⟨s', h, h1, fun σ => ?_⟩
  rw [h2 σ, sem_lst, ← itemsSem_and]; simp [Op.app]

/-- C01, OR: `append` unites with every item. -/
theorem C01_append_or (l : Int) (es : List Seq) (items : List Item)
    (hw : (Seq.lst .or l es).WF) (hi : ∀ i ∈ items, i.WF) :
    ∃ s', (Seq.lst .or l es).append items = .ok s' ∧ s'.WF ∧
      ∀ σ, s'.sem σ = true ↔ ((Seq.lst .or l es).sem σ = true ∨ ∃ i ∈ items, i.sem σ = true) := by
  obtain ⟨s', h⟩ := appendLoop_total .or items l es
  obtain ⟨h1, h2⟩ := append_spec hw hi (s' := s') h
  refine ⟨s', h, h1, fun σ => ?_⟩
  rw [h2 σ, sem_lst, ← itemsSem_or]; simp [Op.app]

/-- non-vacuity: ex1 with items -3, a boolean and an expression -/
example : ∀ i ∈ ([.int (-3), .bool true, .seq ex1] : List Item), i.WF := by
  simp [Item.WF, ex1_WF]

/-- C01 on an expression already reduced to a boolean, one expression appended: AND intersects. -/
theorem C01_append_bool_and (l : Int) (b : Bool) (s : Seq) (hs : s.WF) (hn : ∀ n, s ≠ .int n) :
    ∃ s', (Seq.boo .and l b).append [.seq s] = .ok s' ∧ s'.WF ∧ ∀ σ, s'.sem σ = (b && s.sem σ) := by
  cases s with
  | int n => exact absurd rfl (hn n)
  | boo o k c => cases b <;> simp [Seq.append, assignTuple, Op.neutral, Seq.sem, Seq.WF]
  | lst o k es =>
    cases b with
    | true => exact ⟨_, rfl, hs, fun σ => (Bool.true_and _).symm⟩
    | false => exact ⟨.boo .and l false, rfl, by simp [Seq.WF], fun σ => (Bool.false_and _).symm⟩

/-- C01 on an expression already reduced to a boolean, one expression appended: OR unites. -/
theorem C01_append_bool_or (l : Int) (b : Bool) (s : Seq) (hs : s.WF) (hn : ∀ n, s ≠ .int n) :
    ∃ s', (Seq.boo .or l b).append [.seq s] = .ok s' ∧ s'.WF ∧ ∀ σ, s'.sem σ = (b || s.sem σ) := by
  cases s with
  | int n => exact absurd rfl (hn n)
  | boo o k c => cases b <;> simp [Seq.append, assignTuple, Op.neutral, Seq.sem, Seq.WF]
  | lst o k es =>
    cases b with
    | false => exact ⟨_, rfl, hs, fun σ => (Bool.false_or _).symm⟩
    | true => exact ⟨.boo .or l true, rfl, by simp [Seq.WF], fun σ => (Bool.true_or _).symm⟩

/-- C01 on an expression reduced to the absorbing boolean: nothing changes, whatever is appended. -/
theorem C01_append_bool_absorbing (op : Op) (l : Int) (items : List Item) :
    (Seq.boo op l (!op.neutral)).append items = .ok (.boo op l (!op.neutral)) := by
  cases op <;> simp [Seq.append, Op.neutral]

example : ex1.WF ∧ ∀ n, ex1 ≠ .int n := ⟨ex1_WF, by intro n; simp [ex1]⟩

/-- C01 fails on an expression already reduced to its neutral boolean: appending a plain surface raises
AttributeError, appending two items raises TypeError (`assign` is given the argument tuple). -/
theorem C01_append_bool_violated (op : Op) (l n m : Int) :
    (Seq.boo op l op.neutral).append [.int n] = .error .attributeError ∧
    (Seq.boo op l op.neutral).append [.int n, .int m] = .error .typeError := by
  simp [Seq.append, assignTuple]

/-! ### C02 -/

mutual
theorem clean_noBool : ∀ s : Seq, (∃ o l b, s.clean = .boo o l b) ∨ s.clean.NoBool
  | .int n => .inr (by simp [Seq.clean, Seq.NoBool])
  | .boo o l b => .inl ⟨o, l, b, by simp [Seq.clean]⟩
  | .lst op l es => by
    simp only [Seq.clean]
    have hs := cleanLoop_spec op (Seq.cleanL es)
    have hn := cleanL_noBool es
    cases hc : cleanLoop op (Seq.cleanL es) with
    | inl b => exact .inl ⟨_, _, _, rfl⟩
    | inr es' =>
      rw [hc] at hs
      cases es' with
      | nil => exact .inl ⟨_, _, _, rfl⟩
      | cons x xs =>
        right
        simp only [cleanEnd]
        rw [noBool_lst]
        intro e he
        rcases hn e (hs.1 e he) with ⟨o, l, b, h⟩ | h
        · exact absurd h (hs.2.1 e he o l b)
        · exact h
theorem cleanL_noBool : ∀ es : List Seq, ∀ e ∈ Seq.cleanL es, (∃ o l b, e = .boo o l b) ∨ e.NoBool
  | [] => by simp [Seq.cleanL]
  | e :: es => by
    simp only [Seq.cleanL, List.mem_cons]
    rintro x (rfl | hx)
    · exact clean_noBool e
    · exact cleanL_noBool es x hx
end

/-- C02: `clean()` keeps the region; no boolean is left inside; the boolean returned is the value of the
region everywhere. -/
theorem C02_clean (s : Seq) :
    (∀ σ, s.clean.sem σ = s.sem σ) ∧
    ((∃ o l b, s.clean = .boo o l b) ∨ s.clean.NoBool) ∧
    (∀ b, s.clean.boolOf = some b → ∀ σ, s.sem σ = b) := by
  refine ⟨fun σ => clean_sem σ s, clean_noBool s, fun b hb σ => ?_⟩
  rw [← clean_sem σ s]
  cases h : s.clean with
  | boo o l b' => rw [h] at hb; simp [Seq.boolOf] at hb; simp [hb]
  | int n => rw [h] at hb; simp [Seq.boolOf] at hb
  | lst o l es => rw [h] at hb; simp [Seq.boolOf] at hb

/-- C02 for `clean(self_level=True)` -/
theorem C02_clean_self (s : Seq) :
    (∀ σ, s.cleanSelf.sem σ = s.sem σ) ∧
    (∀ o l es, s.cleanSelf = .lst o l es → ∀ e ∈ es, ∀ o' l' b, e ≠ .boo o' l' b) ∧
    (∀ b, s.cleanSelf.boolOf = some b → ∀ σ, s.sem σ = b) := by
  refine ⟨fun σ => cleanSelf_sem s σ, ?_, fun b hb σ => ?_⟩
  · intro o l es h
    cases s with
    | int n => simp [Seq.cleanSelf] at h
    | boo o l b => simp [Seq.cleanSelf] at h
    | lst o1 l1 es1 =>
      rcases cleanSelf_cases (.lst o1 l1 es1) trivial with ⟨_, _, _, h'⟩ | ⟨_, _, _, es', _, h', _, h3, _⟩
      · rw [h] at h'; cases h'
      · rw [h] at h'; cases h'; exact h3
  · rw [← cleanSelf_sem s σ]
    cases h : s.cleanSelf with
    | boo o l b' => rw [h] at hb; simp [Seq.boolOf] at hb; simp [hb]
    | int n => rw [h] at hb; simp [Seq.boolOf] at hb
    | lst o l es => rw [h] at hb; simp [Seq.boolOf] at hb

/-- non-vacuity: a tree with booleans inside that cleans to a boolean, and one that does not -/
example : (Seq.lst .and 2 [.int 4, .lst .or 1 [.int 7, .boo .and (-1) false, .lst .and 0 []]]).clean.boolOf = none ∧
    (Seq.lst .and 2 [.int 4, .lst .or 1 [.boo .and (-1) false]]).clean.boolOf = some false := by decide

/-! ### C03 -/

/-- C03: `group_single` returns on every expression whose boolean children do not have level 0, keeps the
region, and leaves no loose surface number beside sub-expressions. -/
theorem C03_group_single (op : Op) (l : Int) (es : List Seq) (hw : (Seq.lst op l es).WF)
    (hb : ∀ e ∈ es, ∀ o b, e ≠ .boo o 0 b) :
    ∃ es', (Seq.lst op l es).groupSingle = .ok (.lst op l es') ∧ (Seq.lst op l es').WF ∧
      (∀ σ, (Seq.lst op l es').sem σ = (Seq.lst op l es).sem σ) ∧
      (l ≠ 0 → ∀ e ∈ es', ∀ n, e ≠ .int n) := by
  obtain ⟨s', hs'⟩ := groupSingle_total (o := op) (l := l) hb
  obtain ⟨es', rfl, h2, h3, h4, -⟩ := groupSingle_lst hw hs'
  exact ⟨es', hs', h2, fun σ => by simp [h3], h4⟩

/-- repeated numbers: the list is modified while iterating, nothing is lost -/
example : (Seq.lst .or 1 [.int 5, .lst .and 0 [.int 5], .int 5, .int (-6), .lst .and 0 [.int 1, .int 2]]).WF := by
  simp [Seq.WF, Seq.WFL]

/-! ### C04 -/

/-- C04: `check()` keeps the region, and a boolean answer is the value of the region at every point. -/
theorem C04_check (f : Nat) (s s' : Seq) (hw : s.WF) (h : s.check f = .ok s') :
    (∀ σ, s'.sem σ = s.sem σ) ∧ (∀ b, s'.boolOf = some b → ∀ σ, s.sem σ = b) := by
  obtain ⟨h1, h2⟩ := check_spec f s s' hw h
  refine ⟨h2, fun b hb σ => ?_⟩
  rw [← h2 σ]
  cases s' with
  | boo o l b' => simp [Seq.boolOf] at hb; simp [hb]
  | int n => simp [Seq.boolOf] at hb
  | lst o l es => simp [Seq.boolOf] at hb

/-- C04: `check()` never raises on an expression built of surfaces (recursion budget: its depth). -/
theorem C04_check_returns (f : Nat) (op : Op) (l : Int) (es : List Seq) (hw : (Seq.lst op l es).WF)
    (hn : (Seq.lst op l es).NoBool) (hd : (Seq.lst op l es).depth < f) :
    ∃ s', (Seq.lst op l es).check f = .ok s' :=
  check_total f _ hw trivial hn hd

theorem dedup_map_le {α β : Type} [DecidableEq α] [DecidableEq β] (f : α → β) (l : List α) :
    (dedup (l.map f)).length ≤ (dedup l).length := by
  induction l with
  | nil => simp [dedup]
  | cons a l ih =>
    simp only [List.map_cons, dedup]
    by_cases h : a ∈ l
    · rw [if_pos h, if_pos (List.mem_map.2 ⟨a, h, rfl⟩)]; exact ih
    · rw [if_neg h]; split
      · simp only [List.length_cons]; omega
      · simp only [List.length_cons]; omega

theorem dedup_map_lt {α β : Type} [DecidableEq α] [DecidableEq β] (f : α → β) (l : List α) {p q : α}
    (hp : p ∈ l) (hq : q ∈ l) (hne : p ≠ q) (hf : f p = f q) :
    (dedup (l.map f)).length < (dedup l).length := by
  induction l with
  | nil => simp at hp
  | cons a l ih =>
    simp only [List.map_cons, dedup]
    have hle := dedup_map_le f l
    by_cases h : a ∈ l
    · rw [if_pos h, if_pos (List.mem_map.2 ⟨a, h, rfl⟩)]
      refine ih ?_ ?_
      · rcases List.mem_cons.1 hp with rfl | hp
        · exact h
        · exact hp
      · rcases List.mem_cons.1 hq with rfl | hq
        · exact h
        · exact hq
    · rw [if_neg h]
      by_cases h2 : f a ∈ l.map f
      · rw [if_pos h2]; simp only [List.length_cons]; omega
      · rw [if_neg h2]
        have hpl : p ∈ l := by
          rcases List.mem_cons.1 hp with rfl | hp
          · rcases List.mem_cons.1 hq with rfl | hq
            · exact absurd rfl hne
            · exact absurd (List.mem_map.2 ⟨q, hq, hf.symm⟩) h2
          · exact hp
        have hql : q ∈ l := by
          rcases List.mem_cons.1 hq with rfl | hq
          · exact absurd (List.mem_map.2 ⟨p, hpl, hf⟩) h2
          · exact hq
        have := ih hpl hql
        simp only [List.length_cons]; omega

/-- C04, level 0: `check()` does find every contradictory pair of a flat expression: the answer is boolean
exactly when the flat list contains a surface with both signs. -/
theorem C04_check_flat (f : Nat) (op : Op) (ns : List Int) (h0 : ∀ n ∈ ns, n ≠ 0) :
    ∃ s', (Seq.lst op 0 (ns.map .int)).check (f + 1) = .ok s' ∧
      ((s'.boolOf ≠ none) ↔ ∃ n ∈ ns, -n ∈ ns) := by
  refine ⟨_, rfl, ?_⟩
  rw [check0_lst]
  have hi : intsOf (ns.map Seq.int) = ns := by
    induction ns with
    | nil => rfl
    | cons a as ih => simp [intsOf, ih (fun n hn => h0 n (by simp [hn]))]
  have hs : Seq.surfacesL (ns.map Seq.int) = ns.map Int.natAbs := by
    clear hi h0
    induction ns with
    | nil => rfl
    | cons a as ih => simp [Seq.surfacesL, Seq.surfaces, ih]
  have hq : seqCount (ns.map Seq.int) = 0 := by
    clear hi hs h0
    induction ns with
    | nil => rfl
    | cons a as ih => simpa [seqCount] using ih
  have hall : AllInt (ns.map Seq.int) := by
    intro e he
    obtain ⟨n, _, rfl⟩ := List.mem_map.1 he
    exact ⟨n, rfl⟩
  by_cases hc : sameCount (ns.map Seq.int) = true
  · simp only [hc, if_true, Seq.boolOf, ne_eq, not_true, false_iff]
    rintro ⟨n, hn, hn'⟩
    have hlen : (dedup ns).length = (dedup (ns.map Int.natAbs)).length := by
      simpa [sameCount, hi, hs, hq] using hc
    have h00 := h0 n hn
    have := dedup_map_lt Int.natAbs ns hn hn' (by omega) (by omega)
    omega
  · have hc' : sameCount (ns.map Seq.int) = false := by simpa using hc
    simp only [hc', if_true, Bool.false_eq_true, if_false, Seq.boolOf]
    obtain ⟨n, -, h1, h2⟩ := sameCount_false hall hc'
    simp only [List.mem_map, Seq.int.injEq, exists_eq_right] at h1 h2
    simp only [ne_eq, reduceCtorEq, not_false_eq_true, true_iff]
    exact ⟨n, h1, h2⟩

example : (∃ s', ex1.check 10 = .ok s' ∧ s'.boolOf = none) ∧ ex1.depth < 10 := ⟨⟨_, rfl, rfl⟩, by decide⟩

/-! ### C05 - C07 -/

/-- C05: `substitute(var, b)` returns and the result denotes the original with `var` forced to side `b`. -/
theorem C05_substitute_bool (f : Nat) (op : Op) (l : Int) (es : List Seq) (v : Nat) (b : Bool)
    (hw : (Seq.lst op l es).WF) (hd : (Seq.lst op l es).depth + 1 < f) :
    ∃ s', (Seq.lst op l es).subst f v (.b b) = .ok s' ∧ s'.WF ∧
      ∀ σ : Side, s'.sem σ = (Seq.lst op l es).sem (σ.set v b) := by
  obtain ⟨s', h1, -, -⟩ := subst_total (var := v) (val := .b b) trivial f _ hw trivial hd
  obtain ⟨h2, h3⟩ := subst_spec (var := v) (val := .b b) trivial f _ s' hw h1
  exact ⟨s', h1, h2, fun σ => by simpa [Side.subst] using h3 σ⟩

/-- C05, any recursion limit: whenever `substitute` returns, the result is right. -/
theorem C05_substitute_bool_any (f : Nat) (s s' : Seq) (v : Nat) (b : Bool) (hw : s.WF)
    (h : s.subst f v (.b b) = .ok s') : s'.WF ∧ ∀ σ : Side, s'.sem σ = s.sem (σ.set v b) := by
  obtain ⟨h2, h3⟩ := subst_spec (var := v) (val := .b b) trivial f _ s' hw h
  exact ⟨h2, fun σ => by simpa [Side.subst] using h3 σ⟩

/-- C06: after `substitute(var, b)` the surface `var` does not occur. -/
theorem C06_substitute_removes (f : Nat) (s s' : Seq) (v : Nat) (b : Bool)
    (h : s.subst f v (.b b) = .ok s') : ¬ s'.Occurs v := by
  simpa using subst_occ f s s' h

/-- C07: `substitute(var, n)` with a surface `n` renames `var` to `n` and `-var` to `-n`. -/
theorem C07_substitute_surface (f : Nat) (op : Op) (l : Int) (es : List Seq) (v : Nat) (n : Int) (hn : n ≠ 0)
    (hw : (Seq.lst op l es).WF) (hd : (Seq.lst op l es).depth + 1 < f) :
    ∃ s', (Seq.lst op l es).subst f v (.n n) = .ok s' ∧ s'.WF ∧
      ∀ σ : Side, s'.sem σ = (Seq.lst op l es).sem (σ.set v (lit σ n)) := by
  obtain ⟨s', h1, -, -⟩ := subst_total (var := v) (val := .n n) hn f _ hw trivial hd
  obtain ⟨h2, h3⟩ := subst_spec (var := v) (val := .n n) hn f _ s' hw h1
  exact ⟨s', h1, h2, fun σ => by simpa [Side.subst] using h3 σ⟩

/-- non-vacuity: the hypotheses hold of ex1, in which surface 1 occurs with both signs -/
example : ex1.WF ∧ ex1.depth + 1 < 6 ∧ ex1.Occurs 1 ∧ (∃ σ : Side, ex1.sem (σ.set 1 true) ≠ ex1.sem (σ.set 1 false)) :=
  ⟨ex1_WF, by decide, by simp [ex1], fun n => n == 3, by decide⟩

/-! ### C08 -/

/-- C08: `join_operators()` (either mode) never raises on a well-formed expression and keeps the region. -/
theorem C08_join_operators (f : Nat) (selfLevel : Bool) (op : Op) (l : Int) (es : List Seq)
    (hw : (Seq.lst op l es).WF) (hd : (Seq.lst op l es).depth < f) :
    ∃ s', (Seq.lst op l es).joinOps f selfLevel = .ok s' ∧ s'.WF ∧ s'.depth ≤ (Seq.lst op l es).depth ∧
      ∀ σ, s'.sem σ = (Seq.lst op l es).sem σ := by
  obtain ⟨s', h1, -, h3⟩ := joinOps_total f selfLevel _ hw trivial hd
  obtain ⟨h4, h5⟩ := joinOps_spec f selfLevel _ s' hw h1
  exact ⟨s', h1, h4, h3, h5⟩

/-- non-vacuity, with nested equal operators and a boolean inside -/
example : (Seq.lst .and 2 [.lst .and 0 [.int 1, .int 2], .lst .and 1 [.lst .and 0 [.int 3], .boo .or (-1) true]]).WF := by
  simp [Seq.WF, Seq.WFL]

/-! ### C09 -/

/-- C09: `get_complementary()` returns on every expression built of surfaces, and the result holds exactly
where the original does not; the original keeps its region. -/
theorem C09_get_complementary (f : Nat) (op : Op) (l : Int) (es : List Seq) (hw : (Seq.lst op l es).WF)
    (hn : (Seq.lst op l es).NoBool) (hd : (Seq.lst op l es).depth < f) :
    ∃ s' c, (Seq.lst op l es).comp f = .ok (s', c) ∧ s'.WF ∧ c.WF ∧
      (∀ σ, s'.sem σ = (Seq.lst op l es).sem σ) ∧
      ∀ σ, c.sem σ = !(Seq.lst op l es).sem σ := by
  obtain ⟨⟨s', c⟩, h⟩ := comp_total f _ hw trivial hn hd
  obtain ⟨h1, h2, h3, h4⟩ := comp_spec f _ s' c hw h
  exact ⟨s', c, h, h1, h2, h3, h4⟩

/-- C09 excluded point: on an expression already reduced to a boolean the code raises. -/
theorem C09_complement_of_bool_raises (f : Nat) (op : Op) (l : Int) (b : Bool) :
    (Seq.boo op l b).comp (f + 1) = .error .typeError := rfl

example : ex1.WF ∧ ex1.NoBool ∧ ex1.depth < 4 := ⟨ex1_WF, ex1_NoBool, by decide⟩

/-! ### C10 -/

/-- C10: `evaluate(values)` is sound for every point that agrees with the known values; `self` keeps its
region. -/
theorem C10_evaluate (f : Nat) (vs : Vals) (s s' : Seq) (r : Ev) (hw : s.WF)
    (h : s.evaluate f vs = .ok (s', r)) :
    (∀ σ, s'.sem σ = s.sem σ) ∧ ∀ σ, Agrees σ vs → r.sem σ = s.sem σ := by
  obtain ⟨-, -, h3, h4⟩ := evaluate_spec hw h
  exact ⟨h3, h4⟩

/-- C10: `evaluate` never raises on an expression built of surfaces. -/
theorem C10_evaluate_returns (f : Nat) (vs : Vals) (op : Op) (l : Int) (es : List Seq)
    (hw : (Seq.lst op l es).WF) (hn : (Seq.lst op l es).NoBool) (hd : (Seq.lst op l es).depth + 2 < f) :
    ∃ r, (Seq.lst op l es).evaluate f vs = .ok r :=
  evaluate_total hw trivial hn hd

example : ∃ σ, Agrees σ [(1, some true), (2, none), (3, some false)] ∧ ex1.WF ∧ ex1.NoBool ∧ ex1.depth + 2 < 6 :=
  ⟨fun n => n == 1, by intro k b h; simp at h; rcases h with ⟨rfl, rfl⟩ | ⟨rfl, rfl⟩ <;> decide,
    ex1_WF, ex1_NoBool, by decide⟩

/-! ### C11 -/

/-- C11 in full: factorising on `v` keeps the region at the consistent points. -/
def C11_statement : Prop :=
  ∀ (f v : Nat) (ts fs : Option Vals) (s s' : Seq), v ≠ 0 → s.WF →
    s.factorize false f v ts fs = .ok s' → ∀ σ, Consistent σ v ts fs → s'.sem σ = s.sem σ

/-- AND[ OR[1 2] OR[3 4] ] -/
def exF : Seq := .lst .and 1 [.lst .or 0 [.int 1, .int 2], .lst .or 0 [.int 3, .int 4]]

/-- C11 is false of the code: for planes 1: x > 0 and 2: x < 1 (so `OR[1 2]` holds everywhere and the
constraint sets say so), factorising AND[ OR[1 2] OR[3 4] ] on surface 1 gives True: `update` throws the
clause OR[3 4] away. -/
theorem C11_factorize_violated : ¬ C11_statement := by
  intro h
  have := h 20 1 (some [(1, some true)]) (some [(1, some false), (2, some true)]) exF (.boo .and (-1) true)
    (by decide) (by simp [exF, Seq.WF, Seq.WFL]) rfl (fun n => n == 1)
    ⟨fun _ => ⟨_, rfl, by intro k b hb; simp at hb; obtain ⟨rfl, rfl⟩ := hb; rfl⟩, fun h => by simp at h⟩
  revert this; decide

/-- C11, partial: the region is kept at every consistent point in every execution in which `update` does not
overwrite remaining siblings by a neutral boolean (`guard := true` raises `Err.lossy` exactly there, and
otherwise runs the code's steps). Missing: executions in which it does, where the claim is false. -/
theorem C11_factorize_partial (f v : Nat) (ts fs : Option Vals) (s s' : Seq) (hv : v ≠ 0) (hw : s.WF)
    (h : s.factorize true f v ts fs = .ok s') :
    s.factorize false f v ts fs = .ok s' ∧ s'.WF ∧ ∀ σ, Consistent σ v ts fs → s'.sem σ = s.sem σ := by
  obtain ⟨h1, h2⟩ := factorize_spec hv hw h
  exact ⟨factorize_guard h, h1, h2⟩

/-- C11, partial: for a flat expression (level 0) the code itself always keeps the region. -/
theorem C11_factorize_flat_partial (f v : Nat) (ts fs : Option Vals) (op : Op) (es : List Seq) (s' : Seq)
    (hv : v ≠ 0) (hw : (Seq.lst op 0 es).WF) (h : (Seq.lst op 0 es).factorize false f v ts fs = .ok s') :
    s'.WF ∧ ∀ σ, Consistent σ v ts fs → s'.sem σ = (Seq.lst op 0 es).sem σ := by
  apply factorize_spec hv hw (f := f)
  cases ts with
  | none => cases fs <;> simpa [Seq.factorize] using h
  | some ts =>
    cases fs with
    | none => simpa [Seq.factorize] using h
    | some fs =>
      cases f with
      | zero => simp [Seq.factorize, Seq.subSeq, bind, Except.bind] at h
      | succ f =>
        simp only [Seq.factorize, Seq.subSeq, if_true] at h ⊢
        exact h

/-- non-vacuity of the partial theorem: a nested expression on which the guarded run succeeds and changes it -/
example : exF.WF ∧ (∃ s', exF.factorize true 20 1 (some [(1, some true)]) (some [(1, some false), (3, some false)]) = .ok s' ∧
    s'.levOf = 1) := ⟨by simp [exF, Seq.WF, Seq.WFL], _, rfl, rfl⟩

/-! ### C12, C13 -/

/-- C12 in full -/
def C12_statement : Prop :=
  ∀ (enum : Seq → List Nat) (f depth : Nat) (s s' : Seq), s.WF →
    s.simplify false enum none f depth = .ok s' → ∀ σ, s'.sem σ = s.sem σ

/-- AND[ OR[1 2 -2] OR[3 4] ] -/
def exS : Seq := .lst .and 1 [.lst .or 0 [.int 1, .int 2, .int (-2)], .lst .or 0 [.int 3, .int 4]]

/-- C12 is false of the code: `AND[OR[1 2 -2] OR[3 4]].simplify()` is True. -/
theorem C12_simplify_violated : ¬ C12_statement := by
  intro h
  have := h Seq.surfaces 30 0 exS (.boo .and (-1) true) (by simp [exS, Seq.WF, Seq.WFL]) rfl
    (fun _ => false)
  revert this; decide

/-- C12, partial: `simplify()` keeps the region in every execution in which `update` overwrites no sibling by a
neutral boolean, for every expression, every iteration order of the surfaces, every depth and recursion limit.
Missing: the executions that do overwrite (see `C12_simplify_violated`). -/
theorem C12_simplify_partial (enum : Seq → List Nat) (f depth : Nat) (s s' : Seq) (hw : s.WF)
    (h : s.simplify true enum none f depth = .ok s') :
    s.simplify false enum none f depth = .ok s' ∧ s'.WF ∧ ∀ σ, s'.sem σ = s.sem σ := by
  obtain ⟨h1, h2⟩ := simplify_spec f depth s s' hw h
  exact ⟨simplify_guard f depth s s' h, h1, fun σ => h2 σ (fun t ht => by cases ht)⟩

/-- AND[ OR[1 2] AND[1 3] OR[ OR[-4] AND[2 1]] ]: simplification really does something -/
def exT : Seq := .lst .and 2 [.lst .or 0 [.int 1, .int 2], .lst .and 0 [.int 1, .int 3],
  .lst .or 1 [.lst .or 0 [.int (-4)], .lst .and 0 [.int 2, .int 1]]]

example : exT.WF ∧ (∃ s', exT.simplify true Seq.surfaces none 30 0 = .ok s' ∧ s'.boolOf = none ∧ s'.surfaces.length < exT.surfaces.length) :=
  ⟨by simp [exT, Seq.WF, Seq.WFL], by
    refine ⟨_, rfl, ?_, ?_⟩ <;> decide⟩

/-- C12, another defect: on an expression with a surface number beside a sub-expression (not regrouped before)
`simplify()` raises AttributeError. -/
theorem C12_simplify_mixed_raises (f depth : Nat) (ct : Option CTab) (enum : Seq → List Nat) (op : Op) (n : Int) (es : List Seq) :
    (Seq.lst op 1 (.int n :: es)).simplify false enum ct (f + 2) depth = .error .attributeError := rfl

/-- C13 in full -/
def C13_statement : Prop :=
  ∀ (enum : Seq → List Nat) (ct : CTab) (f depth : Nat) (s s' : Seq), s.WF →
    s.simplify false enum (some ct) f depth = .ok s' → ∀ σ, CTSound (some ct) σ → s'.sem σ = s.sem σ

/-- C13 is false of the code: the same expression as for C12, with the table that knows nothing. -/
theorem C13_simplify_violated : ¬ C13_statement := by
  intro h
  have := h Seq.surfaces (fun v => .ok (some [(v, some true)], some [(v, some false)])) 30 0 exS (.boo .and (-1) true)
    (by simp [exS, Seq.WF, Seq.WFL]) rfl (fun _ => false) (by
      intro t ht v a b hab
      cases ht
      simp at hab
      obtain ⟨rfl, rfl⟩ := hab
      exact ⟨fun h => by simp at h, fun _ => ⟨_, rfl, by intro k b hb; simp at hb; simp [hb.2]⟩⟩)
  revert this; decide

/-- C13, partial: `simplify(CT)` keeps the region at every point of which the table only states facts (every
point of the box), in every execution in which `update` overwrites no sibling by a neutral boolean. -/
theorem C13_simplify_partial (enum : Seq → List Nat) (ct : CTab) (f depth : Nat) (s s' : Seq) (hw : s.WF)
    (h : s.simplify true enum (some ct) f depth = .ok s') :
    s.simplify false enum (some ct) f depth = .ok s' ∧ s'.WF ∧
      ∀ σ, CTSound (some ct) σ → s'.sem σ = s.sem σ := by
  obtain ⟨h1, h2⟩ := simplify_spec f depth s s' hw h
  exact ⟨simplify_guard f depth s s' h, h1, h2⟩

/-- a table in which 1 (x > 1) implies 2 (x > 0) -/
def exCT : CTab
  | 1 => .ok (some [(1, some true), (2, some true)], some [(1, some false), (2, none)])
  | 2 => .ok (some [(2, some true), (1, none)], some [(2, some false), (1, some false)])
  | v => .ok (some [(v, some true)], some [(v, some false)])

/-- non-vacuity: AND[1 2 OR[3 4]] becomes AND[1 OR[3 4]]; the table is sound at a point between the planes -/
example : (∃ s', (Seq.lst .and 1 [.lst .and 0 [.int 1, .int 2], .lst .or 0 [.int 3, .int 4]]).simplify true Seq.surfaces (some exCT) 30 0 = .ok s' ∧
      s'.surfaces.contains 2 = false ∧ s'.surfaces.contains 1 = true) ∧
    CTSound (some exCT) (fun v => v == 2 || v == 3) := by
  refine ⟨⟨_, rfl, rfl, rfl⟩, ?_⟩
  intro t ht v a b hab
  cases ht
  unfold exCT at hab
  split at hab
  · cases hab
    exact ⟨fun h => by simp at h, fun _ => ⟨_, rfl, by intro k b hb; simp at hb; obtain ⟨rfl, rfl⟩ := hb; rfl⟩⟩
  · cases hab
    exact ⟨fun _ => ⟨_, rfl, by intro k b hb; simp at hb; obtain ⟨rfl, rfl⟩ := hb; rfl⟩, fun h => by simp at h⟩
  · cases hab
    exact ⟨fun h => ⟨_, rfl, by intro k b hb; simp at hb; obtain ⟨rfl, rfl⟩ := hb; exact h⟩,
      fun h => ⟨_, rfl, by intro k b hb; simp at hb; obtain ⟨rfl, rfl⟩ := hb; exact h⟩⟩

/-! ### C14 -/

/-- C14: `get_surfaces_numbers()` is exactly the set of surfaces that occur. -/
theorem C14_surfaces_exact (s : Seq) (v : Nat) : v ∈ s.surfaces ↔ s.Occurs v := mem_surfaces v s

/-- C14: two points on the same side of all of them are both in or both out. -/
theorem C14_support (s : Seq) (σ τ : Side) (h : ∀ v ∈ s.surfaces, σ v = τ v) : s.sem σ = s.sem τ :=
  sem_support s (fun v hv => h v ((mem_surfaces v s).2 hv))

example : ex1.Occurs 5 ∧ ¬ ex1.Occurs 6 := by simp [ex1]

/-! ### C15 -/

theorem substInt_total {t : Int} {new : Seq} : ∀ (f : Nat) (s : Seq), s.isSeq → s.NoBool → s.depth < f →
    ∃ s', Seq.substInt f t new s = .ok s' := by
  intro f
  induction f with
  | zero => intro s _ _ h; omega
  | succ f ih =>
    intro s hs hn hd
    cases s with
    | int n => simp [Seq.isSeq] at hs
    | boo o l b => simp [Seq.NoBool] at hn
    | lst op l es =>
      have hn' := (noBool_lst op l es).1 hn
      have hd' : ∀ e ∈ es, e.depth < f := fun e he => by
        have := depth_mem (o := op) (l := l) he; omega
      have key : ∀ xs : List Seq, (∀ e ∈ xs, e.NoBool) → (∀ e ∈ xs, e.depth < f) →
          ∃ ys, substIntLoop (Seq.substInt f t new) t new xs = .ok ys := by
        intro xs
        induction xs with
        | nil => intro _ _; exact ⟨_, rfl⟩
        | cons x xs ihx =>
          intro h1 h2
          obtain ⟨ys, hy⟩ := ihx (fun e he => h1 e (by simp [he])) (fun e he => h2 e (by simp [he]))
          cases x with
          | int n => exact ⟨_, by simp only [substIntLoop, hy]; rfl⟩
          | boo o l b =>
            have := h1 (.boo o l b) (by simp)
            simp [Seq.NoBool] at this
          | lst o l zs =>
            obtain ⟨e', he⟩ := ih (.lst o l zs) trivial (h1 _ (by simp)) (h2 _ (by simp))
            exact ⟨_, by simp only [substIntLoop, hy, he]; rfl⟩
      obtain ⟨ys, hy⟩ := key es hn' hd'
      exact ⟨_, by simp only [Seq.substInt, hy]; rfl⟩

/-- C15, AND: after `insert_in_sequence(seq, t, n, "AND")` every occurrence of `t` means `t ∧ n`; everything
else is untouched. -/
theorem C15_insert_and (f : Nat) (op : Op) (l : Int) (es : List Seq) (t n : Int) (ht : t ≠ 0)
    (hn : (Seq.lst op l es).NoBool) (hd : (Seq.lst op l es).depth < f) :
    ∃ s', insertInSequence f (.lst op l es) t n .and = .ok s' ∧
      ∀ σ, s'.sem σ = Seq.semIns σ t (lit σ t && lit σ n) (.lst op l es) := by
  obtain ⟨s', h⟩ := substInt_total (t := t) (new := twoSeq .and t n) f (.lst op l es) trivial hn hd
  refine ⟨s'.levelUpdate, by simp only [insertInSequence, h]; rfl, fun σ => ?_⟩
  rw [levelUpdate_sem, substInt_spec f _ s' h, twoSeq_sem _ _ _ ht]; rfl

/-- C15, OR -/
theorem C15_insert_or (f : Nat) (op : Op) (l : Int) (es : List Seq) (t n : Int) (ht : t ≠ 0)
    (hn : (Seq.lst op l es).NoBool) (hd : (Seq.lst op l es).depth < f) :
    ∃ s', insertInSequence f (.lst op l es) t n .or = .ok s' ∧
      ∀ σ, s'.sem σ = Seq.semIns σ t (lit σ t || lit σ n) (.lst op l es) := by
  obtain ⟨s', h⟩ := substInt_total (t := t) (new := twoSeq .or t n) f (.lst op l es) trivial hn hd
  refine ⟨s'.levelUpdate, by simp only [insertInSequence, h]; rfl, fun σ => ?_⟩
  rw [levelUpdate_sem, substInt_spec f _ s' h, twoSeq_sem _ _ _ ht]; rfl

/-- non-vacuity: -1 occurs in ex1 (and so does 1, which must not change) -/
example : ex1.NoBool ∧ ex1.depth < 4 ∧ (∃ σ, Seq.semIns σ (-1) (lit σ (-1) || lit σ 7) ex1 ≠ ex1.sem σ) :=
  ⟨ex1_NoBool, by decide, fun n => n == 1 || n == 5 || n == 7, by decide⟩

end Geouned
