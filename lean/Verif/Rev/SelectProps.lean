import Verif.Rev.Select
/-!
# C65: the filters choose exactly the cells asked for
-/
namespace Geouned.Rev

/-! ## Lemmas -/

theorem lastCells_mats (calls : List Call) (t : String) (l : Option (List Int)) : lastCells (calls ++ [.mats t l]) = lastCells calls := by
  induction calls with
  | nil => rfl
  | cons c cs ih => cases c <;> simp [lastCells, ih]

theorem lastCells_cells (calls : List Call) (t : String) (l : Option (List Nat)) : lastCells (calls ++ [.cells t l]) = (t, l.getD []) := by
  induction calls with
  | nil => rfl
  | cons c cs ih => cases c <;> simp [lastCells, ih]

theorem lastMats_cells (calls : List Call) (t : String) (l : Option (List Nat)) : lastMats (calls ++ [.cells t l]) = lastMats calls := by
  induction calls with
  | nil => rfl
  | cons c cs ih => cases c <;> simp [lastMats, ih]

theorem lastMats_mats (calls : List Call) (t : String) (l : Option (List Int)) : lastMats (calls ++ [.mats t l]) = (t, l.getD []) := by
  induction calls with
  | nil => rfl
  | cons c cs ih => cases c <;> simp [lastMats, ih]

/-- the attributes say the same as the last call -/
def Sync {α : Type} (k : Kind) (r : Option (List α)) (f : String × List α) : Prop :=
  match k with
  | .all => f.1 ≠ "include" ∧ (f.1 = "exclude" → f.2 = [])
  | .incl => f.1 = "include" ∧ r = some f.2
  | .excl => f.1 = "exclude" ∧ r = some f.2

theorem sync_new {α : Type} (t : String) (l old : Option (List α)) (h : t = "include" → l ≠ none) :
    Sync (newRange (kindOf t) old l).1 (newRange (kindOf t) old l).2 (t, l.getD []) := by
  by_cases h1 : t = "exclude"
  · subst h1
    cases l <;> simp [newRange, kindOf, Sync]
  · by_cases h2 : t = "include"
    · subst h2
      cases l with
      | none => simp at h
      | some l => simp [newRange, kindOf, Sync]
    · cases l <;> simp [newRange, kindOf, Sync, h1, h2]

theorem sync_after (calls : List Call) (h : ListsGiven calls) :
    Sync (Filters.after calls).cellKind (Filters.after calls).cellRange (lastCells calls) ∧
    Sync (Filters.after calls).matKind (Filters.after calls).matRange (lastMats calls) := by
  suffices H : ∀ n (calls : List Call), calls.length = n → ListsGiven calls →
      Sync (Filters.after calls).cellKind (Filters.after calls).cellRange (lastCells calls) ∧
      Sync (Filters.after calls).matKind (Filters.after calls).matRange (lastMats calls) from H _ calls rfl h
  intro n
  induction n with
  | zero =>
    intro calls hl _
    cases List.eq_nil_of_length_eq_zero hl
    simp [Filters.after, Filters.init, Sync, lastCells, lastMats]
  | succ n ih =>
    intro calls hl h
    rcases List.eq_nil_or_concat calls with rfl | ⟨cs, c, rfl⟩
    · simp at hl
    · rw [List.concat_eq_append] at hl h ⊢
      obtain ⟨i1, i2⟩ := ih cs (by simpa using hl) (fun d hd => h d (by simp [hd]))
      have hc := h c (by simp)
      have e : Filters.after (cs ++ [c]) = (Filters.after cs).call c := by simp [Filters.after]
      rw [e]
      cases c with
      | cells t l =>
        rw [lastCells_cells, lastMats_cells]
        exact ⟨sync_new t l _ (fun ht hn => hc.1 (by rw [ht, hn])), i2⟩
      | mats t l =>
        rw [lastCells_mats, lastMats_mats]
        exact ⟨i1, sync_new t l _ (fun ht hn => hc.2 (by rw [ht, hn]))⟩

theorem loop_filter (keep : SCell → R Bool) (p : SCell → Bool) (cells : List SCell) (h : ∀ c, keep c = .ok (p c)) :
    loop keep cells = .ok (cells.filter p) := by
  induction cells with
  | nil => rfl
  | cons c cs ih =>
    simp only [loop, h, ih, bind, Except.bind, List.filter_cons]

theorem selectMcnp_eq (f : Filters) (fc : String × List Nat) (fm : String × List Int) (hc : Sync f.cellKind f.cellRange fc)
    (hm : Sync f.matKind f.matRange fm) (cells : List SCell) :
    selectMcnp f cells = .ok (cells.filter fun c => decide (Keeps fc c.name ∧ (c.fill = none → KeepsMat fm c.mat))) := by
  obtain ⟨ck, cr, mk, mr⟩ := f
  obtain ⟨fct, fcl⟩ := fc
  obtain ⟨fmt, fml⟩ := fm
  cases ck <;> cases mk <;> simp only [Sync] at hc hm
  case all.all =>
    simp only [selectMcnp]
    rw [List.filter_eq_self.2]
    intro c _
    simp only [decide_eq_true_eq]
    refine ⟨⟨fun e => absurd e hc.1, fun e => by simp [hc.2 e]⟩, fun _ => ?_⟩
    cases h : c.mat with
    | none => exact hm.1
    | some m => exact ⟨fun e => absurd e hm.1, fun e => by simp [hm.2 e]⟩
  all_goals
    simp only [selectMcnp]
    refine loop_filter _ _ _ fun c => ?_
    obtain ⟨hc1, hc2⟩ := hc
    obtain ⟨hm1, hm2⟩ := hm
    first | subst hc2 | skip
    first | subst hm2 | skip
    obtain ⟨nm, mt, fl⟩ := c
    cases fl <;> cases mt <;> simp [isIn, matIn, notR, andR, bind, Except.bind, Keeps, KeepsMat, *]
  all_goals
    by_cases e1 : fct = "exclude" <;> by_cases e2 : fmt = "exclude" <;> simp_all
  all_goals
    split <;> simp_all

/-! ## Properties -/

/-- The full property, for both readers of files. -/
def C65_statement : Prop :=
  ∀ (calls : List Call) (cells : List SCell), ListsGiven calls →
    selectMcnp (Filters.after calls) cells = .ok (cells.filter fun c => decide (Wanted calls c)) ∧
    ((∃ c ∈ cells, Wanted calls c) → selectXml (Filters.after calls) cells = .ok (cells.filter fun c => decide (Wanted calls c)))

/-- **C65**, MCNP files: after any sequence of calls of the two filters, the cells chosen among those of a universe are exactly the wanted ones, in the
order of the file. -/
theorem C65_mcnp (calls : List Call) (cells : List SCell) (h : ListsGiven calls) :
    selectMcnp (Filters.after calls) cells = .ok (cells.filter fun c => decide (Wanted calls c)) := by
  obtain ⟨h1, h2⟩ := sync_after calls h
  exact selectMcnp_eq _ _ _ h1 h2 cells

/-- filters replaced several times, a filled cell (3) and all kinds of material -/
def sampleCalls : List Call := [.cells "include" (some [7]), .mats "exclude" (some [0, 5]), .cells "exclude" (some [2]), .mats "other" none,
  .mats "include" (some [1])]
def sampleCells : List SCell := [⟨1, some 1, none⟩, ⟨2, some 1, none⟩, ⟨3, some 0, some 9⟩, ⟨4, some 0, none⟩]

example : ListsGiven sampleCalls := by unfold ListsGiven sampleCalls; decide
example : sampleCells.filter (fun c => decide (Wanted sampleCalls c)) = [⟨1, some 1, none⟩, ⟨3, some 0, some 9⟩] := by decide
example : selectMcnp (Filters.after sampleCalls) sampleCells = .ok [⟨1, some 1, none⟩, ⟨3, some 0, some 9⟩] := by decide

/-- **C65**, OpenMC files: the same, unless the materials are included and the cells excluded. When no cell is wanted, ValueError is raised. -/
theorem C65_xml_partial (calls : List Call) (cells : List SCell) (h : ListsGiven calls)
    (hb : ¬ ((lastMats calls).1 = "include" ∧ (lastCells calls).1 = "exclude")) :
    selectXml (Filters.after calls) cells =
      if ∃ c ∈ cells, Wanted calls c then .ok (cells.filter fun c => decide (Wanted calls c)) else .error .valueError := by
  obtain ⟨h1, h2⟩ := sync_after calls h
  have hk : ¬ ((Filters.after calls).matKind = .incl ∧ (Filters.after calls).cellKind = .excl) := by
    rintro ⟨e1, e2⟩
    rw [e1] at h2
    rw [e2] at h1
    exact hb ⟨h2.1, h1.1⟩
  have e := selectMcnp_eq _ _ _ h1 h2 cells
  unfold selectXml selectXmlBranches
  rw [if_neg hk, e]
  simp only [bind, Except.bind]
  have hf : (cells.filter fun c => decide (Wanted calls c)) = [] ↔ ¬ ∃ c ∈ cells, Wanted calls c := by
    simp [List.filter_eq_nil_iff]
  by_cases hw : ∃ c ∈ cells, Wanted calls c
  · rw [if_pos hw, if_neg]
    · rfl
    · intro hn
      exact (hf.1 hn) hw
  · rw [if_neg hw, if_pos]
    exact hf.2 hw

example : selectXml (Filters.after [.cells "include" (some [2, 4])]) sampleCells = .ok [⟨2, some 1, none⟩, ⟨4, some 0, none⟩] ∧
    selectXml (Filters.after [.cells "include" (some [8])]) sampleCells = .error .valueError := by decide

/-- C65 is false for OpenMC files: materials included and cells excluded raise AttributeError. -/
theorem C65_xml_violated : ¬ C65_statement := by
  intro h
  have := (h sampleCalls sampleCells (by unfold ListsGiven sampleCalls; decide)).2 ⟨⟨1, some 1, none⟩, by decide, by decide⟩
  revert this
  decide

/-- in that case no file with a cell is ever accepted -/
theorem C65_xml_raises_violated (calls : List Call) (c : SCell) (cells : List SCell) (h : ListsGiven calls)
    (hm : (lastMats calls).1 = "include") (hc : (lastCells calls).1 = "exclude") (hl : (lastCells calls).2 ≠ []) :
    selectXml (Filters.after calls) (c :: cells) = .error .attributeError := by
  obtain ⟨h1, h2⟩ := sync_after calls h
  have e1 : (Filters.after calls).matKind = .incl := by
    cases hk : (Filters.after calls).matKind <;> rw [hk] at h2 <;> simp [Sync, hm] at h2
  have e2 : (Filters.after calls).cellKind = .excl := by
    cases hk : (Filters.after calls).cellKind <;> rw [hk] at h1 <;> simp [Sync, hc] at h1
    exact absurd h1 hl
  simp [selectXml, selectXmlBranches, e1, e2, loopKeys, bind, Except.bind]

/-- "include" without a list: the list of an earlier call is used, whatever that call was for; without an earlier one, TypeError. -/
theorem C65_stale_list_violated (l : List Nat) (cells : List SCell) :
    selectMcnp (Filters.after [.cells "exclude" (some l), .cells "include" none]) cells = .ok (cells.filter fun c => decide (c.name ∈ l)) ∧
    ∀ c, selectMcnp (Filters.after [.cells "include" none]) (c :: cells) = .error .typeError := by
  constructor
  · have : Filters.after [.cells "exclude" (some l), .cells "include" none] = ⟨.incl, some l, .all, none⟩ := rfl
    rw [this]
    simp only [selectMcnp]
    refine loop_filter _ _ _ fun c => ?_
    simp [isIn]
  · intro c
    rfl

end Geouned.Rev
