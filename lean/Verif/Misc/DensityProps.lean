import Verif.Misc.Density
import Mathlib.Data.List.Induction
/-!
# C40: density of a cell
-/
namespace Geouned.Density

variable {α : Type}

/-! ## Specification -/

/-- `d` is the dilution in force after the history: the last one set, `1` if none was set -/
def LastDilution (one : α) (h : List (Call α)) (d : α) : Prop :=
  (d = one ∧ ∀ d', Call.dilution d' ∉ h) ∨
    ∃ h₁ h₂, h = h₁ ++ Call.dilution d :: h₂ ∧ ∀ d', Call.dilution d' ∉ h₂

/-- `m`, `r` are the material and nominal density last set -/
def LastMaterial (h : List (Call α)) (m : Int) (r : Option α) : Prop :=
  ∃ h₁ h₂, h = h₁ ++ Call.material m r :: h₂ ∧ ∀ m' r', Call.material m' r' ∉ h₂

/-! ## Lemmas -/

theorem run_append [Mul α] (c : Cell α) (a b : List (Call α)) : c.run (a ++ b) = (c.run a).run b := by
  simp [Cell.run]

theorem run_snoc [Mul α] (c : Cell α) (a : List (Call α)) (x : Call α) : c.run (a ++ [x]) = (c.run a).call x := by
  simp [Cell.run]

theorem dilution_of [Mul α] (zero one : α) (h : List (Call α)) :
    LastDilution one h ((Cell.init zero one).run h).dilution := by
  induction h using List.reverseRecOn with
  | nil => exact Or.inl ⟨rfl, by simp⟩
  | append_singleton h x ih =>
    rw [run_snoc]
    cases x with
    | material m r =>
      have e : (((Cell.init zero one).run h).call (.material m r)).dilution = ((Cell.init zero one).run h).dilution := by
        cases r with
        | some r => rfl
        | none => simp only [Cell.call]; split <;> rfl
      rw [e]
      rcases ih with ⟨h1, h2⟩ | ⟨h₁, h₂, e1, e2⟩
      · exact Or.inl ⟨h1, by simpa using h2⟩
      · exact Or.inr ⟨h₁, h₂ ++ [.material m r], by
          rw [← List.cons_append, ← List.append_assoc, ← e1], by simpa using e2⟩
    | dilution d =>
      refine Or.inr ⟨h, [], ?_, by simp⟩
      have e : (((Cell.init zero one).run h).call (.dilution d)).dilution = d := by
        simp only [Cell.call]; split <;> rfl
      rw [e]

theorem LastDilution.unique {one : α} {h : List (Call α)} {a b : α} (ha : LastDilution one h a)
    (hb : LastDilution one h b) : a = b := by
  rcases ha with ⟨rfl, ha⟩ | ⟨h₁, h₂, rfl, ha⟩
  · rcases hb with ⟨rfl, _⟩ | ⟨k₁, k₂, e, hb⟩
    · rfl
    · exact absurd (by rw [e]; simp) (ha b)
  · rcases hb with ⟨rfl, hb⟩ | ⟨k₁, k₂, e, hb⟩
    · exact absurd (by simp) (hb a)
    · rcases List.append_eq_append_iff.1 e with ⟨c, e1, e2⟩ | ⟨c, e1, e2⟩
      · cases c with
        | nil => simp at e2; exact e2.1
        | cons x xs =>
          simp only [List.cons_append, List.cons.injEq] at e2
          exact absurd (by rw [e2.2]; simp) (ha b)
      · cases c with
        | nil => simp at e2; exact e2.1.symm
        | cons x xs =>
          simp only [List.cons_append, List.cons.injEq] at e2
          exact absurd (by rw [e2.2]; simp) (hb a)

theorem material_after [Mul α] (hc : ∀ a b : α, a * b = b * a) (c : Cell α) (m : Int) (r : Option α) :
    ∀ (h : List (Call α)), (∀ m' r', Call.material m' r' ∉ h) →
    let s := (c.call (.material m r)).run h
    s.material = m ∧ s.rho = r ∧ (∀ x, r = some x → s.density = some (s.dilution * x)) ∧
      (r = none → m ≠ 0 → s.density = none) := by
  intro h
  induction h using List.reverseRecOn with
  | nil =>
    intro _
    cases r with
    | some r => simp [Cell.run, Cell.call]
    | none =>
      by_cases hm : m = 0 <;> simp [Cell.run, Cell.call, hm]
  | append_singleton h x ih =>
    intro hh
    have hh' : ∀ m' r', Call.material m' r' ∉ h := fun m' r' hm => hh m' r' (by simp [hm])
    obtain ⟨e1, e2, e3, e4⟩ := ih hh'
    simp only [run_snoc]
    cases x with
    | material m' r' => exact absurd (by simp) (hh m' r')
    | dilution d =>
      generalize (c.call (.material m r)).run h = s at e1 e2 e3 e4 ⊢
      cases r with
      | some r =>
        simp only [Cell.call, e2]
        refine ⟨e1, trivial, ?_, by simp⟩
        intro x hx
        cases hx
        simp [hc]
      | none =>
        simp only [Cell.call, e2]
        exact ⟨e1, trivial, by simp, fun _ => e4 rfl⟩

/-! ## Theorems -/

/-- C40: after any history of calls, the cell card written says: the material last set, with the nominal density given with
it times the last dilution (1 if none was set); no density for material 0. The only other case, a material set
without density, is refused (`TypeError`), and never written with another density. -/
theorem C40_density [Mul α] (hcomm : ∀ a b : α, a * b = b * a) (zero one : α) (h : List (Call α)) (m : Int)
    (r : Option α) (d : α) (hm : LastMaterial h m r) (hd : LastDilution one h d) :
    ((Cell.init zero one).run h).header =
      if m = 0 then .void else match (generalizing := false) r with
        | some x => .filled m (d * x)
        | none => .raised := by
  obtain ⟨h₁, h₂, e, hn⟩ := hm
  have hd' : ((Cell.init zero one).run h).dilution = d := (dilution_of zero one h).unique hd
  have key := material_after hcomm ((Cell.init zero one).run h₁) m r h₂ hn
  have e' : (Cell.init zero one).run h = (((Cell.init zero one).run h₁).call (.material m r)).run h₂ := by
    rw [e, run_append]; rfl
  rw [e'] at hd' ⊢
  dsimp only at key
  obtain ⟨k1, k2, k3, k4⟩ := key
  unfold Cell.header
  rw [k1]
  by_cases h0 : m = 0
  · simp [h0]
  · simp only [h0, if_false]
    cases r with
    | some x => rw [k3 x rfl, hd']
    | none => rw [k4 rfl h0]

/-- A cell whose material was never set is written as void, whatever dilution was set. -/
theorem C40_never_set [Mul α] (zero one : α) (h : List (Call α)) (hn : ∀ m r, Call.material m r ∉ h) :
    ((Cell.init zero one).run h).header = .void := by
  have : ((Cell.init zero one).run h).material = 0 ∧ ((Cell.init zero one).run h).rho = none := by
    induction h using List.reverseRecOn with
    | nil => exact ⟨rfl, rfl⟩
    | append_singleton h x ih =>
      have := ih (fun m r hm => hn m r (by simp [hm]))
      rw [run_snoc]
      cases x with
      | material m r => exact absurd (by simp) (hn m r)
      | dilution d => simp only [Cell.call]; rw [this.2]; exact ⟨this.1, rfl⟩
  simp [Cell.header, this.1]

/-- Void cells of an enclosure are written with the very header the enclosure itself would have: whatever the history
of the enclosure. -/
theorem C40_void_cells [Mul α] (hcomm : ∀ a b : α, a * b = b * a) (zero one : α) (h : List (Call α)) :
    (voidOf zero one ((Cell.init zero one).run h)).header = ((Cell.init zero one).run h).header := by
  by_cases hm : ∃ m r, Call.material m r ∈ h
  · have : ∃ m r, LastMaterial h m r := by
      induction h using List.reverseRecOn with
      | nil => simp at hm
      | append_singleton h x ih =>
        cases x with
        | material m r => exact ⟨m, r, h, [], rfl, by simp⟩
        | dilution d =>
          have : ∃ m r, Call.material m r ∈ h := by
            obtain ⟨m, r, hmr⟩ := hm
            exact ⟨m, r, by simpa using hmr⟩
          obtain ⟨m, r, h₁, h₂, e, hn⟩ := ih this
          exact ⟨m, r, h₁, h₂ ++ [.dilution d], by rw [e]; simp, by simpa using hn⟩
    obtain ⟨m, r, hmr⟩ := this
    rw [C40_density hcomm zero one h m r _ hmr (dilution_of zero one h)]
    obtain ⟨h₁, h₂, e, hn⟩ := hmr
    have key := material_after hcomm ((Cell.init zero one).run h₁) m r h₂ hn
    have e' : (Cell.init zero one).run h = (((Cell.init zero one).run h₁).call (.material m r)).run h₂ := by
      rw [e, run_append]; rfl
    rw [e']
    dsimp only at key
    unfold voidOf
    rw [key.1, key.2.1]
    exact C40_density hcomm zero one _ m r _ ⟨[], [_], rfl, by simp⟩ (Or.inr ⟨[_], [], rfl, by simp⟩)
  · have hn : ∀ m r, Call.material m r ∉ h := fun m r hh => hm ⟨m, r, hh⟩
    rw [C40_never_set zero one h hn]
    have : ((Cell.init zero one).run h).material = 0 := by
      have := C40_never_set zero one h hn
      unfold Cell.header at this
      split at this
      · assumption
      · split at this <;> cases this
    unfold voidOf Cell.header
    have : ((Cell.init zero one).run [.material ((Cell.init zero one).run h).material ((Cell.init zero one).run h).rho,
        .dilution ((Cell.init zero one).run h).dilution]).material = 0 := by
      rw [this]
      cases ((Cell.init zero one).run h).rho <;> simp [Cell.run, Cell.call, Cell.init]
    rw [if_pos this]

/-- Observation: the attribute `Density` (not the written card) keeps the old value when a cell is turned into void by
`set_material(0)`. -/
theorem C40_stale_attribute : ∃ h : List (Call Int),
    LastMaterial h 0 none ∧ ((Cell.init 0 1).run h).density = some 5 ∧ ((Cell.init 0 1).run h).header = .void :=
  ⟨[.material 1 (some 5), .material 0 none], ⟨[.material 1 (some 5)], [], rfl, by simp⟩, rfl, rfl⟩

/-- non-vacuity -/
example : ∃ h : List (Call Int), LastMaterial h 7 (some (-8)) ∧ LastDilution 1 h 3 ∧
    ((Cell.init 0 1).run h).header = .filled 7 (-24) :=
  ⟨[.material 1 (some 5), .dilution 2, .material 7 (some (-8)), .dilution 3],
    ⟨[.material 1 (some 5), .dilution 2], [.dilution 3], rfl, by simp⟩,
    Or.inr ⟨[.material 1 (some 5), .dilution 2, .material 7 (some (-8))], [], rfl, by simp⟩, rfl⟩

end Geouned.Density
