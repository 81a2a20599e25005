import Verif.Rev.BuildLemmas
import Verif.Rev.LevelsProps
/-!
# C67: lemmas on the universes of a file
-/
namespace Geouned.Rev

section
variable {P : Type}

/-- the universes of a file, with the cells that are kept -/
def fileUniverses (cells : List UCell) (keep : UCell → Bool) (geo : Nat → (P → Prop) × Option (Motion P)) : Universes P :=
  filteredUniverses cells keep geo (keysOf cells)

section
variable {cells : List UCell} {keep : UCell → Bool} {geo : Nat → (P → Prop) × Option (Motion P)} {keys : List Nat}

theorem filtered_some {U : Nat} {cs : List (PCell P)} (h : filteredUniverses cells keep geo keys U = some cs) :
    U ∈ keys ∧ cs = (cells.filter fun c => c.u = U && keep c).map fun c => ⟨c.name, c.filled, (geo c.name).2, (geo c.name).1⟩ := by
  unfold filteredUniverses at h
  split at h
  · rename_i hk
    exact ⟨List.contains_iff_mem.1 hk, (Option.some.inj h).symm⟩
  · cases h

theorem filtered_filled {U V : Nat} {c : PCell P} (h : FilledBy (filteredUniverses cells keep geo keys) U c V) :
    U ∈ keys ∧ ∃ d ∈ cells, d.u = U ∧ d.filled = some V ∧ d.name = c.name := by
  obtain ⟨cs, h1, h2, h3⟩ := h
  obtain ⟨h4, rfl⟩ := filtered_some h1
  obtain ⟨d, hd, rfl⟩ := List.mem_map.1 h2
  simp only [List.mem_filter, Bool.and_eq_true, decide_eq_true_eq] at hd
  exact ⟨h4, d, hd.1, hd.2.1, h3, rfl⟩

theorem filtered_fills {U V : Nat} {c : PCell P} (h : FilledBy (filteredUniverses cells keep geo keys) U c V) : Fills cells U V := by
  obtain ⟨-, d, h1, h2, h3, -⟩ := filtered_filled h
  rw [filled_iff] at h3
  exact ⟨h3.1, d, h1, h2, h3.2⟩

theorem filtered_steps {U V k : Nat} (h : NestsIn (filteredUniverses cells keep geo keys) U V k) : Steps cells U V k := by
  induction h with
  | refl => exact .refl
  | step _ hf ih => exact .step ih (filtered_fills hf)

theorem filtered_names (hn : (cells.map (·.name)).Nodup) (U : Nat) (cs : List (PCell P)) (h : filteredUniverses cells keep geo keys U = some cs) :
    (cs.map (·.name)).Nodup := by
  obtain ⟨-, rfl⟩ := filtered_some h
  rw [List.map_map]
  exact List.Nodup.sublist (List.filter_sublist.map _) hn

theorem filtered_once (h : ∀ c ∈ cells, ∀ d ∈ cells, ∀ V, c.filled = some V → d.filled = some V → c = d) :
    FilledOnce (filteredUniverses cells keep geo keys) := by
  intro V U₁ c₁ U₂ c₂ h1 h2
  obtain ⟨-, d₁, a1, a2, a3, a4⟩ := filtered_filled h1
  obtain ⟨-, d₂, b1, b2, b3, b4⟩ := filtered_filled h2
  cases h d₁ a1 d₂ b1 V a3 b3
  exact ⟨a2.symm.trans b2, a4.symm.trans b4⟩

/-- universes that fill one cell only are at one level only -/
theorem once_graded {r : Nat} {rank : Nat → Nat} (hn : Nested cells rank) (hr : ∀ v, ¬ Fills cells v r)
    (h : ∀ c ∈ cells, ∀ d ∈ cells, ∀ V, c.filled = some V → d.filled = some V → c = d) : Graded cells r := by
  intro v j
  induction j generalizing v with
  | zero =>
    intro k h1 h2
    cases h1
    cases h2 with
    | refl => rfl
    | step _ hf => exact absurd hf (hr _)
  | succ j ih =>
    intro k h1 h2
    cases h1 with
    | step a1 a2 =>
      cases h2 with
      | refl => exact absurd a2 (hr _)
      | step b1 b2 =>
        obtain ⟨x0, c, hc1, hc2, hc3⟩ := a2
        obtain ⟨y0, d, hd1, hd2, hd3⟩ := b2
        have := h c hc1 d hd1 v ((filled_iff c v).2 ⟨x0, hc3⟩) ((filled_iff d v).2 ⟨y0, hd3⟩)
        subst this
        rw [← hc2] at a1
        rw [← hd2] at b1
        rw [ih _ _ a1 b1]

end

theorem steps_rank {cells : List UCell} {rank : Nat → Nat} (hn : Nested cells rank) {U V k : Nat} (h : Steps cells U V k) : k + rank V ≤ rank U := by
  induction h with
  | refl => omega
  | step _ hf ih => have := hn _ _ hf; omega

end
end Geouned.Rev
