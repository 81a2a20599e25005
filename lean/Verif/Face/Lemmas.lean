import Verif.Face.Model
import Mathlib.Logic.Relation
import Mathlib.Data.List.Basic
/-!
# Lemmas on `same_faces`
-/
namespace Geouned.Face

variable {near : Nat → Nat → Bool} {n : Nat}

theorem mem_couples {i j : Nat} : j ∈ couples near n i ↔ i < j ∧ j < n ∧ near i j = true := by
  unfold couples
  rw [List.mem_filter, List.mem_map]
  constructor
  · rintro ⟨⟨a, ha, rfl⟩, h⟩
    rw [List.mem_range] at ha
    exact ⟨by omega, by omega, h⟩
  · rintro ⟨h1, h2, h3⟩
    exact ⟨⟨j - (i + 1), by rw [List.mem_range]; omega, by omega⟩, h3⟩

theorem addKey_mono {e x : Nat} : ∀ {l lista : List Nat}, x ∈ lista → x ∈ addKey e l lista := by
  intro l
  induction l with
  | nil => intro lista h; exact h
  | cons a l ih =>
    intro lista h
    rw [addKey]
    refine ih ?_
    split
    · exact List.mem_append_left _ h
    · exact h

theorem addKey_mem {e x : Nat} : ∀ {l lista : List Nat}, (∀ e2 ∈ l, e2 ≠ e) → x ∈ addKey e l lista →
    x ∈ lista ∨ (x = e ∧ ∃ e2 ∈ l, e2 ∈ lista) := by
  intro l
  induction l with
  | nil => intro lista _ h; exact Or.inl h
  | cons a l ih =>
    intro lista hl h
    rw [addKey] at h
    rcases ih (fun e2 he => hl e2 (List.mem_cons_of_mem _ he)) h with h1 | ⟨h1, e2, h2, h3⟩
    · split at h1
      · next ha =>
        rcases List.mem_append.mp h1 with h1 | h1
        · exact Or.inl h1
        · exact Or.inr ⟨List.mem_singleton.mp h1, a, List.mem_cons_self, ha⟩
      · exact Or.inl h1
    · refine Or.inr ⟨h1, e2, List.mem_cons_of_mem _ h2, ?_⟩
      split at h3
      · rcases List.mem_append.mp h3 with h3 | h3
        · exact h3
        · exact absurd (List.mem_singleton.mp h3) (hl e2 (List.mem_cons_of_mem _ h2))
      · exact h3

theorem addKeys_mono {x : Nat} : ∀ {ks lista : List Nat}, x ∈ lista → x ∈ addKeys near n ks lista := by
  intro ks
  induction ks with
  | nil => intro lista h; exact h
  | cons a ks ih =>
    intro lista h
    rw [addKeys]
    split
    · exact ih (List.mem_append_left _ h)
    · exact ih (addKey_mono h)

/-- a set that contains the list and is closed along the links contains the result -/
theorem addKeys_sound {P : Nat → Prop} (h1 : ∀ i j, i < j → j < n → near i j = true → P i → P j)
    (h2 : ∀ i j, i < j → j < n → near i j = true → P j → P i) : ∀ {ks lista : List Nat}, (∀ x ∈ lista, P x) →
    ∀ x ∈ addKeys near n ks lista, P x := by
  intro ks
  induction ks with
  | nil => intro lista h; exact h
  | cons a ks ih =>
    intro lista h
    rw [addKeys]
    split
    · next ha =>
      refine ih fun x hx => ?_
      rcases List.mem_append.mp hx with hx | hx
      · exact h x hx
      · obtain ⟨a1, a2, a3⟩ := mem_couples.mp hx
        exact h1 a x a1 a2 a3 (h a ha)
    · refine ih fun x hx => ?_
      rcases addKey_mem (fun e2 he => by have := (mem_couples.mp he).1; omega) hx with hx | ⟨rfl, e2, h3, h4⟩
      · exact h x hx
      · obtain ⟨a1, a2, a3⟩ := mem_couples.mp h3
        exact h2 x e2 a1 a2 a3 (h e2 h4)

/-- linked to the face 0 by faces of increasing number -/
inductive Up (near : Nat → Nat → Bool) (n : Nat) : Nat → Prop
  | base {j : Nat} : 0 < j → j < n → near 0 j = true → Up near n j
  | step {i j : Nat} : Up near n i → i < j → j < n → near i j = true → Up near n j

theorem addKeys_up : ∀ {m a : Nat} {lista : List Nat},
    (∀ x, 0 < x → x < n → near 0 x = true → x ∈ lista) →
    (∀ p x, Up near n p → p < a → p < x → x < n → near p x = true → x ∈ lista) →
    ∀ p x, Up near n p → p < a + m → p < x → x < n → near p x = true → x ∈ addKeys near n (List.range' a m) lista := by
  intro m
  induction m with
  | zero =>
    intro a lista _ h p x hp hpa hpx hx hn
    exact h p x hp (by omega) hpx hx hn
  | succ m ih =>
    intro a lista h0 h p x hp hpa hpx hx hn
    rw [List.range'_succ, addKeys]
    by_cases ha : a ∈ lista
    · rw [if_pos ha]
      refine ih (fun x a1 a2 a3 => List.mem_append_left _ (h0 x a1 a2 a3)) (fun q y hq hqa hqy hy hny => ?_) p x hp (by omega) hpx hx hn
      rcases Nat.lt_or_ge q a with hlt | hge
      · exact List.mem_append_left _ (h q y hq hlt hqy hy hny)
      · have : q = a := by omega
        subst this
        exact List.mem_append_right _ (mem_couples.mpr ⟨hqy, hy, hny⟩)
    · rw [if_neg ha]
      refine ih (fun x a1 a2 a3 => addKey_mono (h0 x a1 a2 a3)) (fun q y hq hqa hqy hy hny => ?_) p x hp (by omega) hpx hx hn
      rcases Nat.lt_or_ge q a with hlt | hge
      · exact addKey_mono (h q y hq hlt hqy hy hny)
      · exfalso
        have : q = a := by omega
        subst this
        apply ha
        cases hq with
        | base b1 b2 b3 => exact h0 q b1 b2 b3
        | step c1 c2 c3 c4 => exact h _ q c1 c2 c2 c3 c4

end Geouned.Face
