import Verif.Face.Lemmas
/-!
# C86: the faces connected to a face

`sameFaces near n` for `n` faces, of which the face 0 is the one asked about; `near i j`, for `i < j`, says that the faces touch.
-/
namespace Geouned.Face

open Relation

/-- two different faces of the `n` that touch -/
def Touch (near : Nat → Nat → Bool) (n : Nat) (i j : Nat) : Prop := i < n ∧ j < n ∧ ((i < j ∧ near i j = true) ∨ (j < i ∧ near j i = true))

/-- the property in full: the faces connected to the face 0 by a chain of faces that touch, without the face 0 -/
def C86_statement : Prop :=
  ∀ (near : Nat → Nat → Bool) (n : Nat), 1 ≤ n → ∀ j, j ∈ sameFaces near n ↔ j ≠ 0 ∧ ReflTransGen (Touch near n) 0 j

/-- every face given is connected to the face 0, and none is given twice -/
theorem C86_sound_partial (near : Nat → Nat → Bool) (n : Nat) (hn : 1 ≤ n) :
    (sameFaces near n).Nodup ∧ ∀ j ∈ sameFaces near n, j ≠ 0 ∧ j < n ∧ ReflTransGen (Touch near n) 0 j := by
  have hnd : (couples near n 0).Nodup := by
    unfold couples
    exact (List.nodup_range.map (fun a b h => by simpa using h)).filter _
  have h0 : ∀ x ∈ couples near n 0, x ≠ 0 ∧ x < n ∧ ReflTransGen (Touch near n) 0 x := by
    intro x hx
    obtain ⟨a1, a2, a3⟩ := mem_couples.mp hx
    exact ⟨by omega, a2, ReflTransGen.single ⟨by omega, a2, Or.inl ⟨a1, a3⟩⟩⟩
  unfold sameFaces
  split
  · exact ⟨List.nodup_nil, by simp⟩
  · split
    · exact ⟨hnd, h0⟩
    · split
      · exact ⟨hnd, h0⟩
      · refine ⟨List.nodup_dedup _, fun j hj => ?_⟩
        rw [List.mem_dedup] at hj
        -- the keys are not 0: no key is the face 0
        have key : ∀ (ks lista : List Nat), (∀ k ∈ ks, k ≠ 0) → (∀ x ∈ lista, x ≠ 0) → ∀ x ∈ addKeys near n ks lista, x ≠ 0 := by
          intro ks
          induction ks with
          | nil => intro lista _ h; exact h
          | cons a ks ih =>
            intro lista hk h
            have hk' : ∀ k ∈ ks, k ≠ 0 := fun k hks => hk k (List.mem_cons_of_mem _ hks)
            rw [addKeys]
            split
            · refine ih _ hk' fun x hx => ?_
              rcases List.mem_append.mp hx with hx | hx
              · exact h x hx
              · have := (mem_couples.mp hx).1
                omega
            · refine ih _ hk' fun x hx => ?_
              rcases addKey_mem (fun e2 he => by have := (mem_couples.mp he).1; omega) hx with hx | ⟨rfl, _⟩
              · exact h x hx
              · exact hk x List.mem_cons_self
        have hr := addKeys_sound (near := near) (n := n) (P := fun x => x < n ∧ ReflTransGen (Touch near n) 0 x)
          (fun i k a1 a2 a3 hi => ⟨a2, hi.2.tail ⟨by omega, a2, Or.inl ⟨a1, a3⟩⟩⟩)
          (fun i k a1 a2 a3 hk => ⟨by omega, hk.2.tail ⟨a2, by omega, Or.inr ⟨a1, a3⟩⟩⟩)
          (fun x hx => (h0 x hx).2) j hj
        refine ⟨key _ _ (fun k hk => ?_) (fun x hx => (h0 x hx).1) j hj, hr⟩
        have := List.mem_range'.mp hk
        omega

/-- a face connected to the face 0 by faces of increasing number is given -/
theorem C86_increasing_partial (near : Nat → Nat → Bool) (n j : Nat) (h : Up near n j) : j ∈ sameFaces near n := by
  have hj : 0 < j ∧ j < n := by
    induction h with
    | base a b _ => exact ⟨a, b⟩
    | step _ h1 h2 _ ih => exact ⟨by omega, h2⟩
  unfold sameFaces
  rw [if_neg (by omega)]
  split
  · have : j = 1 := by omega
    subst this
    cases h with
    | base a b c => exact mem_couples.mpr ⟨a, b, c⟩
    | @step i _ h1 h2 h3 h4 =>
      have : ∀ i, Up near n i → 0 < i := fun i hi => by
        induction hi with
        | base a _ _ => exact a
        | step _ h1 _ _ ih => omega
      have := this i h1
      omega
  · split
    · next he =>
      exfalso
      have : ∀ i, Up near n i → False := by
        intro i hi
        induction hi with
        | base a b c =>
          have := mem_couples.mpr ⟨a, b, c⟩
          rw [he] at this
          cases this
        | step _ _ _ _ ih => exact ih
      exact this j h
    · rw [List.mem_dedup]
      cases h with
      | base a b c => exact addKeys_mono (mem_couples.mpr ⟨a, b, c⟩)
      | @step i _ h1 h2 h3 h4 =>
        refine addKeys_up (fun x a b c => mem_couples.mpr ⟨a, b, c⟩) (fun p x hp hp1 _ _ _ => ?_) i j h1 (by omega) h2 h3 h4
        have : ∀ i, Up near n i → 0 < i := fun i hi => by
          induction hi with
          | base a _ _ => exact a
          | step _ h1 _ _ ih => omega
        have := this p hp
        omega

/-- three faces or fewer: the property holds -/
theorem C86_three_partial (near : Nat → Nat → Bool) (n : Nat) (h1 : 1 ≤ n) (h3 : n ≤ 3) (j : Nat) :
    j ∈ sameFaces near n ↔ j ≠ 0 ∧ ReflTransGen (Touch near n) 0 j := by
  constructor
  · intro hj
    obtain ⟨a, _, c⟩ := (C86_sound_partial near n h1).2 j hj
    exact ⟨a, c⟩
  · rintro ⟨hj, hr⟩
    -- the faces given, with the face 0, are closed along the links
    have hcl : ∀ i k, (i = 0 ∨ i ∈ sameFaces near n) → Touch near n i k → k = 0 ∨ k ∈ sameFaces near n := by
      intro i k hi ⟨hi1, hk1, ht⟩
      have hup : ∀ k, 0 < k → k < n → near 0 k = true → k ∈ sameFaces near n :=
        fun k a b c => C86_increasing_partial near n k (Up.base a b c)
      rcases Nat.eq_zero_or_pos k with h | hk0
      · exact Or.inl h
      · right
        rcases Nat.eq_zero_or_pos i with hi0 | hi0
        · rw [hi0] at ht
          rcases ht with ⟨a, b⟩ | ⟨a, b⟩
          · exact hup k a hk1 b
          · omega
        · by_cases h0k : near 0 k = true
          · exact hup k hk0 hk1 h0k
          · have hi : i ∈ sameFaces near n := hi.resolve_left (by omega)
            -- `i` and `k` are 1 and 2
            have hn : n = 3 := by
              rcases ht with ⟨a, _⟩ | ⟨a, _⟩ <;> omega
            subst hn
            rcases ht with ⟨a, b⟩ | ⟨a, b⟩
            · have e1 : i = 1 := by omega
              have e2 : k = 2 := by omega
              subst e1
              subst e2
              by_cases h01 : near 0 1 = true
              · exact C86_increasing_partial near 3 2 (Up.step (Up.base (by omega) (by omega) h01) (by omega) (by omega) b)
              · exfalso
                have : couples near 3 0 = [] := by
                  refine List.eq_nil_iff_forall_not_mem.mpr fun x hx => ?_
                  obtain ⟨a1, a2, a3⟩ := mem_couples.mp hx
                  have : x = 1 ∨ x = 2 := by omega
                  rcases this with rfl | rfl
                  · exact h01 a3
                  · exact h0k a3
                unfold sameFaces at hi
                rw [if_neg (by omega), if_neg (by omega), if_pos this, this] at hi
                cases hi
            · have e1 : i = 2 := by omega
              have e2 : k = 1 := by omega
              subst e1
              subst e2
              by_cases h02 : near 0 2 = true
              · have hc : couples near 3 0 = [2] := by
                  have h0k' : near 0 1 = false := by simpa using h0k
                  have : couples near 3 0 = [1, 2].filter (near 0) := rfl
                  rw [this]
                  simp [h0k', h02]
                have hc1 : couples near 3 1 = [2] := by
                  have : couples near 3 1 = [2].filter (near 1) := rfl
                  rw [this]
                  simp [b]
                unfold sameFaces
                rw [if_neg (by omega), if_neg (by omega), hc, if_neg (by simp), show List.range' 1 (3 - 2) = [1] from rfl, addKeys,
                  if_neg (by simp), hc1]
                simp [addKeys, addKey]
              · exfalso
                have : couples near 3 0 = [] := by
                  refine List.eq_nil_iff_forall_not_mem.mpr fun x hx => ?_
                  obtain ⟨a1, a2, a3⟩ := mem_couples.mp hx
                  have : x = 1 ∨ x = 2 := by omega
                  rcases this with rfl | rfl
                  · exact h0k a3
                  · exact h02 a3
                unfold sameFaces at hi
                rw [if_neg (by omega), if_neg (by omega), if_pos this, this] at hi
                cases hi
    have : j = 0 ∨ j ∈ sameFaces near n := by
      induction hr with
      | refl => exact Or.inl rfl
      | @tail b c _ hbc ih =>
        rcases Nat.eq_zero_or_pos b with hb | hb
        · exact hcl b c (Or.inl hb) hbc
        · exact hcl b c (ih (by omega)) hbc
    exact this.resolve_left hj

/-- a run: the chain 0-1-3 and the face 2 that touches 3 -/
example : sameFaces (fun i j => (i, j) ∈ [(0, 1), (1, 3), (2, 3)]) 4 = [1, 3, 2] ∧
    Up (fun i j => decide ((i, j) ∈ [(0, 1), (1, 3), (2, 3)])) 4 3 :=
  ⟨by decide, .step (.base (j := 1) (by omega) (by omega) rfl) (by omega) (by omega) rfl⟩

/-- the property fails: the chain 0-2-1-3; the face 3 is missed -/
theorem C86_violated : ¬ C86_statement := by
  intro h
  have h3 := (h (fun i j => (i, j) ∈ [(0, 2), (1, 2), (1, 3)]) 4 (by omega) 3).mpr ⟨by omega, by
    refine ((ReflTransGen.single (b := 2) ?_).tail (c := 1) ?_).tail ?_ <;> refine ⟨by omega, by omega, ?_⟩
    · exact Or.inl ⟨by omega, by decide⟩
    · exact Or.inr ⟨by omega, by decide⟩
    · exact Or.inl ⟨by omega, by decide⟩⟩
  revert h3
  decide

end Geouned.Face
