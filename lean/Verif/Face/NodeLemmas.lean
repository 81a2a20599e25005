import Verif.Face.IntervalModel
import Mathlib.Tactic.Linarith
import Mathlib.Data.List.Nodup
import Mathlib.Data.List.GetD
/-!
# Lemmas on the sorted ends of the ranges
-/
namespace Geouned.Face

theorem nodeLe_iff {p q : Node} : nodeLe p q = true ↔ p.1 < q.1 ∨ (p.1 = q.1 ∧ p.2 ≤ q.2) := by
  unfold nodeLe
  exact decide_eq_true_iff

theorem nodeLe_trans {a b c : Node} (h1 : nodeLe a b = true) (h2 : nodeLe b c = true) : nodeLe a c = true := by
  rw [nodeLe_iff] at *
  rcases h1 with h1 | ⟨h1, h1'⟩ <;> rcases h2 with h2 | ⟨h2, h2'⟩
  · exact Or.inl (h1.trans h2)
  · exact Or.inl (by linarith)
  · exact Or.inl (by linarith)
  · exact Or.inr ⟨h1.trans h2, h1'.trans h2'⟩

theorem nodeLe_total (a b : Node) : nodeLe a b = true ∨ nodeLe b a = true := by
  rw [nodeLe_iff, nodeLe_iff]
  rcases lt_trichotomy a.1 b.1 with h | h | h
  · exact Or.inl (Or.inl h)
  · rcases le_total a.2 b.2 with h2 | h2
    · exact Or.inl (Or.inr ⟨h, h2⟩)
    · exact Or.inr (Or.inr ⟨h.symm, h2⟩)
  · exact Or.inr (Or.inl h)

theorem nodeLe_antisymm {a b : Node} (h1 : nodeLe a b = true) (h2 : nodeLe b a = true) : a = b := by
  rw [nodeLe_iff] at *
  rcases h1 with h1 | ⟨h1, h1'⟩ <;> rcases h2 with h2 | ⟨h2, h2'⟩
  · exact absurd (h1.trans h2) (lt_irrefl _)
  · exact absurd h1 (by rw [h2]; exact lt_irrefl _)
  · exact absurd h2 (by rw [h1]; exact lt_irrefl _)
  · exact Prod.ext h1 (le_antisymm h1' h2')

theorem insertNode_perm (p : Node) : ∀ l, (insertNode p l).Perm (p :: l)
  | [] => by simp [insertNode]
  | q :: rest => by
    rw [insertNode]
    split
    · exact List.Perm.refl _
    · exact ((insertNode_perm p rest).cons q).trans (List.Perm.swap p q rest)

theorem sortNodes_perm : ∀ l, (sortNodes l).Perm l
  | [] => by simp [sortNodes]
  | p :: rest => by
    rw [sortNodes]
    exact (insertNode_perm p _).trans ((sortNodes_perm rest).cons p)

theorem insertNode_pairwise (p : Node) : ∀ l, l.Pairwise (fun a b => nodeLe a b = true) → (insertNode p l).Pairwise (fun a b => nodeLe a b = true)
  | [], _ => by simp [insertNode]
  | q :: rest, h => by
    obtain ⟨h1, h2⟩ := List.pairwise_cons.mp h
    rw [insertNode]
    split
    · next hpq =>
      refine List.pairwise_cons.mpr ⟨fun x hx => ?_, h⟩
      rcases List.mem_cons.mp hx with rfl | hx
      · exact hpq
      · exact nodeLe_trans hpq (h1 x hx)
    · next hpq =>
      refine List.pairwise_cons.mpr ⟨fun x hx => ?_, insertNode_pairwise p rest h2⟩
      rcases List.mem_cons.mp ((insertNode_perm p rest).mem_iff.mp hx) with rfl | hx
      · exact (nodeLe_total x q).resolve_left hpq
      · exact h1 x hx

theorem sortNodes_pairwise : ∀ l, (sortNodes l).Pairwise (fun a b => nodeLe a b = true)
  | [] => by simp [sortNodes]
  | p :: rest => by
    rw [sortNodes]
    exact insertNode_pairwise p _ (sortNodes_pairwise rest)

theorem filter_flatMap_ends (rng : Nat → ℚ × ℚ) (k : Nat) : ∀ {l : List Nat}, l.Nodup →
    (l.flatMap (fun i => [((rng i).1, i), ((rng i).2, i)])).filter (fun x : Node => decide (x.2 = k)) =
      if k ∈ l then [((rng k).1, k), ((rng k).2, k)] else []
  | [], _ => by simp
  | i :: l, h => by
    obtain ⟨h1, h2⟩ := List.nodup_cons.mp h
    rw [List.flatMap_cons, List.filter_append, filter_flatMap_ends rng k h2]
    by_cases hik : i = k
    · subst hik
      simp [h1]
    · have hki : k ≠ i := fun h => hik h.symm
      simp [hik, hki]

/-- the two ends of the range of a face among the sorted ends -/
theorem uNodes_split {rng : Nat → ℚ × ℚ} {l : List Nat} (hl : l.Nodup) {k : Nat} (hk : k ∈ l) (hw : (rng k).1 ≤ (rng k).2) :
    ∃ n1 n3 n4, uNodes rng l = n1 ++ ((rng k).1, k) :: (n3 ++ ((rng k).2, k) :: n4) ∧ (∀ x ∈ n1, x.2 ≠ k) ∧ (∀ x ∈ n3, x.2 ≠ k) ∧ ∀ x ∈ n4, x.2 ≠ k := by
  have hp : ((uNodes rng l).filter (fun x : Node => decide (x.2 = k))).Perm [((rng k).1, k), ((rng k).2, k)] := by
    have := (sortNodes_perm (l.flatMap (fun i => [((rng i).1, i), ((rng i).2, i)]))).filter (fun x : Node => decide (x.2 = k))
    rw [filter_flatMap_ends rng k hl, if_pos hk] at this
    exact this
  have hs : ((uNodes rng l).filter (fun x : Node => decide (x.2 = k))).Pairwise (fun a b => nodeLe a b = true) :=
    (sortNodes_pairwise _).filter _
  have he : (uNodes rng l).filter (fun x : Node => decide (x.2 = k)) = [((rng k).1, k), ((rng k).2, k)] := by
    refine List.Perm.eq_of_pairwise (fun a b _ _ h1 h2 => nodeLe_antisymm h1 h2) hs ?_ hp
    rw [List.pairwise_pair, nodeLe_iff]
    rcases lt_or_eq_of_le hw with h | h
    · exact Or.inl h
    · exact Or.inr ⟨h, le_refl _⟩
  obtain ⟨n1, n2, h1, h2, _, h4⟩ := List.filter_eq_cons_iff.mp he
  obtain ⟨n3, n4, h5, h6, _, h8⟩ := List.filter_eq_cons_iff.mp h4
  refine ⟨n1, n3, n4, by rw [h1, h5], fun x hx => ?_, fun x hx => ?_, fun x hx => ?_⟩
  · have := h2 x hx; simpa using this
  · have := h6 x hx; simpa using this
  · have := List.filter_eq_nil_iff.mp h8 x hx; simpa using this

theorem posLoop_append : ∀ (l m : List Node) (i : Nat) (mn mx : Nat → Option Nat),
    posLoop (l ++ m) i mn mx = posLoop m (i + l.length) (posLoop l i mn mx).1 (posLoop l i mn mx).2
  | [], m, i, mn, mx => by simp [posLoop]
  | a :: l, m, i, mn, mx => by
    rw [List.cons_append, posLoop, posLoop]
    split
    · rw [posLoop_append l m]
      congr 1
      rw [List.length_cons]; omega
    · rw [posLoop_append l m]
      congr 1
      rw [List.length_cons]; omega

theorem posLoop_not_mem : ∀ (l : List Node) (i : Nat) (mn mx : Nat → Option Nat) (k : Nat), (∀ x ∈ l, x.2 ≠ k) →
    (posLoop l i mn mx).1 k = mn k ∧ (posLoop l i mn mx).2 k = mx k
  | [], i, mn, mx, k, _ => by simp [posLoop]
  | a :: l, i, mn, mx, k, h => by
    have ha : k ≠ a.2 := fun he => h a List.mem_cons_self he.symm
    have hl := fun x hx => h x (List.mem_cons_of_mem a hx)
    rw [posLoop]
    split
    · obtain ⟨h1, h2⟩ := posLoop_not_mem l (i + 1) (fun k => if k = a.2 then some i else mn k) mx k hl
      rw [h1, h2]
      simp [ha]
    · obtain ⟨h1, h2⟩ := posLoop_not_mem l (i + 1) mn (fun k => if k = a.2 then some i else mx k) k hl
      rw [h1, h2]
      simp [ha]

/-- what `pos_min` and `pos_max` hold for the sorted ends of the ranges -/
structure NodesOK (nodes : List Node) (rng : Nat → ℚ × ℚ) (ks : List Nat) (mn mx : Nat → Option Nat) (P Q : Nat → Nat) : Prop where
  mn_eq : ∀ k ∈ ks, mn k = some (P k)
  mx_eq : ∀ k ∈ ks, mx k = some (Q k)
  lt : ∀ k ∈ ks, P k < Q k
  len : ∀ k ∈ ks, Q k < nodes.length
  atP : ∀ k ∈ ks, nodeAt nodes (P k) = ((rng k).1, k)
  atQ : ∀ k ∈ ks, nodeAt nodes (Q k) = ((rng k).2, k)
  cover : ∀ i < nodes.length, (nodeAt nodes i).2 ∈ ks ∧ (i = P (nodeAt nodes i).2 ∨ i = Q (nodeAt nodes i).2)
  mono : ∀ i j, i ≤ j → j < nodes.length → (nodeAt nodes i).1 ≤ (nodeAt nodes j).1

theorem nodeAt_eq {nodes : List Node} {i : Nat} (h : i < nodes.length) : nodeAt nodes i = nodes[i] := by
  unfold nodeAt
  rw [List.getD_eq_getElem _ _ h]

theorem nodes_ok {rng : Nat → ℚ × ℚ} {l : List Nat} (hl : l.Nodup) (hw : ∀ k ∈ l, (rng k).1 ≤ (rng k).2) :
    ∃ P Q, NodesOK (uNodes rng l) rng l (posLoop (uNodes rng l) 0 (fun _ => none) (fun _ => none)).1
      (posLoop (uNodes rng l) 0 (fun _ => none) (fun _ => none)).2 P Q := by
  have hkey : ∀ k, ∃ p q, k ∈ l → (posLoop (uNodes rng l) 0 (fun _ => none) (fun _ => none)).1 k = some p ∧
      (posLoop (uNodes rng l) 0 (fun _ => none) (fun _ => none)).2 k = some q ∧ p < q ∧ q < (uNodes rng l).length ∧
      nodeAt (uNodes rng l) p = ((rng k).1, k) ∧ nodeAt (uNodes rng l) q = ((rng k).2, k) ∧
      ∀ i < (uNodes rng l).length, (nodeAt (uNodes rng l) i).2 = k → i = p ∨ i = q := by
    intro k
    by_cases hk : k ∈ l
    · obtain ⟨n1, n3, n4, he, h1, h3, h4⟩ := uNodes_split hl hk (hw k hk)
      refine ⟨n1.length, n1.length + 1 + n3.length, fun _ => ?_⟩
      rw [he]
      refine ⟨?_, ?_, by omega, ?_, ?_, ?_, ?_⟩
      · rw [posLoop_append, posLoop, if_pos (posLoop_not_mem n1 0 _ _ k h1).1, posLoop_append, posLoop, if_neg, (posLoop_not_mem n4 _ _ _ k h4).1,
          (posLoop_not_mem n3 _ _ _ k h3).1]
        · simp
        · rw [(posLoop_not_mem n3 _ _ _ k h3).1]
          simp
      · rw [posLoop_append, posLoop, if_pos (posLoop_not_mem n1 0 _ _ k h1).1, posLoop_append, posLoop, if_neg, (posLoop_not_mem n4 _ _ _ k h4).2]
        · simp
        · rw [(posLoop_not_mem n3 _ _ _ k h3).1]
          simp
      · simp only [List.length_append, List.length_cons]; omega
      · unfold nodeAt
        rw [List.getD_append_right _ _ _ _ (le_refl _)]
        simp
      · unfold nodeAt
        rw [List.getD_append_right _ _ _ _ (by omega)]
        have : n1.length + 1 + n3.length - n1.length = n3.length + 1 := by omega
        rw [this, List.getD_cons_succ, List.getD_append_right _ _ _ _ (le_refl _)]
        simp
      · intro i hi hik
        by_contra hcon
        have hne1 : i ≠ n1.length := fun h => hcon (Or.inl h)
        have hne2 : i ≠ n1.length + 1 + n3.length := fun h => hcon (Or.inr h)
        rw [nodeAt_eq hi] at hik
        rcases Nat.lt_or_ge i n1.length with h | h
        · rw [List.getElem_append_left h] at hik
          exact h1 _ (List.getElem_mem h) hik
        · rw [List.getElem_append_right h] at hik
          obtain ⟨j, hj⟩ : ∃ j, i - n1.length = j + 1 := ⟨i - n1.length - 1, by omega⟩
          simp only [hj, List.getElem_cons_succ] at hik
          have hjl : j ≠ n3.length := by omega
          rcases Nat.lt_or_ge j n3.length with h' | h'
          · rw [List.getElem_append_left h'] at hik
            exact h3 _ (List.getElem_mem h') hik
          · rw [List.getElem_append_right h'] at hik
            obtain ⟨j', hj'⟩ : ∃ j', j - n3.length = j' + 1 := ⟨j - n3.length - 1, by omega⟩
            simp only [hj', List.getElem_cons_succ] at hik
            exact h4 _ (List.getElem_mem _) hik
    · exact ⟨0, 0, fun h => absurd h hk⟩
  choose P Q h using hkey
  refine ⟨P, Q, ⟨fun k hk => (h k hk).1, fun k hk => (h k hk).2.1, fun k hk => (h k hk).2.2.1, fun k hk => (h k hk).2.2.2.1,
    fun k hk => (h k hk).2.2.2.2.1, fun k hk => (h k hk).2.2.2.2.2.1, fun i hi => ?_, fun i j hij hj => ?_⟩⟩
  · have hm : (nodeAt (uNodes rng l) i).2 ∈ l := by
      have : nodeAt (uNodes rng l) i ∈ uNodes rng l := by
        rw [nodeAt_eq hi]; exact List.getElem_mem _
      have := (sortNodes_perm _).mem_iff.mp this
      obtain ⟨k, hk, hx⟩ := List.mem_flatMap.mp this
      have : (nodeAt (uNodes rng l) i).2 = k := by
        simp only [List.mem_cons, List.not_mem_nil, or_false] at hx
        rcases hx with hx | hx <;> rw [hx]
      rw [this]; exact hk
    exact ⟨hm, (h _ hm).2.2.2.2.2.2 i hi rfl⟩
  · rcases Nat.eq_or_lt_of_le hij with rfl | hlt
    · exact le_refl _
    · rw [nodeAt_eq hj, nodeAt_eq (by omega)]
      have := List.pairwise_iff_getElem.mp (sortNodes_pairwise (l.flatMap (fun i => [((rng i).1, i), ((rng i).2, i)]))) i j (by unfold uNodes at hj; omega) hj hlt
      rw [nodeLe_iff] at this
      rcases this with h | h
      · exact le_of_lt h
      · exact le_of_eq h.1

end Geouned.Face
