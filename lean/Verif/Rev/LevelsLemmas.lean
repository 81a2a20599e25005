import Verif.Rev.Levels
/-! Lemmas on universes and levels -/
namespace Geouned.Rev

section
variable {cells : List UCell}

theorem filled_iff (c : UCell) (w : Nat) : c.filled = some w ↔ w ≠ 0 ∧ c.fill = some w := by
  unfold UCell.filled
  split
  · rename_i h
    rw [h]
    constructor
    · intro e; cases e
    · rintro ⟨h1, h2⟩
      cases h2
      exact absurd rfl h1
  · rename_i h
    constructor
    · intro e
      refine ⟨?_, e⟩
      rintro rfl
      exact h e
    · exact fun e => e.2

theorem mem_keys_aux (v : Nat) : ∀ (cs : List UCell) (ks : List Nat), v ∈ cs.foldl (fun ks c => if c.u ∈ ks then ks else ks ++ [c.u]) ks ↔
    v ∈ ks ∨ ∃ c ∈ cs, c.u = v
  | [], ks => by simp
  | c :: cs, ks => by
    rw [List.foldl_cons, mem_keys_aux v cs]
    by_cases h : c.u ∈ ks
    · simp only [if_pos h, List.mem_cons, exists_eq_or_imp]
      constructor
      · rintro (h1 | h1)
        · exact .inl h1
        · exact .inr (.inr h1)
      · rintro (h1 | h1 | h1)
        · exact .inl h1
        · exact .inl (h1 ▸ h)
        · exact .inr h1
    · simp only [if_neg h, List.mem_append, List.mem_cons, List.not_mem_nil, or_false, exists_eq_or_imp]
      constructor
      · rintro ((h1 | h1) | h1)
        · exact .inl h1
        · exact .inr (.inl h1.symm)
        · exact .inr (.inr h1)
      · rintro (h1 | h1 | h1)
        · exact .inl (.inl h1)
        · exact .inl (.inr h1.symm)
        · exact .inr h1

theorem mem_keys (v : Nat) : v ∈ keysOf cells ↔ IsUniverse cells v := by
  unfold keysOf IsUniverse
  rw [mem_keys_aux]
  simp

theorem nodup_keys_aux : ∀ (cs : List UCell) (ks : List Nat), ks.Nodup → (cs.foldl (fun ks c => if c.u ∈ ks then ks else ks ++ [c.u]) ks).Nodup
  | [], ks, h => by simpa
  | c :: cs, ks, h => by
    rw [List.foldl_cons]
    apply nodup_keys_aux cs
    by_cases hc : c.u ∈ ks
    · rwa [if_pos hc]
    · rw [if_neg hc, List.nodup_append]
      refine ⟨h, by simp, ?_⟩
      intro a ha b hb
      simp only [List.mem_singleton] at hb
      subst hb
      intro e
      exact hc (e ▸ ha)

theorem nodup_keys : (keysOf cells).Nodup := nodup_keys_aux cells [] List.nodup_nil

theorem mem_containers (v w : Nat) : (v, w) ∈ containersOf cells ↔ Fills cells v w := by
  unfold containersOf Fills
  simp only [List.mem_filterMap, Option.map_eq_some_iff, Prod.mk.injEq]
  constructor
  · rintro ⟨c, hc, f, hf, rfl, rfl⟩
    rw [filled_iff] at hf
    exact ⟨hf.1, c, hc, rfl, hf.2⟩
  · rintro ⟨h0, c, hc, rfl, hf⟩
    exact ⟨c, hc, w, (filled_iff c w).2 ⟨h0, hf⟩, rfl, rfl⟩

theorem mem_labels (w : Nat) : w ∈ (containersOf cells).map (·.2) ↔ ∃ v, Fills cells v w := by
  simp only [List.mem_map, Prod.exists, exists_eq_right]
  exact exists_congr fun v => mem_containers v w

theorem scan_left (cur : List Nat) (c : Nat × Nat) : ∀ cs, c ∈ (scan cur cs).1 ↔ c ∈ cs ∧ c.1 ∉ cur
  | [] => by simp [scan]
  | d :: cs => by
    unfold scan
    by_cases h : d.1 ∈ cur
    · rw [if_pos h]
      simp only [scan_left cur c cs, List.mem_cons]
      constructor
      · rintro ⟨h1, h2⟩; exact ⟨.inr h1, h2⟩
      · rintro ⟨rfl | h1, h2⟩
        · exact absurd h h2
        · exact ⟨h1, h2⟩
    · rw [if_neg h]
      simp only [List.mem_cons, scan_left cur c cs]
      constructor
      · rintro (rfl | ⟨h1, h2⟩)
        · exact ⟨.inl rfl, h⟩
        · exact ⟨.inr h1, h2⟩
      · rintro ⟨rfl | h1, h2⟩
        · exact .inl rfl
        · exact .inr ⟨h1, h2⟩

theorem scan_next (cur : List Nat) (w : Nat) : ∀ cs, w ∈ (scan cur cs).2 ↔ ∃ v, (v, w) ∈ cs ∧ v ∈ cur
  | [] => by simp [scan]
  | d :: cs => by
    unfold scan
    obtain ⟨d1, d2⟩ := d
    by_cases h : d1 ∈ cur
    · rw [if_pos h]
      simp only [List.mem_append, scan_next cur w cs, List.mem_cons, List.not_mem_nil, or_false, Prod.mk.injEq]
      constructor
      · rintro (⟨v, h1, h2⟩ | rfl)
        · exact ⟨v, .inr h1, h2⟩
        · exact ⟨d1, .inl ⟨rfl, rfl⟩, h⟩
      · rintro ⟨v, ⟨rfl, rfl⟩ | h1, h2⟩
        · exact .inr rfl
        · exact .inl ⟨v, h1, h2⟩
    · rw [if_neg h]
      simp only [scan_next cur w cs, List.mem_cons, Prod.mk.injEq]
      constructor
      · rintro ⟨v, h1, h2⟩
        exact ⟨v, .inr h1, h2⟩
      · rintro ⟨v, ⟨rfl, rfl⟩ | h1, h2⟩
        · exact absurd h2 h
        · exact ⟨v, h1, h2⟩

theorem scan_length (cur : List Nat) : ∀ cs, (scan cur cs).1.length + (scan cur cs).2.length = cs.length
  | [] => rfl
  | d :: cs => by
    have := scan_length cur cs
    unfold scan
    split <;> simp <;> omega

/-! ### distances -/

theorem Steps.exists_dist {r v : Nat} : ∀ {j}, Steps cells r v j → ∃ k, k ≤ j ∧ Dist cells r v k := by
  intro j
  induction j using Nat.strongRecOn with
  | ind j ih =>
    intro h
    by_cases hm : ∃ i, Steps cells r v i ∧ i < j
    · obtain ⟨i, h1, h2⟩ := hm
      obtain ⟨k, h3, h4⟩ := ih i h2 h1
      exact ⟨k, by omega, h4⟩
    · refine ⟨j, Nat.le_refl _, h, fun i hi => ?_⟩
      rcases Nat.lt_or_ge i j with h2 | h2
      · exact absurd ⟨i, hi, h2⟩ hm
      · exact h2

theorem Dist.unique {r v j k : Nat} (h1 : Dist cells r v j) (h2 : Dist cells r v k) : j = k :=
  Nat.le_antisymm (h1.2 _ h2.1) (h2.2 _ h1.1)

theorem Level.steps {r v : Nat} : ∀ {k}, Level cells r k v → Steps cells r v k
  | 0, h => by cases h; exact .refl
  | _ + 1, ⟨_, h1, h2⟩ => .step h1.1 h2

theorem dist_iff (r v n : Nat) : Dist cells r v n ↔ Level cells r n v ∧ ∀ j, j < n → ¬ Dist cells r v j := by
  constructor
  · intro h
    refine ⟨?_, fun j hj h' => by have := h.unique h'; omega⟩
    obtain ⟨h1, h2⟩ := h
    cases h1 with
    | refl => rfl
    | step hs hf =>
      rename_i w k
      refine ⟨w, ⟨hs, fun j hj => ?_⟩, hf⟩
      have := h2 _ (.step hj hf)
      omega
  · rintro ⟨h1, h2⟩
    refine ⟨h1.steps, fun j hj => ?_⟩
    rcases Nat.lt_or_ge j n with h | h
    · obtain ⟨k, h3, h4⟩ := hj.exists_dist
      exact absurd h4 (h2 k (by omega))
    · exact h

theorem levelLoop_spec (r : Nat) : ∀ (f n : Nat) (cur : List Nat) (cs : List (Nat × Nat)), cs.length < f →
    (∀ v, v ∈ cur ↔ Level cells r n v) →
    (∀ v w, (v, w) ∈ cs ↔ Fills cells v w ∧ ∀ j, j < n → ¬ Dist cells r v j) →
    ∃ ls, levelLoop f cur cs = .ok ls ∧ (∀ i, (h : i < ls.length) → ∀ v, v ∈ ls[i] ↔ Level cells r (n + 1 + i) v) ∧
      (∀ l ∈ ls, l ≠ []) ∧ ∀ v, ¬ Level cells r (n + 1 + ls.length) v
  | 0, _, _, _, hf, _, _ => by omega
  | f + 1, n, cur, cs, hf, hcur, hcs => by
    have hnext : ∀ w, w ∈ (scan cur cs).2 ↔ Level cells r (n + 1) w := by
      intro w
      rw [scan_next]
      constructor
      · rintro ⟨v, h1, h2⟩
        obtain ⟨g1, g2⟩ := (hcs v w).1 h1
        exact ⟨v, (dist_iff r v n).2 ⟨(hcur v).1 h2, g2⟩, g1⟩
      · rintro ⟨v, h1, h2⟩
        obtain ⟨g1, g2⟩ := (dist_iff r v n).1 h1
        exact ⟨v, (hcs v w).2 ⟨h2, g2⟩, (hcur v).2 g1⟩
    unfold levelLoop
    by_cases he : (scan cur cs).2 = []
    · rw [if_pos he]
      refine ⟨[], rfl, by simp, by simp, fun v hv => ?_⟩
      have := (hnext v).2 hv
      rw [he] at this
      cases this
    · rw [if_neg he]
      have hlen := scan_length cur cs
      have hpos : 0 < (scan cur cs).2.length := List.length_pos_iff.2 he
      obtain ⟨ls, h1, h2, h3, h4⟩ := levelLoop_spec r f (n + 1) (scan cur cs).2 (scan cur cs).1 (by omega) hnext (by
        intro v w
        rw [scan_left, hcs]
        constructor
        · rintro ⟨⟨g1, g2⟩, g3⟩
          refine ⟨g1, fun j hj hd => ?_⟩
          rcases Nat.lt_or_ge j n with h | h
          · exact g2 j h hd
          · cases Nat.le_antisymm h (by omega)
            exact g3 ((hcur v).2 ((dist_iff r v n).1 hd).1)
        · rintro ⟨g1, g2⟩
          refine ⟨⟨g1, fun j hj => g2 j (by omega)⟩, fun hv => ?_⟩
          exact g2 n (by omega) ((dist_iff r v n).2 ⟨(hcur v).1 hv, fun j hj => g2 j (by omega)⟩))
      refine ⟨(scan cur cs).2 :: ls, ?_, ?_, ?_, ?_⟩
      · simp only [h1, bind, Except.bind]
      · intro i hi v
        cases i with
        | zero => simpa using hnext v
        | succ i =>
          simp only [List.getElem_cons_succ]
          rw [h2 i (by simpa using hi)]
          rw [show n + 1 + (i + 1) = n + 1 + 1 + i by omega]
      · intro l hl
        rcases List.mem_cons.1 hl with rfl | hl
        · exact he
        · exact h3 l hl
      · intro v
        rw [List.length_cons, show n + 1 + (ls.length + 1) = n + 1 + 1 + ls.length by omega]
        exact h4 v

/-! ### getSubUniverses -/

theorem unions_ok {sub : Nat → R (List Nat)} : ∀ (xs : List Nat), (∀ x ∈ xs, ∃ a, sub x = .ok a) →
    ∃ r, unions sub xs = .ok r ∧ ∀ v, v ∈ r ↔ ∃ x ∈ xs, ∃ a, sub x = .ok a ∧ v ∈ a
  | [], _ => ⟨[], rfl, by simp⟩
  | x :: xs, h => by
    obtain ⟨a, ha⟩ := h x (by simp)
    obtain ⟨r, h1, h2⟩ := unions_ok xs (fun y hy => h y (by simp [hy]))
    refine ⟨a ++ r, by simp only [unions, ha, h1, bind, Except.bind], fun v => ?_⟩
    simp only [List.mem_append, h2, List.mem_cons, exists_eq_or_imp]
    constructor
    · rintro (h | h)
      · exact .inl ⟨a, ha, h⟩
      · exact .inr h
    · rintro (⟨b, hb, h⟩ | h)
      · rw [ha] at hb; cases hb; exact .inl h
      · exact .inr h

theorem mem_uid (U w : Nat) : w ∈ (cells.filter (fun c => c.u = U)).filterMap UCell.filled ↔ Fills cells U w := by
  simp only [List.mem_filterMap, List.mem_filter, decide_eq_true_eq]
  unfold Fills
  constructor
  · rintro ⟨c, ⟨h1, h2⟩, h3⟩
    rw [filled_iff] at h3
    exact ⟨h3.1, c, h1, h2, h3.2⟩
  · rintro ⟨h0, c, h1, h2, h3⟩
    exact ⟨c, ⟨h1, h2⟩, (filled_iff c w).2 ⟨h0, h3⟩⟩

theorem Steps.trans {u v w j k : Nat} (h1 : Steps cells u v j) (h2 : Steps cells v w k) : Steps cells u w (j + k) := by
  induction h2 with
  | refl => exact h1
  | step _ hf ih => exact .step ih hf

theorem Steps.split {u w k : Nat} (h : Steps cells u w (k + 1)) : ∃ v, Fills cells u v ∧ Steps cells v w k := by
  induction k generalizing w with
  | zero =>
    cases h with
    | step hs hf => cases hs; exact ⟨w, hf, .refl⟩
  | succ k ih =>
    cases h with
    | step hs hf =>
      obtain ⟨v, h1, h2⟩ := ih hs
      exact ⟨v, h1, .step h2 hf⟩

theorem getSub_spec {rank : Nat → Nat} (hn : Nested cells rank) (hc : Closed cells) : ∀ (f U : Nat), rank U < f → IsUniverse cells U →
    ∃ s, getSub cells f U = .ok s ∧ ∀ v, v ∈ s ↔ ∃ k, Steps cells U v (k + 1)
  | 0, _, h, _ => by omega
  | f + 1, U, h, hU => by
    obtain ⟨r, h1, h2⟩ := unions_ok (sub := getSub cells f) ((cells.filter (fun c => c.u = U)).filterMap UCell.filled) (by
      intro x hx
      have hf := (mem_uid U x).1 hx
      obtain ⟨s, hs, -⟩ := getSub_spec hn hc f x (by have := hn _ _ hf; omega) (hc _ _ hf)
      exact ⟨s, hs⟩)
    refine ⟨(cells.filter (fun c => c.u = U)).filterMap UCell.filled ++ r, ?_, ?_⟩
    · unfold getSub
      rw [if_neg (by rw [Classical.not_not]; exact (mem_keys U).2 hU)]
      simp only [h1, bind, Except.bind]
    · intro v
      rw [List.mem_append, h2]
      constructor
      · rintro (hv | ⟨x, hx, a, ha, hv⟩)
        · exact ⟨0, .step .refl ((mem_uid U v).1 hv)⟩
        · have hf := (mem_uid U x).1 hx
          obtain ⟨s, hs, hs2⟩ := getSub_spec hn hc f x (by have := hn _ _ hf; omega) (hc _ _ hf)
          rw [ha] at hs
          cases hs
          obtain ⟨k, hk⟩ := (hs2 v).1 hv
          have := Steps.trans (.step .refl hf) hk
          exact ⟨k + 1, by rwa [show 0 + 1 + (k + 1) = k + 1 + 1 by omega] at this⟩
      · rintro ⟨k, hk⟩
        obtain ⟨x, hf, hx⟩ := hk.split
        cases k with
        | zero =>
          cases hx
          exact .inl ((mem_uid U v).2 hf)
        | succ k =>
          obtain ⟨s, hs, hs2⟩ := getSub_spec hn hc f x (by have := hn _ _ hf; omega) (hc _ _ hf)
          exact .inr ⟨x, (mem_uid U x).2 hf, s, hs, (hs2 v).2 ⟨k, hx⟩⟩

end
end Geouned.Rev
