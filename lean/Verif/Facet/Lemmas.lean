import Verif.Facet.Model
import Verif.Bool.Props
/-!
# Lemmas on the faceted solids
-/
namespace Geouned.Facet
open Geouned Geouned.BB

variable {F : Type} [Field F] [LinearOrder F] [IsStrictOrderedRing F]

/-! ## `append` -/

/-- an intersection in the making: a list, or already empty -/
def AndOk (s : Seq) : Prop := s.WF ∧ ((∃ l es, s = .lst .and l es) ∨ ∃ l, s = .boo .and l false)

theorem appendLoop_kind {op : Op} : ∀ (items : List Item) (l : Int) (es : List Seq) (s : Seq), appendLoop op l es items = .ok s →
    (∃ l es, s = .lst op l es) ∨ ∃ l, s = .boo op l !op.neutral := by
  intro items
  induction items with
  | nil => intro l es s h; cases h; exact .inl ⟨_, _, rfl⟩
  | cons i r ih =>
    intro l es s h
    rcases i with n | b | x
    · simp only [appendLoop] at h
      split at h
      · exact ih _ _ _ h
      · split at h
        · cases h; exact .inr ⟨_, rfl⟩
        · exact ih _ _ _ h
    · simp only [appendLoop] at h
      split at h
      · exact ih _ _ _ h
      · rename_i hb
        cases h
        refine .inr ⟨-1, ?_⟩
        congr 1
        cases b <;> cases op <;> simp_all [Op.neutral]
    · cases x with
      | int n =>
        simp only [appendLoop] at h
        split at h
        · exact ih _ _ _ h
        · split at h
          · cases h; exact .inr ⟨_, rfl⟩
          · exact ih _ _ _ h
      | boo o k b =>
        simp only [appendLoop] at h
        split at h
        · exact ih _ _ _ h
        · rename_i hb
          cases h
          refine .inr ⟨-1, ?_⟩
          congr 1
          cases b <;> cases op <;> simp_all [Op.neutral]
      | lst o k es' =>
        simp only [appendLoop] at h
        exact ih _ _ _ h

theorem append_and {s : Seq} (hs : AndOk s) {items : List Item} (hi : ∀ i ∈ items, i.WF) :
    ∃ s', s.append items = .ok s' ∧ AndOk s' ∧ ∀ σ, s'.sem σ = true ↔ (s.sem σ = true ∧ ∀ i ∈ items, i.sem σ = true) := by
  obtain ⟨hw, ⟨l, es, rfl⟩ | ⟨l, rfl⟩⟩ := hs
  · obtain ⟨s', h1, h2, h3⟩ := C01_append_and l es items hw hi
    exact ⟨s', h1, ⟨h2, appendLoop_kind _ _ _ _ h1⟩, h3⟩
  · exact ⟨_, rfl, ⟨hw, .inr ⟨_, rfl⟩⟩, fun σ => by simp [Seq.sem]⟩

/-! ## `removeElement` -/

theorem eraseP_eq_filter {α : Type} (p : α → Bool) : ∀ (l : List α), l.countP p ≤ 1 → l.eraseP p = l.filter (fun x => !p x) := by
  intro l
  induction l with
  | nil => intro _; rfl
  | cons a l ih =>
    intro h
    by_cases ha : p a = true
    · rw [List.eraseP_cons_of_pos ha, List.filter_cons_of_neg (by simp [ha])]
      rw [List.countP_cons_of_pos ha] at h
      have : l.countP p = 0 := by omega
      rw [List.countP_eq_zero] at this
      exact (List.filter_eq_self.2 fun x hx => by simp [this x hx]).symm
    · rw [List.eraseP_cons_of_neg ha, List.filter_cons_of_pos (by simpa using ha)]
      rw [List.countP_cons_of_neg ha] at h
      rw [ih h]

theorem fold_remove : ∀ (ids : List Int) (fs : List (Int × Face F)), (∀ i ∈ ids, fs.countP (fun f => f.1 == i) ≤ 1) →
    ids.foldl (fun l i => removeElement i l) fs = fs.filter fun f => decide (f.1 ∉ ids) := by
  intro ids
  induction ids with
  | nil => intro fs _; simp
  | cons i ids ih =>
    intro fs h
    rw [List.foldl_cons, removeElement, eraseP_eq_filter _ _ (h i (by simp)), ih]
    · rw [List.filter_filter]
      congr 1
      funext f
      simp only [List.mem_cons, not_or]
      by_cases e : f.1 = i <;> simp [e]
    · intro j hj
      refine le_trans ?_ (h j (by simp [hj]))
      rw [List.countP_filter]
      exact List.countP_mono_left (fun x _ hx => by simp at hx; simp [hx.1])

/-! ## the loop over the faces -/

/-- the two faces meet in an edge that is found not to be convex -/
def concave (f g : Face F) : Bool :=
  match commonEdge f g with
  | none => false
  | some e => !isConvex f g e

theorem noConvex_eq (f : Face F) : ∀ gs : List (Int × Face F), noConvex f gs = (gs.filter fun g => concave f g.2).map Prod.fst := by
  intro gs
  induction gs with
  | nil => rfl
  | cons g gs ih =>
    rw [List.filter_cons]
    cases h : commonEdge f g.2 with
    | none =>
      have hc : concave f g.2 = false := by rw [concave, h]
      simp only [noConvex, h, hc, ih]; rfl
    | some e =>
      have hc : concave f g.2 = !isConvex f g.2 e := by rw [concave, h]
      simp only [noConvex, h, hc, ih]
      cases isConvex f g.2 e <;> rfl

/-- a numbered face with its group -/
abbrev Tagged (F : Type) := (Int × Face F) × Nat

/-- the condition on the groups -/
structure Groups (ts : List (Tagged F)) : Prop where
  lead : ∀ pre f post, ts = pre ++ f :: post → (∀ h ∈ pre, h.2 ≠ f.2) → ∀ g ∈ post, (g.2 = f.2 ↔ concave f.1.2 g.1.2 = true)
  alone : ∀ f ∈ ts, 1 < ts.countP (fun g => g.2 == f.2) → ts.countP (fun g => g.1.1 == f.1.1) = 1
  nonzero : ∀ f ∈ ts, f.1.1 ≠ 0

theorem Groups.filter {ts : List (Tagged F)} (h : Groups ts) (c : Nat) : Groups (ts.filter fun f => decide (f.2 ≠ c)) := by
  refine ⟨fun pre f post e hpre g hg => ?_, fun f hf hc => ?_, fun f hf => h.nonzero f (List.mem_filter.1 hf).1⟩
  · obtain ⟨A, B, rfl, hA, hB⟩ := List.filter_eq_append_iff.1 e
    obtain ⟨l1, l2, rfl, h1, h2, h3⟩ := List.filter_eq_cons_iff.1 hB
    have hfc : f.2 ≠ c := by simpa using h2
    refine h.lead (A ++ l1) f l2 (by simp) (fun x hx => ?_) g ?_
    · rcases List.mem_append.1 hx with hx | hx
      · by_cases hxc : x.2 = c
        · rw [hxc]; exact fun e => hfc e.symm
        · exact hpre x (hA ▸ List.mem_filter.2 ⟨hx, by simpa using hxc⟩)
      · have := h1 x hx
        simp only [decide_not, Bool.not_eq_true', decide_eq_false_iff_not, not_not] at this
        rw [this]; exact fun e => hfc e.symm
    · rw [← h3] at hg; exact (List.mem_filter.1 hg).1
  · have hm := List.mem_filter.1 hf
    have h1 : 1 < ts.countP (fun g => g.2 == f.2) := by
      refine lt_of_lt_of_le hc ?_
      rw [List.countP_filter]
      exact List.countP_mono_left (fun x _ hx => by simp at hx; simp [hx.1])
    have h2 := h.alone f hm.1 h1
    refine le_antisymm ?_ ?_
    · rw [← h2, List.countP_filter]
      exact List.countP_mono_left (fun x _ hx => by simp at hx; simp [hx.1])
    · rw [Nat.one_le_iff_ne_zero, Nat.ne_zero_iff_zero_lt, List.countP_pos_iff]
      exact ⟨f, hf, by simp⟩

/-- what the loop makes of the faces left -/
theorem faceLoop_sem : ∀ (k : Nat) (s : Seq) (ts : List (Tagged F)), ts.length ≤ k → AndOk s → Groups ts →
    ∃ s', faceLoop k s (ts.map Prod.fst) = .ok s' ∧ AndOk s' ∧
      ∀ σ, s'.sem σ = true ↔ (s.sem σ = true ∧ ∀ f ∈ ts, ∃ g ∈ ts, g.2 = f.2 ∧ lit σ g.1.1 = true) := by
  intro k
  induction k with
  | zero =>
    intro s ts hk hs _
    rw [List.length_eq_zero_iff.1 (Nat.le_zero.1 hk)]
    exact ⟨s, rfl, hs, fun σ => by simp⟩
  | succ k ih =>
    intro s ts hk hs hg
    cases ts with
    | nil => exact ⟨s, rfl, hs, fun σ => by simp⟩
    | cons f fs =>
      have hlead := hg.lead [] f fs rfl (by simp)
      -- the faces of the same group
      have hns : noConvex f.1.2 (fs.map Prod.fst) = (fs.filter fun g => g.2 == f.2).map fun g => g.1.1 := by
        rw [noConvex_eq, List.filter_map, List.map_map]
        have : fs.filter ((fun g : Int × Face F => concave f.1.2 g.2) ∘ Prod.fst) = fs.filter (fun g => g.2 == f.2) := by
          apply List.filter_congr
          intro g hg'
          have := hlead g hg'
          simp only [Function.comp]
          by_cases e : g.2 = f.2
          · simp [this.1 e, e]
          · rw [beq_eq_false_iff_ne.2 e, Bool.eq_false_iff]
            exact fun h => e (this.2 h)
        rw [this]
        rfl
      -- the faces that are left
      have hrest : (f :: fs).filter (fun g => decide (g.2 ≠ f.2)) = fs.filter (fun g => decide (g.2 ≠ f.2)) := by simp
      have hsem : ∀ (σ : Side), (∀ x ∈ (f :: fs), ∃ g ∈ (f :: fs), g.2 = x.2 ∧ lit σ g.1.1 = true) ↔
          ((lit σ f.1.1 = true ∨ ∃ g ∈ fs, g.2 = f.2 ∧ lit σ g.1.1 = true) ∧
            ∀ x ∈ fs.filter (fun g => decide (g.2 ≠ f.2)), ∃ g ∈ fs.filter (fun g => decide (g.2 ≠ f.2)), g.2 = x.2 ∧ lit σ g.1.1 = true) := by
        intro σ
        constructor
        · intro h
          refine ⟨?_, fun x hx => ?_⟩
          · obtain ⟨g, hg', e, hl⟩ := h f (by simp)
            rcases List.mem_cons.1 hg' with rfl | hg'
            · exact .inl hl
            · exact .inr ⟨g, hg', e, hl⟩
          · obtain ⟨hx1, hx2⟩ := List.mem_filter.1 hx
            obtain ⟨g, hg', e, hl⟩ := h x (by simp [hx1])
            simp only [decide_eq_true_eq] at hx2
            rcases List.mem_cons.1 hg' with rfl | hg'
            · exact absurd e.symm hx2
            · exact ⟨g, List.mem_filter.2 ⟨hg', by rw [e]; simpa using hx2⟩, e, hl⟩
        · rintro ⟨h1, h2⟩ x hx
          by_cases e : x.2 = f.2
          · rcases h1 with h1 | ⟨g, hg', e', hl⟩
            · exact ⟨f, by simp, e.symm, h1⟩
            · exact ⟨g, by simp [hg'], e'.trans e.symm, hl⟩
          · have hx' : x ∈ fs := by
              rcases List.mem_cons.1 hx with rfl | hx
              · exact absurd rfl e
              · exact hx
            obtain ⟨g, hg', e', hl⟩ := h2 x (List.mem_filter.2 ⟨hx', by simpa using e⟩)
            exact ⟨g, List.mem_cons_of_mem _ (List.mem_filter.1 hg').1, e', hl⟩
      have hlen : (fs.filter fun g => decide (g.2 ≠ f.2)).length ≤ k := by
        have h1 := List.length_filter_le (fun g : Tagged F => decide (g.2 ≠ f.2)) fs
        simp only [List.length_cons] at hk
        omega
      have hg' : Groups (fs.filter fun g => decide (g.2 ≠ f.2)) := by rw [← hrest]; exact hg.filter f.2
      rw [List.map_cons, faceLoop, hns]
      cases hgrp : (fs.filter fun g => g.2 == f.2).map fun g => g.1.1 with
      | nil =>
        have hnil : fs.filter (fun g => g.2 == f.2) = [] := List.map_eq_nil_iff.1 hgrp
        have hall : ∀ g ∈ fs, g.2 ≠ f.2 := by
          intro g hgm e
          have := List.filter_eq_nil_iff.1 hnil g hgm
          exact this (by simp [e])
        have hkeep : fs.filter (fun g => decide (g.2 ≠ f.2)) = fs := List.filter_eq_self.2 fun g hgm => by simpa using hall g hgm
        obtain ⟨s1, a1, a2, a3⟩ := append_and hs (items := [.int f.1.1]) (by simpa [Item.WF] using hg.nonzero f (by simp))
        have e1 : removeElement f.1.1 (f.1 :: fs.map Prod.fst) = fs.map Prod.fst := by
          rw [removeElement, List.eraseP_cons_of_pos (by simp)]
        rw [hkeep] at hlen hg' hsem
        obtain ⟨s2, b1, b2, b3⟩ := ih s1 fs hlen a2 hg'
        refine ⟨s2, ?_, b2, fun σ => ?_⟩
        · dsimp only
          rw [a1]
          simp only [bind, Except.bind, e1, b1]
        · rw [b3, a3, hsem]
          simp only [List.mem_singleton, forall_eq, Item.sem]
          constructor
          · rintro ⟨⟨h1, h2⟩, h3⟩; exact ⟨h1, .inl h2, h3⟩
          · rintro ⟨h1, h2 | ⟨g, hgm, e, -⟩, h3⟩
            · exact ⟨⟨h1, h2⟩, h3⟩
            · exact absurd e (hall g hgm)
      | cons n ns =>
        have hcount : ∀ x ∈ f :: fs, x.2 = f.2 → (f :: fs).countP (fun g => g.1.1 == x.1.1) = 1 := by
          intro x hx e
          refine hg.alone x hx ?_
          rw [List.countP_cons_of_pos (by simp [e]), List.countP_eq_length_filter]
          have : 0 < ((fs.filter fun g => g.2 == f.2).map fun g => g.1.1).length := by rw [hgrp]; simp
          rw [List.length_map] at this
          rw [e]
          omega
        have hids : ∀ x ∈ f :: fs, x.1.1 ∈ f.1.1 :: n :: ns ↔ x.2 = f.2 := by
          intro x hx
          rw [← hgrp]
          constructor
          · intro h
            have : ∃ y ∈ f :: fs, y.2 = f.2 ∧ y.1.1 = x.1.1 := by
              rcases List.mem_cons.1 h with h | h
              · exact ⟨f, by simp, rfl, h.symm⟩
              · obtain ⟨y, hy, e⟩ := List.mem_map.1 h
                obtain ⟨hy1, hy2⟩ := List.mem_filter.1 hy
                exact ⟨y, by simp [hy1], by simpa using hy2, e⟩
            obtain ⟨y, hy, e1, e2⟩ := this
            have hc := hcount y hy e1
            have hxy : x = y := by
              by_contra hne
              obtain ⟨p, q, hpq⟩ := List.append_of_mem hy
              rw [hpq, List.countP_append, List.countP_cons_of_pos (by simp)] at hc
              have hp0 : p.countP (fun g => g.1.1 == y.1.1) = 0 := by omega
              have hq0 : q.countP (fun g => g.1.1 == y.1.1) = 0 := by omega
              rw [hpq] at hx
              rcases List.mem_append.1 hx with hx | hx
              · exact List.countP_eq_zero.1 hp0 x hx (by simp [e2])
              · rcases List.mem_cons.1 hx with hx | hx
                · exact hne hx
                · exact List.countP_eq_zero.1 hq0 x hx (by simp [e2])
            rw [hxy]; exact e1
          · intro e
            rcases List.mem_cons.1 hx with rfl | hx
            · simp
            · exact List.mem_cons_of_mem _ (List.mem_map.2 ⟨x, List.mem_filter.2 ⟨hx, by simp [e]⟩, rfl⟩)
        have hids' : ∀ i ∈ f.1.1 :: n :: ns, ∃ x ∈ f :: fs, x.2 = f.2 ∧ x.1.1 = i := by
          intro i hi
          rw [← hgrp] at hi
          rcases List.mem_cons.1 hi with h | h
          · exact ⟨f, by simp, rfl, h.symm⟩
          · obtain ⟨y, hy, e⟩ := List.mem_map.1 h
            obtain ⟨hy1, hy2⟩ := List.mem_filter.1 hy
            exact ⟨y, by simp [hy1], by simpa using hy2, e⟩
        have hfold : (f.1.1 :: n :: ns).foldl (fun l i => removeElement i l) (f.1 :: fs.map Prod.fst) =
            (fs.filter fun g => decide (g.2 ≠ f.2)).map Prod.fst := by
          rw [fold_remove, ← hrest]
          · rw [← List.map_cons, List.filter_map]
            congr 1
            apply List.filter_congr
            intro x hx
            simp only [Function.comp, decide_eq_decide]
            rw [hids x hx]
          · intro i hi
            obtain ⟨x, hx, e1, rfl⟩ := hids' i hi
            rw [← List.map_cons, List.countP_map]
            exact le_of_eq (hcount x hx e1)
        have hnz : ∀ i ∈ f.1.1 :: n :: ns, i ≠ 0 := by
          intro i hi
          obtain ⟨x, hx, -, rfl⟩ := hids' i hi
          exact hg.nonzero x hx
        obtain ⟨o, o1, o2, o3⟩ := C01_append_or 0 [] ((f.1.1 :: n :: ns).map Item.int) (by simp [Seq.WF, Seq.WFL]) (by
          intro i hi
          obtain ⟨j, hj, rfl⟩ := List.mem_map.1 hi
          exact hnz j hj)
        obtain ⟨s1, a1, a2, a3⟩ := append_and hs (items := [.seq o]) (by simpa [Item.WF] using o2)
        obtain ⟨s2, b1, b2, b3⟩ := ih s1 _ hlen a2 hg'
        refine ⟨s2, ?_, b2, fun σ => ?_⟩
        · dsimp only
          rw [o1]
          simp only [bind, Except.bind, a1]
          rw [hfold, b1]
        · rw [b3, a3, hsem]
          simp only [List.mem_singleton, forall_eq]
          rw [show Item.sem σ (.seq o) = o.sem σ from rfl, o3]
          have : ((Seq.lst .or 0 []).sem σ = true ∨ ∃ i ∈ (f.1.1 :: n :: ns).map Item.int, i.sem σ = true) ↔
              (lit σ f.1.1 = true ∨ ∃ g ∈ fs, g.2 = f.2 ∧ lit σ g.1.1 = true) := by
            constructor
            · rintro (h | ⟨i, hi, h⟩)
              · simp [Seq.sem, Seq.semAny] at h
              · obtain ⟨j, hj, rfl⟩ := List.mem_map.1 hi
                obtain ⟨x, hx, e, rfl⟩ := hids' j hj
                rcases List.mem_cons.1 hx with rfl | hx
                · exact .inl h
                · exact .inr ⟨x, hx, e, h⟩
            · intro h
              right
              rcases h with h | ⟨x, hx, e, h⟩
              · exact ⟨.int f.1.1, by simp, h⟩
              · exact ⟨.int x.1.1, List.mem_map.2 ⟨_, (hids x (by simp [hx])).2 e, rfl⟩, h⟩
          rw [this, and_assoc]

end Geouned.Facet
