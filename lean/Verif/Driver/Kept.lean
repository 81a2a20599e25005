import Verif.Driver.Props
/-!
# C119: the cells that are left at the end of a run
-/
namespace Geouned.Driver
open Geouned Geouned.BB

variable {F S : Type} [Field F] [LinearOrder F] [IsStrictOrderedRing F]

/-- the two marks the numbering looks at -/
def nk (c : Cell F) : Bool × Bool := (c.null, c.isEncl)

theorem coneLoop_nk {K : Kit F S} {co : List (Option Int × List Int)} : ∀ (l : List Nat) (h : List (Cell F)) (s : S) (r : S × List (Cell F)),
    coneLoop K co l h s = .ok r → r.2.map nk = h.map nk := by
  intro l
  induction l with
  | nil => intro h s r e; cases e; rfl
  | cons x xs ih =>
    intro h s r e
    rw [coneLoop] at e
    cases hx : h[x]? with
    | none => rw [hx] at e; exact ih _ _ _ e
    | some c =>
      rw [hx] at e
      dsimp only at e
      cases hd : c.defn with
      | none => rw [hd] at e; exact ih _ _ _ e
      | some d =>
        rw [hd] at e
        dsimp only at e
        split at e
        · split at e
          · exact ih _ _ _ e
          · rename_i ids _
            simp only [bind, Except.bind] at e
            split at e
            · cases e
            · rename_i y _
              exact (ih _ _ _ e).trans (map_set_same nk h x c { c with defn := some y.2 } hx rfl)
        · split at e
          · exact ih _ _ _ e
          · simp only [bind, Except.bind] at e
            split at e
            · cases e
            · rename_i y _
              exact (ih _ _ _ e).trans (map_set_same nk h x c { c with defn := some y.2 } hx rfl)

theorem setLabels_nk (n : Labels.St) : ∀ (l : List Nat) (h : List (Cell F)), (setLabels n l h).map nk = h.map nk := by
  intro l
  induction l with
  | nil => intro h; rfl
  | cons x xs ih =>
    intro h
    rw [setLabels]
    cases hx : h[x]? with
    | none => exact ih _
    | some c => exact (ih _).trans (map_set_same nk h x c { c with label := n.lab.lookup x } hx rfl)

theorem place_refs : ∀ (os : List Labels.Out) (h : List (Cell F)), ((Labels.cells os).map Labels.Cell.ref).Sublist (place os h).2 := by
  intro os
  induction os with
  | nil => intro h; exact List.Sublist.slnil
  | cons o os ih =>
    intro h
    cases o with
    | comment => simpa [Labels.cells, place] using (ih (h ++ [banner])).cons h.length
    | cell c => simpa [Labels.cells, place] using (ih h).cons_cons c.ref

/-- the cell at a place is a solid that is not empty -/
def solidAt (h : List (Cell F)) (r : Nat) : Bool :=
  match h[r]? with
  | some c => !c.null && !c.isEncl
  | none => false

theorem toLs_kept (h : List (Cell F)) : ∀ l : List Nat, (((toLs h l).filter fun m => !m.null && !m.isEncl).map Labels.Cell.ref) = l.filter (solidAt h) := by
  intro l
  induction l with
  | nil => rfl
  | cons r l ih =>
    unfold toLs at ih ⊢
    cases hr : h[r]? with
    | none =>
      have : solidAt h r = false := by simp [solidAt, hr]
      rw [List.filterMap_cons_none (by simp [hr]), List.filter_cons_of_neg (by simp [this]), ih]
    | some c =>
      rw [List.filterMap_cons_some (by simp [hr]; rfl)]
      by_cases hk : (!c.null && !c.isEncl) = true
      · have : solidAt h r = true := by simp only [solidAt, hr, hk]
        rw [List.filter_cons_of_pos (by simpa [toL] using hk), List.filter_cons_of_pos this, List.map_cons, ih]
        rfl
      · have : solidAt h r = false := by simp only [solidAt, hr]; simpa using hk
        rw [List.filter_cons_of_neg (by simpa [toL] using hk), List.filter_cons_of_neg (by simp [this]), ih]

theorem solidAt_nk {h h' : List (Cell F)} {r : Nat} (e : (h.map nk)[r]? = (h'.map nk)[r]?) : solidAt h r = solidAt h' r := by
  simp only [List.getElem?_map] at e
  unfold solidAt
  cases h1 : h[r]? with
  | none => cases h2 : h'[r]? with
    | none => rfl
    | some c => rw [h1, h2] at e; cases e
  | some c => cases h2 : h'[r]? with
    | none => rw [h1, h2] at e; cases e
    | some c' =>
      rw [h1, h2] at e
      have : nk c = nk c' := by simpa using e
      simp only [nk, Prod.mk.injEq] at this
      simp only [this.1, this.2]

/-- **C119**: a run that ends loses no cell and keeps their order: when enclosures are not sorted, every solid that is not an enclosure and not empty at the end is in the final list, as often and in the order
of the list that was loaded -/
theorem C119_kept_partial (K : Kit F S) (o : Opts) (st st' : State F S) (hv : ∀ r ∈ st.metas, ∃ c, st.heap[r]? = some c) (hsort : st.encl = [] ∨ o.sortEncl = false)
    (h : start K o st = .ok st') : (st.metas.filter (solidAt st'.heap)).Sublist st'.metas := by
  obtain ⟨-, b, -, x, hx, e, he', v, hvp, h'⟩ := start_inv h
  obtain ⟨l1, m1, e1, -, -⟩ := solidPhase_inv hx
  obtain ⟨l2, m2, e2, -, -⟩ := enclPhase_inv he'
  obtain ⟨⟨vs, l3⟩, m3, e3, -, -⟩ := voidPhase_inv hvp
  have hb : (!v.1.encl.isEmpty && o.sortEncl) = false := by
    rw [e3, e2, e1]
    rcases hsort with h | h
    · simp [h]
    · simp [h]
  unfold endPhase at h'
  simp only [bind, Except.bind, hb] at h'
  split at h'
  · cases h'
  · rename_i h1 hh1
    split at h'
    · cases h'
    · rename_i n hn
      split at h'
      · cases h'
      · split at h'
        · cases h'
        · split at h'
          · cases h'
          · rename_i c hc
            cases h'
            have hlen : v.1.heap.length = h1.length := by
              have hh := orLeave_ok.1 hh1
              by_cases hf : o.full = true
              · rw [if_pos hf] at hh
                simpa using (congrArg List.length (simpLoop_keys _ _ _ hh).1).symm
              · rw [if_neg hf] at hh; cases hh; rfl
            have hmetas : v.1.metas = st.metas := by rw [m3, m2, m1]
            have hlt : ∀ r ∈ st.metas, r < h1.length := by
              intro r hr
              obtain ⟨c0, hc0⟩ := hv r hr
              have a := congrArg List.length l1
              have b := congrArg List.length l2
              have g := congrArg List.length l3
              simp only [List.length_map, List.length_append] at a b g
              have := (List.getElem?_eq_some_iff.1 hc0).1
              omega
            have hnk := coneLoop_nk _ _ _ _ (orLeave_ok.1 hc)
            have hsame : ∀ r ∈ st.metas, solidAt c.2 r = solidAt h1 r := by
              intro r hr
              apply solidAt_nk
              obtain ⟨t, ht⟩ := place_prefix n.2 (setLabels n.1 (v.1.metas ++ v.2.2) h1)
              rw [hnk]
              rw [ht, List.map_append, setLabels_nk, List.getElem?_append_left (by simpa using hlt r hr)]
            rw [List.filter_congr hsame]
            have hnum : Labels.plain (o.startCell - 1) (toLs h1 v.1.metas) (toLs h1 v.2.2) = .ok (n.1, n.2) := by
              have := orLeave_ok.1 hn
              unfold labelErr at this
              split at this
              · rename_i a ha
                cases this
                simpa [Labels.number] using ha
              · cases this
            have hcells := (Labels.plain_cells hnum).1
            have hsub := place_refs n.2 (setLabels n.1 (v.1.metas ++ v.2.2) h1)
            rw [hcells, Labels.plainOrder, List.map_append, toLs_kept, hmetas] at hsub
            rw [hmetas]
            exact (List.sublist_append_left _ _).trans hsub

/-! ### non-vacuity: the two solids of the model of `Props.lean` stay, in order -/

example : ∃ st', start demoKit demoOpts demoState = .ok st' ∧ (demoState.metas.filter (solidAt st'.heap)).Sublist st'.metas := by
  obtain ⟨st', h⟩ := demo_runs
  refine ⟨st', h, C119_kept_partial _ _ _ _ ?_ (.inr rfl) h⟩
  intro r hr
  obtain ⟨c, hc, -⟩ := demo_loaded.solids r hr
  exact ⟨c, hc⟩

example : demoState.metas.filter (solidAt demoState.heap) = [0, 1] := by decide

end Geouned.Driver
