import Verif.Misc.Planes
import Mathlib.Data.List.Perm.Basic
import Mathlib.Data.List.Sort
/-!
# C42: grouping planes before cutting
-/
namespace Geouned.Planes

variable {P κ : Type}

/-! ## Lemmas -/

theorem sortByKey_perm (le : κ → κ → Bool) (key : P → κ) (l : List P) : (sortByKey le key l).Perm l := by
  unfold sortByKey
  have h := (insSort_perm (fun a b : P × Nat =>
    if le (key a.1) (key b.1) then (if le (key b.1) (key a.1) then decide (a.2 ≤ b.2) else true) else false)
    l.zipIdx).map Prod.fst
  simpa using h

theorem sortByKey_sorted (le : κ → κ → Bool) (htr : ∀ a b c, le a b = true → le b c = true → le a c = true)
    (htot : ∀ a b, le a b = true ∨ le b a = true) (key : P → κ) (l : List P) :
    (sortByKey le key l).Pairwise fun a b => le (key a) (key b) = true := by
  unfold sortByKey
  rw [List.pairwise_map]
  have h := insSort_pairwise (le := fun a b : P × Nat =>
    if le (key a.1) (key b.1) then (if le (key b.1) (key a.1) then decide (a.2 ≤ b.2) else true) else false) ?_ ?_ l.zipIdx
  · refine h.imp ?_
    intro a b hab
    split at hab
    · assumption
    · cases hab
  · intro a b c h1 h2
    split at h1
    · rename_i hab
      split at h2
      · rename_i hbc
        rw [if_pos (htr _ _ _ hab hbc)]
        split
        · rename_i hca
          rw [if_pos (htr _ _ _ hbc hca)] at h1
          rw [if_pos (htr _ _ _ hca hab)] at h2
          simp only [decide_eq_true_eq] at *
          omega
        · rfl
      · cases h2
    · cases h1
  · intro a b
    by_cases h1 : le (key a.1) (key b.1) = true
    · by_cases h2 : le (key b.1) (key a.1) = true
      · simp only [h1, h2, if_true, Bool.or_eq_true, decide_eq_true_eq]
        omega
      · simp [h1, h2]
    · have h2 := (htot (key a.1) (key b.1)).resolve_left h1
      simp [h1, h2]

/-- what every group satisfies -/
def GOk (par : P → P → Bool) (g : Group P) : Prop :=
  g.count = g.elements.length ∧ g.axis ∈ g.elements ∧ ∀ p ∈ g.elements, p = g.axis ∨ par p g.axis = true

/-- what the list of groups satisfies: a plane that opened a group was not parallel to the earlier ones -/
def GsOk (par : P → P → Bool) (gs : List (Group P)) : Prop :=
  (∀ g ∈ gs, GOk par g) ∧ gs.Pairwise fun a b => par b.axis a.axis = false

theorem insert_axes (par : P → P → Bool) (p : P) (gs : List (Group P)) :
    ∀ g ∈ insert par p gs, (∃ g' ∈ gs, g.axis = g'.axis) ∨ (g.axis = p ∧ ∀ g' ∈ gs, par p g'.axis = false) := by
  induction gs with
  | nil => intro g hg; simp [insert, Group.new] at hg; subst hg; simp
  | cons a gs ih =>
    intro g hg
    simp only [insert, Group.append] at hg
    by_cases ha : par p a.axis = true
    · simp only [ha, if_true, List.mem_cons] at hg
      rcases hg with rfl | hg
      · exact Or.inl ⟨a, by simp, rfl⟩
      · exact Or.inl ⟨g, by simp [hg], rfl⟩
    · simp only [ha] at hg
      rcases List.mem_cons.1 hg with rfl | hg
      · exact Or.inl ⟨g, by simp, rfl⟩
      · rcases ih g hg with ⟨g', h1, h2⟩ | ⟨h1, h2⟩
        · exact Or.inl ⟨g', by simp [h1], h2⟩
        · refine Or.inr ⟨h1, ?_⟩
          intro g' hg'
          rcases List.mem_cons.1 hg' with rfl | h
          · simpa using ha
          · exact h2 g' h

theorem insert_ok (par : P → P → Bool) (p : P) (gs : List (Group P)) (h : GsOk par gs) : GsOk par (insert par p gs) := by
  induction gs with
  | nil => simp [insert, GsOk, GOk, Group.new]
  | cons a gs ih =>
    obtain ⟨h1, h2⟩ := h
    obtain ⟨h3, h4⟩ := List.pairwise_cons.1 h2
    have hrec := ih ⟨fun g hg => h1 g (by simp [hg]), h4⟩
    obtain ⟨c1, c2, c3⟩ := h1 a (by simp)
    simp only [insert, Group.append]
    by_cases ha : par p a.axis = true
    · simp only [ha, if_true]
      refine ⟨?_, List.pairwise_cons.2 ⟨h3, h4⟩⟩
      intro g hg
      rcases List.mem_cons.1 hg with rfl | hg
      · refine ⟨by simp [c1], by simp [c2], ?_⟩
        intro q hq
        rcases List.mem_append.1 hq with hq | hq
        · exact c3 q hq
        · simp at hq; subst hq; exact Or.inr ha
      · exact h1 g (by simp [hg])
    · simp only [ha]
      refine ⟨?_, List.pairwise_cons.2 ⟨?_, hrec.2⟩⟩
      · intro g hg
        rcases List.mem_cons.1 hg with rfl | hg
        · exact h1 g (by simp)
        · exact hrec.1 g hg
      · intro g hg
        rcases insert_axes par p gs g hg with ⟨g', e1, e2⟩ | ⟨e1, _⟩
        · rw [e2]; exact h3 g' e1
        · rw [e1]; simpa using ha

theorem insert_perm (par : P → P → Bool) (p : P) (gs : List (Group P)) :
    ((insert par p gs).flatMap Group.elements).Perm (p :: gs.flatMap Group.elements) := by
  induction gs with
  | nil => simp [insert, Group.new]
  | cons a gs ih =>
    simp only [insert, Group.append]
    by_cases ha : par p a.axis = true
    · simp only [ha, if_true, List.flatMap_cons, List.append_assoc]
      exact List.perm_middle
    · simp only [ha, List.flatMap_cons]
      exact (List.Perm.append_left _ ih).trans List.perm_middle

theorem foldl_ok (par : P → P → Bool) (ps : List P) (gs : List (Group P)) (h : GsOk par gs) :
    GsOk par (ps.foldl (fun gs q => insert par q gs) gs) ∧
    ((ps.foldl (fun gs q => insert par q gs) gs).flatMap Group.elements).Perm (ps ++ gs.flatMap Group.elements) := by
  induction ps generalizing gs with
  | nil => exact ⟨h, by simp⟩
  | cons p ps ih =>
    obtain ⟨a, b⟩ := ih _ (insert_ok par p gs h)
    refine ⟨a, b.trans ?_⟩
    refine (List.Perm.append_left _ (insert_perm par p gs)).trans ?_
    exact List.perm_middle

theorem flatMap_sort_perm (le : κ → κ → Bool) (pos : P → P → κ) (gs : List (Group P)) :
    ((gs.map (Group.sort le pos)).flatMap Group.elements).Perm (gs.flatMap Group.elements) := by
  induction gs with
  | nil => simp
  | cons g gs ih =>
    simp only [List.map_cons, List.flatMap_cons]
    exact (sortByKey_perm le _ g.elements).append ih

theorem GsOk.sort {par : P → P → Bool} (le : κ → κ → Bool) (pos : P → P → κ) {gs : List (Group P)} (h : GsOk par gs) :
    GsOk par (gs.map (Group.sort le pos)) := by
  refine ⟨?_, ?_⟩
  · intro g hg
    obtain ⟨g', h1, rfl⟩ := List.mem_map.1 hg
    obtain ⟨a, b, c⟩ := h.1 g' h1
    have hp := sortByKey_perm le (pos g'.axis) g'.elements
    refine ⟨?_, hp.mem_iff.2 b, ?_⟩
    · simp only [Group.sort]; rw [a, hp.length_eq]
    · intro p hp'
      exact c p (hp.mem_iff.1 hp')
  · rw [List.pairwise_map]
    exact h.2

/-! ## Theorems -/

/-- C42: every plane comes out exactly once (with its multiplicity), no group is empty, and smaller groups come first. -/
theorem C42_permutation (par : P → P → Bool) (le : κ → κ → Bool) (pos : P → P → κ) (sortElements : Bool) (l : List P) :
    (sortPlanes par le pos sortElements l).flatten.Perm l ∧
    (∀ g ∈ sortPlanes par le pos sortElements l, g ≠ []) ∧
    (sortPlanes par le pos sortElements l).Pairwise (fun a b => a.length ≤ b.length) := by
  cases l with
  | nil => simp [sortPlanes]
  | cons p ps =>
    have h0 : GsOk par [Group.new p] := by simp [GsOk, GOk, Group.new]
    obtain ⟨h1, h2⟩ := foldl_ok par ps _ h0
    simp only [sortPlanes]
    have h3 : ∃ gs, (if sortElements then (ps.foldl (fun gs q => insert par q gs) [Group.new p]).map (Group.sort le pos)
        else (ps.foldl (fun gs q => insert par q gs) [Group.new p])) = gs ∧ GsOk par gs ∧
        (gs.flatMap Group.elements).Perm (ps ++ [p]) := by
      refine ⟨_, rfl, ?_⟩
      have e : [Group.new p].flatMap Group.elements = [p] := rfl
      cases sortElements with
      | false => exact ⟨h1, by simpa [e] using h2⟩
      | true => exact ⟨h1.sort le pos, (flatMap_sort_perm le pos _).trans (by simpa [e] using h2)⟩
    obtain ⟨gs, e, h4, h5⟩ := h3
    rw [e]
    have hp := sortByKey_perm (fun a b : Nat => decide (a ≤ b)) Group.count gs
    refine ⟨?_, ?_, ?_⟩
    · have : ((sortByKey (fun a b : Nat => decide (a ≤ b)) Group.count gs).flatMap Group.elements).Perm
          (gs.flatMap Group.elements) := hp.flatMap_right _
      rw [List.flatMap_def] at this
      refine this.trans (h5.trans ?_)
      exact List.perm_append_comm
    · intro g hg
      obtain ⟨g', e1, rfl⟩ := List.mem_map.1 hg
      have := (h4.1 g' (hp.mem_iff.1 e1)).2.1
      exact List.ne_nil_of_mem this
    · rw [List.pairwise_map]
      have hs := sortByKey_sorted (fun a b : Nat => decide (a ≤ b)) (by simp; omega) (by simp; omega) Group.count gs
      refine hs.imp_of_mem ?_
      intro a b ha hb hab
      have ea := (h4.1 a (hp.mem_iff.1 ha)).1
      have eb := (h4.1 b (hp.mem_iff.1 hb)).1
      rw [← ea, ← eb]
      simpa using hab

/-- C42: planes of one group are all parallel to one of them, and (parallelism being symmetric) different groups are opened by
planes that are not parallel to each other; with `sortElements` each group is ordered by position along that axis. -/
theorem C42_groups (par : P → P → Bool) (hsymm : ∀ a b, par a b = par b a) (le : κ → κ → Bool)
    (htr : ∀ a b c, le a b = true → le b c = true → le a c = true) (htot : ∀ a b, le a b = true ∨ le b a = true)
    (pos : P → P → κ) (sortElements : Bool) (l : List P) :
    ∃ axes : List P, axes.length = (sortPlanes par le pos sortElements l).length ∧
      axes.Pairwise (fun a b => par a b = false) ∧
      ∀ x ∈ axes.zip (sortPlanes par le pos sortElements l),
        x.1 ∈ x.2 ∧ (∀ p ∈ x.2, p = x.1 ∨ par p x.1 = true) ∧
        (sortElements = true → x.2.Pairwise fun p q => le (pos x.1 p) (pos x.1 q) = true) := by
  cases l with
  | nil => exact ⟨[], by simp [sortPlanes]⟩
  | cons p ps =>
    have h0 : GsOk par [Group.new p] := by simp [GsOk, GOk, Group.new]
    obtain ⟨h1, -⟩ := foldl_ok par ps _ h0
    simp only [sortPlanes]
    have h3 : ∃ gs, (if sortElements then (ps.foldl (fun gs q => insert par q gs) [Group.new p]).map (Group.sort le pos)
        else (ps.foldl (fun gs q => insert par q gs) [Group.new p])) = gs ∧ GsOk par gs ∧
        (sortElements = true → ∀ g ∈ gs, g.elements.Pairwise fun p q => le (pos g.axis p) (pos g.axis q) = true) := by
      refine ⟨_, rfl, ?_⟩
      cases sortElements with
      | false => exact ⟨h1, by simp⟩
      | true =>
        refine ⟨h1.sort le pos, fun _ g hg => ?_⟩
        simp only [if_true] at hg
        obtain ⟨g', _, rfl⟩ := List.mem_map.1 hg
        exact sortByKey_sorted le htr htot (pos g'.axis) g'.elements
    obtain ⟨gs, e, h4, h5⟩ := h3
    rw [e]
    have hp := sortByKey_perm (fun a b : Nat => decide (a ≤ b)) Group.count gs
    refine ⟨(sortByKey (fun a b : Nat => decide (a ≤ b)) Group.count gs).map Group.axis, by simp, ?_, ?_⟩
    · rw [List.pairwise_map]
      have : gs.Pairwise fun a b => par a.axis b.axis = false := h4.2.imp fun h => by rw [hsymm]; exact h
      exact (hp.pairwise_iff (fun {a b} h => by rw [hsymm]; exact h)).2 this
    · intro x hx
      rw [List.zip_map', List.mem_map] at hx
      obtain ⟨g, hg, rfl⟩ := hx
      have hg' := hp.mem_iff.1 hg
      obtain ⟨_, b, c⟩ := h4.1 g hg'
      exact ⟨b, c, fun hs => h5 hs g hg'⟩

/-- non-vacuity: five planes with directions 1,2,1,3,2 and positions; the groups are {3}, {1,1}, {2,2} -/
example : sortPlanes (P := Nat × Nat) (κ := Nat) (fun p q => p.1 == q.1) (fun a b => decide (a ≤ b)) (fun _ p => p.2) true
    [(1, 9), (2, 4), (1, 5), (3, 0), (2, 3)] = [[(3, 0)], [(1, 5), (1, 9)], [(2, 3), (2, 4)]] := by
  decide +kernel

end Geouned.Planes
