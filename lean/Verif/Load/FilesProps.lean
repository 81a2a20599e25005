import Verif.Load.FilesLemmas
import Verif.Load.Words
/-!
# C97, C98, C99: several files, solids that are skipped, the file of materials

`loadFiles files skip`: the cells of each STEP file (see C94) and the indices to skip; gives the cells and the enclosures of the model, an exception, or an exit.
-/
namespace Geouned.Load

open Geouned.CellText

variable {S : Type}

/-- a cell without its number -/
def noId (m : Meta S) : Meta S := { m with id := 0 }

/-! lemmas -/

theorem show_noId (files : List (List (Meta S))) (ids : Nat → Nat) (l : List Nat) :
    (l.filterMap (fun r => (files.flatten[r]?).map (fun m => { m with id := ids r }))).map noId = (l.filterMap (fun r => files.flatten[r]?)).map noId := by
  induction l with
  | nil => rfl
  | cons r l ih =>
    rw [List.filterMap_cons, List.filterMap_cons]
    cases files.flatten[r]? with
    | none => exact ih
    | some m =>
      rw [Option.map_some]
      dsimp only
      rw [List.map_cons, List.map_cons, ih]
      rfl

theorem filterMap_range {α : Type} (p : α → Bool) (q : Nat → Bool) : ∀ (l : List α) (i : Nat), ∀ (g : Nat → Option α), (∀ j, j < l.length → g (i + j) = l[j]?) →
    ((List.range' i l.length).filter (fun r => q r && (g r).any p)).filterMap g = ((l.zipIdx i).filter (fun x => q x.2 && p x.1)).map Prod.fst
  | [], i, g, _ => rfl
  | a :: l, i, g, h => by
    have h0 : g i = some a := by simpa using h 0 (by simp)
    have ih := filterMap_range p q l (i + 1) g (fun j hj => by
      have := h (j + 1) (by simpa using hj)
      rw [show i + 1 + j = i + (j + 1) by omega, this]
      simp)
    rw [List.length_cons, List.range'_succ, List.zipIdx_cons, List.filter_cons, List.filter_cons, h0]
    simp only [Option.any_some]
    by_cases hp : (q i && p a) = true
    · rw [if_pos hp, if_pos hp, List.filterMap_cons, h0]
      dsimp only
      rw [ih, List.map_cons]
    · rw [if_neg hp, if_neg hp, ih]

theorem objects_filter (files : List (List (Meta S))) : ((objects 0 files).map (fun l => l.filter (fun r => (files.flatten[r]?).any (·.isEnclosure)))).flatten =
    (List.range files.flatten.length).filter (fun r => (files.flatten[r]?).any (·.isEnclosure)) := by
  rw [← List.filter_flatten, objects_flatten, List.range_eq_range']

theorem encl_empty (pre : List (Meta S)) (fs : List (List (Meta S))) (all : List (Meta S)) (hall : all = pre ++ fs.flatten) (h : ∀ f ∈ fs, ∀ m ∈ f, m.isEnclosure = false) :
    ∀ m ∈ (objects pre.length fs).map (fun l => l.filter (fun r => (all[r]?).any (·.isEnclosure))), m = [] := by
  induction fs generalizing pre with
  | nil => simp [objects]
  | cons f fs ih =>
    intro m hm
    rw [objects, List.map_cons] at hm
    rcases List.mem_cons.mp hm with rfl | hm
    · rw [List.filter_eq_nil_iff]
      intro r hr
      obtain ⟨h1, h2⟩ := List.mem_range'_1.mp hr
      rw [hall, List.getElem?_append_right h1, List.flatten_cons, List.getElem?_append_left (by omega)]
      cases hg : f[r - pre.length]? with
      | none => simp
      | some x => simp [h f List.mem_cons_self x (List.mem_of_getElem? hg)]
    · refine ih (pre ++ f) (by rw [hall, List.flatten_cons, List.append_assoc]) (fun g hg => h g (List.mem_cons_of_mem _ hg)) m ?_
      rw [List.length_append]
      exact hm

/-! ## C97 -/

/-- the cells of the model: those of the files one after the other, without those that are skipped and those without solids -/
def KeptCells (files : List (List (Meta S))) (skip : List Int) (cells : List (Meta S)) : Prop :=
  cells.map noId = ((files.flatten.zipIdx.filter (fun x => (x.2 : Int) ∉ skip ∧ x.1.solids ≠ none)).map Prod.fst).map noId

/-- what is shown of a run -/
theorem loadFiles_run (f : List (Meta S)) (fs : List (List (Meta S))) (skip : List Int) (hne : f ≠ []) (hs : ∀ m ∈ (f :: fs).flatten, m.isEnclosure = true → m.solids ≠ none)
    (hn : skip.Nodup) (hr : ∀ k ∈ skip, 0 ≤ k ∧ k < (f :: fs).flatten.length) :
    ∃ cells encls, loadFiles (f :: fs) skip = .ok (cells, encls) ∧ KeptCells (f :: fs) skip cells ∧
      (((∃ m ∈ f, m.isEnclosure = true) ∨ ∀ g ∈ fs, ∀ m ∈ g, m.isEnclosure = false) → encls.map noId = ((f :: fs).flatten.filter (·.isEnclosure)).map noId) ∧
      (((∀ m ∈ f, m.isEnclosure = false) ∨ ∀ g ∈ fs, ∀ m ∈ g, m.isEnclosure = false) → (f.map (·.id)).Pairwise (· < ·) → (cells.map (·.id)).Pairwise (· < ·)) := by
  unfold loadFiles
  dsimp only
  have hobj : objects 0 (f :: fs) = List.range' 0 f.length :: objects (0 + f.length) fs := rfl
  have hfl := objects_flatten (f :: fs) 0
  have hne' : List.range' 0 f.length ≠ [] := by
    rw [Ne, ← List.length_eq_zero_iff, List.length_range', List.length_eq_zero_iff]
    exact hne
  -- the cells
  set all := (f :: fs).flatten with hall
  set ids0 : Nat → Nat := fun r => ((all[r]?).map (·.id)).getD 0 with hids0
  have hj : joinMetaLists ids0 (objects 0 (f :: fs)) = .ok ((joinRest ids0 (List.range' 0 f.length) (objects (0 + f.length) fs)).1, List.range all.length) := by
    rw [hobj, joinMetaLists, if_neg hne']
    congr 1
    refine Prod.ext rfl ?_
    rw [joinRest_list]
    rw [hobj, List.flatten_cons] at hfl
    rw [hfl, List.range_eq_range']
  rw [hj]
  dsimp only
  set ids := (joinRest ids0 (List.range' 0 f.length) (objects (0 + f.length) fs)).1 with hids
  set enc := (objects 0 (f :: fs)).map (fun l => l.filter (fun r => (all[r]?).any (·.isEnclosure))) with henc
  have henc1 : enc = (List.range' 0 f.length).filter (fun r => (all[r]?).any (·.isEnclosure)) ::
      (objects (0 + f.length) fs).map (fun l => l.filter (fun r => (all[r]?).any (·.isEnclosure))) := by rw [henc, hobj, List.map_cons]
  set e0 := (List.range' 0 f.length).filter (fun r => (all[r]?).any (·.isEnclosure)) with he0
  set es := (objects (0 + f.length) fs).map (fun l => l.filter (fun r => (all[r]?).any (·.isEnclosure))) with hes
  have hflat : enc.flatten = (List.range all.length).filter (fun r => (all[r]?).any (·.isEnclosure)) := objects_filter (f :: fs)
  have hfirst : ∀ r, r < f.length → all[r]? = f[r]? := by
    intro r hr
    rw [hall, List.flatten_cons, List.getElem?_append_left hr]
  -- the enclosures
  obtain ⟨ids', encls, hE, hEsub, hEall, hEids⟩ : ∃ ids' encls, joinMetaLists ids enc = .ok (ids', encls) ∧
      (∀ r ∈ encls, r < all.length ∧ (all[r]?).any (·.isEnclosure) = true) ∧
      (((∃ m ∈ f, m.isEnclosure = true) ∨ ∀ g ∈ fs, ∀ m ∈ g, m.isEnclosure = false) → encls = enc.flatten) ∧
      (((∀ m ∈ f, m.isEnclosure = false) ∨ ∀ g ∈ fs, ∀ m ∈ g, m.isEnclosure = false) → ids' = ids) := by
    have hsub : ∀ r ∈ enc.flatten, r < all.length ∧ (all[r]?).any (·.isEnclosure) = true := by
      intro r hr
      rw [hflat] at hr
      obtain ⟨h1, h2⟩ := List.mem_filter.mp hr
      exact ⟨List.mem_range.mp h1, h2⟩
    have hrest : (∀ g ∈ fs, ∀ m ∈ g, m.isEnclosure = false) → ∀ m ∈ es, m = [] := by
      intro h
      have := encl_empty f fs all (by rw [hall, List.flatten_cons]) h
      rw [hes, Nat.zero_add]
      exact this
    rw [henc1, joinMetaLists]
    by_cases h0 : e0 = []
    · rw [if_pos h0]
      refine ⟨ids, [], rfl, by simp, fun h => ?_, fun _ => rfl⟩
      rcases h with ⟨m, hm, hm'⟩ | h
      · obtain ⟨r, hr, rfl⟩ := List.getElem_of_mem hm
        have : r ∈ e0 := List.mem_filter.mpr ⟨List.mem_range'_1.mpr (by omega), by rw [hfirst r hr, List.getElem?_eq_getElem hr]; exact hm'⟩
        rw [h0] at this
        simp at this
      · rw [List.flatten_cons, h0, List.nil_append]
        exact (List.flatten_eq_nil_iff.mpr (hrest h)).symm
    · rw [if_neg h0]
      refine ⟨(joinRest ids e0 es).1, (joinRest ids e0 es).2, rfl, fun r hr => ?_, fun _ => ?_, fun h => ?_⟩
      · rw [joinRest_list] at hr
        exact hsub r (by rw [henc1, List.flatten_cons]; exact hr)
      · rw [joinRest_list, List.flatten_cons]
      · rcases h with h | h
        · refine absurd (List.filter_eq_nil_iff.mpr (fun r hr => ?_)) h0
          have hr' : r < f.length := by have := List.mem_range'_1.mp hr; omega
          rw [hfirst r hr', List.getElem?_eq_getElem hr']
          simp [h _ (List.getElem_mem hr')]
        · rw [joinRest_nil ids e0 es (hrest h)]
  rw [hE]
  dsimp only
  rw [skipSolids_keep skip (List.range all.length) hn (by rw [List.length_range]; exact hr), keep_range]
  dsimp only
  rw [if_neg (by
    rw [Bool.not_eq_true, List.any_eq_false]
    intro r hr h
    obtain ⟨h1, h2⟩ := hEsub r hr
    rw [List.getElem?_eq_getElem h1] at h h2
    simp only [Option.any_some, Option.isNone_iff_eq_none] at h h2
    exact hs _ (List.getElem_mem h1) h2 h)]
  set refs := (List.range all.length).filter (fun i : Nat => decide ((i : Int) ∉ skip)) with hrefs
  have hrem := removeNone_filter (fun r => (all[r]?).any (·.solids.isNone)) refs [] (by rw [List.append_nil]; exact List.nodup_range.filter _)
  rw [List.append_nil, List.append_nil] at hrem
  rw [hrem]
  refine ⟨_, _, rfl, ?_, fun h => ?_, fun h hinc => ?_⟩
  · unfold KeptCells
    rw [show ∀ l : List Nat, (l.filterMap (fun r => (all[r]?).map (fun m => { m with id := ids' r }))).map noId = (l.filterMap (fun r => all[r]?)).map noId from show_noId (f :: fs) ids']
    congr 1
    rw [hrefs, List.filter_filter]
    have := filterMap_range (fun m : Meta S => m.solids.isSome) (fun i : Nat => decide ((i : Int) ∉ skip)) all 0 (fun r => all[r]?) (fun j _ => by rw [Nat.zero_add])
    rw [← List.range_eq_range'] at this
    refine Eq.trans ?_ (this.trans ?_)
    · congr 1
      refine List.filter_congr (fun r hr => ?_)
      rw [List.getElem?_eq_getElem (List.mem_range.mp hr)]
      simp [Bool.and_comm]
    · congr 1
      refine List.filter_congr (fun x _ => ?_)
      rw [Bool.decide_and]
      congr 1
      cases x.1.solids <;> simp
  · rw [show ∀ l : List Nat, (l.filterMap (fun r => (all[r]?).map (fun m => { m with id := ids' r }))).map noId = (l.filterMap (fun r => all[r]?)).map noId from show_noId (f :: fs) ids',
      hEall h, hflat]
    congr 1
    have := filterMap_range (fun m : Meta S => m.isEnclosure) (fun _ => true) all 0 (fun r => all[r]?) (fun j _ => by rw [Nat.zero_add])
    rw [← List.range_eq_range'] at this
    simp only [Bool.true_and] at this
    rw [this]
    conv_rhs => rw [← List.zipIdx_map_fst 0 all, List.filter_map]
    rfl
  · rw [hEids h]
    have hnd : (List.range' 0 f.length ++ (objects (0 + f.length) fs).flatten).Nodup := by
      rw [hobj, List.flatten_cons] at hfl
      rw [hfl]
      exact List.nodup_range'
    have hup := joinRest_inc ids0 (List.range' 0 f.length) (objects (0 + f.length) fs) hne' hnd (by
      have : (List.range' 0 f.length).map ids0 = f.map (·.id) := by
        refine List.ext_getElem (by simp) (fun i h1 h2 => ?_)
        have hi : i < f.length := by simpa using h2
        simp [hids0, hfirst i hi, List.getElem?_eq_getElem hi]
      rw [this]
      exact hinc)
    rw [hobj, List.flatten_cons] at hfl
    rw [hfl] at hup
    have hmap : (List.filterMap (fun r => (all[r]?).map (fun m => ({ m with id := ids r } : Meta S))) (refs.filter (fun r => !(all[r]?).any (·.solids.isNone)))).map (·.id) =
        (refs.filter (fun r => !(all[r]?).any (·.solids.isNone))).map ids := by
      have hlt : ∀ r ∈ refs.filter (fun r => !(all[r]?).any (·.solids.isNone)), r < all.length := fun r hr => List.mem_range.mp (List.mem_of_mem_filter (List.mem_of_mem_filter hr))
      generalize refs.filter (fun r => !(all[r]?).any (·.solids.isNone)) = l at hlt
      induction l with
      | nil => rfl
      | cons r l ih =>
        rw [List.filterMap_cons, List.getElem?_eq_getElem (hlt r List.mem_cons_self)]
        simp only [Option.map_some, List.map_cons]
        rw [ih (fun x hx => hlt x (List.mem_cons_of_mem _ hx))]
    rw [hmap]
    refine hup.sublist (List.Sublist.map _ ?_)
    rw [← List.range_eq_range']
    exact List.filter_sublist.trans List.filter_sublist

/-! the theorems -/

/-- a cell of the examples -/
def mk (id : Nat) (encl : Bool) (sol : Nat) : Meta Nat := { id := id, solids := some [sol], isEnclosure := encl }

/-- the outcome as a list: cells (number and solids) and enclosures -/
def shown (x : Outcome (List (Meta Nat) × List (Meta Nat))) : Option (List (Nat × Option (List Nat)) × List (Nat × Option (List Nat))) :=
  match x with
  | .ok (a, b) => some (a.map (fun m => (m.id, m.solids)), b.map (fun m => (m.id, m.solids)))
  | _ => none

/-- **C97** (cells), part: if the first file has a cell, the model has the cells of all files, one file after the other. Missing: a first file without cells (`C97_empty_violated`). -/
theorem C97_cells_partial (f : List (Meta S)) (fs : List (List (Meta S))) (hne : f ≠ []) (hs : ∀ m ∈ (f :: fs).flatten, m.solids ≠ none) :
    ∃ cells encls, loadFiles (f :: fs) [] = .ok (cells, encls) ∧ cells.map noId = (f :: fs).flatten.map noId := by
  obtain ⟨cells, encls, h1, h2, _⟩ := loadFiles_run f fs [] hne (fun m hm _ => hs m hm) List.nodup_nil (by simp)
  refine ⟨cells, encls, h1, ?_⟩
  rw [h2]
  have : (f :: fs).flatten.zipIdx.filter (fun x => decide ((x.2 : Int) ∉ ([] : List Int) ∧ x.1.solids ≠ none)) = (f :: fs).flatten.zipIdx := by
    refine List.filter_eq_self.mpr (fun x hx => ?_)
    have : x.1 ∈ (f :: fs).flatten := by
      have := List.mem_map_of_mem (f := Prod.fst) hx
      rwa [List.zipIdx_map_fst] at this
    simpa using hs _ this
  rw [this, List.zipIdx_map_fst]

/-- **C97** (enclosures), part: the model has the enclosures of all files if the first file has one, or no other file has. Missing: `C97_enclosures_violated`. -/
theorem C97_enclosures_partial (f : List (Meta S)) (fs : List (List (Meta S))) (hne : f ≠ []) (hs : ∀ m ∈ (f :: fs).flatten, m.solids ≠ none)
    (he : (∃ m ∈ f, m.isEnclosure = true) ∨ ∀ g ∈ fs, ∀ m ∈ g, m.isEnclosure = false) :
    ∃ cells encls, loadFiles (f :: fs) [] = .ok (cells, encls) ∧ encls.map noId = ((f :: fs).flatten.filter (·.isEnclosure)).map noId := by
  obtain ⟨cells, encls, h1, _, h3, _⟩ := loadFiles_run f fs [] hne (fun m hm _ => hs m hm) List.nodup_nil (by simp)
  exact ⟨cells, encls, h1, h3 he⟩

/-- **C97** (numbers), part: the cells of all files have different numbers, increasing, if those of the first file have, and either the first file or all the others have no enclosure.
Missing: `C97_numbers_violated`. -/
theorem C97_numbers_partial (f : List (Meta S)) (fs : List (List (Meta S))) (hne : f ≠ []) (hs : ∀ m ∈ (f :: fs).flatten, m.solids ≠ none)
    (he : (∀ m ∈ f, m.isEnclosure = false) ∨ ∀ g ∈ fs, ∀ m ∈ g, m.isEnclosure = false) (hinc : (f.map (·.id)).Pairwise (· < ·)) :
    ∃ cells encls, loadFiles (f :: fs) [] = .ok (cells, encls) ∧ (cells.map (·.id)).Pairwise (· < ·) := by
  obtain ⟨cells, encls, h1, _, _, h4⟩ := loadFiles_run f fs [] hne (fun m hm _ => hs m hm) List.nodup_nil (by simp)
  exact ⟨cells, encls, h1, h4 he hinc⟩

example : shown (loadFiles [[mk 1 true 10, mk 2 false 11], [mk 1 false 20], [mk 1 false 30, mk 2 false 31]] []) =
    some ([(1, some [10]), (2, some [11]), (3, some [20]), (4, some [30]), (5, some [31])], [(1, some [10])]) := by decide +kernel

/-- the full property: the model has the cells and the enclosures of all files -/
def C97_statement : Prop :=
  ∀ files : List (List (Meta Nat)), files ≠ [] → (∀ m ∈ files.flatten, m.solids ≠ none) →
    ∃ cells encls, loadFiles files [] = .ok (cells, encls) ∧ cells.map noId = files.flatten.map noId ∧ encls.map noId = (files.flatten.filter (·.isEnclosure)).map noId

/-- **C97** is violated: if the first file has no enclosure, those of the other files are lost -/
theorem C97_enclosures_violated : ¬ C97_statement := by
  intro h
  obtain ⟨cells, encls, h1, h2, h3⟩ := h [[mk 1 false 10], [mk 1 true 20]] (by simp) (by decide)
  have : shown (loadFiles [[mk 1 false 10], [mk 1 true 20]] []) = some ([(1, some [10]), (2, some [20])], []) := by decide +kernel
  rw [h1] at this
  simp only [shown, Option.some.injEq, Prod.mk.injEq, List.map_eq_nil_iff] at this
  rw [this.2] at h3
  exact absurd h3 (by decide)

/-- **C97** is violated: if the first file has no cell, the cells of the other files are lost -/
theorem C97_empty_violated : ¬ C97_statement := by
  intro h
  obtain ⟨cells, encls, h1, h2, h3⟩ := h [[], [mk 1 false 20]] (by simp) (by decide)
  have : shown (loadFiles [[], [mk 1 false 20]] []) = some ([], []) := by decide +kernel
  rw [h1] at this
  simp only [shown, Option.some.injEq, Prod.mk.injEq, List.map_eq_nil_iff] at this
  rw [this.1] at h2
  exact absurd h2 (by decide)

/-- the full property for the numbers -/
def C97_numbers_statement : Prop :=
  ∀ (files : List (List (Meta Nat))) (cells encls : List (Meta Nat)), (∀ f ∈ files, (f.map (·.id)).Pairwise (· < ·)) → loadFiles files [] = .ok (cells, encls) → (cells.map (·.id)).Nodup

/-- **C97** is violated: with enclosures in two files, the enclosure of the second file has the number of a cell of the first -/
theorem C97_numbers_violated : ¬ C97_numbers_statement := by
  intro h
  have hr : shown (loadFiles [[mk 1 true 10, mk 2 false 11], [mk 1 true 20]] []) = some ([(1, some [10]), (2, some [11]), (2, some [20])], [(1, some [10]), (2, some [20])]) := by decide +kernel
  cases hl : loadFiles [[mk 1 true 10, mk 2 false 11], [mk 1 true 20]] [] with
  | error x => rw [hl] at hr; cases hr
  | exit => rw [hl] at hr; cases hr
  | ok x =>
    obtain ⟨cells, encls⟩ := x
    rw [hl] at hr
    simp only [shown, Option.some.injEq, Prod.mk.injEq] at hr
    have := h _ cells encls (by decide) hl
    have hid : cells.map (·.id) = [1, 2, 2] := by
      have := congrArg (List.map Prod.fst) hr.1
      rw [List.map_map] at this
      exact this
    rw [hid] at this
    exact absurd this (by decide)

/-! ## C98 -/

/-- the index names the place: from the beginning, or, if negative, from the end -/
def Names (n : Nat) (k : Int) (i : Nat) : Prop := k = i ∨ k = (i : Int) - n

/-- **C98**, part: with different indices that are not negative, the cells that are left are those of the other places that have solids, in the same order. Missing: repeated and negative
indices (`C98_twice_violated`, `C98_negative_violated`). -/
theorem C98_skip_partial (f : List (Meta S)) (fs : List (List (Meta S))) (skip : List Int) (hne : f ≠ []) (hs : ∀ m ∈ (f :: fs).flatten, m.isEnclosure = true → m.solids ≠ none)
    (hn : skip.Nodup) (hr : ∀ k ∈ skip, 0 ≤ k ∧ k < (f :: fs).flatten.length) :
    ∃ cells encls, loadFiles (f :: fs) skip = .ok (cells, encls) ∧ KeptCells (f :: fs) skip cells := by
  obtain ⟨cells, encls, h1, h2, _⟩ := loadFiles_run f fs skip hne hs hn hr
  exact ⟨cells, encls, h1, h2⟩

example : shown (loadFiles [[mk 1 false 10, mk 2 false 11, { mk 3 false 12 with solids := none }], [mk 1 false 20]] [3, 0]) = some ([(2, some [11])], []) := by decide +kernel

/-- **C98**: the order of the indices does not matter -/
theorem C98_order (files : List (List (Meta S))) (skip skip' : List Int) (h : skip.Perm skip') : loadFiles files skip = loadFiles files skip' := by
  have hs : skip.insertionSort (· ≥ ·) = skip'.insertionSort (· ≥ ·) := by
    have p : (skip.insertionSort (· ≥ ·)).Perm (skip'.insertionSort (· ≥ ·)) := (List.perm_insertionSort _ _).trans (h.trans (List.perm_insertionSort _ _).symm)
    exact p.eq_of_pairwise (fun a b _ _ h1 h2 => le_antisymm h2 h1) (List.pairwise_insertionSort (· ≥ ·) skip) (List.pairwise_insertionSort (· ≥ ·) skip')
  unfold loadFiles skipSolids
  rw [hs]

/-- **C98**: an index that names no place raises an IndexError -/
theorem C98_range (f : List (Meta S)) (fs : List (List (Meta S))) (k : Int) (hk : k < -((f :: fs).flatten.length : Int) ∨ ((f :: fs).flatten.length : Int) ≤ k) (hne : f ≠ []) :
    loadFiles (f :: fs) [k] = .error .index := by
  unfold loadFiles
  dsimp only
  have hne' : List.range' 0 f.length ≠ [] := by
    rw [Ne, ← List.length_eq_zero_iff, List.length_range', List.length_eq_zero_iff]
    exact hne
  rw [objects, List.map_cons, joinMetaLists, if_neg hne']
  dsimp only
  rw [joinMetaLists]
  have hl : ∀ ids, ((joinRest ids (List.range' 0 f.length) (objects (0 + f.length) fs)).2).length = (f :: fs).flatten.length := by
    intro ids
    have := objects_flatten (f :: fs) 0
    rw [objects, List.flatten_cons] at this
    rw [joinRest_list, this, List.length_range']
  have hskip : ∀ l : List Nat, l.length = (f :: fs).flatten.length → skipSolids [k] l = .error .index := by
    intro l hl
    unfold skipSolids
    rw [List.insertionSort_cons, List.insertionSort_nil, List.orderedInsert_nil, skipLoop]
    unfold delAt
    rw [hl]
    rcases hk with hk | hk
    · rw [if_neg (by omega), if_neg (by omega)]
    · rw [if_pos (by omega), if_neg (by omega)]
  split
  · next x hx =>
    split at hx <;> cases hx
  · rw [hskip _ (hl _)]

/-- the full property: the cells of the places that the indices name are left out, and no others -/
def C98_statement : Prop :=
  ∀ (f : List (Meta Nat)) (skip : List Int) (cells encls : List (Meta Nat)), (∀ m ∈ f, m.solids ≠ none) → (∀ k ∈ skip, -(f.length : Int) ≤ k ∧ k < f.length) →
    loadFiles [f] skip = .ok (cells, encls) → ∀ i : Nat, ∀ m, f[i]? = some m → ((∃ m' ∈ cells, noId m' = noId m) ↔ ¬ ∃ k ∈ skip, Names f.length k i)

theorem C98_witness (skip : List Int) (hk : ∀ k ∈ skip, -(4 : Int) ≤ k ∧ k < 4) (res : List (Nat × Option (List Nat)))
    (hr : shown (loadFiles [[mk 1 false 10, mk 2 false 11, mk 3 false 12, mk 4 false 13]] skip) = some (res, [])) (i : Nat) (m : Meta Nat)
    (hi : [mk 1 false 10, mk 2 false 11, mk 3 false 12, mk 4 false 13][i]? = some m) (h1 : m.solids ∉ res.map Prod.snd) (h2 : ¬ ∃ k ∈ skip, k = i ∨ k = (i : Int) - 4) : ¬ C98_statement := by
  intro h
  cases hl : loadFiles [[mk 1 false 10, mk 2 false 11, mk 3 false 12, mk 4 false 13]] skip with
  | error x => rw [hl] at hr; cases hr
  | exit => rw [hl] at hr; cases hr
  | ok x =>
    obtain ⟨cells, encls⟩ := x
    rw [hl] at hr
    simp only [shown, Option.some.injEq, Prod.mk.injEq] at hr
    obtain ⟨m', hm', he⟩ := (h [mk 1 false 10, mk 2 false 11, mk 3 false 12, mk 4 false 13] skip cells encls (by decide) hk hl i m hi).mpr h2
    refine h1 ?_
    rw [← hr.1, List.map_map]
    refine List.mem_map.mpr ⟨m', hm', ?_⟩
    have := congrArg Meta.solids he
    exact this

/-- **C98** is violated: an index given twice removes another cell too -/
theorem C98_twice_violated : ¬ C98_statement :=
  C98_witness [1, 1] (by decide) [(1, some [10]), (4, some [13])] (by decide +kernel) 2 (mk 3 false 12) rfl (by decide) (by decide)

/-- **C98** is violated: `[-1, -2]`, the last two cells, removes the last one and the third last -/
theorem C98_negative_violated : ¬ C98_statement :=
  C98_witness [-1, -2] (by decide) [(1, some [10]), (3, some [12])] (by decide +kernel) 1 (mk 2 false 11) rfl (by decide) (by decide)

/-! ## C99 -/

variable {V : Type}

/-- a line of the file of materials: a comment, or a label, a density and the words of the name; `words` are the words of the line -/
inductive MatLine (int : List Char → Option Int) (float : List Char → Option V) : List (List Char) → Option (Int × V × List Char) → Prop
  | comment (w : List Char) (ws : List (List Char)) : MatLine int float (('#' :: w) :: ws) none
  | record (a b : List Char) (k : Int) (x : V) (name : List (List Char)) : a.head? ≠ some '#' → int a = some k → float b = some x →
      MatLine int float (a :: b :: name) (some (k, x, List.intercalate [' '] name))

/-- **C99**, part: a file of comments and records gives the table with, for each label, the density with the other sign and the name of the last record with that label. Missing: blank
lines (`C99_blank_violated`). -/
theorem C99_table_partial (int : List Char → Option Int) (float : List Char → Option V) (neg : V → V) (lines : List (List Char)) (recs : List (Option (Int × V × List Char)))
    (h : List.Forall₂ (fun l r => MatLine int float (pySplit l) r) lines recs) :
    ∃ d, extractMaterials int float neg lines (fun _ => none) = .ok d ∧
      ∀ k, (∀ v n, d k = some (v, n) ↔ ∃ a x b, recs = a ++ some (k, x, n) :: b ∧ v = neg x ∧ ∀ y n', some (k, y, n') ∉ b) := by
  have key : ∀ (lines : List (List Char)) (recs : List (Option (Int × V × List Char))), List.Forall₂ (fun l r => MatLine int float (pySplit l) r) lines recs → ∀ d0 : Int → Option (V × List Char),
      ∃ d, extractMaterials int float neg lines d0 = .ok d ∧ ∀ k, (∀ v n, d k = some (v, n) ↔ (∃ a x b, recs = a ++ some (k, x, n) :: b ∧ v = neg x ∧ ∀ y n', some (k, y, n') ∉ b) ∨
        (d0 k = some (v, n) ∧ ∀ y n', some (k, y, n') ∉ recs)) := by
    intro lines recs h
    induction h with
    | nil => exact fun d0 => ⟨d0, rfl, fun k v n => by simp⟩
    | @cons l r ls rs hl _ ih =>
      intro d0
      rw [extractMaterials]
      generalize pySplit l = ws at hl
      cases hl with
      | comment w ws =>
        simp only [List.head?_cons, if_true]
        obtain ⟨d, h1, h2⟩ := ih d0
        refine ⟨d, h1, fun k v n => ?_⟩
        rw [h2 k v n]
        constructor
        · rintro (⟨a, x, b, e1, e2, e3⟩ | ⟨e1, e2⟩)
          · exact Or.inl ⟨none :: a, x, b, by rw [e1]; rfl, e2, e3⟩
          · exact Or.inr ⟨e1, fun y n' hm => by simpa using (List.mem_cons.mp hm).resolve_left (by simp) |> e2 y n'⟩
        · rintro (⟨a, x, b, e1, e2, e3⟩ | ⟨e1, e2⟩)
          · cases a with
            | nil => simp at e1
            | cons a0 a =>
              simp only [List.cons_append, List.cons.injEq] at e1
              exact Or.inl ⟨a, x, b, e1.2, e2, e3⟩
          · exact Or.inr ⟨e1, fun y n' hm => e2 y n' (List.mem_cons_of_mem _ hm)⟩
      | record a b k0 x name ha hi hf =>
        simp only [if_neg ha, hi, hf]
        obtain ⟨d, h1, h2⟩ := ih (Function.update d0 k0 (some (neg x, joinWords name)))
        refine ⟨d, h1, fun k v n => ?_⟩
        rw [h2 k v n]
        constructor
        · rintro (⟨a, y, b, e1, e2, e3⟩ | ⟨e1, e2⟩)
          · exact Or.inl ⟨_ :: a, y, b, by rw [e1]; rfl, e2, e3⟩
          · by_cases hk : k = k0
            · subst hk
              rw [Function.update_self] at e1
              cases e1
              exact Or.inl ⟨[], x, rs, by rw [joinWords_eq]; rfl, rfl, e2⟩
            · rw [Function.update_of_ne hk] at e1
              refine Or.inr ⟨e1, fun y n' hm => ?_⟩
              rcases List.mem_cons.mp hm with hm | hm
              · cases hm
                exact hk rfl
              · exact e2 y n' hm
        · rintro (⟨a, y, b, e1, e2, e3⟩ | ⟨e1, e2⟩)
          · cases a with
            | nil =>
              simp only [List.nil_append, List.cons.injEq, Option.some.injEq, Prod.mk.injEq] at e1
              obtain ⟨⟨rfl, rfl, rfl⟩, rfl⟩ := e1
              refine Or.inr ⟨?_, e3⟩
              rw [Function.update_self, e2, joinWords_eq]
            | cons a0 a =>
              simp only [List.cons_append, List.cons.injEq] at e1
              exact Or.inl ⟨a, y, b, e1.2, e2, e3⟩
          · have hk : k ≠ k0 := by
              rintro rfl
              exact e2 x _ List.mem_cons_self
            refine Or.inr ⟨by rw [Function.update_of_ne hk]; exact e1, fun y n' hm => e2 y n' (List.mem_cons_of_mem _ hm)⟩
  obtain ⟨d, h1, h2⟩ := key lines recs h (fun _ => none)
  refine ⟨d, h1, fun k v n => ?_⟩
  rw [h2 k v n]
  simp

/-- whole numbers of digits, for the example -/
def natOf (w : List Char) : Option Int := if w.all Char.isDigit && w ≠ [] then some (digVal w) else none

example : ((extractMaterials natOf natOf (fun x => -x) ["# label density name".toList, "3 8 stainless  steel".toList, "1 1 water".toList, "3 7 iron".toList] (fun _ => none)).toOption.map
    (fun d => (d 1, d 2, d 3))) = some (some (-1, "water".toList), none, some (-7, "iron".toList)) := by decide +kernel

example : MatLine natOf natOf (pySplit "3 8 stainless  steel".toList) (some (3, 8, "stainless steel".toList)) :=
  .record ['3'] ['8'] 3 8 ["stainless".toList, "steel".toList] (by decide) (by decide) (by decide)

/-- the full property: blank lines do not matter -/
def C99_statement : Prop :=
  ∀ (int : List Char → Option Int) (float : List Char → Option Int) (neg : Int → Int) (a b : List (List Char)) (d : Int → Option (Int × List Char)),
    extractMaterials int float neg (a ++ b) (fun _ => none) = .ok d → extractMaterials int float neg (a ++ [] :: b) (fun _ => none) = .ok d

/-- **C99** is violated: a blank line raises an IndexError -/
theorem C99_blank_violated : ¬ C99_statement := by
  intro h
  have := h natOf natOf (fun x => -x) [] [] (fun _ => none) rfl
  have hr : extractMaterials natOf natOf (fun x => -x) ([] ++ [] :: []) (fun _ => none) = .error .index := rfl
  rw [hr] at this
  cases this

end Geouned.Load
