import Verif.Rev.LevelsLemmas
/-!
# C66: universes, levels and the universes that are built
-/
namespace Geouned.Rev

section
variable {cells : List UCell} {r : Nat}

theorem level_dist {k v : Nat} (h : Level cells r (k + 1) v) : ∃ w, Level cells r k w := by
  obtain ⟨w, h1, -⟩ := h
  exact ⟨w, ((dist_iff r w k).1 h1).1⟩

theorem rootOf_eq (hr : IsRoot cells r) (hl : ∀ v, ¬ Lonely cells r v) : rootOf (keysOf cells) ((containersOf cells).map (·.2)) = .ok r := by
  unfold rootOf
  by_cases h0 : IsUniverse cells 0
  · rw [if_pos ((mem_keys 0).2 h0), hr.2.1 h0]
  · rw [if_neg (fun h => h0 ((mem_keys 0).1 h))]
    have hrf := hr.2.2 h0
    cases hf : (keysOf cells).find? fun k => !((containersOf cells).map (·.2)).contains k with
    | none =>
      have := List.find?_eq_none.1 hf r ((mem_keys r).2 hr.1)
      simp only [Bool.not_eq_true', Bool.not_eq_false, List.contains_iff_mem] at this
      exact absurd (((mem_labels r).1 this)) (fun ⟨v, hv⟩ => hrf v hv)
    | some k =>
      have h1 := List.find?_some hf
      have h2 := List.mem_of_find?_eq_some hf
      simp only [Bool.not_eq_true', ← Bool.not_eq_true, List.contains_iff_mem] at h1
      by_cases hk : k = r
      · rw [hk]
      · exact absurd ⟨(mem_keys k).1 h2, hk, fun w hw => h1 ((mem_labels k).2 ⟨w, hw⟩)⟩ (hl k)

/-- **C66**, levels: when the file has a main universe and every other one fills a cell, the levels are computed, and each is as specified: level 0 is the main
universe, level `k+1` has the universes that fill cells of the universes at distance `k`; there is no empty level and no further one. -/
theorem C66_levels (hr : IsRoot cells r) (hl : ∀ v, ¬ Lonely cells r v) :
    ∃ levels, levelStructure cells = .ok levels ∧ (∀ k, (h : k < levels.length) → ∀ v, v ∈ levels[k] ↔ Level cells r k v) ∧
      (∀ k, k < levels.length ↔ ∃ v, Level cells r k v) := by
  obtain ⟨ls, h1, h2, h3, h4⟩ := levelLoop_spec (cells := cells) r ((containersOf cells).length + 1) 0 [r] (containersOf cells) (by omega)
    (by simp [Level]) (by
      intro v w
      rw [mem_containers]
      simp)
  have hcheck : (keysOf cells).any (fun k => !((containersOf cells).map (·.2)).contains k && k != r) = false := by
    rw [← Bool.not_eq_true, List.any_eq_true]
    rintro ⟨k, hk, h⟩
    simp only [Bool.and_eq_true, Bool.not_eq_true', bne_iff_ne, ne_eq, ← Bool.not_eq_true, List.contains_iff_mem] at h
    exact hl k ⟨(mem_keys k).1 hk, h.2, fun w hw => h.1 ((mem_labels k).2 ⟨w, hw⟩)⟩
  have hk : ∀ k, (h : k < ([r] :: ls).length) → ∀ v, v ∈ ([r] :: ls)[k] ↔ Level cells r k v := by
    intro k hk v
    cases k with
    | zero => simp [Level]
    | succ k =>
      simp only [List.getElem_cons_succ]
      rw [h2 k (by simpa using hk), show 0 + 1 + k = k + 1 by omega]
  refine ⟨[r] :: ls, ?_, hk, ?_⟩
  · unfold levelStructure
    simp only [rootOf_eq hr hl, bind, Except.bind, hcheck, h1]
    rfl
  · have hbeyond : ∀ d v, ¬ Level cells r (1 + ls.length + d) v := by
      intro d
      induction d with
      | zero => intro v; have := h4 v; rwa [show 0 + 1 + ls.length = 1 + ls.length + 0 by omega] at this
      | succ d ih =>
        intro v hv
        obtain ⟨w, hw⟩ := level_dist (k := 1 + ls.length + d) hv
        exact ih w hw
    intro k
    constructor
    · intro h
      cases k with
      | zero => exact ⟨r, rfl⟩
      | succ k =>
        have hlt : k < ls.length := by simpa using h
        cases he : ls[k] with
        | nil => exact absurd he (h3 _ (List.getElem_mem hlt))
        | cons v l =>
          refine ⟨v, ?_⟩
          have := (h2 k hlt v).1 (by rw [he]; simp)
          rwa [show 0 + 1 + k = k + 1 by omega] at this
    · rintro ⟨v, hv⟩
      rcases Nat.lt_or_ge k ([r] :: ls).length with h | h
      · exact h
      · simp only [List.length_cons] at h
        have := hbeyond (k - (1 + ls.length)) v
        rw [show 1 + ls.length + (k - (1 + ls.length)) = k by omega] at this
        exact absurd hv this

/-- A universe that fills no cell, besides the main one, is reported (RuntimeError). -/
theorem C66_lonely (hr : IsRoot cells r) (v : Nat) (hv : Lonely cells r v) : levelStructure cells = .error .runtimeError := by
  have hany : ∀ k, (k = r ∨ k = v ∨ ∃ z, k = z) → (∃ x, (x = r ∨ x = v) ∧ x ≠ k ∧ IsUniverse cells x ∧ ∀ w, ¬ Fills cells w x) →
      (keysOf cells).any (fun x => !((containersOf cells).map (·.2)).contains x && x != k) = true := by
    rintro k - ⟨x, -, h1, h2, h3⟩
    rw [List.any_eq_true]
    refine ⟨x, (mem_keys x).2 h2, ?_⟩
    simp only [Bool.and_eq_true, Bool.not_eq_true', bne_iff_ne, ne_eq, ← Bool.not_eq_true, List.contains_iff_mem]
    exact ⟨fun h => by obtain ⟨w, hw⟩ := (mem_labels x).1 h; exact h3 w hw, h1⟩
  unfold levelStructure
  by_cases h0 : IsUniverse cells 0
  · have e : rootOf (keysOf cells) ((containersOf cells).map (·.2)) = .ok 0 := by
      unfold rootOf
      rw [if_pos ((mem_keys 0).2 h0)]
    have hr0 := hr.2.1 h0
    subst hr0
    simp only [e, bind, Except.bind]
    rw [if_pos (hany 0 (.inl rfl) ⟨v, .inr rfl, hv.2.1, hv.1, hv.2.2⟩)]
  · have hrf := hr.2.2 h0
    cases hf : (keysOf cells).find? fun k => !((containersOf cells).map (·.2)).contains k with
    | none =>
      have := List.find?_eq_none.1 hf r ((mem_keys r).2 hr.1)
      simp only [Bool.not_eq_true', Bool.not_eq_false, List.contains_iff_mem] at this
      exact absurd (((mem_labels r).1 this)) (fun ⟨v, hv⟩ => hrf v hv)
    | some k =>
      have e : rootOf (keysOf cells) ((containersOf cells).map (·.2)) = .ok k := by
        unfold rootOf
        rw [if_neg (fun h => h0 ((mem_keys 0).1 h)), hf]
      simp only [e, bind, Except.bind]
      rw [if_pos]
      by_cases hk : k = r
      · subst hk
        exact hany k (.inl rfl) ⟨v, .inr rfl, hv.2.1, hv.1, hv.2.2⟩
      · exact hany k (.inr (.inr ⟨k, rfl⟩)) ⟨r, .inl rfl, fun e => hk e.symm, hr.1, hrf⟩

/-- Without universe 0, and with every universe filling a cell, the name of the main universe is not bound (UnboundLocalError); the same for a file without cells. -/
theorem C66_no_root (h0 : ¬ IsUniverse cells 0) (h : ∀ v, IsUniverse cells v → ∃ w, Fills cells w v) :
    levelStructure cells = .error .unbound := by
  have e : rootOf (keysOf cells) ((containersOf cells).map (·.2)) = .error .unbound := by
    unfold rootOf
    rw [if_neg (fun h => h0 ((mem_keys 0).1 h))]
    cases hf : (keysOf cells).find? fun k => !((containersOf cells).map (·.2)).contains k with
    | none => rfl
    | some k =>
      have h1 := List.find?_some hf
      have h2 := List.mem_of_find?_eq_some hf
      simp only [Bool.not_eq_true', ← Bool.not_eq_true, List.contains_iff_mem] at h1
      exact absurd ((mem_labels k).2 (h k ((mem_keys k).1 h2))) h1
  unfold levelStructure
  simp only [e, bind, Except.bind]

/-- **C66**, sub-universes: when no universe is nested in itself and all fillings exist, the sub-universes are exactly those reached by one or more fillings. -/
theorem C66_subuniverses (rank : Nat → Nat) (hn : Nested cells rank) (hc : Closed cells) (U : Nat) (hU : IsUniverse cells U) (f : Nat) (hf : rank U < f) :
    ∃ s, getSub cells f U = .ok s ∧ ∀ v, v ∈ s ↔ ∃ k, Steps cells U v (k + 1) := getSub_spec hn hc f U hf hU

/-- The full property: for a file that is accepted and whose universes are not nested in themselves, the universes taken for a start and a depth
(-1 or any number) are those nested in the start up to that depth, for both readers of files. -/
def C66_statement : Prop :=
  ∀ (cells : List UCell) (r : Nat) (rank : Nat → Nat) (levels : List (List Nat)) (start : Nat) (depth : Int) (f : Nat),
    IsRoot cells r → Nested cells rank → Closed cells → levelStructure cells = .ok levels → (∃ n, Steps cells r start n) → -1 ≤ depth → rank start < f →
    ∀ xml, ∃ ks, universeKeys xml f cells levels start depth = .ok ks ∧ ks.Nodup ∧ ∀ v, v ∈ ks ↔ Within cells start depth v

theorem accepted_noLonely (hr : IsRoot cells r) {levels : List (List Nat)} (hl : levelStructure cells = .ok levels) : ∀ v, ¬ Lonely cells r v := by
  intro v hv
  rw [C66_lonely hr v hv] at hl
  cases hl

theorem mem_levelUniverse {levels : List (List Nat)} (hk : ∀ k, (h : k < levels.length) → ∀ v, v ∈ levels[k] ↔ Level cells r k v)
    (lev : Nat) (m : Int) (v : Nat) :
    v ∈ levelUniverse levels lev m ↔ ∃ k, k < levels.length ∧ lev ≤ k ∧ (k : Int) ≤ m ∧ Level cells r k v := by
  unfold levelUniverse
  simp only [List.mem_flatten, List.mem_map, List.mem_filter, List.mem_range, decide_eq_true_eq]
  constructor
  · rintro ⟨l, ⟨k, ⟨h1, h2, h3⟩, rfl⟩, hv⟩
    rw [List.getD_eq_getElem?_getD, List.getElem?_eq_getElem h1, Option.getD_some] at hv
    exact ⟨k, h1, h2, h3, (hk k h1 v).1 hv⟩
  · rintro ⟨k, h1, h2, h3, hv⟩
    exact ⟨_, ⟨k, ⟨h1, h2, h3⟩, rfl⟩, by rw [List.getD_eq_getElem?_getD, List.getElem?_eq_getElem h1, Option.getD_some]; exact (hk k h1 v).2 hv⟩

theorem steps_isUniverse (hc : Closed cells) {v w k : Nat} (hv : IsUniverse cells v) (h : Steps cells v w k) : IsUniverse cells w := by
  cases h with
  | refl => exact hv
  | step _ hf => exact hc _ _ hf

/-- how `universeKeys` decides in the case `depth ≠ 0` -/
theorem keys_keep (hr : IsRoot cells r) (rank : Nat → Nat) (hn : Nested cells rank) (hc : Closed cells) (levels : List (List Nat))
    (hl : levelStructure cells = .ok levels) (hg : Graded cells r) (start n : Nat) (hs : Steps cells r start n) (depth : Int) (hd : -1 ≤ depth) (h0 : depth ≠ 0)
    (f : Nat) (hf : rank start < f) :
    ∃ keep : Nat → Bool, (∀ v, IsUniverse cells v → (keep v = true ↔ Within cells start depth v)) ∧
      ∀ xml, universeKeys xml f cells levels start depth = .ok (if xml then removeFwd keep (keysOf cells) else removeBack keep (keysOf cells)) := by
  obtain ⟨levels', e, hk, hlen⟩ := C66_levels hr (accepted_noLonely hr hl)
  rw [hl] at e
  cases e
  obtain ⟨sub, h1, h2⟩ := getSub_spec hn hc f start hf (steps_isUniverse hc hr.1 hs)
  have hLS : ∀ k v, Level cells r k v ↔ Steps cells r v k := fun k v => ⟨Level.steps, fun h => ((dist_iff r v k).1 ⟨h, fun j hj => by
    have := hg v j k hj h; omega⟩).1⟩
  have hnl : n < levels.length := (hlen n).2 ⟨start, (hLS n start).2 hs⟩
  have hfind : findLevel levels start = some n := by
    unfold findLevel
    rw [List.findIdx?_eq_some_iff_getElem]
    refine ⟨hnl, ?_, ?_⟩
    · rw [List.contains_iff_mem]
      exact (hk n hnl start).2 ((hLS n start).2 hs)
    · intro j hj
      rw [List.contains_iff_mem]
      intro hm
      have := hg start j n ((hLS _ _).1 ((hk j (by omega) start).1 hm)) hs
      omega
  refine ⟨fun U => (start :: sub).contains U && (levelUniverse levels n
    (if depth = -1 then (levels.length : Int) - 1 else min (n + depth) ((levels.length : Int) - 1))).contains U, ?_, ?_⟩
  · intro v _
    rw [Bool.and_eq_true, List.contains_iff_mem, List.contains_iff_mem, mem_levelUniverse hk, List.mem_cons, h2]
    constructor
    · rintro ⟨hv, k, g1, g2, g3, g4⟩
      have hst : ∃ j, Steps cells start v j := by
        rcases hv with rfl | ⟨j, hj⟩
        · exact ⟨0, .refl⟩
        · exact ⟨_, hj⟩
      obtain ⟨j, hj⟩ := hst
      refine ⟨j, hj, ?_⟩
      have e := hg v k (n + j) g4.steps (hs.trans hj)
      by_cases hd1 : depth = -1
      · exact .inl hd1
      · rw [if_neg hd1] at g3
        right
        omega
    · rintro ⟨j, hj, hdj⟩
      refine ⟨?_, n + j, ?_, by omega, ?_, (hLS _ _).2 (hs.trans hj)⟩
      · cases j with
        | zero => cases hj; exact .inl rfl
        | succ j => exact .inr ⟨j, hj⟩
      · exact (hlen _).2 ⟨v, (hLS _ _).2 (hs.trans hj)⟩
      · have hlt : n + j < levels.length := (hlen _).2 ⟨v, (hLS _ _).2 (hs.trans hj)⟩
        by_cases hd1 : depth = -1
        · rw [if_pos hd1]; omega
        · rw [if_neg hd1]; omega
  · intro xml
    unfold universeKeys
    rw [if_neg h0]
    simp only [h1, hfind, bind, Except.bind]

theorem removeFwd_sub (keep : Nat → Bool) : ∀ ks v, v ∈ removeBack keep ks → v ∈ removeFwd keep ks
  | [], v, h => by simp [removeBack] at h
  | [x], v, h => by
    unfold removeFwd
    simp only [removeBack, List.mem_filter, List.mem_singleton] at h
    obtain ⟨rfl, h⟩ := h
    rw [if_pos h]
    simp
  | x :: y :: ks, v, h => by
    unfold removeFwd
    simp only [removeBack, List.mem_filter, List.mem_cons] at h
    obtain ⟨h1, h2⟩ := h
    by_cases hx : keep x = true
    · rw [if_pos hx]
      rcases h1 with rfl | h1
      · simp
      · refine List.mem_cons_of_mem _ (removeFwd_sub keep (y :: ks) v ?_)
        simp only [removeBack, List.mem_filter, List.mem_cons]
        exact ⟨h1, h2⟩
    · rw [if_neg hx]
      rcases h1 with rfl | rfl | h1
      · exact absurd h2 hx
      · simp
      · refine List.mem_cons_of_mem _ (removeFwd_sub keep ks v ?_)
        simp only [removeBack, List.mem_filter]
        exact ⟨h1, h2⟩

/-- **C66**, universes to build, MCNP files: when every universe is nested at one level only. -/
theorem C66_selection_partial (hr : IsRoot cells r) (rank : Nat → Nat) (hn : Nested cells rank) (hc : Closed cells) (levels : List (List Nat))
    (hl : levelStructure cells = .ok levels) (hg : Graded cells r) (start : Nat) (hs : ∃ n, Steps cells r start n) (depth : Int) (hd : -1 ≤ depth)
    (f : Nat) (hf : rank start < f) :
    ∃ ks, universeKeys false f cells levels start depth = .ok ks ∧ ks.Nodup ∧ ∀ v, v ∈ ks ↔ Within cells start depth v := by
  obtain ⟨n, hs⟩ := hs
  by_cases h0 : depth = 0
  · subst h0
    refine ⟨[start], by simp [universeKeys], by simp, fun v => ?_⟩
    rw [List.mem_singleton]
    constructor
    · rintro rfl; exact ⟨0, .refl, .inr (by omega)⟩
    · rintro ⟨k, hk, h | h⟩
      · omega
      · cases Nat.le_zero.1 (by omega : k ≤ 0)
        cases hk
        rfl
  · obtain ⟨keep, h1, h2⟩ := keys_keep hr rank hn hc levels hl hg start n hs depth hd h0 f hf
    refine ⟨removeBack keep (keysOf cells), h2 false, nodup_keys.filter _, fun v => ?_⟩
    unfold removeBack
    rw [List.mem_filter, mem_keys]
    constructor
    · rintro ⟨g1, g2⟩; exact (h1 v g1).1 g2
    · intro g
      have hu : IsUniverse cells v := by
        obtain ⟨k, hk, -⟩ := g
        exact steps_isUniverse hc (steps_isUniverse hc hr.1 hs) hk
      exact ⟨hu, (h1 v hu).2 g⟩

/-- **C66**, universes to build, OpenMC files: no wanted universe is lost. Missing: the unwanted ones may be kept (`C66_xml_violated`). -/
theorem C66_xml_partial (hr : IsRoot cells r) (rank : Nat → Nat) (hn : Nested cells rank) (hc : Closed cells) (levels : List (List Nat))
    (hl : levelStructure cells = .ok levels) (hg : Graded cells r) (start : Nat) (hs : ∃ n, Steps cells r start n) (depth : Int) (hd : -1 ≤ depth)
    (f : Nat) (hf : rank start < f) :
    ∃ ks, universeKeys true f cells levels start depth = .ok ks ∧ ∀ v, Within cells start depth v → v ∈ ks := by
  obtain ⟨n, hs⟩ := hs
  by_cases h0 : depth = 0
  · obtain ⟨ks, h1, -, h3⟩ := C66_selection_partial hr rank hn hc levels hl hg start ⟨n, hs⟩ depth hd f hf
    subst h0
    exact ⟨ks, by simpa [universeKeys] using h1, fun v hv => (h3 v).2 hv⟩
  · obtain ⟨keep, h1, h2⟩ := keys_keep hr rank hn hc levels hl hg start n hs depth hd h0 f hf
    refine ⟨removeFwd keep (keysOf cells), h2 true, fun v hv => removeFwd_sub keep _ v ?_⟩
    have hu : IsUniverse cells v := by
      obtain ⟨k, hk, -⟩ := hv
      exact steps_isUniverse hc (steps_isUniverse hc hr.1 hs) hk
    unfold removeBack
    rw [List.mem_filter]
    exact ⟨(mem_keys v).2 hu, (h1 v hu).2 hv⟩

end

/-! ## Examples and counterexamples -/

def uc (name u : Nat) (fill : Option Nat) : UCell := ⟨⟨name, some 0, fill⟩, u⟩

/-- universe 0 holds 1 and 2, universe 1 holds 3, universe 2 holds 3: each at one level -/
def sampleFile : List UCell := [uc 1 0 (some 1), uc 2 0 (some 2), uc 3 0 none, uc 4 1 (some 3), uc 5 2 (some 3), uc 6 3 none]

example : levelStructure sampleFile = .ok [[0], [2, 1], [3, 3]] := by decide
example : universeKeys false 5 sampleFile [[0], [2, 1], [3, 3]] 1 (-1) = .ok [1, 3] := by decide

theorem sample_fills (v w : Nat) : Fills sampleFile v w ↔ (v, w) ∈ [(0, 1), (0, 2), (1, 3), (2, 3)] := by
  rw [← mem_containers]
  rfl

example : IsRoot sampleFile 0 := ⟨⟨uc 1 0 (some 1), by simp [sampleFile], rfl⟩, fun _ => rfl, fun h => absurd ⟨uc 1 0 (some 1), by simp [sampleFile], rfl⟩ h⟩
example : Nested sampleFile (fun v => 3 - v) := by
  intro v w h
  rw [sample_fills] at h
  simp at h
  dsimp only
  omega
example : Closed sampleFile := by
  intro v w h
  rw [sample_fills] at h
  simp at h
  rcases h with ⟨-, rfl⟩ | ⟨-, rfl⟩ | ⟨-, rfl⟩ | ⟨-, rfl⟩
  · exact ⟨uc 4 1 (some 3), by simp [sampleFile], rfl⟩
  · exact ⟨uc 5 2 (some 3), by simp [sampleFile], rfl⟩
  · exact ⟨uc 6 3 none, by simp [sampleFile], rfl⟩
  · exact ⟨uc 6 3 none, by simp [sampleFile], rfl⟩
example : Graded sampleFile 0 := by
  have key : ∀ v k, Steps sampleFile 0 v k → k = if v = 0 then 0 else if v = 3 then 2 else 1 := by
    intro v k h
    induction h with
    | refl => rfl
    | step _ hf ih =>
      rw [sample_fills] at hf
      simp at hf
      rcases hf with ⟨rfl, rfl⟩ | ⟨rfl, rfl⟩ | ⟨rfl, rfl⟩ | ⟨rfl, rfl⟩ <;> simp at ih ⊢ <;> omega
  intro v j k h1 h2
  rw [key v j h1, key v k h2]

/-- Universe 5 is nested at level 1 and (in 1, 2, 3) at level 4; it holds universe 6. -/
def deepFile : List UCell := [uc 1 0 (some 1), uc 2 0 (some 5), uc 3 1 (some 2), uc 4 2 (some 3), uc 5 3 (some 5), uc 6 5 (some 6), uc 7 6 none]

theorem deep_fills (v w : Nat) : Fills deepFile v w ↔ (v, w) ∈ [(0, 1), (0, 5), (1, 2), (2, 3), (3, 5), (5, 6)] := by
  rw [← mem_containers]
  rfl

/-- C66 is false: a container is placed at the first level only at which its universe occurs. Universe 6, nested in 5, nested in 3, is not taken for the start 3,
although all levels are asked for. -/
theorem C66_deep_violated : ¬ C66_statement := by
  intro H
  obtain ⟨ks, h1, -, h3⟩ := H deepFile 0 (fun v => 10 - v) [[0], [5, 1], [6, 2], [3], [5]] 3 (-1) 10
    ⟨⟨uc 1 0 (some 1), by simp [deepFile], rfl⟩, fun _ => rfl, fun h => absurd ⟨uc 1 0 (some 1), by simp [deepFile], rfl⟩ h⟩
    (by intro v w h; rw [deep_fills] at h; simp at h; dsimp only; omega)
    (by
      intro v w h
      rw [deep_fills] at h
      simp at h
      rcases h with ⟨-, rfl⟩ | ⟨-, rfl⟩ | ⟨-, rfl⟩ | ⟨-, rfl⟩ | ⟨-, rfl⟩ | ⟨-, rfl⟩
      · exact ⟨uc 3 1 (some 2), by simp [deepFile], rfl⟩
      · exact ⟨uc 6 5 (some 6), by simp [deepFile], rfl⟩
      · exact ⟨uc 4 2 (some 3), by simp [deepFile], rfl⟩
      · exact ⟨uc 5 3 (some 5), by simp [deepFile], rfl⟩
      · exact ⟨uc 6 5 (some 6), by simp [deepFile], rfl⟩
      · exact ⟨uc 7 6 none, by simp [deepFile], rfl⟩)
    (by decide)
    ⟨3, .step (.step (.step .refl ((deep_fills 0 1).2 (by simp))) ((deep_fills 1 2).2 (by simp))) ((deep_fills 2 3).2 (by simp))⟩
    (by omega) (by omega) false
  have h6 : 6 ∈ ks := (h3 6).2 ⟨2, .step (.step .refl ((deep_fills 3 5).2 (by simp))) ((deep_fills 5 6).2 (by simp)), .inl rfl⟩
  have e : universeKeys false 10 deepFile [[0], [5, 1], [6, 2], [3], [5]] 3 (-1) = .ok [3, 5] := by decide
  rw [e] at h1
  cases h1
  simp at h6

/-- three universes side by side -/
def wideFile : List UCell := [uc 1 0 (some 1), uc 2 0 (some 2), uc 3 0 (some 3), uc 4 1 none, uc 5 2 none, uc 6 3 none]

/-- Reading OpenMC files, universe 3 is taken for the start 1, in which it is not nested. -/
theorem C66_xml_violated : levelStructure wideFile = .ok [[0], [3, 2, 1]] ∧ universeKeys true 5 wideFile [[0], [3, 2, 1]] 1 (-1) = .ok [1, 3] ∧
    ¬ Within wideFile 1 (-1) 3 := by
  refine ⟨by decide, by decide, ?_⟩
  rintro ⟨k, hk, -⟩
  have hf : ∀ v w, Fills wideFile v w ↔ (v, w) ∈ [(0, 1), (0, 2), (0, 3)] := by
    intro v w
    rw [← mem_containers]
    rfl
  have key : ∀ v k, Steps wideFile 1 v k → v = 1 := by
    intro v k h
    induction h with
    | refl => rfl
    | step _ h' ih =>
      subst ih
      rw [hf] at h'
      simp at h'
  exact absurd (key 3 k hk) (by omega)

end Geouned.Rev
