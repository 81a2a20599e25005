import Verif.Rev.BuildLemmas2
/-!
# C67: the solids of nested universes are in their places
-/
namespace Geouned.Rev

section
variable {P : Type}

/-- **C67**, one universe (`BuildUniverseCells`): for the universe of a container, nothing being built yet, with cells that have different names, no universe nested
in itself, every universe filling one cell only, transformations given at all fillings below one that has a transformation. `I` is the part of space where the universe
is visible: with `Holds`, the shape of the container is `I` (within `B`), or there is no shape and no limit. The solids are right, up to the depth left. -/
theorem C67_cells_partial (K : Kernel P) (hK : K.Lawful) (us : Universes P) (rank : Nat → Nat) (wn : WellNested us rank) (once : FilledOnce us)
    (placed : Nat → Prop) (pg : PlacesGiven us placed) (B I : P → Prop) (levelMax : Int) (cont : Container P) (hI : Holds cont I B)
    (ht : cont.tr ≠ none → placed cont.fill) (hcl : ClosedTo us cont.fill (levelMax - cont.level).toNat) (f : Nat) (hf : rank cont.fill < f) :
    ∃ o, buildCells K us levelMax f cont (fun _ _ => none) = .ok o ∧
      RightSolids us (levelMax - cont.level).toNat cont.fill cont.tr I B o.leaves o.fails := by
  obtain ⟨cs, hcs⟩ := hcl cont.fill 0 (by omega) .refl
  obtain ⟨o, h1, h2, -⟩ := buildCells_spec hK wn once pg B levelMax f cont (fun _ _ => none) _ I cs hf hcs ht rfl hI (fun _ _ _ => rfl) hcl
  exact ⟨o, h1, h2.right hcs⟩

/-- The full property for `build_universe`: for every file that is accepted and has no universe nested in itself, every start, every depth. -/
def C67_statement : Prop :=
  ∀ (P : Type) (K : Kernel P) (_ : K.Lawful) (cells : List UCell) (keep : UCell → Bool) (geo : Nat → (P → Prop) × Option (Motion P)) (box : P → Prop)
    (r : Nat) (rank : Nat → Nat) (levels : List (List Nat)) (start : Nat) (depth : Int) (f : Nat),
    IsRoot cells r → Nested cells rank → Closed cells → (cells.map (·.name)).Nodup → levelStructure cells = .ok levels →
    (∃ n, Steps cells r start n) → -1 ≤ depth → rank start < f →
    ∃ o, buildUniverse K f cells keep geo box start depth = .ok o ∧
      ∀ D, (depth = -1 → rank start ≤ D) → (depth ≠ -1 → D = depth.toNat) →
        RightSolids (fileUniverses cells keep geo) D start none (fun _ => True) box o.leaves o.fails

/-- **C67**, `build_universe`: when every universe fills one cell only (and the main one none), and transformations are given at all fillings below one that has a
transformation. Missing for the full property: the three cases violated below. -/
theorem C67_universe_partial (K : Kernel P) (hK : K.Lawful) (cells : List UCell) (keep : UCell → Bool) (geo : Nat → (P → Prop) × Option (Motion P))
    (box : P → Prop) (r : Nat) (rank : Nat → Nat) (levels : List (List Nat)) (start : Nat) (depth : Int) (f : Nat)
    (hr : IsRoot cells r) (hnest : Nested cells rank) (hclosed : Closed cells) (hnames : (cells.map (·.name)).Nodup)
    (hl : levelStructure cells = .ok levels) (hs : ∃ n, Steps cells r start n) (hd : -1 ≤ depth) (hf : rank start < f)
    (once : ∀ c ∈ cells, ∀ d ∈ cells, ∀ V, c.filled = some V → d.filled = some V → c = d) (hroot : ∀ v, ¬ Fills cells v r)
    (placed : Nat → Prop) (pg : PlacesGiven (fileUniverses cells keep geo) placed) :
    ∃ o, buildUniverse K f cells keep geo box start depth = .ok o ∧
      ∀ D, (depth = -1 → rank start ≤ D) → (depth ≠ -1 → D = depth.toNat) →
        RightSolids (fileUniverses cells keep geo) D start none (fun _ => True) box o.leaves o.fails := by
  have hg := once_graded (r := r) hnest hroot once
  obtain ⟨levels', e, hk, hlen⟩ := C66_levels hr (accepted_noLonely hr hl)
  rw [hl] at e
  cases e
  obtain ⟨keys, hkeys, -, hmem⟩ := C66_selection_partial hr rank hnest hclosed levels hl hg start hs depth hd f hf
  obtain ⟨n, hs⟩ := hs
  have hLS : ∀ k v, Level cells r k v ↔ Steps cells r v k := fun k v => ⟨Level.steps, fun h => ((dist_iff r v k).1 ⟨h, fun j hj => by
    have := hg v j k hj h; omega⟩).1⟩
  have hnl : n < levels.length := (hlen n).2 ⟨start, (hLS n start).2 hs⟩
  have hfind : findLevel levels start = some n := by
    unfold findLevel
    rw [List.findIdx?_eq_some_iff_getElem]
    refine ⟨hnl, ?_, ?_⟩
    · rw [List.contains_iff_mem]
      exact (hk n hnl start).2 ((hLS n start).2 hs)
    · intro j hj
      rw [List.contains_iff_mem]
      intro hm
      have := hg start j n ((hLS _ _).1 ((hk j (by omega) start).1 hm)) hs
      omega
  have hstart : IsUniverse cells start := steps_isUniverse hclosed hr.1 hs
  generalize hlm : (if depth = -1 then (levels.length : Int) - 1 else min (n + depth) ((levels.length : Int) - 1)) = levelMax
  have hdeep : ∀ V k, Steps cells start V k → n + k < levels.length := fun V k h => (hlen _).2 ⟨V, (hLS _ _).2 (hs.trans h)⟩
  have hdd : ∀ k, k ≤ (levelMax - n).toNat → depth = -1 ∨ (k : Int) ≤ depth := by
    intro k hk'
    by_cases h1 : depth = -1
    · exact .inl h1
    · rw [if_neg h1] at hlm
      right
      omega
  have hkey : ∀ V k, k ≤ (levelMax - n).toNat → Steps cells start V k → V ∈ keys := fun V k h1 h2 => (hmem V).2 ⟨k, h2, hdd k h1⟩
  obtain ⟨o, h1, h2⟩ := C67_cells_partial K hK (filteredUniverses cells keep geo keys) rank
    ⟨filtered_names hnames, fun U c V h => hnest _ _ (filtered_fills h)⟩ (filtered_once once) placed (by
      intro U c V h
      apply pg U c V
      obtain ⟨cs, h1, h2, h3⟩ := h
      obtain ⟨hU, -⟩ := filtered_some h1
      refine ⟨cs, ?_, h2, h3⟩
      have : U ∈ keysOf cells := by
        obtain ⟨k, hk', -⟩ := (hmem U).1 hU
        exact (mem_keys U).2 (steps_isUniverse hclosed hstart hk')
      rw [← h1]
      simp only [fileUniverses, filteredUniverses, List.contains_iff_mem.2 this, List.contains_iff_mem.2 hU]) box (fun _ => True) levelMax
    ⟨none, start, none, none, box, n⟩ ⟨rfl, fun _ => trivial, fun _ h => h⟩ (by simp) (by
      intro V k hk' hV
      have : V ∈ keys := hkey V k hk' (filtered_steps hV)
      exact ⟨_, by unfold filteredUniverses; rw [if_pos (List.contains_iff_mem.2 this)]⟩) f hf
  refine ⟨o, ?_, ?_⟩
  · unfold buildUniverse
    simp only [hl, hkeys, hfind, bind, Except.bind, hlm]
    exact h1
  · intro D hD1 hD2
    simp only at h2
    -- the same universes, within the depth
    have hsame : ∀ V, V ∈ keys → fileUniverses cells keep geo V = filteredUniverses cells keep geo keys V := by
      intro V hV
      have : V ∈ keysOf cells := by
        obtain ⟨k, hk', -⟩ := (hmem V).1 hV
        exact (mem_keys V).2 (steps_isUniverse hclosed hstart hk')
      simp only [fileUniverses, filteredUniverses, List.contains_iff_mem.2 this, List.contains_iff_mem.2 hV]
    have h3 : RightSolids (fileUniverses cells keep geo) (levelMax - n).toNat start none (fun _ => True) box o.leaves o.fails := by
      refine h2.congr fun path c G' I' => ⟨fun h => at_congr h ?_, fun h => at_congr h ?_⟩
      · intro V k hk' hV
        exact hsame V (hkey V k hk' (filtered_steps hV))
      · intro V k hk' hV
        exact (hsame V (hkey V k hk' (filtered_steps hV))).symm
    have hlimit : ∀ d, (levels.length ≤ n + d + 1 ∨ rank start ≤ d) → ∀ V, ¬ NestsIn (fileUniverses cells keep geo) start V (d + 1) := by
      intro d hdl V hV
      have g1 := hdeep V (d + 1) (filtered_steps hV)
      have g2 := steps_rank hnest (filtered_steps hV)
      omega
    by_cases hm : depth = -1
    · rw [if_pos hm] at hlm
      have l1 := hlimit (levelMax - n).toNat (.inl (by omega))
      have l2 := hlimit D (.inr (hD1 hm))
      rcases Nat.le_total (levelMax - n).toNat D with h | h
      · exact h3.congr fun path c G' I' => ⟨fun g => at_more g l1 D h, fun g => at_less g _ l1 h⟩
      · exact h3.congr fun path c G' I' => ⟨fun g => at_less g _ l2 h, fun g => at_more g l2 _ h⟩
    · rw [if_neg hm] at hlm
      have hD := hD2 hm
      rcases Nat.lt_or_ge (levelMax - n).toNat D with h | h
      · have l1 := hlimit (levelMax - n).toNat (.inl (by omega))
        exact h3.congr fun path c G' I' => ⟨fun g => at_more g l1 D (by omega), fun g => at_less g _ l1 (by omega)⟩
      · have : (levelMax - n).toNat = D := by omega
        rw [this] at h3
        exact h3

end

/-! ## Examples and counterexamples -/

/-- an exact kernel: a solid is the part of the region in the box -/
def exactKernel (P : Type) : Kernel P where
  bbox S := S
  boxBack t S := fun p => S (t.fwd p)
  build r e := .solid fun p => r p ∧ e p
  cut cont cell := fun p => cell p ∧ (cont p ∨ ¬ ∃ q, cell q ∧ cont q)

theorem exact_lawful (P : Type) : (exactKernel P).Lawful where
  bbox_sub _ _ h := h
  boxBack_sub _ _ _ h := h
  build_solid r e s h := by
    cases h
    exact ⟨fun p h => h.1, fun p h1 h2 => ⟨h1, h2⟩⟩
  build_nothing r e h := by cases h
  cut_parts cont cell h p := by
    simp only [exactKernel]
    exact ⟨fun g => ⟨g.1, g.2.resolve_right (fun k => k h)⟩, fun g => ⟨g.1, .inl g.2⟩⟩
  cut_whole cont cell h := by
    funext p
    simp only [exactKernel]
    exact propext ⟨fun g => g.1, fun g => ⟨g, .inr h⟩⟩

/-- the points are whole numbers; a shift -/
def shift (n : Int) : Motion Int := ⟨(· + n), (· - n), fun p => by omega, fun p => by omega⟩

/-- universe 1 fills cell 1, universe 2 fills cell 3 of universe 1 -/
def nestFile : List UCell := [uc 1 0 (some 1), uc 2 0 none, uc 3 1 (some 2), uc 4 1 none, uc 5 2 none]

/-- cell 1 is the interval from 10 to 19, universe 1 is shifted by 10; in it cell 3 is the interval from 2 to 5, shifted by 2 -/
def nestGeo : Nat → (Int → Prop) × Option (Motion Int)
  | 1 => (fun p => 10 ≤ p ∧ p < 20, some (shift 10))
  | 2 => (fun p => ¬ (10 ≤ p ∧ p < 20), none)
  | 3 => (fun p => 2 ≤ p ∧ p < 6, some (shift 2))
  | 4 => (fun p => ¬ (2 ≤ p ∧ p < 6), none)
  | _ => (fun p => 0 ≤ p, none)

theorem nest_fills (v w : Nat) : Fills nestFile v w ↔ (v, w) ∈ [(0, 1), (1, 2)] := by
  rw [← mem_containers]
  rfl

theorem nest_root : IsRoot nestFile 0 :=
  ⟨⟨uc 1 0 (some 1), by simp [nestFile], rfl⟩, fun _ => rfl, fun h => absurd ⟨uc 1 0 (some 1), by simp [nestFile], rfl⟩ h⟩

theorem nest_nested : Nested nestFile (fun v => 2 - v) := by
  intro v w h
  rw [nest_fills] at h
  simp at h
  dsimp only
  omega

theorem nest_closed : Closed nestFile := by
  intro v w h
  rw [nest_fills] at h
  simp at h
  rcases h with ⟨-, rfl⟩ | ⟨-, rfl⟩
  · exact ⟨uc 3 1 (some 2), by simp [nestFile], rfl⟩
  · exact ⟨uc 5 2 none, by simp [nestFile], rfl⟩

/-- The hypotheses of `C67_universe_partial` are met by `nestFile`. -/
example : ∃ o, buildUniverse (exactKernel Int) 5 nestFile (fun _ => true) nestGeo (fun _ => True) 0 (-1) = .ok o ∧
    ∀ D, ((-1 : Int) = -1 → 2 ≤ D) → ((-1 : Int) ≠ -1 → D = (-1 : Int).toNat) →
      RightSolids (fileUniverses nestFile (fun _ => true) nestGeo) D 0 none (fun _ => True) (fun _ => True) o.leaves o.fails := by
  refine C67_universe_partial (exactKernel Int) (exact_lawful Int) nestFile (fun _ => true) nestGeo (fun _ => True) 0 (fun v => 2 - v)
    [[0], [1], [2]] 0 (-1) 5 nest_root nest_nested nest_closed (by decide) (by decide) ⟨0, .refl⟩ (by omega) (by omega) ?_ ?_ (fun V => V = 1 ∨ V = 2) ?_
  · intro c hc d hd V h1 h2
    simp only [nestFile, List.mem_cons, List.not_mem_nil, or_false] at hc hd
    rcases hc with rfl | rfl | rfl | rfl | rfl <;> rcases hd with rfl | rfl | rfl | rfl | rfl <;>
      first
      | rfl
      | (simp [UCell.filled, uc] at h1 h2; omega)
      | (simp [UCell.filled, uc] at h1 h2)
  · intro v h
    rw [nest_fills] at h
    simp at h
  · intro U c V h
    obtain ⟨cs, h1, h2, h3⟩ := h
    obtain ⟨h4, rfl⟩ := filtered_some h1
    obtain ⟨d, hd, rfl⟩ := List.mem_map.1 h2
    clear h1 h2 h4
    simp only [List.mem_filter, nestFile, List.mem_cons, List.not_mem_nil, or_false, Bool.and_true, decide_eq_true_eq] at hd
    obtain ⟨hd, rfl⟩ := hd
    rcases hd with rfl | rfl | rfl | rfl | rfl <;> simp [UCell.filled, uc] at h3 <;> subst h3 <;> simp [uc, nestGeo]

/-- what is made of it -/
example : (match buildUniverse (exactKernel Int) 5 nestFile (fun _ => true) nestGeo (fun _ => True) 0 (-1) with
    | .ok o => o.leaves.map fun l => (l.path, l.name)
    | .error _ => []) = [([1, 3], 5), ([1], 4), ([], 2)] := rfl

/-- universe 1 fills the cells 1 and 2 -/
def reuseFile : List UCell := [uc 1 0 (some 1), uc 2 0 (some 1), uc 3 1 none]

/-- space has two points: cell 1 is one, cell 2 is the other, cell 3 has both -/
def reuseGeo : Nat → (Bool → Prop) × Option (Motion Bool)
  | 1 => (fun p => p = false, none)
  | 2 => (fun p => p = true, none)
  | _ => (fun _ => True, none)

theorem reuse_fills (v w : Nat) : Fills reuseFile v w ↔ (v, w) ∈ [(0, 1), (0, 1)] := by
  rw [← mem_containers]
  rfl

/-- C67 is false: cell 3 is made once, in the box of the first cell that universe 1 fills, and this solid is used in the second one, in which it has no point. -/
theorem C67_reuse_violated : ¬ C67_statement := by
  intro H
  obtain ⟨o, h1, h2⟩ := H Bool (exactKernel Bool) (exact_lawful Bool) reuseFile (fun _ => true) reuseGeo (fun _ => True) 0 (fun v => 1 - v) [[0], [1, 1]] 0 (-1) 5
    ⟨⟨uc 1 0 (some 1), by simp [reuseFile], rfl⟩, fun _ => rfl, fun h => absurd ⟨uc 1 0 (some 1), by simp [reuseFile], rfl⟩ h⟩
    (by intro v w h; rw [reuse_fills] at h; simp at h; dsimp only; omega)
    (by
      intro v w h
      rw [reuse_fills] at h
      simp at h
      obtain ⟨-, rfl⟩ := h
      exact ⟨uc 3 1 none, by simp [reuseFile], rfl⟩)
    (by decide) (by decide) ⟨0, .refl⟩ (by omega) (by omega)
  have h3 := h2 1 (fun _ => by omega) (fun h => absurd rfl h)
  have hat : At (fileUniverses reuseFile (fun _ => true) reuseGeo) 1 0 none (fun _ => True) [2] ⟨3, none, none, fun _ => True⟩ none
      (fun p => True ∧ p = true) :=
    .into (cs := [⟨1, some 1, none, fun p => p = false⟩, ⟨2, some 1, none, fun p => p = true⟩]) (c := ⟨2, some 1, none, fun p => p = true⟩) (V := 1)
      rfl (by simp) rfl (.leaf (cs := [⟨3, none, none, fun _ => True⟩]) rfl (by simp) (.inl rfl))
  have h4 := h3.complete _ _ _ _ hat ⟨true, trivial, ⟨trivial, rfl⟩, trivial⟩
  have e : ∃ o', buildUniverse (exactKernel Bool) 5 reuseFile (fun _ => true) reuseGeo (fun _ => True) 0 (-1) = .ok o' ∧ o'.fails = [] ∧
      ∃ s1 s2, o'.leaves = [⟨[1], 3, s1⟩, ⟨[2], 3, s2⟩] ∧ ¬ s2 true := by
    refine ⟨_, rfl, rfl, _, _, rfl, ?_⟩
    simp [cutIn, exactKernel, extBox, reuseGeo, moved, uc]
  obtain ⟨o', e1, e2, s1, s2, e3, e4⟩ := e
  rw [h1] at e1
  cases e1
  rcases h4 with ⟨l, hl, hp, -, hs⟩ | ⟨n, -, hn⟩
  · rw [e3] at hl
    simp at hl
    rcases hl with rfl | rfl
    · simp at hp
    · exact e4 (hs.covers true trivial ⟨trivial, rfl⟩ trivial)
  · rw [e2] at hn
    simp at hn

/-- cell 1 is filled with universe 1, moved; in it, cell 3 is filled with universe 2, with no transformation of its own -/
def unplacedGeo : Nat → (Int → Prop) × Option (Motion Int)
  | 3 => ((nestGeo 3).1, none)
  | n => nestGeo n

/-- C67 is false, too, when a filling has no transformation in a universe that has one: `multiply(None)` is an error, nothing is built. -/
theorem C67_no_place_violated : levelStructure nestFile = .ok [[0], [1], [2]] ∧
    buildUniverse (exactKernel Int) 5 nestFile (fun _ => true) unplacedGeo (fun _ => True) 0 (-1) = .error .typeError := ⟨by decide, rfl⟩

/-- C67 is false, too, when a universe is nested at different levels: cell 6, filled with universe 6, is left as a solid at the deeper place, although all levels
are asked for. -/
theorem C67_depth_violated : ∃ o s, buildUniverse (exactKernel Bool) 10 deepFile (fun _ => true) (fun _ => (fun _ => True, none)) (fun _ => True) 0 (-1) = .ok o ∧
    ⟨[1, 3, 4, 5], 6, s⟩ ∈ o.leaves ∧ (∀ l ∈ o.leaves, l.path ≠ [1, 3, 4, 5, 6]) ∧ deepFile[5]? = some (uc 6 5 (some 6)) ∧ (uc 7 6 none) ∈ deepFile := by
  refine ⟨_, _, rfl, .head _, ?_, rfl, by decide⟩
  intro l hl
  have : l.path ∈ ([[1, 3, 4, 5], [2, 6]] : List (List Nat)) := by
    rcases hl with _ | ⟨_, _ | ⟨_, hl⟩⟩
    · simp [uc]
    · simp [uc]
    · cases hl
  simp at this
  rcases this with h | h <;> rw [h] <;> decide

/-- In this file `build_container` fails for cell 4 (filled with universe 3): universe 6 is not among the universes that were chosen, but the last level
is taken one too deep. -/
theorem C67_container_violated :
    buildContainer (exactKernel Bool) 10 deepFile (fun _ => true) (fun _ => (fun _ => True, none)) (fun _ => True) 4 3 none (fun _ => True) (-1) = .error .keyError := rfl

end Geouned.Rev
