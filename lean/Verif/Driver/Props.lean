import Verif.Driver.Run
/-!
# C117, C118, C119, C120: a conversion as a whole
-/
set_option linter.unusedSectionVars false
namespace Geouned.Driver
open Geouned Geouned.BB

variable {F S : Type} [Field F] [LinearOrder F] [IsStrictOrderedRing F]

/-! ## C117: cells excluded from void generation -/

/-- C117: `exclude_cells` keeps, in their order, the cells that are no enclosures and whose comment contains none of the words -/
theorem C117_exclude (words : List (List Char)) (l : List (Cell F)) [DecidablePred fun c : Cell F => c.isEncl = false ∧ ¬c.Marked words] :
    excludeCells words l = l.filter fun c => decide (c.isEncl = false ∧ ¬c.Marked words) := by
  induction l with
  | nil => rfl
  | cons m ms ih =>
    have hm : (words.any fun w => isIn w m.comments) = true ↔ m.Marked words := by
      simp only [List.any_eq_true, isIn_iff]; rfl
    rw [excludeCells, ih]
    by_cases h1 : m.isEncl = true
    · rw [if_pos h1, List.filter_cons_of_neg (by simp [h1])]
    · rw [if_neg h1]
      by_cases h2 : m.Marked words
      · rw [if_pos (hm.2 h2), List.filter_cons_of_neg (by simp [h2])]
      · rw [if_neg (fun h => h2 (hm.1 h)), List.filter_cons_of_pos (by simpa using ⟨by simpa using h1, h2⟩)]

open Classical in
/-- what is handed to void generation, by the words -/
theorem voidInput_eq (o : Opts) (l : List (Cell F)) :
    voidInput o l = l.filter fun c => decide (o.voidExclude = [] ∨ c.isEncl = false ∧ ¬c.Marked o.voidExclude) := by
  unfold voidInput
  by_cases h : o.voidExclude = []
  · rw [if_pos (by simp [h])]
    symm
    rw [List.filter_eq_self]
    intro a _
    simp [h]
  · rw [if_neg (by simpa using h), C117_exclude]
    congr 1
    funext c
    simp [h]

open Classical in
/-- C117: in every run, void generation is called with exactly the cells that are no enclosures and have none of the words of `voidExclude` in their comments (with all cells
if there are no words): a void generation that refuses every other list changes nothing. -/
theorem C117_void_input (K : Kit F S) (o : Opts) (st : State F S) :
    start (K.watch fun l => l.map ident =
      ((st.cells st.metas).filter fun c => decide (o.voidExclude = [] ∨ c.isEncl = false ∧ ¬c.Marked o.voidExclude)).map ident) o st = start K o st := by
  unfold start
  split
  · rfl
  · dsimp only
    refine bind_congr fun _ => bind_congr fun b => ?_
    simp only [solidPhase_watch, watch_empty]
    cases hx : solidPhase K o { st with box := some b, surf := some (K.empty (o.startSurf - 1)) } (K.empty (o.startSurf - 1)) with
    | error y => rfl
    | ok x =>
      obtain ⟨hx1, hx2, hx3, -⟩ := solidPhase_inv hx
      simp only [bind, Except.bind]
      rw [enclPhase_watch]
      cases he : enclPhase K o x.1 x.2.1 x.2.2.2.2 with
      | error y => rfl
      | ok e =>
        obtain ⟨he1, he2, he3, -⟩ := enclPhase_inv he
        dsimp only
        simp only [endPhase_watch]
        suffices hv : voidPhase (K.watch fun l => l.map ident =
            ((st.cells st.metas).filter fun c => decide (o.voidExclude = [] ∨ c.isEncl = false ∧ ¬c.Marked o.voidExclude)).map ident) o e.1 e.2.1
            = voidPhase K o e.1 e.2.1 by rw [hv]
        have hkey : (e.1.cells e.1.metas).map key = (st.cells st.metas).map key := by
          unfold State.cells
          rw [he2, hx2]
          exact cells_key (he1.trans hx1) _
        have hg : (voidInput o (e.1.cells e.1.metas)).map ident =
            ((st.cells st.metas).filter fun c => decide (o.voidExclude = [] ∨ c.isEncl = false ∧ ¬c.Marked o.voidExclude)).map ident := by
          rw [voidInput_eq]
          exact kept_key _ _ _ hkey
        unfold voidPhase
        simp only [Kit.watch, hg, if_true]

/-! ## C118: the bounding box of the geometry -/

/-- C118: the box holds every solid with exactly the given margin: at least that much to spare on every side, and no more than that on each side for some solid. Every
non-empty list of cells with solids gets a box. -/
theorem C118_box (pad : F) (l : List (Cell F)) (hl : l ≠ []) (hs : ∀ c ∈ l, c.shape.isSome = true) :
    ∃ b, geometryBox pad l = .ok b ∧ (∀ c ∈ l, ∀ a, c.shape = some a → HoldsWith pad b a) ∧
      (∃ c ∈ l, ∃ a, c.shape = some a ∧ b.xmin = a.xmin - pad) ∧ (∃ c ∈ l, ∃ a, c.shape = some a ∧ b.xmax = a.xmax + pad) ∧
      (∃ c ∈ l, ∃ a, c.shape = some a ∧ b.ymin = a.ymin - pad) ∧ (∃ c ∈ l, ∃ a, c.shape = some a ∧ b.ymax = a.ymax + pad) ∧
      (∃ c ∈ l, ∃ a, c.shape = some a ∧ b.zmin = a.zmin - pad) ∧ (∃ c ∈ l, ∃ a, c.shape = some a ∧ b.zmax = a.zmax + pad) := by
  obtain ⟨b, hb, e⟩ := geometryBox_ok (pad := pad) hl hs
  refine ⟨_, e, fun c hc a ha => ?_, ?_, ?_, ?_, ?_, ?_, ?_⟩
  · obtain ⟨h1, h2, h3, h4, h5, h6⟩ := hb.holds a (List.mem_filterMap.2 ⟨c, hc, ha⟩)
    simp only [sub_zero, add_zero] at h1 h2 h3 h4 h5 h6
    simp only [HoldsWith]
    refine ⟨?_, ?_, ?_, ?_, ?_, ?_⟩ <;> linarith
  · obtain ⟨a, ha, e⟩ := hb.xmin; obtain ⟨c, hc, ha⟩ := List.mem_filterMap.1 ha; exact ⟨c, hc, a, ha, by rw [e]⟩
  · obtain ⟨a, ha, e⟩ := hb.xmax; obtain ⟨c, hc, ha⟩ := List.mem_filterMap.1 ha; exact ⟨c, hc, a, ha, by rw [e]⟩
  · obtain ⟨a, ha, e⟩ := hb.ymin; obtain ⟨c, hc, ha⟩ := List.mem_filterMap.1 ha; exact ⟨c, hc, a, ha, by rw [e]⟩
  · obtain ⟨a, ha, e⟩ := hb.ymax; obtain ⟨c, hc, ha⟩ := List.mem_filterMap.1 ha; exact ⟨c, hc, a, ha, by rw [e]⟩
  · obtain ⟨a, ha, e⟩ := hb.zmin; obtain ⟨c, hc, ha⟩ := List.mem_filterMap.1 ha; exact ⟨c, hc, a, ha, by rw [e]⟩
  · obtain ⟨a, ha, e⟩ := hb.zmax; obtain ⟨c, hc, ha⟩ := List.mem_filterMap.1 ha; exact ⟨c, hc, a, ha, by rw [e]⟩

/-- C118: after every run that ends, the box of the geometry holds the solids of all cells of the list it started with (enclosures, too), with 10 mm to spare on every side,
and every one of these cells has solids. -/
theorem C118_run (K : Kit F S) (o : Opts) (st st' : State F S) (h : start K o st = .ok st') :
    ∃ b, st'.box = some b ∧ ∀ c ∈ st.cells st.metas, ∃ a, c.shape = some a ∧ HoldsWith 10 b a := by
  obtain ⟨hm, b, hb, x, hx, e, he, v, hv, h'⟩ := start_inv h
  have hsome : ∀ c ∈ st.cells st.metas, c.shape.isSome = true := by
    intro c hc
    by_contra hn
    rw [geometryBox_none ⟨c, hc, by simpa using hn⟩] at hb
    cases hb
  have hne : st.cells st.metas ≠ [] := by
    intro e; rw [e] at hb; cases hb
  obtain ⟨b', hb', hh, -⟩ := C118_box 10 _ hne hsome
  rw [hb] at hb'
  cases hb'
  refine ⟨b, ?_, fun c hc => ?_⟩
  · rw [(endPhase_inv h').1, (voidPhase_inv hv).2.2.2.1, (enclPhase_inv he).2.2.2.1, (solidPhase_inv hx).2.2.2.1]
  · obtain ⟨a, ha⟩ := Option.isSome_iff_exists.1 (hsome c hc)
    exact ⟨a, ha, hh c hc a ha⟩

/-! ## C119: every model is converted -/

/-- C119, the full statement: when no part of the program raises, every loaded model is converted, with every choice of the options -/
def C119_statement (F S : Type) [Field F] [LinearOrder F] [IsStrictOrderedRing F] : Prop :=
  ∀ (K : Kit F S) (o : Opts) (st : State F S), K.Total → K.Names → st.Loaded → ∃ st', start K o st = .ok st'

/-- C119, as far as it holds: without sorting by enclosures; without the option against overlaps, or with facets, or when there is no enclosure (or one cell only); and with
simplification "full" only when every enclosure is used in void generation. -/
theorem C119_runs_partial (K : Kit F S) (o : Opts) (st : State F S) (hT : K.Total) (hV : K.Names) (hL : st.Loaded)
    (hno : o.noOverlap = true → o.facets = true ∨ (∀ c ∈ st.cells st.metas, c.isEncl = false) ∨ st.metas.length = 1)
    (hfull : o.full = true → ∀ r ∈ st.metas, ∀ c, st.heap[r]? = some c → c.isEncl = true → o.voidGen = true ∧ r ∈ st.encl)
    (hsort : st.encl = [] ∨ o.sortEncl = false) :
    ∃ st', start K o st = .ok st' := by
  have hv : Valid st.heap st.metas := fun r hr => by
    obtain ⟨c, hc, -⟩ := hL.solids r hr; exact ⟨c, hc⟩
  have hsome : ∀ c ∈ st.cells st.metas, c.shape.isSome = true := by
    intro c hc
    obtain ⟨r, hr, e⟩ := List.mem_filterMap.1 hc
    obtain ⟨c', e', h⟩ := hL.solids r hr
    rw [e] at e'; cases e'; exact h
  have hne : st.cells st.metas ≠ [] := by
    obtain ⟨r, hr⟩ := List.exists_mem_of_ne_nil _ hL.nonempty
    obtain ⟨c, hc⟩ := hv r hr
    exact List.ne_nil_of_mem (List.mem_filterMap.2 ⟨r, hr, hc⟩)
  obtain ⟨b, hb, -⟩ := C118_box (10 : F) _ hne hsome
  have hexp : (if o.exportSolids = true then exportLoop (st.cells st.metas) else .ok ()) = .ok () := by
    split
    · exact exportLoop_ok _ hsome
    · rfl
  obtain ⟨x, hx, g1, d1, hwarn, hwarnE⟩ := solidPhase_total (K := K) hT (o := o)
    (st := { st with box := some b, surf := some (K.empty (o.startSurf - 1)) }) (s0 := K.empty (o.startSurf - 1)) hL.nonempty hv hno
  obtain ⟨k1, m1, e1, -⟩ := solidPhase_inv hx
  dsimp only at g1 d1 hwarn hwarnE k1 m1 e1
  have hvE : Valid x.1.heap x.1.encl := by
    rw [e1]
    exact (Valid.grow g1 fun r hr => hv r (hL.encl r hr))
  obtain ⟨e, he, g2, d2⟩ := enclPhase_total (K := K) hT (o := o) (st := x.1) (s := x.2.1) (co := x.2.2.2.2) hvE
  obtain ⟨k2, m2, e2, -⟩ := enclPhase_inv he
  obtain ⟨v, vs, hvp, hheap, hvoids, hvs⟩ := voidPhase_total (K := K) hT (o := o) (st := e.1) (s := e.2.1)
  obtain ⟨-, m3, e3, -⟩ := voidPhase_inv hvp
  have g3 : Grow e.1.heap v.1.heap := by rw [hheap]; exact .append _ _
  have gAll : Grow st.heap v.1.heap := (g1.trans g2).trans g3
  have hmetas : v.1.metas = st.metas := by rw [m3, m2, m1]
  have hencl : v.1.encl = st.encl := by rw [e3, e2, e1]
  -- definitions
  have dS : DefS v.1.heap st.metas := (d1.grow g2).grow g3
  have dE : o.voidGen = true → Def v.1.heap st.encl := fun h => by
    have := (d2 h).grow g3
    rwa [e1] at this
  have hend : ∃ st', endPhase K o v.1 v.2.1 v.2.2 x.2.2.1 x.2.2.2.1 e.2.2 = .ok st' := by
    apply endPhase_total hT
    · intro hf r hr
      rw [hmetas] at hr
      obtain ⟨c, hc, h⟩ := dS r hr
      rcases h with h | h
      · obtain ⟨c0, hc0⟩ := hv r hr
        obtain ⟨c', hc', he', -⟩ := gAll r c0 hc0
        rw [hc] at hc'; cases hc'
        obtain ⟨h1, h2⟩ := hfull hf r hr c0 hc0 (by rw [← he']; exact h)
        exact dE h1 r h2
      · exact ⟨c, hc, h⟩
    · intro j hj r hr
      rw [hmetas] at hr
      obtain ⟨c0, h1, h2⟩ := hwarn j hj
      have h3 := cells_getElem (st := st) hv j r hr
      have h4 : (st.cells st.metas)[j]? = some c0 := h1
      rw [h4] at h3
      obtain ⟨c, hc, h⟩ := dS r (List.mem_of_getElem? hr)
      obtain ⟨c', hc', he', -⟩ := gAll r c0 h3.symm
      rw [hc] at hc'; cases hc'
      exact ⟨c, hc, h.resolve_left (by rw [he', h2]; decide)⟩
    · intro j hj r hr
      rw [hencl] at hr
      have := hwarnE (List.ne_nil_of_mem hj)
      exact dE this.1 r (List.mem_of_getElem? hr)
    · have hb : (!v.1.encl.isEmpty && o.sortEncl) = false := by
        rw [hencl]
        rcases hsort with h | h <;> simp [h]
      rw [hb, hmetas]
      have hvv : Valid v.1.heap st.metas := hv.grow gAll
      have hvV : Valid v.1.heap v.2.2 := by
        intro r hr
        rw [hvoids] at hr
        obtain ⟨i, hi, rfl⟩ := List.mem_map.1 hr
        rw [List.mem_range] at hi
        exact ⟨vs[i], by rw [hheap, List.getElem?_append_right (by omega)]; simp [hi]⟩
      suffices hh : ∃ s out, Labels.number o.startCell false (toLs v.1.heap st.metas) (toLs v.1.heap v.2.2) = .ok (s, out) ∧ Labels.Consecutive o.startCell s out ∧
          Labels.cells out = Labels.plainOrder (toLs v.1.heap st.metas) (toLs v.1.heap v.2.2) by
        obtain ⟨s, out, h, -⟩ := hh
        exact ⟨_, h⟩
      apply Labels.C32_plain
      · show Labels.Distinct _ _
        unfold Labels.Distinct
        rw [List.map_append, toLs_refs hvv, toLs_refs hvV, List.nodup_append]
        refine ⟨hL.nodup, ?_, ?_⟩
        · rw [hvoids]
          exact (List.nodup_range).map (fun a b h => by simpa using h)
        · intro r hr q hq heq
          subst heq
          rw [hvoids] at hq
          obtain ⟨i, -, rfl⟩ := List.mem_map.1 hq
          obtain ⟨c, hc⟩ := (hv.grow (g1.trans g2)) _ hr
          have := (List.getElem?_eq_some_iff.1 hc).1
          omega
      · intro w hw hnull l hl i hi
        obtain ⟨r, hr, c, hc, rfl⟩ := mem_toLs.1 hw
        rw [hvoids] at hr
        obtain ⟨j, hj, rfl⟩ := List.mem_map.1 hr
        rw [hheap, List.getElem?_append_right (by omega)] at hc
        have hcm : c ∈ vs := List.mem_of_getElem? hc
        rcases hvs with rfl | ⟨i0, s', hK⟩
        · cases hcm
        · obtain ⟨m, hm, hm1, hm2, hm3⟩ := hV _ _ _ _ _ hK c hcm hnull l hl i hi
          have hmem : m ∈ e.1.cells e.1.metas := by
            unfold voidInput at hm
            split at hm
            · exact hm
            · classical
              rw [C117_exclude] at hm
              exact (List.mem_filter.1 hm).1
          obtain ⟨r, hr, hr'⟩ := List.mem_filterMap.1 hmem
          rw [m2, m1] at hr
          refine ⟨toL r m, mem_toLs.2 ⟨r, hr, m, ?_, rfl⟩, hm1, hm2, by simp [toL, hm3]⟩
          rw [hheap, List.getElem?_append_left (List.getElem?_eq_some_iff.1 hr').1]
          exact hr'
  obtain ⟨st', h'⟩ := hend
  refine ⟨st', ?_⟩
  unfold start
  rw [if_neg (by simpa using hL.nonempty)]
  simp only [bind, Except.bind, hexp, orLeave, hb, hx, he, hvp, h']

/-- C119 is false, 1: with the option against overlaps (and no facets), a model of at least two cells with an enclosure is never converted: the definition of the enclosure is
used before it is made. -/
theorem C119_overlap_violated (K : Kit F S) (o : Opts) (st : State F S) (hn : o.noOverlap = true) (hf : o.facets = false) (hlen : 2 ≤ st.metas.length)
    (he : ∃ r ∈ st.metas, ∃ c, st.heap[r]? = some c ∧ c.isEncl = true ∧ c.defn = none) (st' : State F S) : start K o st ≠ .ok st' := by
  intro h
  obtain ⟨-, b, -, x, hx, -⟩ := start_inv h
  obtain ⟨r, hr, c, hc, hce, hcd⟩ := he
  unfold solidPhase at hx
  simp only [hf, hn, Bool.false_eq_true, if_false, if_true, bind, Except.bind] at hx
  split at hx
  · cases hx
  · split at hx
    · cases hx
    · split at hx
      · cases hx
      · rename_i b1 hb1
        have hk := (buildLoop_keeps _ _ _ _ _ (orLeave_ok.1 hb1)).encl r c hc hce
        split at hx
        · cases hx
        · rename_i h' hh
          have hh := orLeave_ok.1 hh
          unfold noOverlapStep at hh
          split at hh
          · cases hh
          · rename_i x0 hm
            rw [hm] at hlen; simp at hlen
          · simp only [bind, Except.bind] at hh
            split at hh
            · cases hh
            · rename_i ds hds
              have := defns_ok hds c (List.mem_filterMap.2 ⟨r, hr, hk⟩)
              rw [hcd] at this
              cases this

/-- C119 is false, 2: with simplification "full" and no void generation, a model with an enclosure is never converted: the enclosures have no definitions. -/
theorem C119_full_violated (K : Kit F S) (o : Opts) (st : State F S) (hfull : o.full = true) (hv : o.voidGen = false) (hn : o.noOverlap = false ∨ o.facets = true)
    (he : ∃ r ∈ st.metas, ∃ c, st.heap[r]? = some c ∧ c.isEncl = true ∧ c.defn = none) (st' : State F S) : start K o st ≠ .ok st' := by
  intro h
  obtain ⟨-, b, -, x, hx, e, he', v, hvp, h'⟩ := start_inv h
  obtain ⟨r, hr, c, hc, hce, hcd⟩ := he
  obtain ⟨-, m1, -, -, k1⟩ := solidPhase_inv hx
  obtain ⟨-, m2, -, -, k2⟩ := enclPhase_inv he'
  obtain ⟨-, m3, -, -, k3⟩ := voidPhase_inv hvp
  have hget : v.1.heap[r]? = some c := by
    rw [(k3 hv).1, k2 hv]; exact (k1 hn).encl r c hc hce
  have hmem : r ∈ v.1.metas := by rw [m3, m2, m1]; exact hr
  unfold endPhase at h'
  simp only [hfull, if_true, bind, Except.bind] at h'
  split at h'
  · cases h'
  · rename_i y hy
    exact simpLoop_none _ _ _ ⟨r, hmem, c, hget, hcd⟩ (orLeave_ok.1 hy)

/-- C119 is false, 3: with sorting by enclosures and no void generation, a model with an enclosure is never converted: there is no list of void cells to sort. -/
theorem C119_sort_violated (K : Kit F S) (o : Opts) (st : State F S) (hs : o.sortEncl = true) (hv : o.voidGen = false) (he : st.encl ≠ []) (st' : State F S) :
    start K o st ≠ .ok st' := by
  intro h
  obtain ⟨-, b, -, x, hx, e, he', v, hvp, h'⟩ := start_inv h
  obtain ⟨-, -, e1, -⟩ := solidPhase_inv hx
  obtain ⟨-, -, e2, -⟩ := enclPhase_inv he'
  obtain ⟨-, -, e3, -, k3⟩ := voidPhase_inv hvp
  have hencl : v.1.encl ≠ [] := by rw [e3, e2, e1]; exact he
  have hb : (!v.1.encl.isEmpty && o.sortEncl) = true := by simp [hs, hencl]
  unfold endPhase at h'
  simp only [bind, Except.bind, hb, (k3 hv).2] at h'
  split at h'
  · cases h'
  · split at h'
    · cases h'
    · rename_i y _ _ n hn
      have hn := orLeave_ok.1 hn
      unfold labelErr at hn
      split at hn
      · rename_i a ha
        unfold Labels.number at ha
        rw [if_pos rfl] at ha
        unfold Labels.sorted at ha
        simp only [bind, Except.bind, toLs, List.filterMap_nil] at ha
        split at ha
        · cases ha
        · simp [Labels.group] at ha
      · cases hn

/-! ### a model -/

/-- a program in which nothing raises: every cell is the positive side of surface 1, and there is one void cell -/
def demoKit : Kit ℚ Unit where
  empty _ := ()
  split _ _ := .ok ((), true)
  build _ _ := .ok ((), .lst .and 0 [.int 1], [])
  facet _ _ := .ok ((), .lst .and 0 [.int 1])
  noOverlap _ l := .ok l
  void _ l _ _ := .ok ((), [⟨some 7, false, false, true, 0, [], none, some (.lst .and 0 [.int 2]), some ((l.filter fun c => !c.null && !c.isEncl).filterMap (·.id)), none⟩])
  simp _ _ d := .ok d
  text _ := .ok ()
  cone _ d _ := .ok ((), d)

/-- a solid, 1 mm wide -/
def demoCell (i : Int) : Cell ℚ := ⟨some i, false, false, false, 0, "steel".toList, some ⟨0, 1, 0, 1, 0, 1⟩, none, none, none⟩

/-- an enclosure -/
def demoEncl (i : Int) : Cell ℚ := ⟨some i, true, false, false, 1, "room".toList, some ⟨0, 3, 0, 3, 0, 3⟩, none, none, none⟩

/-- two solids in an enclosure -/
def demoState : State ℚ Unit := ⟨[demoCell 1, demoCell 2, demoEncl 3], [0, 1, 2], [2], none, none⟩

/-- options, without sorting by enclosures -/
def demoOpts : Opts := ⟨true, false, true, ["air".toList], false, true, false, 1, 1⟩

theorem demo_total : demoKit.Total :=
  ⟨fun _ _ => ⟨_, rfl⟩, fun _ _ => ⟨_, rfl⟩, fun _ _ => ⟨_, rfl⟩, fun _ _ => ⟨_, rfl⟩, fun _ _ _ _ => ⟨_, rfl⟩, fun _ _ _ => ⟨_, rfl⟩, fun _ => ⟨_, rfl⟩, fun _ _ _ => ⟨_, rfl⟩⟩

theorem demo_names : demoKit.Names := by
  intro s l e i r h v hv _ ids hids j hj
  cases h
  simp only [List.mem_singleton] at hv
  subst hv
  cases hids
  obtain ⟨m, hm, hmj⟩ := List.mem_filterMap.1 hj
  obtain ⟨h1, h2⟩ := List.mem_filter.1 hm
  simp only [Bool.and_eq_true, Bool.not_eq_true'] at h2
  exact ⟨m, h1, h2.1, h2.2, hmj⟩

theorem demo_loaded : demoState.Loaded where
  nonempty := by decide
  nodup := by decide
  solids := by
    intro r hr
    simp only [demoState, List.mem_cons, List.not_mem_nil, or_false] at hr
    rcases hr with rfl | rfl | rfl
    · exact ⟨demoCell 1, rfl, rfl⟩
    · exact ⟨demoCell 2, rfl, rfl⟩
    · exact ⟨demoEncl 3, rfl, rfl⟩
  encl := by decide

/-- this model is converted -/
theorem demo_runs : ∃ st', start demoKit demoOpts demoState = .ok st' := by
  refine C119_runs_partial _ _ _ demo_total demo_names demo_loaded (by intro h; cases h) ?_ (.inr rfl)
  intro _ r hr c hc he
  refine ⟨rfl, ?_⟩
  simp only [demoState, List.mem_cons, List.not_mem_nil, or_false] at hr
  rcases hr with rfl | rfl | rfl
  · cases hc; cases he
  · cases hc; cases he
  · decide

/-- the cells handed to void generation in it: the two solids -/
example : excludeCells demoOpts.voidExclude (demoState.cells demoState.metas) = [demoCell 1, demoCell 2] := by rfl

/-- with a word of the comments: none -/
example : excludeCells ["tee".toList] (demoState.cells demoState.metas) = [] := by rfl

/-- the box of the model -/
example : geometryBox 10 (demoState.cells demoState.metas) = .ok (⟨-10, 13, -10, 13, -10, 13⟩ : Box ℚ) := by
  have : demoState.cells demoState.metas = [demoCell 1, demoCell 2, demoEncl 3] := rfl
  rw [this]
  norm_num [geometryBox, boxLoop, demoCell, demoEncl, widen, bind, Except.bind]

/-- C119 is false -/
theorem C119_violated : ¬C119_statement ℚ Unit := by
  intro h
  obtain ⟨st', h'⟩ := h demoKit { demoOpts with voidGen := false, full := false, sortEncl := true } demoState demo_total demo_names demo_loaded
  exact C119_sort_violated _ _ _ rfl rfl (by decide) st' h'

/-- the hypotheses of the other two hold in this model, too -/
example : ∀ st', start demoKit { demoOpts with noOverlap := true } demoState ≠ .ok st' :=
  C119_overlap_violated _ _ _ rfl rfl (by decide) ⟨2, by decide, demoEncl 3, rfl, rfl, rfl⟩

example : ∀ st', start demoKit { demoOpts with voidGen := false } demoState ≠ .ok st' :=
  C119_full_violated _ _ _ rfl rfl (.inl rfl) ⟨2, by decide, demoEncl 3, rfl, rfl, rfl⟩

/-! ## C120: a second run -/

/-- C120, the full statement: after a run that ends, a second run ends, too -/
def C120_statement (F S : Type) [Field F] [LinearOrder F] [IsStrictOrderedRing F] : Prop :=
  ∀ (K : Kit F S) (o o' : Opts) (st st' : State F S), K.Total → start K o st = .ok st' → ∃ st'', start K o' st' = .ok st''

/-- C120 is false for every program and every model: after a run that ends, no second run ever ends: it stops with AttributeError (or TypeError, when the solids are to be
exported), since the list of cells now contains comment cells, which have no solids. But it leaves everything as it was: list of cells, surfaces and box. -/
theorem C120_second_run (K : Kit F S) (o : Opts) (K' : Kit F S) (o' : Opts) (st st' : State F S) (h : start K o st = .ok st') :
    start K' o' st' = .error (.attributeError, st') ∨ start K' o' st' = .error (.typeError, st') := by
  obtain ⟨-, b, -, x, -, e, -, v, -, h'⟩ := start_inv h
  obtain ⟨-, hm, hc⟩ := endPhase_inv h'
  unfold start
  rw [if_neg (by simpa using hm), geometryBox_none hc]
  by_cases hx : o'.exportSolids = true
  · rw [if_pos hx]
    rcases exportLoop_cases (st'.cells st'.metas) with e | e
    · left; rw [e]; rfl
    · right; rw [e]; rfl
  · left; rw [if_neg hx]; rfl

/-- C120 is false: a model converted once, with a program in which nothing raises, cannot be converted again -/
theorem C120_violated : ¬C120_statement ℚ Unit := by
  intro h
  obtain ⟨st', h'⟩ := demo_runs
  obtain ⟨st'', h''⟩ := h demoKit demoOpts demoOpts demoState st' demo_total h'
  rcases C120_second_run demoKit demoOpts demoKit demoOpts demoState st' h' with e | e <;> rw [e] at h'' <;> cases h''

end Geouned.Driver
