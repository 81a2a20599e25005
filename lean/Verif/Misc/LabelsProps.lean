import Verif.Misc.LabelsLemmas
/-!
# C32, C54, C55: cell labels
-/
namespace Geouned.Labels

/-! ## Specification -/

/-- the labels written are startCell, startCell + 1, ... in the order of writing, and no cell is written twice -/
def Consecutive (startCell : Int) (s : St) (out : List Out) : Prop :=
  (cells out).map s.label = (List.range (cells out).length).map (fun i : Nat => some (startCell + (i : Int))) ∧
  ((cells out).map Cell.ref).Nodup

/-- the cells to write without sorting: solids that are neither null nor enclosures, then non-null void cells -/
def plainOrder (metas voids : List Cell) : List Cell :=
  (metas.filter fun m => !m.null && !m.isEncl) ++ voids.filter fun v => !v.null

/-- the cells to write with sorting: where an enclosure stands, its void cells; then those of the top level -/
def sortedOrder (metas voids : List Cell) : List Cell :=
  (metas.flatMap fun m => if m.null then [] else
    if m.isEncl then (voids.filter fun v => v.enclID == m.enclID).filter (fun v => !v.null) else [m]) ++
  (voids.filter fun v => v.enclID == 0).filter fun v => !v.null

/-- objects are distinct -/
abbrev Distinct (metas voids : List Cell) : Prop := ((metas ++ voids).map Cell.ref).Nodup

/-- C32 in full: the numbering succeeds and writes the cells of its mode with consecutive labels. -/
def C32_statement : Prop :=
  ∀ (startCell : Int) (sort : Bool) (metas voids : List Cell), Distinct metas voids →
    ∃ s out, number startCell sort metas voids = .ok (s, out) ∧ Consecutive startCell s out ∧
      cells out = if sort then sortedOrder metas voids else plainOrder metas voids

/-! ## Theorems -/

theorem plain_cells {offset : Int} {metas voids : List Cell} {s : St} {out : List Out}
    (h : plain offset metas voids = .ok (s, out)) :
    cells out = plainOrder metas voids ∧ s.lab = (labFold (plainOrder metas voids) offset []).2 ∧
    ∃ s1, s1 = numberAll (keptSolids metas) (St.init offset) ∧ voidLoop voids s1 = .ok (s, keptVoids voids) := by
  unfold plain at h
  rw [solidLoop_eq] at h
  simp only [bind, Except.bind] at h
  split at h
  · cases h
  · rename_i r hr
    cases h
    obtain ⟨a, b, c⟩ := voidLoop_spec _ _ _ hr
    have hl := numberAll_lab (keptSolids metas) (St.init offset)
    have hc : (numberAll (keptSolids metas) (St.init offset)).count = (labFold (keptSolids metas) offset []).1 :=
      congrArg Prod.fst hl.1
    have hlab : (numberAll (keptSolids metas) (St.init offset)).lab = (labFold (keptSolids metas) offset []).2 :=
      congrArg Prod.snd hl.1
    refine ⟨?_, ?_, _, rfl, ?_⟩
    · rw [cells_append, cells_append, cells_comment, cells_map, cells_map, a]
      simp [plainOrder, keptSolids, keptVoids]
    · have := congrArg Prod.snd b
      dsimp only at this
      rw [this, hc, hlab, ← labFold_append]
      rfl
    · rw [hr, ← a]

/-- C32 without sorting: the labels are consecutive from `startCell`, solids first, then the void and graveyard cells, null cells and
enclosures left out. The numbering succeeds when each identifier named in a comment is that of a written solid. -/
theorem C32_plain (startCell : Int) (metas voids : List Cell) (hd : Distinct metas voids)
    (hinfo : ∀ v ∈ voids, v.null = false → ∀ l, v.info = some l → ∀ i ∈ l,
      ∃ m ∈ metas, m.null = false ∧ m.isEncl = false ∧ m.id = i) :
    ∃ s out, number startCell false metas voids = .ok (s, out) ∧ Consecutive startCell s out ∧
      cells out = plainOrder metas voids := by
  have hok : ∃ r, voidLoop voids (numberAll (keptSolids metas) (St.init (startCell - 1))) = .ok r := by
    apply voidLoop_ok
    intro v hv l hl i hi
    obtain ⟨hv1, hv2⟩ := List.mem_filter.1 hv
    obtain ⟨m, hm, h1, h2, h3⟩ := hinfo v hv1 (by simpa using hv2) l hl i hi
    exact numberAll_ids _ _ i (Or.inr ⟨m, List.mem_filter.2 ⟨hm, by simp [h1, h2]⟩, h3⟩)
  obtain ⟨r, hr⟩ := hok
  have hp : ∃ s out, plain (startCell - 1) metas voids = .ok (s, out) := by
    unfold plain
    rw [solidLoop_eq]
    simp only [bind, Except.bind, hr]
    exact ⟨_, _, rfl⟩
  obtain ⟨s, out, h⟩ := hp
  obtain ⟨h1, h2, -⟩ := plain_cells h
  have hnd : ((plainOrder metas voids).map Cell.ref).Nodup := by
    refine List.Nodup.sublist (List.Sublist.map _ ?_) hd
    exact List.Sublist.append List.filter_sublist List.filter_sublist
  refine ⟨s, out, h, ⟨?_, by rw [h1]; exact hnd⟩, h1⟩
  rw [h1]
  have := labFold_labels (plainOrder metas voids) (startCell - 1) [] hnd
  have e : s.label = fun c => (labFold (plainOrder metas voids) (startCell - 1) []).2.lookup c.ref := by
    funext c
    rw [St.label, h2]
  rw [e]
  refine Eq.trans this ?_
  apply List.map_congr_left
  intro i _
  congr 1
  omega

/-- C32 with sorting. Missing for the full property: enclosures with equal identifiers (two files), and enclosures without void cells such as
envelopes; both are shown to go wrong below. -/
theorem C32_sorted_partial (startCell : Int) (metas voids : List Cell) (hd : Distinct metas voids)
    (hid : ((metas.filter fun m => !m.null && m.isEncl).map Cell.enclID).Nodup)
    (h0 : ∀ m ∈ metas, m.null = false → m.isEncl = true → m.enclID ≠ 0)
    (hv : ∀ m ∈ metas, m.null = false → m.isEncl = true → ∃ v ∈ voids, v.enclID = m.enclID)
    (hv0 : ∃ v ∈ voids, v.enclID = 0)
    (hinfo : ∀ v ∈ sortedOrder metas voids, ∀ l, v.info = some l → ∀ i ∈ l, ∃ c ∈ sortedOrder metas voids, c.id = i) :
    ∃ s out, number startCell true metas voids = .ok (s, out) ∧ Consecutive startCell s out ∧
      cells out = sortedOrder metas voids := by
  have heq : sortedOrder metas voids = expand voids metas ++ keptVoids (voids.filter fun v => v.enclID == 0) := rfl
  have hex : ∃ r, sorted (startCell - 1) metas voids = .ok r := by
    obtain ⟨q, hq⟩ := sortLoop_ok voids metas (St.init (startCell - 1)) hv
    obtain ⟨a, b⟩ := sortLoop_spec _ _ _ _ hq
    obtain ⟨v, hv, e⟩ := hv0
    have hne : (voids.filter fun v => v.enclID == 0) ≠ [] := List.ne_nil_of_mem (List.mem_filter.2 ⟨hv, by simp [e]⟩)
    have hc : cells (q.2 ++ [Out.comment] ++ List.map Out.cell (emit (voids.filter fun v => v.enclID == 0) q.1).2) =
        sortedOrder metas voids := by
      rw [cells_append, cells_append, cells_comment, emit_eq, b]
      dsimp only
      rw [cells_map, heq]
      simp
    obtain ⟨s', hs'⟩ := commentLoop_ok
      (q.2 ++ [Out.comment] ++ List.map Out.cell (emit (voids.filter fun v => v.enclID == 0) q.1).2)
      (emit (voids.filter fun v => v.enclID == 0) q.1).1 (by
        rw [hc]
        intro c hc' l hl i hi
        obtain ⟨c2, hc2, e2⟩ := hinfo c hc' l hl i hi
        rw [emit_eq, a, ← numberAll_append]
        exact numberAll_ids _ _ i (Or.inr ⟨c2, hc2, e2⟩))
    unfold sorted
    simp only [bind, Except.bind, hq, group_lookup, if_neg hne, hs']
    exact ⟨_, rfl⟩
  obtain ⟨⟨s, out⟩, h⟩ := hex
  obtain ⟨h1, h2⟩ := sorted_spec _ _ _ _ h
  rw [← heq] at h1
  dsimp only at h1 h2
  rw [h1] at h2
  have hnd : ((sortedOrder metas voids).map Cell.ref).Nodup := by
    have hmv := hd
    unfold Distinct at hmv
    rw [List.map_append, List.nodup_append] at hmv
    obtain ⟨hm, hvd, hdis⟩ := hmv
    have hinj : ∀ a ∈ voids, ∀ b ∈ voids, a.ref = b.ref → a = b := fun a ha b hb hab =>
      List.inj_on_of_nodup_map hvd ha hb hab
    have hsub : ∀ (n : Int), (((voids.filter fun v => v.enclID == n).filter (fun v => !v.null)).map Cell.ref).Nodup := fun n =>
      List.Nodup.sublist (List.Sublist.map _ (List.filter_sublist.trans List.filter_sublist)) hvd
    have hE : ((expand voids metas).map Cell.ref).Nodup := by
      clear h1 h2 h heq hinfo hv0 hv
      induction metas with
      | nil => simp [expand]
      | cons m ms ih =>
        have hd' : Distinct ms voids := by
          unfold Distinct at hd ⊢
          simp only [List.cons_append, List.map_cons, List.nodup_cons] at hd
          exact hd.2
        have hm' : (ms.map Cell.ref).Nodup := by simp only [List.map_cons, List.nodup_cons] at hm; exact hm.2
        have hidm : ((ms.filter fun m => !m.null && m.isEncl).map Cell.enclID).Nodup := by
          refine List.Nodup.sublist (List.Sublist.map _ ?_) hid
          exact List.Sublist.filter _ (List.sublist_cons_self _ _)
        have ih' := ih hd' hidm (fun x hx => h0 x (by simp [hx])) hm'
          (fun a ha b hb => hdis a (by simp only [List.map_cons, List.mem_cons]; exact Or.inr ha) b hb)
        have hmemE : ∀ c ∈ expand voids ms, (c ∈ ms ∧ c.null = false) ∨
            (c ∈ voids ∧ ∃ m' ∈ ms, m'.null = false ∧ m'.isEncl = true ∧ c.enclID = m'.enclID) := by
          intro c hc
          obtain ⟨m', hm'', hc'⟩ := List.mem_flatMap.1 hc
          by_cases hn : m'.null = true
          · simp [hn] at hc'
          · by_cases he : m'.isEncl = true
            · simp only [hn, he, if_true] at hc'
              obtain ⟨hc1, _⟩ := List.mem_filter.1 hc'
              obtain ⟨hc2, hc3⟩ := List.mem_filter.1 hc1
              exact Or.inr ⟨hc2, m', hm'', by simpa using hn, he, by simpa using hc3⟩
            · simp only [hn, he] at hc'
              simp at hc'
              subst hc'
              exact Or.inl ⟨hm'', by simpa using hn⟩
        by_cases hn : m.null = true
        · have e : expand voids (m :: ms) = expand voids ms := by simp [expand, hn]
          rw [e]; exact ih'
        · by_cases he : m.isEncl = true
          · have e : expand voids (m :: ms) = keptVoids (voids.filter fun v => v.enclID == m.enclID) ++ expand voids ms := by
              simp [expand, hn, he]
            rw [e, List.map_append, List.nodup_append]
            refine ⟨hsub m.enclID, ih', ?_⟩
            intro a ha b hb hab
            obtain ⟨v, hv', rfl⟩ := List.mem_map.1 ha
            obtain ⟨c, hc, rfl⟩ := List.mem_map.1 hb
            obtain ⟨hv1, _⟩ := List.mem_filter.1 hv'
            obtain ⟨hv2, hv3⟩ := List.mem_filter.1 hv1
            rcases hmemE c hc with ⟨hc1, _⟩ | ⟨hc1, m', hm1, hm2, hm3, hm4⟩
            · exact hdis c.ref (List.mem_map_of_mem (by simp [hc1])) v.ref (List.mem_map_of_mem hv2) hab.symm
            · have := hinj v hv2 c hc1 hab
              subst this
              have hne : m'.enclID ≠ m.enclID := by
                have : (m :: ms).filter (fun m => !m.null && m.isEncl) = m :: ms.filter fun m => !m.null && m.isEncl := by
                  simp [List.filter, hn, he]
                rw [this, List.map_cons, List.nodup_cons] at hid
                intro e'
                exact hid.1 (List.mem_map.2 ⟨m', List.mem_filter.2 ⟨hm1, by simp [hm2, hm3]⟩, e'⟩)
              exact hne (by rw [← hm4]; simpa using hv3)
          · have e : expand voids (m :: ms) = m :: expand voids ms := by simp [expand, hn, he]
            rw [e, List.map_cons, List.nodup_cons]
            refine ⟨?_, ih'⟩
            intro hmem
            obtain ⟨c, hc, hr⟩ := List.mem_map.1 hmem
            simp only [List.map_cons, List.nodup_cons] at hm
            rcases hmemE c hc with ⟨hc1, _⟩ | ⟨hc1, _⟩
            · exact hm.1 (by rw [← hr]; exact List.mem_map_of_mem hc1)
            · exact hdis m.ref (by simp) c.ref (List.mem_map_of_mem hc1) hr.symm
    rw [heq, List.map_append, List.nodup_append]
    refine ⟨hE, hsub 0, ?_⟩
    intro a ha b hb hab
    obtain ⟨c, hc, rfl⟩ := List.mem_map.1 ha
    obtain ⟨v, hv', rfl⟩ := List.mem_map.1 hb
    obtain ⟨hv1, _⟩ := List.mem_filter.1 hv'
    obtain ⟨hv2, hv3⟩ := List.mem_filter.1 hv1
    obtain ⟨m', hm'', hc'⟩ := List.mem_flatMap.1 hc
    by_cases hn : m'.null = true
    · simp [hn] at hc'
    · by_cases he : m'.isEncl = true
      · simp only [hn, he, if_true] at hc'
        obtain ⟨hc1, _⟩ := List.mem_filter.1 hc'
        obtain ⟨hc2, hc3⟩ := List.mem_filter.1 hc1
        have := hinj c hc2 v hv2 hab
        subst this
        have hz : c.enclID = 0 := by simpa using hv3
        have hz' : c.enclID = m'.enclID := by simpa using hc3
        exact h0 m' hm'' (by simpa using hn) he (by rw [← hz', hz])
      · simp only [hn, he] at hc'
        simp at hc'
        subst hc'
        exact hdis c.ref (List.mem_map_of_mem hm'') v.ref (List.mem_map_of_mem hv2) hab
  refine ⟨s, out, h, ⟨?_, by rw [h1]; exact hnd⟩, h1⟩
  have hlab : s.lab = (labFold (sortedOrder metas voids) (startCell - 1) []).2 := congrArg Prod.snd h2
  have := labFold_labels (sortedOrder metas voids) (startCell - 1) [] hnd
  rw [h1]
  have e : s.label = fun c => (labFold (sortedOrder metas voids) (startCell - 1) []).2.lookup c.ref := by
    funext c
    rw [St.label, hlab]
  rw [e]
  refine Eq.trans this ?_
  apply List.map_congr_left
  intro i _
  congr 1
  omega

/-- a solid, an enclosure with its void cell, a null solid, an envelope, and the top level void cells -/
def solid1 : Cell := ⟨0, 1, false, false, false, 0, none⟩
def nullSolid : Cell := ⟨1, 2, true, false, false, 0, none⟩
def encl1 : Cell := ⟨2, 3, false, true, false, 1, none⟩
def envelope2 : Cell := ⟨3, 4, false, true, false, 2, none⟩
def void0 : Cell := ⟨4, 4, false, false, true, 0, some [1]⟩
def void1 : Cell := ⟨5, 5, false, false, true, 1, none⟩
def grave : Cell := ⟨6, 6, false, false, true, 0, none⟩
/-- another enclosure numbered 1, from a second file, and its void cell -/
def encl1' : Cell := ⟨7, 4, false, true, false, 1, none⟩
def void1' : Cell := ⟨8, 6, false, false, true, 1, none⟩

/-- C32 is false in full: with sorting, an envelope (an enclosure for which no void is generated) makes the numbering raise. -/
theorem C32_envelope_violated : ¬ C32_statement := by
  intro h
  obtain ⟨s, out, h1, _⟩ := h 1 true [solid1, encl1, envelope2] [void0, void1, grave] (by decide)
  have : number 1 true [solid1, encl1, envelope2] [void0, void1, grave] = .error .keyError := by rfl
  rw [this] at h1
  cases h1

/-- With sorting, two enclosures with the same identifier (each from its own file, where the check accepted it) make every void cell of
both be written twice, with one label for both copies. -/
theorem C32_duplicate_enclosure_violated : ∃ s out,
    number 1 true [encl1, encl1'] [grave, void1, void1'] = .ok (s, out) ∧
      cells out = [void1, void1', void1, void1', grave] ∧
      (cells out).map s.label = [some 3, some 4, some 3, some 4, some 5] := by
  exact ⟨_, _, rfl, rfl, rfl⟩

/-- Without sorting, the numbering raises when the comment of a void cell names a solid that turned out null. -/
theorem C32_null_solid_violated :
    number 1 false [solid1, nullSolid] [{ void0 with info := some [1, 2] }, grave] = .error .keyError := by rfl

/-- non-vacuity of both theorems -/
example : ((number 10 false [solid1, nullSolid, encl1] [void0, void1, grave]).toOption.map
    fun r => (cells r.2).map r.1.label) = some [some 10, some 11, some 12, some 13] := by rfl

example : (((number 10 true [encl1, solid1, nullSolid] [void0, void1, grave]).toOption.map
    fun r => (cells r.2, (cells r.2).map r.1.label)) =
      some ([void1, solid1, void0, grave], [some 10, some 11, some 12, some 13])) ∧
    Distinct [encl1, solid1, nullSolid] [void0, void1, grave] ∧
    (∀ v ∈ sortedOrder [encl1, solid1, nullSolid] [void0, void1, grave], ∀ l, v.info = some l → ∀ i ∈ l,
      ∃ c ∈ sortedOrder [encl1, solid1, nullSolid] [void0, void1, grave], c.id = i) := by
  refine ⟨by rfl, by decide, ?_⟩
  have : sortedOrder [encl1, solid1, nullSolid] [void0, void1, grave] = [void1, solid1, void0, grave] := by rfl
  rw [this]
  intro v hv l hl i hi
  simp only [List.mem_cons, List.not_mem_nil, or_false] at hv
  rcases hv with rfl | rfl | rfl | rfl
  · cases hl
  · cases hl
  · cases hl; simp at hi; subst hi; exact ⟨solid1, by simp, rfl⟩
  · cases hl

/-! ## C54 : the cells named in the comment of a void cell -/

/-- the labels `ls` named in a comment are those of the solids with identifiers `l` -/
def Names (metas : List Cell) (s : St) (l ls : List Int) : Prop :=
  List.Forall₂ (fun i n => ∃ m ∈ metas, m.null = false ∧ m.isEncl = false ∧ m.id = i ∧ s.label m = some n) l ls

/-- C54 in full: solids have distinct nonzero identifiers, void cells are numbered as the code numbers them, comments name identifiers of solids that are
written. Then, whatever the mode, the comment of every void cell written names the labels of those solids. -/
def C54_statement : Prop :=
  ∀ (startCell : Int) (sort : Bool) (metas voids : List Cell) (s : St) (out : List Out), Distinct metas voids →
    (metas.map Cell.id).Nodup → (∀ m ∈ metas, m.id ≠ 0) →
    voids.map Cell.id = (List.range voids.length).map (fun k : Nat => voidOffset metas + 1 + (k : Int)) →
    (∀ v ∈ voids, v.void = true ∧ v.isEncl = false ∧ ∀ l, v.info = some l → ∀ i ∈ l,
      ∃ m ∈ metas, m.null = false ∧ m.isEncl = false ∧ m.id = i) →
    number startCell sort metas voids = .ok (s, out) →
    ∀ v ∈ cells out, v ∈ voids → ∀ l, v.info = some l → ∃ ls, s.comment v = some ls ∧ Names metas s l ls

/-- C54 without sorting (any numbering of the void cells, identifiers of solids not 0). Missing: the sorted mode, see `C54_violated`. -/
theorem C54_plain_partial (startCell : Int) (metas voids : List Cell) (s : St) (out : List Out) (hd : Distinct metas voids)
    (h0 : ∀ v ∈ voids, ∀ l, v.info = some l → (0 : Int) ∉ l)
    (h : number startCell false metas voids = .ok (s, out)) :
    ∀ v ∈ cells out, v ∈ voids → ∀ l, v.info = some l → ∃ ls, s.comment v = some ls ∧ Names metas s l ls := by
  obtain ⟨h1, h2, s1, e1, hv⟩ := plain_cells (offset := startCell - 1) h
  have hmv := hd
  unfold Distinct at hmv
  rw [List.map_append, List.nodup_append] at hmv
  obtain ⟨hm, hvd, hdis⟩ := hmv
  have hkv : ((keptVoids voids).map Cell.ref).Nodup := List.Nodup.sublist (List.Sublist.map _ List.filter_sublist) hvd
  obtain ⟨-, hcom⟩ := voidLoop_comment _ _ _ hv hkv
  obtain ⟨-, hlv, -⟩ := voidLoop_spec _ _ _ hv
  intro v hvo hvv l hl
  have hvk : v ∈ keptVoids voids := by
    rw [h1] at hvo
    rcases List.mem_append.1 hvo with hm' | hv'
    · obtain ⟨hmm, _⟩ := List.mem_filter.1 hm'
      exact absurd rfl (hdis v.ref (List.mem_map_of_mem hmm) v.ref (List.mem_map_of_mem hvv))
    · exact hv'
  obtain ⟨ls, hls, hf⟩ := hcom v hvk l hl
  refine ⟨ls, hls, ?_⟩
  have hids : IdsOk (keptSolids metas) s1 := by
    rw [e1]
    have := idsOk_numberAll (keptSolids metas) [] (St.init (startCell - 1)) ?_ ?_
    · simpa using this
    · intro i n hi
      simp only [St.init, List.lookup] at hi
      split at hi
      · rename_i hb
        cases hi
        exact Or.inl ⟨by simpa using hb, rfl⟩
      · cases hi
    · simp only [List.nil_append]
      exact List.Nodup.sublist (List.Sublist.map _ List.filter_sublist) hm
  unfold Names
  have hz := h0 v hvv l hl
  clear hls hl
  induction hf with
  | nil => exact .nil
  | @cons i n l ls hin _ ih =>
    simp only [List.mem_cons, not_or] at hz
    refine .cons ?_ (ih hz.2)
    rcases hids i n hin with ⟨rfl, _⟩ | ⟨c, hc, hci, hcl⟩
    · exact absurd rfl hz.1
    · obtain ⟨hc1, hc2⟩ := List.mem_filter.1 hc
      simp only [Bool.and_eq_true, Bool.not_eq_true'] at hc2
      refine ⟨c, hc1, hc2.1, hc2.2, hci, ?_⟩
      have hlab : s.lab = (labFold (keptVoids voids) s1.count s1.lab).2 := congrArg Prod.snd hlv
      rw [St.label, hlab, labFold_lookup_other]
      · exact hcl
      · intro x hx hr
        have hxv := (List.mem_filter.1 hx).1
        exact hdis c.ref (List.mem_map_of_mem hc1) x.ref (List.mem_map_of_mem hxv) hr.symm

/-- C54 is false with sorting: numbers of void cells start at (last identifier − number of enclosures) + 1, so they repeat those of solids, and the
comment names a void cell. Here the enclosure comes first in the file: the solid has identifier 2, so has the void cell. -/
theorem C54_violated : ¬ C54_statement := by
  intro h
  have := h 1 true [⟨0, 1, false, true, false, 1, none⟩, ⟨1, 2, false, false, false, 0, none⟩]
    [⟨2, 2, false, false, true, 0, some [2]⟩, ⟨3, 3, false, false, true, 1, none⟩] _ _ (by decide) (by decide) (by decide) (by decide)
    (by
      intro v hv
      simp only [List.mem_cons, List.not_mem_nil, or_false] at hv
      rcases hv with rfl | rfl
      · refine ⟨rfl, rfl, fun l hl i hi => ?_⟩
        cases hl
        simp at hi
        subst hi
        exact ⟨⟨1, 2, false, false, false, 0, none⟩, by simp, rfl, rfl, rfl⟩
      · exact ⟨rfl, rfl, fun l hl => by cases hl⟩) rfl
    ⟨2, 2, false, false, true, 0, some [2]⟩ (by decide) (by decide) [2] rfl
  obtain ⟨ls, h1, h2⟩ := this
  have e : ls = [3] := by
    have : (some [3] : Option (List Int)) = some ls := h1
    exact (Option.some.inj this).symm
  subst e
  cases h2 with
  | cons h3 _ =>
    obtain ⟨m, hm, hn, he, hi, hl⟩ := h3
    simp only [List.mem_cons, List.not_mem_nil, or_false] at hm
    rcases hm with rfl | rfl
    · cases he
    · have : (some 2 : Option Int) = some 3 := hl
      cases this

/-- non-vacuity of `C54_plain_partial` -/
example : ((number 10 false [nullSolid, solid1] [void0, grave]).toOption.map fun r => r.1.comment void0) = some (some [10]) := by rfl

/-! ## C55 : the summary file -/

/-- C55 in full: the summary file lists every written solid cell under the label it has in the input files -/
def C55_statement : Prop :=
  ∀ (startCell : Int) (sort : Bool) (metas voids : List Cell) (s : St) (out : List Out), Distinct metas voids →
    number startCell sort metas voids = .ok (s, out) → ∀ x ∈ summary out, s.label x.1 = some x.2

/-- It prints the identifier instead: wrong as soon as `startCell` is not 1 (or a solid before is null or an enclosure). -/
theorem C55_violated : ¬ C55_statement := by
  intro h
  have := h 10 false [solid1] [grave] _ _ (by decide) rfl (solid1, 1) (by decide)
  have h2 : (some 10 : Option Int) = some 1 := this
  cases h2

/-- C55 holds when `startCell = 1`, no sorting, and the solids are numbered 1, 2, ... without null cells and enclosures. Missing: all the rest. -/
theorem C55_summary_partial (metas voids : List Cell) (s : St) (out : List Out) (hd : Distinct metas voids)
    (hk : ∀ m ∈ metas, m.null = false ∧ m.isEncl = false) (hvoid : ∀ v ∈ voids, v.void = true)
    (hid : metas.map Cell.id = (List.range metas.length).map fun k : Nat => 1 + (k : Int))
    (h : number 1 false metas voids = .ok (s, out)) : ∀ x ∈ summary out, s.label x.1 = some x.2 := by
  obtain ⟨h1, h2, -⟩ := plain_cells (offset := 1 - 1) h
  have hnd : ((plainOrder metas voids).map Cell.ref).Nodup := by
    refine List.Nodup.sublist (List.Sublist.map _ ?_) hd
    exact List.Sublist.append List.filter_sublist List.filter_sublist
  have hp : plainOrder metas voids = metas ++ voids.filter fun v => !v.null := by
    unfold plainOrder
    congr 1
    rw [List.filter_eq_self]
    intro m hm
    simp [hk m hm]
  have hl := labFold_labels (plainOrder metas voids) (1 - 1) [] hnd
  rw [← h2] at hl
  intro x hx
  unfold summary at hx
  obtain ⟨c, hc, hxc⟩ := List.mem_filterMap.1 hx
  split at hxc
  · cases hxc
  · rename_i hcv
    cases hxc
    rw [h1, hp] at hc
    rcases List.mem_append.1 hc with hc | hc
    · obtain ⟨i, hi, rfl⟩ := List.mem_iff_getElem.1 hc
      have hlen : i < (plainOrder metas voids).length := by rw [hp, List.length_append]; omega
      have a := List.getElem_of_eq hl (i := i) (by simpa using hlen)
      simp only [List.getElem_map, List.getElem_range] at a
      have b := List.getElem_of_eq hid (i := i) (by simpa using hi)
      simp only [List.getElem_map, List.getElem_range] at b
      have e : (plainOrder metas voids)[i] = metas[i] := by
        simp only [hp]
        exact List.getElem_append_left hi
      rw [e] at a
      dsimp only [St.label]
      rw [a, b]
      congr 1
    · exact absurd (hvoid c (List.mem_filter.1 hc).1) hcv

end Geouned.Labels
