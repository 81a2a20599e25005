import Verif.Load.Cad
import Verif.Load.Words
/-!
# C94, C95, C96: the cells made from a STEP file

`loadCad o spl es`: the options, which solids have spline surfaces, and the elements of the CAD tree; gives the cells or an exception.
-/
namespace Geouned.Load

variable {S : Type}

/-! the examples -/

/-- no compound cells, no material file, spline solids kept, labels as they are -/
def plain : Opts := { delLast := false, comp := false, remove := false, voidMat := none, matFile := fun _ => none }

/-- an element with one label above it -/
def el (up label : String) (solids : List Nat) : Elem Nat := { label := label.toList, parents := [up.toList], solids := solids }

/-- solids with odd numbers have spline surfaces -/
def odd (n : Nat) : Bool := n % 2 = 1

def someFile : List (Elem Nat) :=
  [el "root" "_m3_pipe" [0, 1], el "box" "envelope1_0_" [2, 3], el "root" "empty" [], el "enclosure2_1_" "_m0_f7_room" [4], el "_d.5_ t" "bolt" [5]]

/-! ## C94: the solids of a file -/

/-- **C94** (solids): when a file is loaded the cells hold the solids of the file that are to be kept, each once and in the order of the file. No label can lose or duplicate a solid. -/
theorem C94_solids (o : Opts) (spl : S → Bool) (es : List (Elem S)) (ms : List (Meta S)) (h : loadCad o spl es = .ok ms) :
    ms.flatMap (fun m => m.solids.getD []) = keptSolids o.remove spl (es.flatMap (·.solids)) := by
  unfold loadCad at h
  cases hl : elemLoop o es 0 (firstMetas o spl (es.flatMap (·.solids)) 0) with
  | error x => rw [hl] at h; cases h
  | ok l =>
    rw [hl] at h
    have h1 := fuseRuns_flat _ h
    rw [elemLoop_flat es 0 hl] at h1
    exact h1.trans (firstMetas_solids o spl _ 0)

example : (loadCad { plain with remove := true } odd someFile).toOption.map (fun ms => ms.map (·.solids)) = some [some [0], none, some [2], some [4], none] := by decide +kernel

/-- **C94** (cells), part: with labels as they are and no envelope number used twice, the cells are those of the elements, in order: one for an element that is an enclosure or an
envelope or with `compSolids`, otherwise one for each solid; each with the path of its element as comment. Missing: envelopes with the same number (see `C94_violated`) and
`delLastNumber` (see C96). -/
theorem C94_cells_partial (o : Opts) (spl : S → Bool) (es : List (Elem S)) (ms : List (Meta S)) (hd : o.delLast = false) (he : EnvelopesDiffer es) (h : loadCad o spl es = .ok ms) :
    ∃ r, Cells o.comp o.remove spl es r ∧ List.Forall₂ CellOf r ms := by
  obtain ⟨r, h1, h2, _⟩ := loadCad_good hd he h
  exact ⟨r, h1, h2.imp (fun _ _ hg => hg.1)⟩

/-- **C94** (no exception), part: with labels as they are and no envelope number used twice, a file is loaded unless a label asks for the dilution `.` -/
theorem C94_total_partial (o : Opts) (spl : S → Bool) (es : List (Elem S)) (hd : o.delLast = false) (he : EnvelopesDiffer es)
    (hdil : ∀ e ∈ es, ∀ l ∈ e.label :: e.parents, ∀ a b, l ≠ a ++ "_d._".toList ++ b) : ∃ ms, loadCad o spl es = .ok ms :=
  loadCad_total hd spl he hdil

theorem someFile_differ : EnvelopesDiffer someFile := by
  have hf : ∀ e ∈ someFile, e.parents ≠ ["box".toList] → ∀ p, ¬ Marked "envelope".toList e.label e.parents (some p) := by
    intro e he hb p hp
    have := marked_unique (by decide) (find_marked (o := plain) rfl e).2 hp
    revert this
    simp only [someFile, List.mem_cons, List.not_mem_nil, or_false] at he
    rcases he with rfl | rfl | rfl | rfl | rfl
    · rw [show (findAll plain (el "root" "_m3_pipe" [0, 1])).envel = none by decide +kernel]
      simp
    · exact absurd rfl hb
    · rw [show (findAll plain (el "root" "empty" [])).envel = none by decide +kernel]
      simp
    · rw [show (findAll plain (el "enclosure2_1_" "_m0_f7_room" [4])).envel = none by decide +kernel]
      simp
    · rw [show (findAll plain (el "_d.5_ t" "bolt" [5])).envel = none by decide +kernel]
      simp
  unfold EnvelopesDiffer
  refine List.pairwise_iff_getElem.mpr (fun i j hi hj hij p q hp hq => ?_)
  have h1 : someFile[i].parents = ["box".toList] := by
    by_contra hne
    exact hf _ (List.getElem_mem hi) hne p hp
  have h2 : someFile[j].parents = ["box".toList] := by
    by_contra hne
    exact hf _ (List.getElem_mem hj) hne q hq
  have hone : ∀ k : Fin 5, someFile[k].parents = ["box".toList] → k = 1 := by decide +kernel
  have e1 := hone ⟨i, hi⟩ h1
  have e2 := hone ⟨j, hj⟩ h2
  simp only [Fin.ext_iff] at e1 e2
  omega

example : ∃ ms, loadCad plain odd someFile = .ok ms ∧ ms.length = 5 := ⟨_, rfl, by decide +kernel⟩

example : ∀ e ∈ someFile, ∀ l ∈ e.label :: e.parents, ∀ a b, l ≠ a ++ "_d._".toList ++ b := by
  intro e he l hl a b h
  have : "_d._".toList <:+: l := ⟨a, b, h.symm⟩
  revert this
  simp only [someFile, List.mem_cons, List.not_mem_nil, or_false] at he
  rcases he with rfl | rfl | rfl | rfl | rfl <;> simp only [el, List.mem_cons, List.not_mem_nil, or_false] at hl <;> rcases hl with rfl | rfl <;> decide +kernel

/-- the full property: the file is loaded, and a cell with a solid of an element that is no envelope has no solid of another element -/
def C94_statement : Prop :=
  ∀ (spl : Nat → Bool) (es : List (Elem Nat)), (es.flatMap (·.solids)).Nodup → (∀ e ∈ es, ∀ l ∈ e.label :: e.parents, 'd' ∉ l) →
    ∃ ms, loadCad plain spl es = .ok ms ∧
      ∀ e ∈ es, (∀ p, ¬ Marked "envelope".toList e.label e.parents (some p)) → ∀ m ∈ ms, ∀ s ∈ m.solids.getD [], s ∈ e.solids → ∀ s' ∈ m.solids.getD [], s' ∈ e.solids

/-- **C94** is violated: two elements that are the envelope 1 with an ordinary element between them make one cell, and the ordinary solid is part of the envelope -/
theorem C94_violated : ¬ C94_statement := by
  intro h
  obtain ⟨ms, h1, h2⟩ := h (fun _ => false) [el "envelope1_0_" "a" [0], el "root" "part" [1], el "envelope1_0_" "b" [2]] (by decide) (by decide +kernel)
  have hno : ∀ p, ¬ Marked "envelope".toList (el "root" "part" [1]).label (el "root" "part" [1]).parents (some p) := by
    intro p hp
    have := marked_unique (by decide) (find_marked (o := plain) rfl (el "root" "part" [1])).2 hp
    rw [show (findAll plain (el "root" "part" [1])).envel = none by decide +kernel] at this
    cases this
  have hrun : (loadCad plain (fun _ => false) [el "envelope1_0_" "a" [0], el "root" "part" [1], el "envelope1_0_" "b" [2]]).toOption.map (fun ms => ms.map (·.solids)) = some [some [0, 1, 2]] := by
    decide +kernel
  rw [h1] at hrun
  simp only [Except.toOption, Option.map_some, Option.some.injEq] at hrun
  obtain ⟨m, rfl, hm⟩ := List.map_eq_singleton_iff.mp hrun
  have := h2 (el "root" "part" [1]) (by simp) hno m List.mem_cons_self 1 (by rw [hm]; decide) (by decide) 0 (by rw [hm]; decide)
  exact absurd this (by decide)

/-- **C94** is violated: two elements that are the envelope 1 followed by another envelope stop the program with an IndexError -/
theorem C94_index_violated : loadCad plain (fun _ => false) [el "envelope1_0_" "a" [0], el "envelope1_0_" "b" [1], el "envelope2_0_" "c" [2]] = .error .index := by decide +kernel

theorem runs_skip : ∀ (l : List (Meta S)) (t : List (Meta S)) (i : Nat) (old : Option Nat) (cur : List Nat), (∀ m ∈ l, m.kind ≠ .envelope) →
    envelopeRuns (l ++ t) i old cur = envelopeRuns t (i + l.length) old cur := by
  intro l
  induction l with
  | nil => intro t i old cur _; rfl
  | cons m ms ih =>
    intro t i old cur h
    rw [List.cons_append, envelopeRuns, if_pos (h m (by simp)), ih t (i + 1) old cur fun x hx => h x (by simp [hx])]
    congr 1
    simp only [List.length_cons]; omega

theorem runs_run {e : Option Nat} : ∀ (l : List (Meta S)) (t : List (Meta S)) (i : Nat) (cur : List Nat), (∀ m ∈ l, m.kind = .envelope ∧ m.enclId = e) →
    envelopeRuns (l ++ t) i e cur = envelopeRuns t (i + l.length) e (cur ++ List.range' i l.length) := by
  intro l
  induction l with
  | nil => intro t i cur _; simp
  | cons m ms ih =>
    intro t i cur h
    obtain ⟨h1, h2⟩ := h m (by simp)
    rw [List.cons_append, envelopeRuns, if_neg (by simp [h1]), if_neg (by simp [h2]), ih t (i + 1) (cur ++ [i]) fun x hx => h x (by simp [hx])]
    congr 1
    · simp only [List.length_cons]; omega
    · simp [List.range'_succ]

/-- **C94** (the same envelope): two or more cells in a row that are the envelope of one number (and are the only envelopes) become one cell: an envelope with this number, with
the parent of the first one, an enclosure if the first one is, and with all their solids in order. The other cells stay as they are. (Comment and material of the new cell are
empty, whatever those of the cells were.) -/
theorem C94_joined_partial (pre run post : List (Meta S)) (m : Meta S) (ms : List (Meta S)) (e : Nat) (hm : run = m :: ms) (hne : ms ≠ [])
    (hpre : ∀ x ∈ pre, x.kind ≠ .envelope) (hpost : ∀ x ∈ post, x.kind ≠ .envelope) (hrun : ∀ x ∈ run, x.kind = .envelope ∧ x.enclId = some e) :
    ∃ c, joinEnvelopes (pre ++ run ++ post) = .ok (pre ++ [c] ++ post) ∧ c.solids.getD [] = run.flatMap (fun x => x.solids.getD []) ∧ c.solids ≠ some [] ∧
      c.kind = .envelope ∧ c.enclId = some e ∧ c.isEnclosure = m.isEnclosure ∧ c.parentId = m.parentId ∧ c.id = pre.length + 1 ∧
      c.comments = [] ∧ c.material = 0 := by
  subst hm
  have hruns : envelopeRuns (pre ++ (m :: ms) ++ post) 0 none [] = [[], List.range' pre.length (ms.length + 1)] := by
    rw [List.append_assoc, runs_skip pre _ _ _ _ hpre, List.cons_append, envelopeRuns]
    obtain ⟨h1, h2⟩ := hrun m (by simp)
    rw [if_neg (by simp [h1]), if_pos (by simp [h2]), h2, runs_run ms post _ _ fun x hx => hrun x (by simp [hx])]
    have := runs_skip post [] (0 + pre.length + 1 + ms.length) (some e) ([0 + pre.length] ++ List.range' (0 + pre.length + 1) ms.length) hpost
    rw [List.append_nil] at this
    rw [this, envelopeRuns]
    simp [List.range'_succ]
  have hlen : 0 < ms.length := List.length_pos_iff.2 hne
  have htake : ((pre ++ (m :: ms) ++ post).take (pre.length + ms.length + 1)).drop pre.length = m :: ms := by
    rw [show pre.length + ms.length + 1 = (pre ++ (m :: ms)).length by simp; omega, List.take_left, List.drop_left]
  refine ⟨{ id := pre.length + 1, solids := if (m :: ms).flatMap (fun x => x.solids.getD []) = [] then none else some ((m :: ms).flatMap (fun x => x.solids.getD [])), kind := m.kind, isEnclosure := m.isEnclosure, enclId := m.enclId, parentId := m.parentId }, ?_, ?_, ?_, (hrun m (by simp)).1, (hrun m (by simp)).2, rfl, rfl, rfl, rfl, rfl⟩
  · unfold joinEnvelopes
    rw [hruns]
    have hlast : (List.range' pre.length (ms.length + 1)).getLast? = some (pre.length + ms.length) := by
      rw [List.getLast?_range']; simp
    have hhead : (List.range' pre.length (ms.length + 1)).head? = some pre.length := by
      simp [List.range'_succ]
    simp only [List.drop_succ_cons, List.drop_zero, fuseRuns, hlast, hhead]
    unfold fuse
    rw [if_neg (by omega)]
    have hget : (pre ++ (m :: ms) ++ post)[pre.length]? = some m := by simp
    simp only [hget, htake]
    have hmax : max pre.length (pre.length + ms.length + 1) = (pre ++ (m :: ms)).length := by simp; omega
    rw [hmax, List.drop_left]
    simp
  · dsimp only
    split
    · rename_i h; rw [h]; rfl
    · rfl
  · dsimp only
    split
    · simp
    · rename_i h; simpa using h

/-- two elements that are the envelope 1, between two others -/
example : (loadCad plain (fun _ => false) [el "root" "a" [0], el "envelope1_0_" "m5_b" [1], el "envelope1_0_" "m5_c" [2], el "root" "d" [3]]).toOption.map
    (fun ms => ms.map (fun m => (m.solids, m.isEnclosure, m.material))) = some [(some [0], false, 0), (some [1, 2], true, 0), (some [3], false, 0)] := by decide +kernel

/-! ## C95: numbers of the cells -/

/-- **C95**, part: with labels as they are and no envelope number used twice, the cells have the numbers 1, 2, 3, … when `compSolids` is on, or when enclosures and envelopes have one
solid each. Missing: enclosures with several solids (see `C95_violated`). -/
theorem C95_numbers_partial (o : Opts) (spl : S → Bool) (es : List (Elem S)) (ms : List (Meta S)) (hd : o.delLast = false) (he : EnvelopesDiffer es)
    (h1 : o.comp = true ∨ ∀ e ∈ es, OneCell o.comp e → e.solids.length ≤ 1) (h : loadCad o spl es = .ok ms) : ms.map (·.id) = List.range' 1 ms.length := by
  obtain ⟨r, _, _, h3⟩ := loadCad_good hd he h
  exact h3 h1

example : ∃ ms, loadCad { plain with comp := true } odd someFile = .ok ms ∧ ms.map (·.id) = [1, 2, 3, 4] := ⟨_, rfl, by decide +kernel⟩

/-- the full property: no two cells have the same number -/
def C95_statement : Prop := ∀ (o : Opts) (spl : Nat → Bool) (es : List (Elem Nat)) (ms : List (Meta Nat)), loadCad o spl es = .ok ms → (ms.map (·.id)).Nodup

/-- **C95** is violated: an enclosure of three solids, an element with two and an enclosure: the second solid of the element and the second enclosure have the number 4 or 5 twice -/
theorem C95_violated : ¬ C95_statement := by
  intro h
  have hrun : (loadCad plain (fun _ => false) [el "enclosure1_0_" "a" [0, 1], el "root" "b" [2, 3], el "enclosure2_0_" "c" [4]]).toOption.map (fun ms => ms.map (·.id)) = some [1, 3, 4, 4] := by
    decide +kernel
  cases hl : loadCad plain (fun _ => false) [el "enclosure1_0_" "a" [0, 1], el "root" "b" [2, 3], el "enclosure2_0_" "c" [4]] with
  | error x => rw [hl] at hrun; cases hrun
  | ok ms =>
    rw [hl] at hrun
    simp only [Except.toOption, Option.map_some, Option.some.injEq] at hrun
    have := h _ _ _ _ hl
    rw [hrun] at this
    exact absurd this (by decide)

/-! ## C96: what the labels say -/

/-- **C96**, part: with labels as they are, no envelope number used twice and every element below another one, each cell has what the nearest label of its branch says: the universe
that fills it, the transformation, the material with the density of the material file, the dilution, and the number of the enclosure. Missing: elements at the top of the tree
(`C96_root_violated`), `delLastNumber` (`C96_word_violated`). -/
theorem C96_attributes_partial (o : Opts) (spl : S → Bool) (es : List (Elem S)) (ms : List (Meta S)) (hd : o.delLast = false) (he : EnvelopesDiffer es) (hup : ∀ e ∈ es, e.parents ≠ [])
    (h : loadCad o spl es = .ok ms) : ∃ r, Cells o.comp o.remove spl es r ∧ List.Forall₂ (fun x m => Attributes o x.1 m) r ms := by
  obtain ⟨r, h1, h2, h3⟩ := loadCad_good hd he h
  refine ⟨r, h1, ?_⟩
  have hr : ∀ x ∈ r, x.1.parents ≠ [] := fun x hx => hup _ (cells_mem h1 x hx)
  clear h h1 h3
  induction h2 with
  | nil => exact .nil
  | cons hg _ ih => exact .cons (hg.2.2 (hr _ List.mem_cons_self)) (ih (fun x hx => hr x (List.mem_cons_of_mem _ hx)))

example : ∃ ms, loadCad { plain with matFile := fun k => if k = 3 then some (-8, "steel".toList) else none } odd someFile = .ok ms ∧
    ms.map (fun m => (m.material, m.rho, m.dilution, m.fill)) =
      [(3, some (-8), 1, none), (3, some (-8), 1, none), (0, none, 1, none), (0, some 0, 1, some 7), (0, none, 1 / 2, none)] := ⟨_, rfl, by decide +kernel⟩

example : ∀ e ∈ someFile, e.parents ≠ [] := by decide +kernel

/-- the full property for the material: the nearest label with a material counts -/
def C96_statement : Prop :=
  ∀ (o : Opts) (spl : Nat → Bool) (e : Elem Nat) (m : Meta Nat), loadCad o spl [e] = .ok [m] → ∀ k, Nearest (Key 'm') (e.label :: e.parents) (some k) → m.material = k

theorem key_m5 : Key 'm' "m5_".toList 5 := ⟨[], "_m5_".toList, rfl, ⟨['5'], [], rfl, ⟨by decide, by decide⟩, by decide⟩, fun a' t' _ h => absurd h (by simp)⟩

/-- **C96** is violated for an element at the top of the tree: its material is not read -/
theorem C96_root_violated : ¬ C96_statement := by
  intro h
  have hrun : (loadCad plain (fun _ => false) [⟨"m5_".toList, [], [0]⟩]) = .ok [{ id := 1, solids := some [0], comments := "/m5_1".toList }] := by decide +kernel
  have := h _ _ _ _ hrun 5 (.here key_m5)
  exact absurd this (by decide)

/-- `delLastNumber`: the last word is dropped if it is a number, which is what the documentation says -/
def C96_word_statement : Prop :=
  ∀ (spl : Nat → Bool) (e : Elem Nat) (m : Meta Nat), (∀ l ∈ e.label :: e.parents, ' ' ∉ l) → (∀ l ∈ e.label :: e.parents, ¬ Digits l) → e.parents ≠ [] →
    loadCad { plain with delLast := true } spl [e] = .ok [m] → ∀ k, Nearest (Key 'm') (e.label :: e.parents) (some k) → m.material = k

/-- **C96** is violated with `delLastNumber`: the last word is dropped also if it is no number, and the material with it -/
theorem C96_word_violated : ¬ C96_word_statement := by
  intro h
  have hrun : (loadCad { plain with delLast := true } (fun _ => false) [el "root" "m5_" [0]]) = .ok [{ id := 1, solids := some [0], comments := "//1".toList }] := by decide +kernel
  have := h _ _ _ (by decide) (by
    intro l hl hd
    simp only [el, List.mem_cons, List.not_mem_nil, or_false] at hl
    rcases hl with rfl | rfl
    · exact absurd (hd.2 'm' (by decide)) (by decide)
    · exact absurd (hd.2 'r' (by decide)) (by decide)) (by decide) hrun 5 (.here key_m5)
  exact absurd this (by decide)

/-- `l` is the text `l'` with a blank and a last word behind it, and the words of `l'` have single blanks between them -/
def LastWord (l l' : List Char) : Prop :=
  ∃ (ws : List (List Char)) (n : List Char), ws ≠ [] ∧ (∀ w ∈ ws ++ [n], w ≠ [] ∧ ' ' ∉ w ∧ '\n' ∉ w) ∧ l' = List.intercalate [' '] ws ∧ l = l' ++ ' ' :: n

/-- **C96**, part: with `delLastNumber` and labels that all end with a last word (a number), a file is loaded as if the last words were not there -/
theorem C96_number_partial (o : Opts) (spl : S → Bool) (es es' : List (Elem S))
    (h : List.Forall₂ (fun e e' => LastWord e.label e'.label ∧ List.Forall₂ LastWord e.parents e'.parents ∧ e.solids = e'.solids) es es') :
    loadCad { o with delLast := true } spl es = loadCad { o with delLast := false } spl es' := by
  have hw : ∀ {l l' : List Char}, LastWord l l' → getLabel true l = l' := by
    rintro l l' ⟨ws, n, hne, hws, rfl, rfl⟩
    exact getLabel_word hne hws
  refine loadCad_congr o spl (h.imp (fun e e' x => ⟨hw x.1, ?_, x.2.2⟩))
  have := x.2.1
  generalize e.parents = a at this
  generalize e'.parents = b at this
  induction this with
  | nil => rfl
  | cons h1 _ ih => rw [List.map_cons, hw h1, ih]

example : LastWord "_m5_ pipe 12".toList "_m5_ pipe".toList := ⟨["_m5_".toList, "pipe".toList], "12".toList, by decide, by decide, by decide, by decide⟩

end Geouned.Load
