import Verif.Whole.Props
import Verif.McnpFile.Props2
import Verif.PhitsFile.Props2
/-!
# C122: a conversion that meets the hypotheses

The universe box `[0,1] × [0,2] × [0,3]` with one solid, the slab `1 < z < 2` of it; one void cell; the graveyard.
-/
namespace Geouned.Whole
open Geouned Geouned.Geom Geouned.Box Geouned.Void

/-- the slab: planes 1-4 of the box, 7 (z = 1), 8 (z = 2) -/
noncomputable def slab : VObj := ⟨1, false, [some exBox], some exBox, .lst .or 1 [.lst .and 0 ([1, 2, -3, 4, 7, -8].map .int)]⟩

/-- the void: the box without the slab -/
def slabVoid : Seq := .lst .and 1 ([1, 2, -3, 4, 5, 6].map Seq.int ++ [.lst .or 0 ([-1, -2, 3, -4, -7, 8].map .int)])

/-- inside of the sphere 9, without the box -/
def slabIn : Seq := .lst .and 1 [.int (-9), .lst .or 0 ([-1, -2, 3, -4, -5, -6].map .int)]

noncomputable def slabModel : Conversion where
  ms := [slab]
  U := exBox
  minSize := 1
  many := fun _ => False
  mode := .no
  t := fun _ => freeTable false
  enum := Seq.surfaces
  fuel := 60
  reg := exReg
  sph := 9
  boxes := [⟨exBox, [slab]⟩]
  cell := fun _ => some slabVoid
  inC := slabIn
  outC := .lst .and 0 [.int 9]

theorem universeCompl_eq {B : BBox} (hB : Solid B) (reg : Pl → Registered) {ls : List Int} (h : boxDef B reg = .lst .and 0 (ls.map Seq.int)) :
    universeCompl ((boundPlanes B).map fun p => toBound (center B) p (reg p)) = .lst .or 0 (ls.map fun n => Seq.int (-n)) := by
  unfold boxDef boxDefOf at h
  simp only [Seq.lst.injEq, List.map_map, true_and] at h
  have h' : (boundPlanes B).map (fun p => (toBound (center B) p (reg p)).literal) = ls := by
    have := congrArg (List.map fun | .int n => n | _ => 0) h
    simpa [List.map_map, Function.comp_def] using this
  rw [← h']
  unfold universeCompl
  simp only [List.map_map, Seq.lst.injEq, true_and]
  apply List.map_congr_left
  intro p hp
  simp only [Function.comp_apply, BoundPlane.literal, inward_true hB hp (reg p), if_true]
  congr 1
  split <;> simp

theorem slab_grave : graveyard exBox exReg 9 = .ok (slabIn, .lst .and 0 [.int 9]) := by
  unfold graveyard graveyardCells
  rw [universeCompl_eq (by norm_num [Solid, exBox]) exReg exBox_def]
  rfl

theorem slab_ran : slabModel.Ran where
  proper := by norm_num [Solid, exBox, slabModel]
  regU := by
    intro p _
    simp only [slabModel, exReg]
    split_ifs <;> simp [Fits, Vec.dot, Vec.sub]
  sph := by decide
  grave := slab_grave
  inside := by
    intro m hm b hb
    simp only [slabModel, List.mem_singleton] at hm
    subst hm
    cases hb
    exact ⟨le_rfl, le_rfl, le_rfl, le_rfl, le_rfl, le_rfl⟩
  long := ⟨fun _ => 1, by intro c; cases c <;> norm_num [slabModel, len, exBox], by norm_num⟩
  boxes := by
    have tt : Touch exBox exBox := by norm_num [Touch, exBox]
    refine ⟨[slab], ?_, ?_⟩
    · simp [slabModel, voidObjs, slab, tt, removeExtraComp, copyMeta, hullAll, keepLoop, hit, Seq.elemsOf, bind, Except.bind, Seq.append, appendLoop]
    · simp [slabModel, getVoidBoxes, voidLoop, splitVBox]
  solid := by
    intro z hz
    simp only [slabModel, List.mem_singleton] at hz
    subst hz
    norm_num [Solid, exBox]
  reg := by
    intro z hz p _
    simp only [slabModel, exReg]
    split_ifs <;> simp [Fits, Vec.dot, Vec.sub]
  tables := fun h => absurd rfl h
  cell := by
    intro z hz
    simp only [slabModel, List.mem_singleton] at hz
    subst hz
    simp only [slabModel, defsOf, List.map_cons, List.map_nil, exBox_def, slab]
    rfl

open Classical in
/-- the sides of the surfaces at a point -/
noncomputable def slabSides (q : Vec) (n : Nat) : Bool :=
  if n = 1 then decide (0 < q.x) else if n = 2 then decide (q.x < 1) else if n = 3 then decide (q.y < 0) else if n = 4 then decide (q.y < 2) else
  if n = 5 then decide (0 < q.z) else if n = 6 then decide (q.z < 3) else if n = 7 then decide (1 < q.z) else if n = 8 then decide (2 < q.z) else
  decide (sphRadius exBox ^ 2 < distSq q (center exBox))

/-- on none of the planes of the box and not on the sphere -/
def Off (q : Vec) : Prop := q.x ≠ 0 ∧ q.x ≠ 1 ∧ q.y ≠ 0 ∧ q.y ≠ 2 ∧ q.z ≠ 0 ∧ q.z ≠ 3 ∧ distSq q (center exBox) ≠ sphRadius exBox ^ 2

theorem slab_sides {q : Vec} (h : Off q) : SidesAt exBox exReg q (slabSides q) := by
  obtain ⟨h1, h2, h3, h4, h5, h6, -⟩ := h
  have x2 : ((-1 : ℝ) = 1) = False := by norm_num
  intro p hp
  simp only [boundPlanes, List.mem_cons, List.not_mem_nil, or_false] at hp
  rcases hp with rfl | rfl | rfl | rfl | rfl | rfl <;>
    simp [exReg, Pl.val, Vec.dot, Vec.sub, Vec.neg, exBox, slabSides, center, x2, sub_eq_zero, h1, h2.symm, h3, h4.symm, h5, h6.symm]

/-- every point off the surfaces meets the hypotheses -/
theorem slab_at {q : Vec} (h : Off q) : slabModel.At q (slabSides q) where
  box := slab_sides h
  sphere := ⟨h.2.2.2.2.2.2, by simp [slabModel, slabSides]⟩
  boxes := by
    intro z hz
    simp only [slabModel, List.mem_singleton] at hz
    subst hz
    exact slab_sides h
  tables := fun h => absurd rfl h
  apart := by simp [slabModel, AtMostOne]
  solids := by
    intro m hm
    simp only [slabModel, List.mem_singleton] at hm
    subst hm
    have hin : (Seq.lst .and 0 ([1, 2, -3, 4, 7, -8].map .int)).sem (slabSides q) = true → exBox.Mem ⟨q.x, q.y, q.z⟩ := by
      simp [Seq.sem, Seq.semAll, lit, slabSides, exBox, BBox.Mem]
      intro a b c d e f
      refine ⟨⟨?_, ?_⟩, ⟨?_, ?_⟩, ?_, ?_⟩ <;> linarith
    refine ⟨⟨[(some exBox, .lst .and 0 ([1, 2, -3, 4, 7, -8].map .int))], ⟨rfl, ⟨1, rfl⟩, ?_, ?_⟩⟩, ?_, ?_⟩
    · simp
    · intro p hp hs
      rw [List.mem_singleton] at hp
      subst hp
      exact ⟨exBox, rfl, hin hs⟩
    · simp [slab, Seq.WF, Seq.WFL]
    · intro hs
      refine ⟨exBox, rfl, hin ?_⟩
      simpa [slab, Seq.sem, Seq.semAny] using hs

/-- in this model every point off the surfaces is in exactly one cell -/
example (q : Vec) (h : Off q) : ExactlyOne (fun d : Seq => d.sem (slabSides q) = true) slabModel.cells := C122_cells_partial slabModel slab_ran q _ (slab_at h)

/-! ### its file -/

open McnpFile

def fileSlab : McnpFile.Cell := ⟨some 1, 1, 3, some 2, .lst .or 1 [.lst .and 0 ([1, 2, -3, 4, 7, -8].map .int)], 5, false, true, T "slab", some (T "Steel"), none, none⟩
def fileVoid : McnpFile.Cell := ⟨some 2, 2, 0, none, slabVoid, 0, true, false, [], none, none, none⟩
def fileIn : McnpFile.Cell := ⟨some 3, 3, 0, none, slabIn, 0, true, false, [], some (T "Graveyard_in"), none, none⟩
def fileOut : McnpFile.Cell := ⟨some 4, 4, 0, none, .lst .and 0 [.int 9], 0, true, false, [], some (T "Graveyard"), none, none⟩

/-- the file: a comment between the solid and the void cells; graveyard before the void cell -/
def slabInput : Input := model1 (T "a tank") [fileSlab, cellB, fileIn, fileOut, fileVoid]

theorem slab_file_cases {c : McnpFile.Cell} (h : c ∈ slabInput.cells) : c = fileSlab ∨ c = cellB ∨ c = fileIn ∨ c = fileOut ∨ c = fileVoid := by
  simpa [slabInput, model1] using h

theorem slab_good : Good fmt1 slabInput where
  formats := fmt1_ok
  title := title_ok
  step := by unfold Card.Plain; decide
  version := by unfold Card.Plain; decide
  freecad := by unfold Card.Plain; decide
  date := by unfold Card.Plain; decide
  surfaces := fun s hs => surfs_ok s hs
  cells := by
    intro c hc
    rcases slab_file_cases hc with rfl | rfl | rfl | rfl | rfl
    · refine ⟨by unfold PlainLines; decide, by intro m hm; cases hm; unfold PlainLines; decide, fun _ => ⟨by decide, by decide, fun _ => ⟨2, rfl, by decide, by decide⟩, _, _, _, rfl, ?_, ?_, ?_, ?_, ?_⟩⟩ <;>
        simp [Seq.WF, Seq.WFL, Seq.NoBool, Seq.NoBoolL, Text.Full, Text.FullL, Seq.depth, Seq.depthL, Text.Below, Text.BelowL]
    · exact cellB_ok
    · refine ⟨by unfold PlainLines; decide, by intro m hm; cases hm; unfold PlainLines; decide, fun _ => ⟨by decide, by decide, fun h => absurd rfl h, _, _, _, rfl, ?_, ?_, ?_, ?_, ?_⟩⟩ <;>
        simp [Seq.WF, Seq.WFL, Seq.NoBool, Seq.NoBoolL, Text.Full, Text.FullL, Seq.depth, Seq.depthL, Text.Below, Text.BelowL]
    · refine ⟨by unfold PlainLines; decide, by intro m hm; cases hm; unfold PlainLines; decide, fun _ => ⟨by decide, by decide, fun h => absurd rfl h, _, _, _, rfl, ?_, ?_, ?_, ?_, ?_⟩⟩ <;>
        simp [Seq.WF, Seq.WFL, Seq.NoBool, Seq.NoBoolL, Text.Full, Text.FullL, Seq.depth, Seq.depthL, Text.Below, Text.BelowL]
    · refine ⟨by unfold PlainLines; decide, (by intro m hm; cases hm), fun _ => ⟨by decide, by decide, fun h => absurd rfl h, _, _, _, rfl, ?_, ?_, ?_, ?_, ?_⟩⟩ <;>
        simp [Seq.WF, Seq.WFL, Seq.NoBool, Seq.NoBoolL, Text.Full, Text.FullL, Seq.depth, Seq.depthL, Text.Below, Text.BelowL]

theorem slab_signs : Signs fmt1 slabInput where
  e4 := model1_signs.e4
  f7 := model1_signs.f7
  e := model1_signs.e
  uni u hu := by cases hu; decide
  cells c hc _ := by
    rcases slab_file_cases hc with rfl | rfl | rfl | rfl | rfl <;> exact ⟨by decide, by decide, fun n hn => (by cases hn), fun n hn => (by cases hn)⟩

/-- the file of this model is written and read; every point off the surfaces is in exactly one of the cells read -/
example : ∃ K, ∀ k, K ≤ k → ∃ (s : List Char) (cs : List Card.PyCard), writeInput fmt1 1000 k slabInput = .ok s ∧ Card.getCards s = .ok cs ∧
    ∀ q, Off q → ExactlyOne (CardHolds CellText.textArith (slabSides q)) (cs.filter (fun p => p.ctype = 3)) := by
  obtain ⟨K, hK⟩ := C122_mcnp_partial CellText.textArith (fun t _ => ⟨t, rfl⟩) fmt1 slabInput slab_good slab_signs 1000 (by omega) (Or.inr (Or.inr rfl)) slabModel slab_ran
    [slab.defn, slabIn, .lst .and 0 [.int 9], slabVoid] (by
      show List.Perm _ [slab.defn, slabVoid, slabIn, .lst .and 0 [.int 9]]
      exact .cons _ ((List.perm_append_comm (l₁ := [slabIn, .lst .and 0 [.int 9]]) (l₂ := [slabVoid]))))
  refine ⟨K, fun k hk => ?_⟩
  obtain ⟨s, cs, h1, h2, h3⟩ := hK k hk
  refine ⟨s, cs, h1, h2, fun q hq => h3 q _ _ (slab_at hq) ?_⟩
  show List.Forall₂ _ [fileSlab, fileIn, fileOut, fileVoid] _
  exact .cons rfl (.cons rfl (.cons rfl (.cons rfl .nil)))

/-! ### its OpenMC file -/

/-- the same cells; the outside of the sphere is in the list, but not written -/
def xmlCells : List OmcFile.Cell := [fileSlab, cellB, fileIn, fileOut, fileVoid].map fun c => ⟨c.id, c.label, c.material, c.definition, c.comments, c.matInfo⟩

theorem slab_xml : OmcFile.GoodXml 30 xmlCells [OmcFile.surf1, OmcFile.surf2, OmcFile.surf3] where
  some := by decide
  surfaces := OmcFile.surf1_good
  cells c hc hw := by
    simp only [xmlCells, List.map_cons, List.map_nil, List.mem_cons, List.not_mem_nil, or_false] at hc
    rcases hc with rfl | rfl | rfl | rfl | rfl
    · exact ⟨⟨_, _, _, rfl, by simp [Seq.WF, Seq.WFL], by simp [Seq.NoBool, Seq.NoBoolL], by simp [Text.Full, Text.FullL], by simp [Seq.depth, Seq.depthL]⟩, by unfold OmcFile.PlainBreaks; decide, by unfold OmcFile.Attr; decide⟩
    · exact absurd hw (by decide)
    · exact ⟨⟨_, _, _, rfl, by simp [Seq.WF, Seq.WFL], by simp [Seq.NoBool, Seq.NoBoolL], by simp [Text.Full, Text.FullL], by simp [Seq.depth, Seq.depthL]⟩, by unfold OmcFile.PlainBreaks; decide, by unfold OmcFile.Attr; decide⟩
    · exact absurd hw (by decide)
    · exact ⟨⟨_, _, _, rfl, by simp [Seq.WF, Seq.WFL], by simp [Seq.NoBool, Seq.NoBoolL], by simp [Text.Full, Text.FullL], by simp [Seq.depth, Seq.depthL]⟩, by unfold OmcFile.PlainBreaks; decide, by unfold OmcFile.Attr; decide⟩

example : ∃ (t : List Char) (kc : List OmcFile.Read.CellCard) (ks : List (OmcFile.Read.SurfCard (List Char))),
    OmcFile.writeXml 30 xmlCells [OmcFile.surf1, OmcFile.surf2, OmcFile.surf3] = .ok t ∧ OmcFile.Read.readFile CellText.textArith t = .ok (kc.map .cell ++ ks.map .surface) ∧
      ∀ q, Off q → (distSq q (center exBox) < sphRadius exBox ^ 2 → ExactlyOne (fun k : OmcFile.Read.CellCard => Text.CMeans (slabSides q) k.geom true) kc) ∧
        (sphRadius exBox ^ 2 < distSq q (center exBox) → ∀ k ∈ kc, ¬ Text.CMeans (slabSides q) k.geom true) := by
  obtain ⟨t, kc, ks, h1, h2, h3⟩ := C122_xml_partial CellText.textArith 30 _ _ slab_xml (OmcFile.Read.surfs_numbers _ (fun _ => rfl)) slabModel slab_ran
    [slab.defn, slabIn, slabVoid] (by
      show List.Perm _ [slab.defn, slabVoid, slabIn]
      exact .cons _ (.swap _ _ _))
  refine ⟨t, kc, ks, h1, h2, fun q hq => h3 q _ _ (slab_at hq) ?_⟩
  have e : xmlCells.filter (fun c => c.Wanted) = [fileSlab, fileIn, fileVoid].map fun c => ⟨c.id, c.label, c.material, c.definition, c.comments, c.matInfo⟩ := by
    simp [xmlCells, List.filter_cons, OmcFile.Cell.Wanted, fileSlab, cellB, fileIn, fileOut, fileVoid, T]
  rw [e]
  exact .cons rfl (.cons rfl (.cons rfl .nil))

/-! ### its PHITS file -/

def phSlab : PhitsFile.Cell := { fileSlab with enclosure := none }
def phVoid : PhitsFile.Cell := { fileVoid with enclosure := none }
def phIn : PhitsFile.Cell := { fileIn with enclosure := none }
def phOut : PhitsFile.Cell := { fileOut with enclosure := none }

def phInput : PhitsFile.Input := { PhitsFile.modelP (T "a tank") (some (3, 1)) 3 (some (T "ISO-10303-21; PRODUCT('tank')")) with cells := [phSlab, PhitsFile.note1, phVoid, phIn, phOut] }

theorem ph_cases {c : PhitsFile.Cell} (h : c ∈ phInput.cells) : c = phSlab ∨ c = PhitsFile.note1 ∨ c = phVoid ∨ c = phIn ∨ c = phOut := by simpa [phInput] using h

theorem ph_good : PhitsFile.Good PhitsFile.fmtP phInput true where
  formats := PhitsFile.fmtP_ok
  title := by show '\n' ∉ T "a tank"; decide
  step := by show '\n' ∉ T "a.stp"; decide
  version := by show '\n' ∉ T "1.0"; decide
  freecad := by show '\n' ∉ T "0.21.2"; decide
  date := by show '\n' ∉ T "2024-01-01 00:00:00"; decide
  voidMat := by
    intro m d h
    cases h
    exact ⟨by decide, by decide, PhitsFile.short 1, phSlab, by simp [phInput], rfl⟩
  cells := by
    intro c hc
    rcases ph_cases hc with rfl | rfl | rfl | rfl | rfl
    · refine ⟨by decide, by decide, Or.inl (by decide), by decide, fun _ _ => ⟨2, rfl, PhitsFile.short 2⟩, fun _ _ _ => by decide, fun _ => ?_, fun _ m hm => ?_⟩
      · rw [if_neg (by rintro ⟨_, h⟩; revert h; decide)]
        refine PhitsFile.good_def ?_ ?_ ?_ ?_ ?_
        all_goals simp [Seq.WF, Seq.WFL, Seq.NoBool, Seq.NoBoolL, Text.Full, Text.FullL, Seq.depth, Seq.depthL, Text.Below, Text.BelowL]
      · cases hm; decide
    · refine ⟨by decide, by decide, Or.inr rfl, by decide, fun h => absurd h (by decide), fun _ h => absurd h (by decide), fun h => absurd h.1 (by decide), fun _ m hm => by cases hm⟩
    · refine ⟨by decide, by decide, Or.inl (by decide), by decide, fun _ h => absurd rfl h, fun _ _ h => absurd h (by decide), fun h => absurd h (by decide), fun _ m hm => by cases hm⟩
    · refine ⟨by decide, by decide, Or.inl (by decide), by decide, fun _ h => absurd rfl h, fun _ _ h => absurd h (by decide), fun _ => ?_, fun _ m hm => ?_⟩
      · rw [if_pos ⟨rfl, rfl⟩]
        exact ⟨.and, 1, -9, _, rfl, by decide, by decide⟩
      · cases hm; decide
    · refine ⟨by decide, by decide, Or.inl (by decide), by decide, fun _ h => absurd rfl h, fun _ _ h => absurd h (by decide), fun _ => ?_, fun _ m hm => ?_⟩
      · rw [if_neg (by rintro ⟨_, h⟩; revert h; decide)]
        refine PhitsFile.good_def ?_ ?_ ?_ ?_ ?_
        all_goals simp [Seq.WF, Seq.WFL, Seq.NoBool, Seq.NoBoolL, Text.Full, Text.FullL, Seq.depth, Seq.depthL, Text.Below, Text.BelowL]
      · cases hm; decide
  surfaces := McnpFile.surfs_ok
  numbered := by
    intro _
    refine ⟨[phSlab], [phVoid], [phIn, phOut], rfl, ?_, ?_, Or.inr ⟨phIn, phOut, rfl, rfl, rfl, rfl, rfl⟩, ?_⟩
    · intro c hc; rw [List.mem_singleton.mp hc]; rfl
    · intro c hc; rw [List.mem_singleton.mp hc]; decide
    · intro n c hn
      match n, hn with
      | 0, hn => cases hn; rfl
      | 1, hn => cases hn; rfl
      | 2, hn => cases hn; rfl
      | 3, hn => cases hn; rfl
      | n + 4, hn => simp at hn

theorem ph_positive : PhitsFile.Positive phInput where
  cells := by
    intro c hc
    rcases ph_cases hc with rfl | rfl | rfl | rfl | rfl <;> decide
  voidMat := by
    intro m d h
    cases h
    decide

theorem ph_solids : PhitsFile.solids phInput = [phSlab] := by
  simp [PhitsFile.solids, phInput, PhitsFile.Cell.real, phSlab, PhitsFile.note1, phVoid, phIn, phOut, fileSlab, fileVoid, fileIn, fileOut]

theorem ph_shown : phInput.cells.filter (fun c => PhitsFile.Shown true c) = [phSlab, phIn, phOut] := by
  simp [PhitsFile.Shown, PhitsFile.Cell.inner, PhitsFile.Cell.outer, phInput, PhitsFile.Cell.real, phSlab, PhitsFile.note1, phVoid, phIn, phOut, fileSlab, fileVoid, fileIn, fileOut, T]

example : ∃ K, ∀ k, K ≤ k → ∃ s cells body rest file, PhitsFile.writePhits PhitsFile.fmtP 1000 k phInput = .ok (s, cells) ∧
    PhitsFile.split (Wrap.linesOf s) = ([], ("[CELL]".toList, body) :: rest) ∧ PhitsFile.cards body = ([], file) ∧
      ∀ q, Off q → ∀ n, 2 ≤ n → ExactlyOne (PhitsFile.Inside file (slabSides q) n) file := by
  obtain ⟨K, hK⟩ := C122_phits_partial PhitsFile.fmtP phInput _ ph_good ph_positive rfl PhitsFile.unify_plain 1000 (by omega) slabModel slab_ran.toFramed phIn phOut
    (by rw [ph_shown, ph_solids]; rfl) rfl (by decide) (by rw [ph_solids]; intro c hc; rw [List.mem_singleton.1 hc]; decide) ⟨.and, 1, _, rfl⟩ [slab.defn] (.refl _)
  refine ⟨K, fun k hk => ?_⟩
  obtain ⟨s, cells, body, rest, file, h1, h2, h3, h4⟩ := hK k hk
  refine ⟨s, cells, body, rest, file, h1, h2, h3, fun q hq => h4 q _ _ (slab_at hq).toMeets ?_ rfl rfl⟩
  rw [ph_solids]
  exact .cons rfl .nil

end Geouned.Whole
