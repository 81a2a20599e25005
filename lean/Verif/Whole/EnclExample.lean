import Verif.Whole.Encl
import Verif.Whole.Example
import Verif.Void.PieceExamples
/-!
# C122 with enclosures: a conversion that meets the hypotheses

The universe box `[0,1] × [0,2] × [0,3]` with the enclosure `1 < z < 2`, in which there is the solid `1 < z < 3/2`.
-/
namespace Geouned.Whole
open Geouned Geouned.Geom Geouned.Box Geouned.Void Geouned.Encl

/-- the CAD solid of the enclosure -/
noncomputable def layerBox : BBox := ⟨0, 1, 0, 2, 1, 2⟩

/-- the solid in the enclosure: planes 1-4 of the box, 7 (z = 1), 8 (z = 2), 10 (z = 3/2) -/
noncomputable def plate : VObj := ⟨2, false, [some ⟨0, 1, 0, 2, 1, 3 / 2⟩], some ⟨0, 1, 0, 2, 1, 3 / 2⟩, .lst .or 1 [.lst .and 0 ([1, 2, -3, 4, 7, -8, -10].map .int)]⟩

def plateDef : Seq := .lst .or 1 [.lst .and 0 ([1, 2, -3, 4, 7, -8, -10].map .int)]
def slabDef : Seq := .lst .or 1 [.lst .and 0 ([1, 2, -3, 4, 7, -8].map .int)]

/-- the void cell of the enclosure -/
def layerVoid : Option Seq := (voidCell true .no true slabDef [plateDef] (freeTable false) Seq.surfaces 60).toOption.getD none

theorem layer_cell : voidCell true .no true slabDef [plateDef] (freeTable false) Seq.surfaces 60 = .ok layerVoid := by rfl

noncomputable def layerModel : EnclConversion BBox where
  uni := slabModel
  es := [⟨1, 0⟩]
  fuel := 1
  ns := [[⟨1, 0⟩], []]
  ss := [(⟨1, 0⟩, [])]
  sonsOf := fun _ => []
  sols := [⟨7, fun _ => -1⟩]
  vs := fun _ => plate
  ve := fun _ => slab
  K := boxKernel
  solidOf := fun _ => layerBox
  pdef := fun _ => slabDef
  many := fun _ _ => False
  t := fun _ _ => freeTable false
  boxes := fun _ => [⟨layerBox, some layerBox, [plate]⟩]
  cell := fun _ _ => layerVoid
  init := 1

theorem layer_select : select [[⟨1, 0⟩], []] [] ((1 : Nat) : Int) [⟨7, fun _ => -1⟩] = [.sol ⟨7, fun _ => -1⟩] := rfl

theorem layer_choose : chooseObjs [plate] layerBox = [plate] := by
  have tt : Touch layerBox ⟨0, 1, 0, 2, 1, 3 / 2⟩ := by norm_num [Touch, layerBox]
  have : voidObjs layerBox [plate] = .ok [plate] := by
    simp [voidObjs, plate, tt, removeExtraComp, copyMeta, hullAll, keepLoop, hit, Seq.elemsOf, bind, Except.bind, Seq.append, appendLoop]
  simp [chooseObjs, this, Except.toOption]

theorem layer_boxes : enclosureBoxes boxKernel (fun _ => False) chooseObjs 1 layerBox [plate] = [⟨layerBox, some layerBox, [plate]⟩] := by
  have : ofSolid boxKernel (fun b => chooseObjs [plate] b) layerBox = ⟨layerBox, some layerBox, [plate]⟩ := by
    simp [ofSolid, boxKernel, layer_choose]
  rw [enclosureBoxes, this]
  simp [getVoidBoxes, voidLoop, splitPBox]

theorem layer_ran : layerModel.Ran where
  uni := slab_ran
  hier := ⟨by simp [layerModel], by simp [layerModel], by simp [layerModel], fun e he => ⟨1, by simp [layerModel] at he; subst he; exact .top (by simp [layerModel]) rfl⟩⟩
  fuel := le_rfl
  levels := rfl
  sons := by simp [layerModel]
  around := by simp [layerModel]
  top := by rfl
  inside := by
    intro m _ b hb
    cases hb
    norm_num [Within, layerModel, slabModel, exBox]
  proper := by intro e _; norm_num [layerModel, boxKernel, layerBox, BBox.Proper]
  long := by
    intro e _
    refine ⟨by norm_num [Within, layerModel, slabModel, exBox, boxKernel, layerBox], fun _ => 1, ?_, by norm_num⟩
    intro c; cases c <;> norm_num [layerModel, slabModel, boxKernel, layerBox, len]
  boxes := by
    intro e he
    simp only [layerModel, List.mem_singleton] at he
    subst he
    exact layer_boxes.symm
  solid := by
    intro e _ z hz hp
    simp only [layerModel, List.mem_singleton] at hz
    subst hz
    cases hp
  pdef := by
    intro e _ z _ s _
    exact ⟨by simp [layerModel, slabDef, Seq.WF, Seq.WFL], fun _ => false, by simp [layerModel, slabModel], by simp [layerModel, slabDef, Seq.sem, Seq.semAny, Seq.semAll, lit]⟩
  tables := fun h => absurd rfl h
  cell := by
    intro e _ z hz
    simp only [layerModel, List.mem_singleton] at hz
    subst hz
    exact layer_cell
  one := by intro e _ z _ hm; exact hm.elim

open Classical in
/-- the sides of the surfaces at a point -/
noncomputable def layerSides (q : Vec) (n : Nat) : Bool := if n = 10 then decide (3 / 2 < q.z) else slabSides q n

/-- the points of the theorem are off the planes too -/
def OffLayer (q : Vec) : Prop := Off q ∧ q.z ≠ 1 ∧ q.z ≠ 2

theorem slabDef_sem (σ : Side) : slabDef.sem σ = true ↔ σ 1 = true ∧ σ 2 = true ∧ σ 3 = false ∧ σ 4 = true ∧ σ 7 = true ∧ σ 8 = false := by
  simp [slabDef, Seq.sem, Seq.semAny, Seq.semAll, lit]

theorem plateDef_sem (σ : Side) : plateDef.sem σ = true ↔ σ 1 = true ∧ σ 2 = true ∧ σ 3 = false ∧ σ 4 = true ∧ σ 7 = true ∧ σ 8 = false ∧ σ 10 = false := by
  simp [plateDef, Seq.sem, Seq.semAny, Seq.semAll, lit]

theorem layer_in {q : Vec} (h : OffLayer q) : slabDef.sem (layerSides q) = true ↔ layerBox.Int ⟨q.x, q.y, q.z⟩ := by
  obtain ⟨⟨h1, h2, h3, h4, h5, h6, -⟩, h7, h8⟩ := h
  rw [slabDef_sem]
  simp only [layerSides, slabSides, BBox.Int, layerBox]
  simp
  constructor
  · rintro ⟨a, b, c, d, e, f⟩
    exact ⟨⟨a, b⟩, ⟨lt_of_le_of_ne c (Ne.symm h3), d⟩, e, lt_of_le_of_ne f h8⟩
  · rintro ⟨⟨a, b⟩, ⟨c, d⟩, e, f⟩
    exact ⟨a, b, c.le, d, e, f.le⟩

theorem layer_sides {q : Vec} (h : OffLayer q) : SidesAt exBox exReg q (layerSides q) := by
  intro p hp
  have h1 := slab_sides h.1 p hp
  have hid : (exReg p).id ≠ 10 := by
    simp only [exReg]
    split_ifs <;> simp
  simp only [layerSides, if_neg hid]
  exact h1

theorem plate_in {q : Vec} (h : OffLayer q) : plateDef.sem (layerSides q) = true → (⟨0, 1, 0, 2, 1, 3 / 2⟩ : BBox).Mem ⟨q.x, q.y, q.z⟩ := by
  rw [plateDef_sem]
  simp only [layerSides, slabSides, BBox.Mem]
  simp
  intro a b c d e f g
  refine ⟨⟨?_, ?_⟩, ⟨?_, ?_⟩, ?_, ?_⟩ <;> linarith

theorem layer_at {q : Vec} (h : OffLayer q) : layerModel.At (fun s q => s.Int ⟨q.x, q.y, q.z⟩) q (layerSides q) where
  box := layer_sides h
  sphere := ⟨h.1.2.2.2.2.2.2, by simp [layerModel, slabModel, layerSides, slabSides]⟩
  boxes := by
    intro z hz
    simp only [layerModel, slabModel, List.mem_singleton] at hz
    subst hz
    exact layer_sides h
  tables := fun h => absurd rfl h
  sols := by
    intro m _
    refine ⟨⟨[(some ⟨0, 1, 0, 2, 1, 3 / 2⟩, .lst .and 0 ([1, 2, -3, 4, 7, -8, -10].map .int))], ⟨rfl, ⟨1, rfl⟩, ?_, ?_⟩⟩, ?_, ?_⟩
    · simp
    · intro p hp hs
      rw [List.mem_singleton] at hp
      subst hp
      refine ⟨_, rfl, plate_in h ?_⟩
      simpa [plateDef, Seq.sem, Seq.semAny] using hs
    · simp [layerModel, plate, Seq.WF, Seq.WFL]
    · intro hs
      exact ⟨_, rfl, plate_in h hs⟩
  encls := by
    intro e _
    have hin : slabDef.sem (layerSides q) = true → exBox.Mem ⟨q.x, q.y, q.z⟩ := by
      rw [layer_in h]
      rintro ⟨⟨a, b⟩, ⟨c, d⟩, e, f⟩
      simp only [layerBox] at a b c d e f
      simp only [exBox, BBox.Mem]
      refine ⟨⟨?_, ?_⟩, ⟨?_, ?_⟩, ?_, ?_⟩ <;> linarith
    refine ⟨⟨⟨[(some exBox, .lst .and 0 ([1, 2, -3, 4, 7, -8].map .int))], ⟨rfl, ⟨1, rfl⟩, ?_, ?_⟩⟩, ?_, ?_⟩, layer_in h⟩
    · simp
    · intro p hp hs
      rw [List.mem_singleton] at hp
      subst hp
      refine ⟨_, rfl, hin ?_⟩
      simpa [slabDef, Seq.sem, Seq.semAny] using hs
    · simp [layerModel, slab, Seq.WF, Seq.WFL]
    · intro hs
      exact ⟨_, rfl, hin hs⟩
  apart := by simp [layerModel, AtMostOne]
  kernel := boxKernel_fits _
  off := by intro e _ z _ hm; exact hm.elim
  sides := by
    intro e _ z hz
    simp only [layerModel, List.mem_singleton] at hz
    subst hz
    exact ⟨fun h => (by cases h), fun s hs => (by cases hs; exact layer_in h)⟩
  tablesE := by
    intro e _ z _
    exact ⟨fun hm => absurd rfl hm, fun hm => by cases hm⟩

/-- a point of the plate -/
noncomputable def platePt : layerModel.Pts fun s q => s.Int ⟨q.x, q.y, q.z⟩ :=
  ⟨(⟨1 / 2, 1, 5 / 4⟩, layerSides ⟨1 / 2, 1, 5 / 4⟩), layer_at ⟨⟨by norm_num, by norm_num, by norm_num, by norm_num, by norm_num, by norm_num, by
    have := C50_sphere_holds_box exBox (by norm_num [Solid, exBox]) ⟨1 / 2, 1, 5 / 4⟩ (by norm_num [InBox, BBox.Mem, exBox])
    exact this.ne⟩, by norm_num, by norm_num⟩⟩

theorem platePt_in : slabDef.sem platePt.1.2 = true ∧ plateDef.sem platePt.1.2 = true := by
  rw [slabDef_sem, plateDef_sem]
  norm_num [platePt, layerSides, slabSides]

/-- in this model every point off the surfaces is in exactly one cell -/
example : ∃ cs, voidGeneration layerModel.getVoid (fun _ => false) layerModel.sonsOf layerModel.ns layerModel.sols [slabIn, .lst .and 0 [.int 9]] 1 = some cs ∧
    ∀ q, OffLayer q → ExactlyOne (fun d : Seq => d.sem (layerSides q) = true) (plateDef :: cs.map (fun c => c.cell)) := by
  have hsub : ∀ σ, plateDef.sem σ = true → slabDef.sem σ = true := by
    intro σ
    rw [slabDef_sem, plateDef_sem]
    tauto
  obtain ⟨cs, h1, h2⟩ := C122_enclosures_partial layerModel layer_ran (fun s q => s.Int ⟨q.x, q.y, q.z⟩)
    ⟨by simp [layerModel], by simp [layerModel]⟩
    (by
      intro m hm
      simp only [layerModel, List.mem_singleton] at hm
      subst hm
      have hall : ∀ x : layerModel.Pts fun s q => s.Int ⟨q.x, q.y, q.z⟩, (layerModel.vs ⟨7, fun _ => -1⟩).defn.sem x.1.2 = true → (layerModel.ve ⟨1, 0⟩).defn.sem x.1.2 = true :=
        fun x hx => hsub _ hx
      have hex : ∃ x : layerModel.Pts fun s q => s.Int ⟨q.x, q.y, q.z⟩, (layerModel.vs ⟨7, fun _ => -1⟩).defn.sem x.1.2 = true ∧ (layerModel.ve ⟨1, 0⟩).defn.sem x.1.2 = true :=
        ⟨platePt, platePt_in.2, platePt_in.1⟩
      refine ⟨?_, ?_, ?_, ?_⟩ <;> intro e he <;> simp only [layerModel, List.mem_singleton] at he <;> subst he
      · simpa using hex
      · exact ⟨fun _ => ⟨hex, hall⟩, fun _ => rfl⟩
      · exact ⟨fun h => by simp at h, fun h => absurd hall h.2.1⟩
      · exact ⟨fun h => by simp at h, fun h => absurd hall h.2.1⟩)
  exact ⟨cs, h1, fun q hq => h2 q _ (layer_at hq)⟩

end Geouned.Whole
