import Verif.Whole.Lemmas
import Verif.Void.BoxObjsProps
import Verif.McnpFile.ReadProps
import Verif.OmcFile.ReadProps
import Verif.PhitsFile.Props
/-!
# C122: the cells of a converted model divide space

From the solids (with their definitions) over the void boxes, the void cells and the graveyard to the file and to what GEOReverse reads from it. Parts: C25, C26, C27, C50, C52, C59, C102, C103.
-/
namespace Geouned.Whole
open Geouned Geouned.Geom Geouned.Box Geouned.Void

/-- what a conversion without enclosures has made: the cells of the solids `ms`, the universe box, the void boxes with their void cells, the graveyard (cells inside and outside of
the sphere). The other entries are the settings: minimum size of a void box, whether a box is split, mode of simplification with its tables, the numbering of the surfaces, and Python's
order of sets. -/
structure Conversion where
  ms : List VObj
  U : BBox
  minSize : ℝ
  many : VBox (List VObj) → Prop
  mode : Simp
  t : VBox (List VObj) → CTable
  enum : Seq → List Nat
  fuel : Nat
  reg : Pl → Registered
  sph : Nat
  boxes : List (VBox (List VObj))
  cell : VBox (List VObj) → Option Seq
  inC : Seq
  outC : Seq

/-- the cells of the model: solids, void, graveyard -/
def Conversion.cells (C : Conversion) : List Seq := C.ms.map VObj.defn ++ (C.boxes.filterMap C.cell ++ [C.inC, C.outC])

/-- universe box and graveyard: the box has volume, its planes are registered, the boxes of all cells lie in it (C118) -/
structure Conversion.Framed (C : Conversion) : Prop where
  proper : Solid C.U
  regU : ∀ p ∈ boundPlanes C.U, Fits p (C.reg p)
  sph : C.sph ≠ 0
  grave : graveyard C.U C.reg C.sph = .ok (C.inC, C.outC)
  inside : ∀ m ∈ C.ms, ∀ b, m.box = some b → C.U.xmin ≤ b.xmin ∧ b.xmax ≤ C.U.xmax ∧ C.U.ymin ≤ b.ymin ∧ b.ymax ≤ C.U.ymax ∧ C.U.zmin ≤ b.zmin ∧ b.zmax ≤ C.U.zmax

/-- the steps of the void generation, each without the situations in which it is wrong: the universe box is not longer than about 2^17 minimum sizes per axis (C27), the loop over the void
boxes, no lossy simplification (C26: `guard = true`), planes of the boxes registered -/
structure Conversion.Ran (C : Conversion) : Prop extends C.Framed where
  long : ∃ k : Coord → Nat, (∀ c, len C.U c < C.minSize * 2 ^ (k c + 1)) ∧ k .X + k .Y + k .Z < 50
  boxes : ∃ os, voidObjs C.U C.ms = .ok os ∧ C.boxes = getVoidBoxes (splitVBox C.many subObjs C.minSize) ⟨C.U, os⟩
  solid : ∀ z ∈ C.boxes, Solid z.box
  reg : ∀ z ∈ C.boxes, ∀ p ∈ boundPlanes z.box, Fits p (C.reg p)
  tables : C.mode ≠ .no → ∀ z ∈ C.boxes, (C.t z).NoEquivalence
  cell : ∀ z ∈ C.boxes, voidCell true C.mode false (boxDef z.box C.reg) (defsOf z.objs) (C.t z) C.enum C.fuel = .ok (C.cell z)

/-- the point `q`, not on the universe box or the sphere, has the sides `σ`; the definitions of the solids fit to their CAD solids; no two solids overlap there -/
structure Conversion.Meets (C : Conversion) (q : Vec) (σ : Side) : Prop where
  box : SidesAt C.U C.reg q σ
  sphere : distSq q (center C.U) ≠ sphRadius C.U ^ 2 ∧ (σ C.sph = true ↔ sphRadius C.U ^ 2 < distSq q (center C.U))
  solids : ∀ m ∈ C.ms, Located ⟨q.x, q.y, q.z⟩ σ m
  apart : AtMostOne (fun m => m.defn.sem σ = true) C.ms

/-- moreover, the point is on no plane of a void box, and the tables hold there -/
structure Conversion.At (C : Conversion) (q : Vec) (σ : Side) : Prop extends C.Meets q σ where
  boxes : ∀ z ∈ C.boxes, SidesAt z.box C.reg q σ
  tables : C.mode ≠ .no → ∀ z ∈ C.boxes, InBox z.box q → (C.t z).Sound σ

/-- what the conversion makes of a point: a solid holds it only in the universe box -/
theorem Conversion.Framed.mem {C : Conversion} (h : C.Framed) {q : Vec} {σ : Side} (hq : C.Meets q σ) {m : VObj} (hm : m ∈ C.ms) (hs : m.defn.sem σ = true) : InBox C.U q := by
  obtain ⟨b, hb, ⟨a1, a2⟩, ⟨a3, a4⟩, a5, a6⟩ := (hq.solids m hm).2.2 hs
  obtain ⟨b1, b2, b3, b4, b5, b6⟩ := h.inside m hm b hb
  exact ⟨⟨b1.trans a1, a2.trans b2⟩, ⟨b3.trans a3, a4.trans b4⟩, b5.trans a5, a6.trans b6⟩

/-- **C122**, proved part: every point is in exactly one cell of the model.
Missing: enclosures; the executions in which C26 or C27 is false; definitions rewritten by forceNoOverlap (C59). -/
theorem C122_cells_partial (C : Conversion) (h : C.Ran) (q : Vec) (σ : Side) (hq : C.At q σ) : ExactlyOne (fun d => d.sem σ = true) C.cells := by
  obtain ⟨k, hk, h50⟩ := h.long
  obtain ⟨os, hos, hb⟩ := h.boxes
  have hU : C.U.Proper := ⟨h.proper.1.le, h.proper.2.1.le, h.proper.2.2.le⟩
  obtain ⟨v1, v2, v3⟩ := C52_void_of_solids_partial C.many C.minSize C.U hU k hk h50 C.mode C.reg C.t C.enum C.fuel C.ms os hos C.cell C.boxes hb h.solid h.reg h.tables h.cell q σ
    hq.boxes hq.tables hq.solids
  obtain ⟨inC, outC, hg, g⟩ := C50_graveyard C.U h.proper C.reg C.sph h.sph h.regU
  rw [h.grave] at hg
  cases hg
  obtain ⟨-, -, g3⟩ := g q σ hq.box hq.sphere.1 hq.sphere.2
  have hms : AtMostOne (fun d : Seq => d.sem σ = true) (C.ms.map VObj.defn) := by
    unfold AtMostOne
    rw [List.pairwise_map]
    exact hq.apart
  have hvoid : AtMostOne (fun d : Seq => d.sem σ = true) (C.boxes.filterMap C.cell) := AtMostOne.filterMap v2 fun z _ c hc hs => ⟨c, hc, hs⟩
  rw [exactlyOne_iff]
  unfold Conversion.cells
  by_cases hU' : InBox C.U q
  · have hg : ∀ d ∈ [C.inC, C.outC], ¬ d.sem σ = true := by
      rcases g3 with ⟨-, g1, g2⟩ | ⟨g, -⟩ | ⟨g, -⟩
      · simp [g1, g2]
      · exact absurd hU' g
      · exact absurd hU' g
    by_cases hs : ∃ m ∈ C.ms, m.defn.sem σ = true
    · have hv : ∀ d ∈ C.boxes.filterMap C.cell, ¬ d.sem σ = true := by
        intro d hd
        obtain ⟨z, hz, hc⟩ := List.mem_filterMap.1 hd
        simp [v3 (.inr hs) z hz d hc]
      refine ⟨hms.append (hvoid.append (atMostOne_none hg) (.inr hg)) (.inr fun d hd => ?_), ?_⟩
      · rcases List.mem_append.1 hd with hd | hd
        · exact hv d hd
        · exact hg d hd
      · obtain ⟨m, hm, hs⟩ := hs
        exact ⟨m.defn, by simp only [List.mem_append, List.mem_map]; exact .inl ⟨m, hm, rfl⟩, hs⟩
    · have hs' : ∀ m ∈ C.ms, m.defn.sem σ = false := by simpa using hs
      have hm : ∀ d ∈ C.ms.map VObj.defn, ¬ d.sem σ = true := by
        intro d hd
        obtain ⟨m, hm, rfl⟩ := List.mem_map.1 hd
        simp [hs' m hm]
      refine ⟨hms.append (hvoid.append (atMostOne_none hg) (.inr hg)) (.inl hm), ?_⟩
      obtain ⟨z, hz, c, hc, hs⟩ := v1 hU' hs'
      exact ⟨c, by simp only [List.mem_append, List.mem_filterMap]; exact .inr (.inl ⟨z, hz, hc⟩), hs⟩
  · have hm : ∀ d ∈ C.ms.map VObj.defn, ¬ d.sem σ = true := by
      intro d hd
      obtain ⟨m, hm, rfl⟩ := List.mem_map.1 hd
      exact fun hs => hU' (h.mem hq.toMeets hm hs)
    have hv : ∀ d ∈ C.boxes.filterMap C.cell, ¬ d.sem σ = true := by
      intro d hd
      obtain ⟨z, hz, hc⟩ := List.mem_filterMap.1 hd
      simp [v3 (.inl hU') z hz d hc]
    have hg : AtMostOne (fun d : Seq => d.sem σ = true) [C.inC, C.outC] ∧ ∃ d ∈ [C.inC, C.outC], d.sem σ = true := by
      rcases g3 with ⟨g, -⟩ | ⟨-, g1, g2⟩ | ⟨-, g1, g2⟩
      · exact absurd g hU'
      · exact ⟨by simp [AtMostOne, g1, g2], _, by simp, g1⟩
      · exact ⟨by simp [AtMostOne, g1, g2], C.outC, by simp, g2⟩
    refine ⟨hms.append (hvoid.append hg.1 (.inl hv)) (.inl hm), ?_⟩
    obtain ⟨d, hd, hs⟩ := hg.2
    exact ⟨d, by simp only [List.mem_append]; exact .inr (.inr hd), hs⟩

open McnpFile in
/-- the point with the sides `σ` of the surfaces of the file is in the cell of this cell card, as GEOReverse reads it -/
def CardHolds {V : Type} (F : CellText.Arith V) (σ : Side) (p : Card.PyCard) : Prop :=
  ∃ n q ts, CellText.readCell F (joinLines p.input) = .ok (n, q) ∧ Text.tokensOf (Wrap.wordsOf q.geom) = some ts ∧ Text.Reads σ .union ts true

open McnpFile in
/-- **C122**, proved part: write the model as an MCNP file (any order of the cells, comments between them; the definitions may have been changed by the orientation of the planes, C33: `σ'` are
the sides of the surfaces in the file, `σ` those of the surfaces of the model), read the file: every point is in exactly one of the cells that GEOReverse reads. -/
theorem C122_mcnp_partial {V : Type} (F : CellText.Arith V) (hF : ∀ t, CellText.Number False t → ∃ v, F.flt t = some v) (f : Fmt) (i : Input) (hi : Good f i) (hs : Signs f i) (r : Nat) (hr : 30 ≤ r)
    (he : i.sphere = none ∨ i.volSDEF = false ∨ i.volCARD = true) (C : Conversion) (h : C.Ran) (defs : List Seq) (hdefs : defs.Perm C.cells) :
    ∃ K, ∀ k, K ≤ k → ∃ (s : List Char) (cs : List Card.PyCard), writeInput f r k i = .ok s ∧ Card.getCards s = .ok cs ∧
      ∀ (q : Vec) (σ σ' : Side), C.At q σ → List.Forall₂ (fun c d => c.definition.sem σ' = d.sem σ) (i.cells.filter (fun c => c.real)) defs →
        ExactlyOne (CardHolds F σ') (cs.filter (fun p => p.ctype = 3)) := by
  obtain ⟨K, hK⟩ := C103_cells F hF f i hi hs r hr he
  refine ⟨K, fun k hk => ?_⟩
  obtain ⟨s, cs, h1, h2, h3⟩ := hK k hk
  refine ⟨s, cs, h1, h2, fun q σ σ' hq hd => ?_⟩
  have e1 := (C122_cells_partial C h q σ hq).perm hdefs.symm
  have e2 : ExactlyOne (fun c : McnpFile.Cell => c.definition.sem σ' = true) (i.cells.filter (fun c => c.real)) := by
    exact e1.forall₂ (List.Forall₂.flip (hd.imp fun c d hcd => by simp only [flip]; rw [hcd]))
  refine e2.forall₂ (h3.imp ?_)
  rintro c p ⟨n, card, hr, hc⟩
  have hreg := hc.region σ'
  constructor
  · intro hs
    obtain ⟨ts, t1, t2⟩ := (hreg true).2 hs.symm
    exact ⟨n, card, ts, hr, t1, t2⟩
  · rintro ⟨n', card', ts, hr', t1, t2⟩
    rw [hr] at hr'
    cases hr'
    exact ((hreg true).1 ⟨ts, t1, t2⟩).symm

/-- **C122**, proved part, OpenMC XML: the outside of the sphere is not written (the sphere is the vacuum boundary, C105). Every point inside of the sphere is in exactly one of the cells that
GEOReverse reads, every point outside in none. -/
theorem C122_xml_partial {V : Type} (F : CellText.Arith V) (r : Nat) (cs : List OmcFile.Cell) (ss : List OmcFile.Surf) (hx : OmcFile.GoodXml r cs ss) (hn : ∀ s ∈ ss, OmcFile.Read.Numbers F s)
    (C : Conversion) (h : C.Ran) (defs : List Seq) (hdefs : defs.Perm (C.ms.map VObj.defn ++ (C.boxes.filterMap C.cell ++ [C.inC]))) :
    ∃ (t : List Char) (kc : List OmcFile.Read.CellCard) (ks : List (OmcFile.Read.SurfCard V)), OmcFile.writeXml r cs ss = .ok t ∧ OmcFile.Read.readFile F t = .ok (kc.map .cell ++ ks.map .surface) ∧
      ∀ (q : Vec) (σ σ' : Side), C.At q σ → List.Forall₂ (fun c d => c.definition.sem σ' = d.sem σ) (cs.filter (fun c => c.Wanted)) defs →
        (distSq q (center C.U) < sphRadius C.U ^ 2 → ExactlyOne (fun k : OmcFile.Read.CellCard => Text.CMeans σ' k.geom true) kc) ∧
        (sphRadius C.U ^ 2 < distSq q (center C.U) → ∀ k ∈ kc, ¬ Text.CMeans σ' k.geom true) := by
  obtain ⟨t, kc, ks, h1, h2, h3, -⟩ := OmcFile.Read.C106_read F r cs ss hx hn
  refine ⟨t, kc, ks, h1, h2, fun q σ σ' hq hd => ?_⟩
  obtain ⟨inC, outC, hg, g⟩ := C50_graveyard C.U h.proper C.reg C.sph h.sph h.regU
  rw [h.grave] at hg
  cases hg
  obtain ⟨-, g2, -⟩ := g q σ hq.box hq.sphere.1 hq.sphere.2
  have e1 := C122_cells_partial C h q σ hq
  have hall : (C.outC :: (C.ms.map VObj.defn ++ (C.boxes.filterMap C.cell ++ [C.inC]))).Perm C.cells := by
    unfold Conversion.cells
    have : C.ms.map VObj.defn ++ (C.boxes.filterMap C.cell ++ [C.inC, C.outC]) = (C.ms.map VObj.defn ++ (C.boxes.filterMap C.cell ++ [C.inC])) ++ [C.outC] := by simp
    rw [this]
    exact (List.perm_append_singleton _ _).symm
  have e2 := e1.perm (hall.symm.trans (.cons _ hdefs.symm))
  rw [exactlyOne_iff] at e2
  obtain ⟨e3, d, hd1, hd2⟩ := e2
  unfold AtMostOne at e3
  rw [List.pairwise_cons] at e3
  have hk : List.Forall₂ (fun (d : Seq) (k : OmcFile.Read.CellCard) => d.sem σ = true ↔ Text.CMeans σ' k.geom true) defs kc :=
    forall₂_join hd h3 fun c d k hcd hck => by rw [hck.region σ' true, hcd, eq_comm]
  refine ⟨fun hin => ?_, fun hout k hk' hm => ?_⟩
  · refine ExactlyOne.forall₂ hk ?_
    rw [exactlyOne_iff]
    refine ⟨e3.2, d, ?_, hd2⟩
    rcases List.mem_cons.1 hd1 with rfl | hd1
    · exact absurd (g2.1 hd2) (not_lt.2 hin.le)
    · exact hd1
  · obtain ⟨d', hd', hs⟩ : ∃ d' ∈ defs, d'.sem σ = true := by
      obtain ⟨d', hd', e⟩ := forall₂_mem (List.Forall₂.flip (R := fun k (d : Seq) => d.sem σ = true ↔ Text.CMeans σ' k.geom true) hk) hk'
      exact ⟨d', hd', e.2 hm⟩
    exact e3.1 d' hd' ⟨g2.2 hout, hs⟩

open PhitsFile in
/-- **C122**, proved part, PHITS with unified void: the file has the solids, the void inside of the sphere (`cin`) and the outside (`cout`). Every point is in exactly one cell of the file. The
void cells of GEOUNED are not used, so that nothing is required of their generation. -/
theorem C122_phits_partial (f : Fmt) (i : Input) (text : List Char) (hi : Good f i true) (hp : Positive i) (ht : i.stepText = some text) (hu : Unify text) (r : Nat) (hr : 30 ≤ r)
    (C : Conversion) (h : C.Framed) (cin cout : PhitsFile.Cell) (hcells : (i.cells.filter (fun c => Shown true c)).Perm (solids i ++ [cin, cout]))
    (hin : cin.inner) (hout : ¬ cout.inner) (hsol : ∀ c ∈ solids i, ¬ c.inner) (hfirst : ∃ op l es, cin.definition = .lst op l (.int (-(C.sph : Int)) :: es))
    (defs : List Seq) (hdefs : defs.Perm (C.ms.map VObj.defn)) :
    ∃ K, ∀ k, K ≤ k → ∃ s cells body rest file, writePhits f r k i = .ok (s, cells) ∧ split (Wrap.linesOf s) = ([], ("[CELL]".toList, body) :: rest) ∧ cards body = ([], file) ∧
      ∀ (q : Vec) (σ σ' : Side), C.Meets q σ → List.Forall₂ (fun c d => c.definition.sem σ' = d.sem σ) (solids i) defs → cout.definition.sem σ' = C.outC.sem σ → σ' C.sph = σ C.sph →
        ∀ n, 2 ≤ n → ExactlyOne (Inside file σ' n) file := by
  obtain ⟨K, hK⟩ := C110_regions_partial f i text hi hp ht hu r hr
  refine ⟨K, fun k hk => ?_⟩
  obtain ⟨s, cells, body, rest, file, h1, h2, h3, h4⟩ := hK k hk
  refine ⟨s, cells, body, rest, file, h1, h2, h3, fun q σ σ' hq hd hco hsp n hn => ?_⟩
  refine ExactlyOne.forall₂ (P := fun c => Region i c σ') (h4.imp fun c w hcw => (hcw.2 n hn σ').symm) (ExactlyOne.perm ?_ hcells.symm)
  obtain ⟨inC, outC, hg, g⟩ := C50_graveyard C.U h.proper C.reg C.sph h.sph h.regU
  rw [h.grave] at hg
  cases hg
  obtain ⟨-, g2, -⟩ := g q σ hq.box hq.sphere.1 hq.sphere.2
  -- the solids
  have hs1 : AtMostOne (fun c : PhitsFile.Cell => Region i c σ') (solids i) ∧ ((∃ c ∈ solids i, c.definition.sem σ' = true) → σ C.sph = false) := by
    have ha : AtMostOne (fun d : Seq => d.sem σ = true) (C.ms.map VObj.defn) := by
      unfold AtMostOne
      rw [List.pairwise_map]
      exact hq.apart
    have hreg : ∀ c ∈ solids i, Region i c σ' ↔ c.definition.sem σ' = true := fun c hc => by rw [PhitsFile.Region, if_neg (hsol c hc)]
    have hsem : AtMostOne (fun c : PhitsFile.Cell => c.definition.sem σ' = true) (solids i) :=
      AtMostOne.forall₂ (List.Forall₂.flip (hd.imp fun c d hcd => by simp only [flip]; rw [hcd])) (ha.perm hdefs.symm)
    refine ⟨hsem.imp_of_mem ?_, ?_⟩
    · intro a b ha hb k k'
      exact k ⟨(hreg a ha).1 k'.1, (hreg b hb).1 k'.2⟩
    · rintro ⟨c, hc, hcs⟩
      obtain ⟨d, hd1, hd2⟩ : ∃ d ∈ defs, d.sem σ = true := by
        obtain ⟨d, hd1, e⟩ := forall₂_mem hd hc
        exact ⟨d, hd1, by rw [← e]; exact hcs⟩
      obtain ⟨m, hm, rfl⟩ := List.mem_map.1 (hdefs.mem_iff.1 hd1)
      have := C50_sphere_holds_box C.U h.proper q (h.mem hq hm hd2)
      rw [Bool.eq_false_iff]
      exact fun hc => absurd (hq.sphere.2.1 hc) (not_lt.2 this.le)
  obtain ⟨op, l, es, hfirst⟩ := hfirst
  have rin : Region i cin σ' ↔ σ C.sph = false ∧ ∀ c ∈ solids i, c.definition.sem σ' = false := by
    rw [PhitsFile.Region, if_pos hin]
    constructor
    · rintro ⟨op', l', n', es', e, h1, h2⟩
      rw [hfirst] at e
      cases e
      refine ⟨?_, h2⟩
      have := Nat.pos_of_ne_zero h.sph
      simpa [lit, hsp, this] using h1
    · rintro ⟨h1, h2⟩
      refine ⟨op, l, _, es, hfirst, ?_, h2⟩
      have := Nat.pos_of_ne_zero h.sph
      simpa [lit, hsp, this] using h1
  have rout : Region i cout σ' ↔ σ C.sph = true := by
    rw [PhitsFile.Region, if_neg hout, hco, g2, hq.sphere.2]
  rw [exactlyOne_iff]
  by_cases hs : ∃ c ∈ solids i, c.definition.sem σ' = true
  · have hn : ∀ c ∈ [cin, cout], ¬ Region i c σ' := by
      have k := hs1.2 hs
      intro c hc
      simp only [List.mem_cons, List.not_mem_nil, or_false] at hc
      rcases hc with rfl | rfl
      · rw [rin]
        rintro ⟨-, h2⟩
        obtain ⟨c, hc, hcs⟩ := hs
        simp [h2 c hc] at hcs
      · rw [rout, k]; simp
    refine ⟨hs1.1.append (atMostOne_none hn) (.inr hn), ?_⟩
    obtain ⟨c, hc, hcs⟩ := hs
    exact ⟨c, by simp [hc], by rw [PhitsFile.Region, if_neg (hsol c hc)]; exact hcs⟩
  · have hs' : ∀ c ∈ solids i, c.definition.sem σ' = false := by simpa using hs
    have hn : ∀ c ∈ solids i, ¬ Region i c σ' := fun c hc => by rw [PhitsFile.Region, if_neg (hsol c hc), hs' c hc]; simp
    refine ⟨hs1.1.append ?_ (.inl hn), ?_⟩
    · simp only [AtMostOne, List.pairwise_cons, List.mem_singleton, forall_eq, List.not_mem_nil, IsEmpty.forall_iff, implies_true, List.Pairwise.nil, and_true, rin, rout]
      rintro ⟨⟨h1, -⟩, h2⟩
      rw [h1] at h2; cases h2
    · cases hc : σ C.sph with
      | false => exact ⟨cin, by simp, rin.2 ⟨hc, hs'⟩⟩
      | true => exact ⟨cout, by simp, rout.2 hc⟩

end Geouned.Whole
