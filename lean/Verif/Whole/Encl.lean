import Verif.Whole.Props
import Verif.Void.PieceProps
import Verif.Misc.AssignProps
/-!
# C122 with enclosures: the cells of a converted model divide space

The void of the universe box (C52), of every enclosure (C124) and the graveyard (C50), put together as `void_generation` does (C62, C63).
-/
namespace Geouned.Whole
open Geouned Geouned.Geom Geouned.Box Geouned.Void Geouned.Encl

/-- what a conversion with enclosures has made. `uni` is the part of the universe box: its `ms` are the objects given to `get_void_def` for level 0, with its void boxes, void cells and the
graveyard. `es` are the enclosures with their levels `ns` and sons, `sols` the solids; `vs` and `ve` give their cells; `solidOf` the CAD solid of an enclosure. For each enclosure: the void
boxes, whether a box is split, the tables and the void cells. -/
structure EnclConversion (S : Type) where
  uni : Conversion
  es : List Encl
  fuel : Nat
  ns : List (List Encl)
  ss : List (Encl × List Encl)
  sonsOf : Encl → List Encl
  sols : List Sol
  vs : Sol → VObj
  ve : Encl → VObj
  K : Kernel S
  solidOf : Encl → S
  pdef : S → Seq
  many : Encl → PBox S (List VObj) → Prop
  t : Encl → PBox S (List VObj) → CTable
  boxes : Encl → List (PBox S (List VObj))
  cell : Encl → PBox S (List VObj) → Option Seq
  init : Int

variable {S : Type}

/-- the cell of a solid or an enclosure -/
def EnclConversion.obj (E : EnclConversion S) : Obj → VObj
  | .encl e => E.ve e
  | .sol m => E.vs m

/-- what `get_void_def` gives for the universe (`none`) and for an enclosure; `Ran` says from which objects -/
def EnclConversion.getVoid (E : EnclConversion S) (o : Option Encl) (_ : List Obj) : List Seq :=
  match o with
  | none => E.uni.boxes.filterMap E.uni.cell
  | some e => (E.boxes e).filterMap (E.cell e)

/-- the steps of the void generation, each without the situations in which it is wrong -/
structure EnclConversion.Ran (E : EnclConversion S) : Prop where
  uni : E.uni.Ran
  hier : Hierarchy E.es
  fuel : E.es.length ≤ E.fuel
  levels : setLevels E.fuel E.es = .ok (E.ns, E.ss)
  sons : ∀ e ∈ E.es, (e, E.sonsOf e) ∈ E.ss
  /-- no solid reaches out of an enclosure that it holds (C63) -/
  around : ∀ m ∈ E.sols, ∀ e ∈ E.es, m.inter e ≠ -2
  /-- the objects of level 0 -/
  top : E.uni.ms = (select E.ns (E.ns.headD []) (-1) E.sols).map E.obj
  /-- the boxes of the solids lie in the universe box (C118) -/
  inside : ∀ m ∈ E.sols, ∀ b, (E.vs m).box = some b → Within b E.uni.U
  proper : ∀ e ∈ E.es, (E.K.bbox (E.solidOf e)).Proper
  /-- the enclosures lie in the universe box and are not longer than about 2^17 minimum sizes per axis (C27) -/
  long : ∀ e ∈ E.es, Within (E.K.bbox (E.solidOf e)) E.uni.U ∧ ∃ k : Coord → Nat, (∀ c, len (E.K.bbox (E.solidOf e)) c < E.uni.minSize * 2 ^ (k c + 1)) ∧ k .X + k .Y + k .Z < 50
  boxes : ∀ e ∈ E.es, E.boxes e = enclosureBoxes E.K (E.many e) chooseObjs E.uni.minSize (E.solidOf e) ((select E.ns (E.sonsOf e) e.id E.sols).map E.obj)
  solid : ∀ e ∈ E.es, ∀ z ∈ E.boxes e, z.piece = none → Solid z.box ∧ ∀ p ∈ boundPlanes z.box, Fits p (E.uni.reg p)
  pdef : ∀ e ∈ E.es, ∀ z ∈ E.boxes e, ∀ s, z.piece = some s → (E.pdef s).WF ∧ ∃ σ, (E.uni.mode = .full → (E.t e z).Sound σ) ∧ (E.pdef s).sem σ = false
  tables : E.uni.mode ≠ .no → ∀ e ∈ E.es, ∀ z ∈ E.boxes e, (E.t e z).NoEquivalence
  cell : ∀ e ∈ E.es, ∀ z ∈ E.boxes e, voidCell true E.uni.mode z.piece.isSome (z.definition E.uni.reg E.pdef) (defsOf z.objs) (E.t e z) E.uni.enum E.uni.fuel = .ok (E.cell e z)
  /-- no cut leaves several solids of an enclosure in a half (C124) -/
  one : ∀ e ∈ E.es, ∀ z, Reach (splitPBox E.K (E.many e) chooseObjs E.uni.minSize) (ofSolid E.K (chooseObjs ((select E.ns (E.sonsOf e) e.id E.sols).map E.obj)) (E.solidOf e)) z →
    E.many e z → ∀ s b1 b2, z.piece = some s → split E.uni.minSize z.box = some (b1, b2) → (E.K.common b1 s).length ≤ 1 ∧ (E.K.common b2 s).length ≤ 1

/-- the point `q` with the sides `σ` lies on no plane of a box, on no cut and not on the sphere; the definitions and the answers of the kernel fit to the solids, in which the point is or is
not (`In`); the tables hold; no two solids overlap there -/
structure EnclConversion.At (E : EnclConversion S) (In : S → Vec → Prop) (q : Vec) (σ : Side) : Prop where
  box : SidesAt E.uni.U E.uni.reg q σ
  sphere : distSq q (center E.uni.U) ≠ sphRadius E.uni.U ^ 2 ∧ (σ E.uni.sph = true ↔ sphRadius E.uni.U ^ 2 < distSq q (center E.uni.U))
  boxes : ∀ z ∈ E.uni.boxes, SidesAt z.box E.uni.reg q σ
  tables : E.uni.mode ≠ .no → ∀ z ∈ E.uni.boxes, InBox z.box q → (E.uni.t z).Sound σ
  sols : ∀ m ∈ E.sols, Located ⟨q.x, q.y, q.z⟩ σ (E.vs m)
  encls : ∀ e ∈ E.es, Located ⟨q.x, q.y, q.z⟩ σ (E.ve e) ∧ ((E.ve e).defn.sem σ = true ↔ In (E.solidOf e) q)
  apart : AtMostOne (fun m => (E.vs m).defn.sem σ = true) E.sols
  kernel : E.K.Fits ⟨q.x, q.y, q.z⟩ fun s => In s q
  off : ∀ e ∈ E.es, ∀ z, Reach (splitPBox E.K (E.many e) chooseObjs E.uni.minSize) (ofSolid E.K (chooseObjs ((select E.ns (E.sonsOf e) e.id E.sols).map E.obj)) (E.solidOf e)) z →
    E.many e z → ∀ b1 b2, split E.uni.minSize z.box = some (b1, b2) → z.box.Int ⟨q.x, q.y, q.z⟩ → b1.Int ⟨q.x, q.y, q.z⟩ ∨ b2.Int ⟨q.x, q.y, q.z⟩
  sides : ∀ e ∈ E.es, ∀ z ∈ E.boxes e, (z.piece = none → SidesAt z.box E.uni.reg q σ) ∧ ∀ s, z.piece = some s → ((E.pdef s).sem σ = true ↔ In s q)
  tablesE : ∀ e ∈ E.es, ∀ z ∈ E.boxes e, (E.uni.mode ≠ .no → z.Holds ⟨q.x, q.y, q.z⟩ (fun s => In s q) → (E.t e z).Sound σ) ∧
    (E.uni.mode = .full → z.piece.isSome = true → (E.t e z).Sound σ)

/-- the points of which the theorem speaks -/
def EnclConversion.Pts (E : EnclConversion S) (In : S → Vec → Prop) : Type := {x : Vec × Side // E.At In x.1 x.2}

theorem exactlyOne_countP {α : Type} {p : α → Bool} {l : List α} : ExactlyOne (fun a => p a = true) l ↔ l.countP p = 1 := by
  constructor
  · rintro ⟨l1, a, l2, rfl, ha, h⟩
    rw [List.countP_append, List.countP_cons_of_pos ha]
    have h1 : l1.countP p = 0 := List.countP_eq_zero.2 fun b hb => h b (by simp [hb])
    have h2 : l2.countP p = 0 := List.countP_eq_zero.2 fun b hb => h b (by simp [hb])
    omega
  · intro h
    induction l with
    | nil => simp at h
    | cons a l ih =>
      by_cases ha : p a = true
      · rw [List.countP_cons_of_pos ha] at h
        refine ⟨[], a, l, rfl, ha, fun b hb => ?_⟩
        exact List.countP_eq_zero.1 (by omega : l.countP p = 0) b (by simpa using hb)
      · rw [List.countP_cons_of_neg ha] at h
        obtain ⟨l1, b, l2, rfl, hb, hh⟩ := ih h
        refine ⟨a :: l1, b, l2, rfl, hb, fun c hc => ?_⟩
        simp only [List.cons_append, List.mem_cons] at hc
        rcases hc with rfl | hc
        · exact ha
        · exact hh c hc

/-- **C122 with enclosures**, proved part: the void generation gives a list of cells, and every point is in exactly one cell of the model (solids, void cells, graveyard). Over the points in
question the enclosures are nested as their labels say and the answers of `check_intersection` are right.
Missing: the executions in which C26, C27, C63 or C124 is false; enclosures of type envelope, which get no void. -/
theorem C122_enclosures_partial (E : EnclConversion S) (h : E.Ran) (In : S → Vec → Prop)
    (hp : Placed E.es (fun e (x : E.Pts In) => (E.ve e).defn.sem x.1.2 = true))
    (ha : ∀ m ∈ E.sols, Answers E.es (fun e (x : E.Pts In) => (E.ve e).defn.sem x.1.2 = true) (fun x => (E.vs m).defn.sem x.1.2 = true) m.inter) :
    ∃ cs, voidGeneration E.getVoid (fun _ => false) E.sonsOf E.ns E.sols [E.uni.inC, E.uni.outC] E.init = some cs ∧
      ∀ q σ, E.At In q σ → ExactlyOne (fun d : Seq => d.sem σ = true) (E.sols.map (fun m => (E.vs m).defn) ++ cs.map (fun c => c.cell)) := by
  let P := E.Pts In
  let reg : Encl → P → Prop := fun e x => (E.ve e).defn.sem x.1.2 = true
  let Sp : Sol → P → Prop := fun m x => (E.vs m).defn.sem x.1.2 = true
  let holds : Seq → P → Bool := fun d x => d.sem x.1.2
  let U : P → Prop := fun x => InBox E.uni.U x.1.1
  -- sons are enclosures
  obtain ⟨ls, ss', hl1, hperm, hmem, -, hsp⟩ := C41_levels E.es h.hier E.fuel h.fuel
  rw [h.levels] at hl1
  simp only [Except.ok.injEq, Prod.mk.injEq] at hl1
  obtain ⟨hns, hss⟩ := hl1
  have hflat : ∀ e ∈ E.ns.flatten, e ∈ E.es := by
    intro e he
    rw [hns] at he
    simp only [List.flatten_append, List.flatten_cons, List.flatten_nil, List.append_nil] at he
    exact hperm.mem_iff.1 he
  have hsons : ∀ e ∈ E.es, ∀ c ∈ E.sonsOf e, c ∈ E.es := by
    intro e he c hc
    have := h.sons e he
    rw [hss] at this
    exact (List.mem_filter.1 ((hsp e _ this).2.mem_iff.1 hc)).1
  have htop : ∀ c ∈ E.ns.headD [], c ∈ E.es := by
    intro c hc
    cases hn : E.ns with
    | nil => rw [hn] at hc; cases hc
    | cons a l => rw [hn] at hc; exact hflat c (by rw [hn]; simp at hc ⊢; exact .inl hc)
  -- what is given to `get_void_def`
  have hobj : ∀ (sons : List Encl) (k : Int) (x : P), (∀ c ∈ sons, c ∈ E.es) →
      (∀ m ∈ (select E.ns sons k E.sols).map E.obj, Located ⟨x.1.1.x, x.1.1.y, x.1.1.z⟩ x.1.2 m) ∧
      ((∀ m ∈ (select E.ns sons k E.sols).map E.obj, m.defn.sem x.1.2 = false) ↔ ∀ o ∈ (select E.ns sons k E.sols).map (Obj.pts reg Sp), ¬ o x) := by
    intro sons k x hs
    constructor
    · intro m hm
      simp only [select, List.map_append, List.map_map, List.mem_append, List.mem_map, Function.comp_def, List.mem_filter] at hm
      rcases hm with ⟨c, hc, rfl⟩ | ⟨c, ⟨hc, -⟩, rfl⟩
      · exact (x.2.encls c (hs c hc)).1
      · exact x.2.sols c hc
    · simp only [List.mem_map, forall_exists_index, and_imp, forall_apply_eq_imp_iff₂]
      refine forall₂_congr fun o _ => ?_
      cases o <;> simp [EnclConversion.obj, Obj.pts, reg, Sp]
  -- the universe
  obtain ⟨k, hk, h50⟩ := h.uni.long
  obtain ⟨os, hos, hb⟩ := h.uni.boxes
  have hUp : E.uni.U.Proper := ⟨h.uni.proper.1.le, h.uni.proper.2.1.le, h.uni.proper.2.2.le⟩
  have hU : Fills holds U ((select E.ns (E.ns.headD []) (-1) E.sols).map (Obj.pts reg Sp)) (E.getVoid none (select E.ns (E.ns.headD []) (-1) E.sols)) := by
    intro x
    obtain ⟨o1, o2⟩ := hobj (E.ns.headD []) (-1) x htop
    rw [← h.top] at o1 o2
    obtain ⟨v1, v2, v3⟩ := C52_void_of_solids_partial E.uni.many E.uni.minSize E.uni.U hUp k hk h50 E.uni.mode E.uni.reg E.uni.t E.uni.enum E.uni.fuel E.uni.ms os hos E.uni.cell
      E.uni.boxes hb h.uni.solid h.uni.reg h.uni.tables h.uni.cell x.1.1 x.1.2 x.2.boxes x.2.tables o1
    rw [← o2]
    constructor
    · rintro ⟨u, s⟩
      obtain ⟨z, hz, c, hc, hs⟩ := v1 u s
      refine exactlyOne_countP.1 (exactlyOne_iff.2 ⟨AtMostOne.filterMap v2 fun z _ c hc hs => ⟨c, hc, hs⟩, c, List.mem_filterMap.2 ⟨z, hz, hc⟩, hs⟩)
    · intro hn
      refine List.countP_eq_zero.2 fun d hd => ?_
      obtain ⟨z, hz, hc⟩ := List.mem_filterMap.1 hd
      have : ¬ InBox E.uni.U x.1.1 ∨ ∃ m ∈ E.uni.ms, m.defn.sem x.1.2 = true := by
        by_cases u : InBox E.uni.U x.1.1
        · right
          by_contra hc
          exact hn ⟨u, by simpa using hc⟩
        · exact .inl u
      simp [holds, v3 this z hz d hc]
  -- an enclosure
  have hE : ∀ e ∈ E.es, Fills holds (reg e) ((select E.ns (E.sonsOf e) e.id E.sols).map (Obj.pts reg Sp)) (E.getVoid (some e) (select E.ns (E.sonsOf e) e.id E.sols)) := by
    intro e he x
    obtain ⟨o1, o2⟩ := hobj (E.sonsOf e) e.id x (hsons e he)
    obtain ⟨-, k, hk, h50⟩ := h.long e he
    obtain ⟨v1, v2⟩ := C124_void_partial E.K (E.many e) E.uni.minSize (E.solidOf e) _ (fun s => In s x.1.1) k (h.proper e he) hk h50 E.uni.mode E.uni.reg E.pdef (E.t e) E.uni.enum E.uni.fuel
      (E.cell e) (E.boxes e) (h.boxes e he) (h.solid e he) (h.pdef e he) (fun hm => h.tables hm e he) (h.cell e he) x.1.1 x.1.2 x.2.kernel (x.2.off e he) (h.one e he) (x.2.sides e he)
      (x.2.tablesE e he) o1
    rw [← o2, show reg e x ↔ In (E.solidOf e) x.1.1 from (x.2.encls e he).2]
    refine ⟨fun hh => exactlyOne_countP.1 (v1 hh), fun hh => List.countP_eq_zero.2 fun d hd => ?_⟩
    simp [holds, v2 hh d hd]
  -- the graveyard
  obtain ⟨inC, outC, hg, g⟩ := C50_graveyard E.uni.U h.uni.proper E.uni.reg E.uni.sph h.uni.sph h.uni.regU
  rw [h.uni.grave] at hg
  cases hg
  have hgr : ∀ c ∈ [E.uni.inC, E.uni.outC], ∀ x : P, U x → holds c x = false := by
    intro c hc x hx
    obtain ⟨-, -, g3⟩ := g x.1.1 x.1.2 x.2.box x.2.sphere.1 x.2.sphere.2
    rcases g3 with ⟨-, g1, g2⟩ | ⟨g, -⟩ | ⟨g, -⟩
    · simp only [List.mem_cons, List.not_mem_nil, or_false] at hc
      rcases hc with rfl | rfl
      · exact g1
      · exact g2
    · exact absurd hx g
    · exact absurd hx g
  obtain ⟨cs, hcs, hcnt⟩ := C63_void_with_enclosures_partial holds U E.es reg E.fuel E.ns E.ss E.sonsOf Sp E.sols E.getVoid (fun _ => false) [E.uni.inC, E.uni.outC] E.init h.hier h.fuel hp
    h.levels h.sons ha h.around hU (fun e he _ => hE e he) hgr
  refine ⟨cs, hcs, fun q σ hq => ?_⟩
  obtain ⟨cs', hcs', -, hmap⟩ := C62_void_numbered E.getVoid (fun _ => false) E.sonsOf E.ns E.sols [E.uni.inC, E.uni.outC] E.init
  rw [hcs] at hcs'
  cases hcs'
  let x : P := ⟨(q, σ), hq⟩
  have hinU : ∀ m ∈ E.sols, (E.vs m).defn.sem σ = true → InBox E.uni.U q := by
    intro m hm hs
    obtain ⟨b, hb, ⟨a1, a2⟩, ⟨a3, a4⟩, a5, a6⟩ := (hq.sols m hm).2.2 hs
    obtain ⟨b1, b2, b3, b4, b5, b6⟩ := h.inside m hm b hb
    exact ⟨⟨b1.trans a1, a2.trans b2⟩, ⟨b3.trans a3, a4.trans b4⟩, b5.trans a5, a6.trans b6⟩
  have hms : AtMostOne (fun d : Seq => d.sem σ = true) (E.sols.map fun m => (E.vs m).defn) := by
    unfold AtMostOne
    rw [List.pairwise_map]
    exact hq.apart
  have hcount : (cs.map fun c => c.cell).countP (fun d => d.sem σ) = cs.countP (fun c => holds c.cell x) := by rw [List.countP_map]; rfl
  rw [exactlyOne_iff]
  by_cases hu : InBox E.uni.U q
  · obtain ⟨c1, c2⟩ := hcnt x hu
    by_cases hs : ∃ m ∈ E.sols, (E.vs m).defn.sem σ = true
    · have hz : ∀ d ∈ cs.map (fun c => c.cell), ¬ d.sem σ = true := by
        refine List.countP_eq_zero.1 (hcount.trans (c2 fun k => ?_))
        obtain ⟨m, hm, hs⟩ := hs
        exact k.1 m hm hs
      refine ⟨hms.append (atMostOne_none hz) (.inr hz), ?_⟩
      obtain ⟨m, hm, hs⟩ := hs
      exact ⟨_, by simp only [List.mem_append, List.mem_map]; exact .inl ⟨m, hm, rfl⟩, hs⟩
    · have hone := exactlyOne_countP.2 (hcount.trans (c1 ⟨fun m hm hs' => hs ⟨m, hm, hs'⟩, by simp⟩))
      have hz : ∀ d ∈ E.sols.map (fun m => (E.vs m).defn), ¬ d.sem σ = true := by
        intro d hd hd'
        obtain ⟨m, hm, rfl⟩ := List.mem_map.1 hd
        exact hs ⟨m, hm, hd'⟩
      obtain ⟨a1, d, hd, hd'⟩ := exactlyOne_iff.1 hone
      exact ⟨hms.append a1 (.inl hz), d, by simp only [List.mem_append]; exact .inr hd, hd'⟩
  · have hz : ∀ d ∈ E.sols.map (fun m => (E.vs m).defn), ¬ d.sem σ = true := by
      intro d hd hd'
      obtain ⟨m, hm, rfl⟩ := List.mem_map.1 hd
      exact hu (hinU m hm hd')
    have hcells : cs.map (fun c => c.cell) = (E.getVoid none (select E.ns (E.ns.headD []) (-1) E.sols) ++
        (E.ns.flatten.filter fun e => !false).flatMap fun e => E.getVoid (some e) (select E.ns (E.sonsOf e) e.id E.sols)) ++ [E.uni.inC, E.uni.outC] := by
      have := congrArg (List.map fun t : Int × Int × Seq => t.2.2) hmap
      simpa [List.map_flatMap, Function.comp_def] using this
    have hv : ∀ d ∈ E.getVoid none (select E.ns (E.ns.headD []) (-1) E.sols) ++
        ((E.ns.flatten.filter fun e => !false).flatMap fun e => E.getVoid (some e) (select E.ns (E.sonsOf e) e.id E.sols)), ¬ d.sem σ = true := by
      intro d hd
      rcases List.mem_append.1 hd with hd | hd
      · exact List.countP_eq_zero.1 ((hU x).2 fun k => hu k.1) d hd
      · obtain ⟨e, he, hd⟩ := List.mem_flatMap.1 hd
        have he' := hflat e (List.mem_filter.1 he).1
        refine List.countP_eq_zero.1 ((hE e he' x).2 fun k => hu ?_) d hd
        have hin := hq.kernel.bbox _ ((hq.encls e he').2.1 k.1)
        have := (h.long e he').1.int hin
        exact ⟨⟨this.1.1.le, this.1.2.le⟩, ⟨this.2.1.1.le, this.2.1.2.le⟩, this.2.2.1.le, this.2.2.2.le⟩
    have hgone : AtMostOne (fun d : Seq => d.sem σ = true) [E.uni.inC, E.uni.outC] ∧ ∃ d ∈ [E.uni.inC, E.uni.outC], d.sem σ = true := by
      obtain ⟨-, -, g3⟩ := g q σ hq.box hq.sphere.1 hq.sphere.2
      rcases g3 with ⟨g, -⟩ | ⟨-, g1, g2⟩ | ⟨-, g1, g2⟩
      · exact absurd g hu
      · exact ⟨by simp [AtMostOne, g1, g2], _, by simp, g1⟩
      · exact ⟨by simp [AtMostOne, g1, g2], E.uni.outC, by simp, g2⟩
    rw [hcells]
    refine ⟨hms.append ((atMostOne_none hv).append hgone.1 (.inl hv)) (.inl hz), ?_⟩
    obtain ⟨d, hd, hd'⟩ := hgone.2
    exact ⟨d, by simp only [List.mem_append]; exact .inr (.inr hd), hd'⟩

open McnpFile in
/-- **C122 with enclosures**, proved part: write the model as an MCNP file (`σ'`: the sides of the surfaces of the file, C33), read the file: every point is in exactly one of the cells that
GEOReverse reads. -/
theorem C122_enclosures_mcnp_partial {V : Type} (F : CellText.Arith V) (hF : ∀ t, CellText.Number False t → ∃ v, F.flt t = some v) (f : Fmt) (i : Input) (hi : Good f i) (hs : Signs f i) (r : Nat)
    (hr : 30 ≤ r) (he : i.sphere = none ∨ i.volSDEF = false ∨ i.volCARD = true) (E : EnclConversion S) (h : E.Ran) (In : S → Vec → Prop)
    (hp : Placed E.es (fun e (x : E.Pts In) => (E.ve e).defn.sem x.1.2 = true))
    (ha : ∀ m ∈ E.sols, Answers E.es (fun e (x : E.Pts In) => (E.ve e).defn.sem x.1.2 = true) (fun x => (E.vs m).defn.sem x.1.2 = true) m.inter) :
    ∃ cs, voidGeneration E.getVoid (fun _ => false) E.sonsOf E.ns E.sols [E.uni.inC, E.uni.outC] E.init = some cs ∧
      ∀ defs : List Seq, defs.Perm (E.sols.map (fun m => (E.vs m).defn) ++ cs.map (fun c => c.cell)) →
      ∃ K, ∀ k, K ≤ k → ∃ (s : List Char) (ps : List Card.PyCard), writeInput f r k i = .ok s ∧ Card.getCards s = .ok ps ∧
        ∀ (q : Vec) (σ σ' : Side), E.At In q σ → List.Forall₂ (fun c d => c.definition.sem σ' = d.sem σ) (i.cells.filter (fun c => c.real)) defs →
          ExactlyOne (CardHolds F σ') (ps.filter (fun p => p.ctype = 3)) := by
  obtain ⟨cs, hcs, hone⟩ := C122_enclosures_partial E h In hp ha
  refine ⟨cs, hcs, fun defs hdefs => ?_⟩
  obtain ⟨K, hK⟩ := C103_cells F hF f i hi hs r hr he
  refine ⟨K, fun k hk => ?_⟩
  obtain ⟨s, ps, h1, h2, h3⟩ := hK k hk
  refine ⟨s, ps, h1, h2, fun q σ σ' hq hd => ?_⟩
  have e1 := (hone q σ hq).perm hdefs.symm
  have e2 : ExactlyOne (fun c : McnpFile.Cell => c.definition.sem σ' = true) (i.cells.filter (fun c => c.real)) := by
    exact e1.forall₂ (List.Forall₂.flip (hd.imp fun c d hcd => by simp only [flip]; rw [hcd]))
  refine e2.forall₂ (h3.imp ?_)
  rintro c p ⟨n, card, hr, hc⟩
  have hreg := hc.region σ'
  constructor
  · intro hs
    obtain ⟨ts, t1, t2⟩ := (hreg true).2 hs.symm
    exact ⟨n, card, ts, hr, t1, t2⟩
  · rintro ⟨n', card', ts, hr', t1, t2⟩
    rw [hr] at hr'
    cases hr'
    exact ((hreg true).1 ⟨ts, t1, t2⟩).symm

end Geouned.Whole
