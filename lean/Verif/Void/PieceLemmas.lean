import Verif.Void.PieceSpec
import Verif.Void.LoopProps
import Verif.Void.BoxObjsProps
import Verif.Whole.Lemmas
/-!
# Lemmas on the void boxes of an enclosure
-/
namespace Geouned.Void
open Geouned.Geom Geouned.Box Geouned.Whole

variable {S Ω : Type} {K : Kernel S} {many : PBox S Ω → Prop} {sub : Ω → BBox → Ω} {m : ℝ} {q : Pt} {In : S → Prop}

theorem splitPBox_some {z : PBox S Ω} {ps : List (PBox S Ω)} (h : splitPBox K many sub m z = some ps) :
    many z ∧ ∃ b1 b2, split m z.box = some (b1, b2) ∧ ps = (match z.piece with
      | none => [⟨b1, none, sub z.objs b1⟩, ⟨b2, none, sub z.objs b2⟩]
      | some s => (pieceSplit K (sub z.objs) s b1).toList ++ (pieceSplit K (sub z.objs) s b2).toList) := by
  unfold splitPBox at h
  split at h
  · cases hs : split m z.box with
    | none => rw [hs] at h; cases h
    | some p => rw [hs] at h; simp only [Option.map_some, Option.some.injEq] at h; exact ⟨‹many z›, p.1, p.2, rfl, h.symm⟩
  · cases h

/-- a box in a box -/
def Within (a b : BBox) : Prop := b.xmin ≤ a.xmin ∧ a.xmax ≤ b.xmax ∧ b.ymin ≤ a.ymin ∧ a.ymax ≤ b.ymax ∧ b.zmin ≤ a.zmin ∧ a.zmax ≤ b.zmax

theorem Within.int {a b : BBox} (h : Within a b) {p : Pt} (hp : a.Int p) : b.Int p := by
  obtain ⟨h1, h2, h3, h4, h5, h6⟩ := h
  obtain ⟨⟨a1, a2⟩, ⟨a3, a4⟩, a5, a6⟩ := hp
  exact ⟨⟨by linarith, by linarith⟩, ⟨by linarith, by linarith⟩, by linarith, by linarith⟩

theorem Within.below {a b : BBox} (h : Within a b) {k : Coord → Nat} (hb : Below m k b) : Below m k a := by
  intro c
  refine lt_of_le_of_lt ?_ (hb c)
  obtain ⟨h1, h2, h3, h4, h5, h6⟩ := h
  cases c <;> simp only [len] <;> linarith

theorem sub_cut {B b1 b2 : BBox} (hB : B.Proper) (h : split m B = some (b1, b2)) : Within b1 B ∧ Within b2 B := by
  obtain ⟨c, hcut, _⟩ := split_some h
  obtain ⟨hx, hy, hz⟩ := hB
  have e1 : b1 = (cutBox B c).1 := by rw [← hcut]
  have e2 : b2 = (cutBox B c).2 := by rw [← hcut]
  subst e1 e2
  cases c <;> simp only [cutBox, Within] <;> refine ⟨⟨?_, ?_, ?_, ?_, ?_, ?_⟩, ?_, ?_, ?_, ?_, ?_, ?_⟩ <;> linarith

/-- what a piece becomes in a box -/
theorem pieceSplit_some {f : BBox → Ω} {s : S} {b : BBox} {y : PBox S Ω} (hK : K.Fits q In) (hb : b.Proper) (h : pieceSplit K f s b = some y) :
    y.box.Proper ∧ Within y.box b ∧ y.objs = f y.box ∧ (y.Holds q In → b.Int q ∧ In s) ∧ (y.piece = none ∨ ∃ x, y.piece = some x ∧ y.box = K.bbox x) := by
  unfold pieceSplit at h
  split at h
  · cases h
  · split at h
    · next hf =>
      cases h
      exact ⟨hb, ⟨le_rfl, le_rfl, le_rfl, le_rfl, le_rfl, le_rfl⟩, rfl, fun k => ⟨k, hK.full b s hf k⟩, .inl rfl⟩
    · split at h
      · cases h
      · next x xs hx =>
        cases h
        obtain ⟨p, r⟩ := hK.inside b s x (by rw [hx]; simp)
        exact ⟨p, r, rfl, fun k => (hK.common b s).1 ⟨x, by rw [hx]; simp, k⟩, .inr ⟨x, rfl, rfl⟩⟩

theorem pieceSplit_covers {f : BBox → Ω} {s : S} {b : BBox} (hK : K.Fits q In) (h1 : (K.common b s).length ≤ 1) (hb : b.Int q) (hs : In s) :
    ∃ y, pieceSplit K f s b = some y ∧ y.Holds q In := by
  unfold pieceSplit
  split
  · next hf => exact absurd ⟨hb, hs⟩ (hK.far b s hf)
  · split
    · exact ⟨_, rfl, hb⟩
    · obtain ⟨x, hx, hin⟩ := (hK.common b s).2 ⟨hb, hs⟩
      cases hc : K.common b s with
      | nil => rw [hc] at hx; cases hx
      | cons y ys =>
        rw [hc] at h1 hx
        have h2 : ys = [] := by
          simp only [List.length_cons] at h1
          exact List.length_eq_zero_iff.1 (by omega)
        subst h2
        simp only [List.mem_singleton] at hx
        subst hx
        exact ⟨_, rfl, hin⟩

/-- what is known of every box of the loop -/
structure Good (K : Kernel S) (q : Pt) (In : S → Prop) (z : PBox S Ω) : Prop where
  proper : z.box.Proper
  inside : z.Holds q In → z.box.Int q

theorem child_good (hK : K.Fits q In) {z : PBox S Ω} {ps : List (PBox S Ω)} (hz : Good K q In z) (h : splitPBox K many sub m z = some ps) :
    ∃ b1 b2, split m z.box = some (b1, b2) ∧ ∀ y ∈ ps, Good K q In y ∧ (Within y.box b1 ∨ Within y.box b2) ∧ y.objs = sub z.objs y.box ∧ (y.Holds q In → z.Holds q In) := by
  obtain ⟨hmany, b1, b2, h1, rfl⟩ := splitPBox_some h
  refine ⟨b1, b2, h1, fun y hy => ?_⟩
  obtain ⟨s1, s2⟩ := sub_cut hz.proper h1
  obtain ⟨-, -, p1, p2, -⟩ := C25_split_covers m z.box b1 b2 hz.proper h1
  cases hp : z.piece with
  | none =>
    rw [hp] at hy
    simp only [List.mem_cons, List.not_mem_nil, or_false] at hy
    have rr : ∀ b : BBox, Within b b := fun b => ⟨le_rfl, le_rfl, le_rfl, le_rfl, le_rfl, le_rfl⟩
    rcases hy with rfl | rfl
    · exact ⟨⟨p1, fun h => h⟩, .inl (rr _), rfl, fun h => by simp only [PBox.Holds, hp]; exact s1.int h⟩
    · exact ⟨⟨p2, fun h => h⟩, .inr (rr _), rfl, fun h => by simp only [PBox.Holds, hp]; exact s2.int h⟩
  | some s =>
    rw [hp] at hy
    simp only [List.mem_append, Option.mem_toList] at hy
    have key : ∀ b : BBox, b.Proper → Within b z.box → pieceSplit K (sub z.objs) s b = some y → Good K q In y ∧ Within y.box b ∧ y.objs = sub z.objs y.box ∧ (y.Holds q In → z.Holds q In) := by
      intro b hb hsb hy
      obtain ⟨a1, a2, a3, a4, a5⟩ := pieceSplit_some hK hb hy
      refine ⟨⟨a1, fun h => ?_⟩, a2, a3, fun h => by simp only [PBox.Holds, hp]; exact (a4 h).2⟩
      rcases a5 with e | ⟨x, e1, e2⟩
      · simpa only [PBox.Holds, e] using h
      · rw [e2]
        refine hK.bbox x ?_
        simpa only [PBox.Holds, e1] using h
    rcases hy with hy | hy
    · obtain ⟨a, b, c⟩ := key b1 p1 s1 hy
      exact ⟨a, .inl b, c⟩
    · obtain ⟨a, b, c⟩ := key b2 p2 s2 hy
      exact ⟨a, .inr b, c⟩

/-- a point in two pieces of a box that is split -/
theorem child_disjoint (hK : K.Fits q In) {z : PBox S Ω} {ps : List (PBox S Ω)} (hz : Good K q In z) (h : splitPBox K many sub m z = some ps) :
    ps.Pairwise fun a b => a.Holds q In → ¬ b.Holds q In := by
  obtain ⟨hmany, b1, b2, h1, rfl⟩ := splitPBox_some h
  obtain ⟨-, d, p1, p2, -⟩ := C25_split_covers m z.box b1 b2 hz.proper h1
  cases hp : z.piece with
  | none => simpa [PBox.Holds] using d q
  | some s =>
    have one : ∀ b, ((pieceSplit K (sub z.objs) s b).toList).Pairwise fun a b : PBox S Ω => a.Holds q In → ¬ b.Holds q In := by
      intro b
      cases pieceSplit K (sub z.objs) s b <;> simp
    show List.Pairwise _ ((pieceSplit K (sub z.objs) s b1).toList ++ (pieceSplit K (sub z.objs) s b2).toList)
    rw [List.pairwise_append]
    refine ⟨one b1, one b2, fun x hx y hy k1 k2 => ?_⟩
    rw [Option.mem_toList] at hx hy
    obtain ⟨-, -, -, a, -⟩ := pieceSplit_some hK p1 hx
    obtain ⟨-, -, -, b, -⟩ := pieceSplit_some hK p2 hy
    exact d q (a k1).1 (b k2).1

theorem child_covers (hK : K.Fits q In) {z : PBox S Ω} {ps : List (PBox S Ω)} (hz : Good K q In z) (h : splitPBox K many sub m z = some ps)
    (hoff : many z → ∀ b1 b2, split m z.box = some (b1, b2) → z.box.Int q → b1.Int q ∨ b2.Int q)
    (hone : many z → ∀ s b1 b2, z.piece = some s → split m z.box = some (b1, b2) → (K.common b1 s).length ≤ 1 ∧ (K.common b2 s).length ≤ 1) (hq : z.Holds q In) :
    ∃ y ∈ ps, y.Holds q In := by
  obtain ⟨hmany, b1, b2, h1, rfl⟩ := splitPBox_some h
  have hint := hoff hmany b1 b2 h1 (hz.inside hq)
  cases hp : z.piece with
  | none =>
    rcases hint with k | k
    · exact ⟨⟨b1, none, sub z.objs b1⟩, by simp, k⟩
    · exact ⟨⟨b2, none, sub z.objs b2⟩, by simp, k⟩
  | some s =>
    obtain ⟨o1, o2⟩ := hone hmany s b1 b2 hp h1
    have hs : In s := by simpa only [PBox.Holds, hp] using hq
    rcases hint with k | k
    · obtain ⟨y, hy, r⟩ := pieceSplit_covers (f := sub z.objs) hK o1 k hs
      exact ⟨y, by simp [hy], r⟩
    · obtain ⟨y, hy, r⟩ := pieceSplit_covers (f := sub z.objs) hK o2 k hs
      exact ⟨y, by simp [hy], r⟩

/-- a point of the box on no plane of the box is inside -/
theorem int_of_sides {z : BBox} {reg : Pl → Registered} (hreg : ∀ p ∈ boundPlanes z, Fits p (reg p)) {q : Vec} {σ : Side} (hσ : SidesAt z reg q σ) (hin : InBox z q) :
    z.Int ⟨q.x, q.y, q.z⟩ := by
  have hne : ∀ p ∈ boundPlanes z, p.val q ≠ 0 := fun p hp =>
    (signed_spec (center z) (axis_unit hp) (hreg p hp) (hσ p hp).1 (hσ p hp).2).1
  rw [inBox_iff] at hin
  have hpos : ∀ p ∈ boundPlanes z, 0 < p.val q := fun p hp => lt_of_le_of_ne (hin p hp) (Ne.symm (hne p hp))
  simp only [boundPlanes, List.mem_cons, List.not_mem_nil, or_false, forall_eq_or_imp, forall_eq, Pl.val, Vec.dot,
    Vec.sub] at hpos
  obtain ⟨a, b, c, d, e, f⟩ := hpos
  refine ⟨⟨?_, ?_⟩, ⟨?_, ?_⟩, ?_, ?_⟩ <;> simp only <;> linarith

/-- the void cell of a box at a point -/
theorem boxCell_spec {z : BBox} {reg : Pl → Registered} {mode : Simp} {t : CTable} {enum : Seq → List Nat} {f : Nat} {os : List Seq} {c : Option Seq} (hsolid : Solid z)
    (hreg : ∀ p ∈ boundPlanes z, Fits p (reg p)) (hw : ∀ d ∈ os, d.WF) (ht : mode ≠ .no → t.NoEquivalence)
    (hcell : voidCell true mode false (boxDef z reg) os t enum f = .ok c) {q : Vec} {σ : Side} (hσ : SidesAt z reg q σ) (htab : mode ≠ .no → InBox z q → t.Sound σ) :
    (∃ d, c = some d ∧ d.sem σ = true) ↔ (InBox z q ∧ ∀ d ∈ os, d.sem σ = false) := by
  have hflat := boxDef_flat hreg
  have hdef := C51_box_definition z hsolid reg hreg q σ hσ
  have hbw : (boxDef z reg).WF := by
    obtain ⟨ns, h1, h2⟩ := hflat
    rw [h1, WF_lst]
    constructor
    · refine ⟨le_refl 0, fun _ e he => ?_⟩
      simp only [List.mem_map] at he
      obtain ⟨n, _, rfl⟩ := he
      exact ⟨n, rfl⟩
    · intro e he
      simp only [List.mem_map] at he
      obtain ⟨n, hn, rfl⟩ := he
      exact h2 n hn
  have hout : ∃ σ, Trusted mode false (boxDef z reg) t σ ∧ (boxDef z reg).sem σ = false := by
    obtain ⟨ns, h1, h2⟩ := hflat
    have hne : ns ≠ [] := by
      rintro rfl
      have := congrArg (fun s => match s with | Seq.lst _ _ es => es.length | _ => 0) h1
      simp [boxDef, boxDefOf, boundPlanes] at this
    obtain ⟨n, ns', rfl⟩ := List.exists_cons_of_ne_nil hne
    have hf : (boxDef z reg).sem (fun m => decide (n < 0)) = false := by
      rw [h1]
      have hn := h2 n (by simp)
      have : lit (fun _ => decide (n < 0)) n = false := by
        unfold lit; split <;> simp <;> omega
      simp [Seq.sem, Seq.semAll, this]
    exact ⟨_, ⟨fun _ h => absurd (hf.symm.trans h) (by decide), fun _ h => absurd h (by decide)⟩, hf⟩
  obtain ⟨-, hk⟩ := C26_void_cell_partial mode false (boxDef z reg) os t enum f c ht hbw (fun _ => hflat) hw hout hcell
  rw [hk σ (fun hm hb => htab hm (hdef.1 hb)) (fun _ h => by cases h), hdef]

end Geouned.Void
