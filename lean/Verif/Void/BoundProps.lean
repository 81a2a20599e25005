import Verif.Void.Bound
import Verif.Void.Lemmas
import Verif.Geom.SurfProps
import Verif.Geom.CardLemmas
/-!
# Properties C50 (graveyard) and C51 (definition of a void box)
-/
namespace Geouned.Void
open Geouned.Geom Geouned.Box

/-! ### Specification -/

/-- value whose sign is the side of the plane -/
def Pl.val (s : Pl) (q : Vec) : ℝ := s.axis.dot (q.sub s.pos)

/-- the registered surface is the plane itself, with the same or the opposite orientation -/
def Fits (p : Pl) (r : Registered) : Prop :=
  r.id ≠ 0 ∧ (r.exist = false → r.surf.axis = p.axis) ∧ (r.surf.axis = p.axis ∨ r.surf.axis = p.axis.neg) ∧
  p.axis.dot (r.surf.pos.sub p.pos) = 0

/-- `σ` gives the sides of the registered planes at the point `q`, which is on none of them -/
def SidesAt (B : BBox) (reg : Pl → Registered) (q : Vec) (σ : Side) : Prop :=
  ∀ p ∈ boundPlanes B, (reg p).surf.val q ≠ 0 ∧ (σ (reg p).id = true ↔ 0 < (reg p).surf.val q)

/-! ### Lemmas -/

theorem opposite_of {a v : Vec} {t e : ℝ} (ha : a.sq = 1) (ht : t < 0) (hv : v = Vec.smul t a) (he : 0 < e) :
    isOpposite a v e := by
  unfold isOpposite
  have h1 : v.neg = Vec.smul (-t) a := by subst hv; ext <;> simp [Vec.neg, Vec.smul]
  rw [h1, getAngle_comm, getAngle_smul a (by linarith)]
  have : getAngle a a = 0 := by
    unfold getAngle
    rw [unit_len ha]
    have : a.dot a = 1 := ha
    rw [this]; norm_num
  rw [this]; simpa using he

theorem not_opposite_self {a : Vec} (ha : a.sq = 1) : ¬ isOpposite a a (1 / 1000000) := by
  unfold isOpposite getAngle
  have h1 : a.neg.len = 1 := by rw [neg_len]; exact unit_len ha
  have h2 : a.dot a.neg = -1 := by
    have : a.dot a = 1 := ha
    simp only [Vec.dot, Vec.neg] at this ⊢; linarith
  rw [h1, unit_len ha, h2]
  norm_num
  rw [abs_of_pos Real.pi_pos]
  linarith [Real.pi_gt_three]

theorem val_same {p s : Pl} {q : Vec} (h : s.axis = p.axis) (h0 : p.axis.dot (s.pos.sub p.pos) = 0) :
    s.val q = p.val q := by
  unfold Pl.val
  rw [h]
  simp only [Vec.dot, Vec.sub] at h0 ⊢
  linarith

theorem val_opp {p s : Pl} {q : Vec} (h : s.axis = p.axis.neg) (h0 : p.axis.dot (s.pos.sub p.pos) = 0) :
    s.val q = - p.val q := by
  unfold Pl.val
  rw [h]
  simp only [Vec.dot, Vec.sub, Vec.neg] at h0 ⊢
  linarith

theorem lit_pos {σ : Side} {n : Nat} (hn : n ≠ 0) : lit σ (n : Int) = σ n := by
  unfold lit
  rw [if_neg (by omega)]
  simp

theorem lit_negN {σ : Side} {n : Nat} (hn : n ≠ 0) : lit σ (-(n : Int)) = !σ n := by
  unfold lit
  rw [if_pos (by omega)]
  simp

/-- the signed number `± id` chosen from the orientation test stands for the positive side of the plane -/
theorem signed_spec {p : Pl} {r : Registered} {q : Vec} {σ : Side} (c : Vec) (ha : p.axis.sq = 1) (hf : Fits p r)
    (h0 : r.surf.val q ≠ 0) (hs : σ r.id = true ↔ 0 < r.surf.val q) :
    p.val q ≠ 0 ∧
    (lit σ (if (toBound c p r).opposite then -(r.id : Int) else r.id) = true ↔ 0 < p.val q) ∧
    (lit σ (if (toBound c p r).opposite then (r.id : Int) else -r.id) = true ↔ p.val q < 0) := by
  obtain ⟨hid, hex, hor, hpos⟩ := hf
  by_cases hsame : r.surf.axis = p.axis
  · have hv := val_same (q := q) hsame hpos
    have hno : (toBound c p r).opposite = false := by
      have := not_opposite_self ha
      simp only [toBound, Bool.and_eq_false_iff, decide_eq_false_iff_not]
      right; rw [hsame]; exact this
    rw [hv] at h0 hs
    rw [hno]
    simp only [Bool.false_eq_true, if_false, lit_pos hid, lit_negN hid]
    refine ⟨h0, hs, ?_⟩
    rw [Bool.not_eq_true', ← Bool.not_eq_true, hs, not_lt]
    exact ⟨fun h => lt_of_le_of_ne h h0, le_of_lt⟩
  · have hopp : r.surf.axis = p.axis.neg := by tauto
    have hex' : r.exist = true := by
      by_contra h; exact hsame (hex (by simpa using h))
    have hv := val_opp (q := q) hopp hpos
    have hyes : (toBound c p r).opposite = true := by
      have : isOpposite p.axis p.axis.neg (1 / 1000000) :=
        opposite_of (t := -1) ha (by norm_num) (by ext <;> simp [Vec.neg, Vec.smul]) (by norm_num)
      simp only [toBound, Bool.and_eq_true, decide_eq_true_eq]
      rw [hopp]; exact ⟨hex', this⟩
    rw [hyes]
    rw [hv] at h0 hs
    simp only [if_true, lit_pos hid, lit_negN hid]
    refine ⟨fun h => h0 (by rw [h]; simp), ?_, ?_⟩
    · rw [Bool.not_eq_true', ← Bool.not_eq_true, hs]
      constructor
      · intro h
        rcases lt_trichotomy (p.val q) 0 with a | a | a
        · exact absurd (by linarith) h
        · exact absurd (by rw [a]; simp) h0
        · exact a
      · intro h h'; linarith
    · rw [hs]; constructor <;> intro h <;> linarith

theorem axis_unit {B : BBox} {p : Pl} (hp : p ∈ boundPlanes B) : p.axis.sq = 1 := by
  simp only [boundPlanes, List.mem_cons, List.not_mem_nil, or_false] at hp
  rcases hp with rfl | rfl | rfl | rfl | rfl | rfl <;> simp [Vec.sq, Vec.dot]

theorem inward_true {B : BBox} (hB : Solid B) {p : Pl} (hp : p ∈ boundPlanes B) (r : Registered) :
    (toBound (center B) p r).inward = true := by
  have ha := axis_unit hp
  obtain ⟨hx, hy, hz⟩ := hB
  suffices h : isOpposite p.axis (p.pos.sub (center B)) (1 / 1000000) by
    simp only [toBound, decide_eq_true_eq]; exact h
  simp only [boundPlanes, center, List.mem_cons, List.not_mem_nil, or_false] at hp
  rcases hp with rfl | rfl | rfl | rfl | rfl | rfl
  · exact opposite_of (t := (1 / 2) * (B.xmin - B.xmax)) ha (by linarith)
      (by ext <;> simp [Vec.sub, Vec.smul, center]; ring) (by norm_num)
  · exact opposite_of (t := (1 / 2) * (B.xmin - B.xmax)) ha (by linarith)
      (by ext <;> simp [Vec.sub, Vec.smul, center]; ring) (by norm_num)
  · exact opposite_of (t := (1 / 2) * (B.ymin - B.ymax)) ha (by linarith)
      (by ext <;> simp [Vec.sub, Vec.smul, center]; ring) (by norm_num)
  · exact opposite_of (t := (1 / 2) * (B.ymin - B.ymax)) ha (by linarith)
      (by ext <;> simp [Vec.sub, Vec.smul, center]; ring) (by norm_num)
  · exact opposite_of (t := (1 / 2) * (B.zmin - B.zmax)) ha (by linarith)
      (by ext <;> simp [Vec.sub, Vec.smul, center]; ring) (by norm_num)
  · exact opposite_of (t := (1 / 2) * (B.zmin - B.zmax)) ha (by linarith)
      (by ext <;> simp [Vec.sub, Vec.smul, center]; ring) (by norm_num)

/-- the closed box is the intersection of the inner sides of its bound planes -/
theorem inBox_iff (B : BBox) (q : Vec) : InBox B q ↔ ∀ p ∈ boundPlanes B, 0 ≤ p.val q := by
  simp only [boundPlanes, List.mem_cons, List.not_mem_nil, or_false, forall_eq_or_imp, forall_eq, Pl.val, Vec.dot, Vec.sub,
    InBox, BBox.Mem]
  constructor
  · rintro ⟨⟨a, b⟩, ⟨c, d⟩, e, f⟩
    refine ⟨?_, ?_, ?_, ?_, ?_, ?_⟩ <;> linarith
  · rintro ⟨a, b, c, d, e, f⟩
    refine ⟨⟨?_, ?_⟩, ⟨?_, ?_⟩, ?_, ?_⟩ <;> linarith

theorem semAll_ints {σ : Side} : ∀ ns : List Int, Seq.semAll σ (ns.map Seq.int) = true ↔ ∀ n ∈ ns, lit σ n = true
  | [] => by simp [Seq.semAll]
  | n :: ns => by simp [Seq.semAll, Seq.sem, semAll_ints ns]

theorem semAny_ints {σ : Side} : ∀ ns : List Int, Seq.semAny σ (ns.map Seq.int) = true ↔ ∃ n ∈ ns, lit σ n = true
  | [] => by simp [Seq.semAny]
  | n :: ns => by simp [Seq.semAny, Seq.sem, semAny_ints ns]

theorem boxDef_flat {B : BBox} {reg : Pl → Registered} (hf : ∀ p ∈ boundPlanes B, Fits p (reg p)) :
    FlatAnd (boxDef B reg) := by
  refine ⟨((boundPlanes B).map fun p => toBound (center B) p (reg p)).map BoundPlane.literal, ?_, ?_⟩
  · simp [boxDef, boxDefOf, List.map_map, Function.comp_def]
  · intro n hn
    simp only [List.mem_map, exists_exists_and_eq_and] at hn
    obtain ⟨p, hp, rfl⟩ := hn
    have h0 : (toBound (center B) p (reg p)).id ≠ 0 := (hf p hp).1
    generalize toBound (center B) p (reg p) = b at h0
    obtain ⟨i, o, w⟩ := b
    simp only at h0
    cases o <;> cases w <;> simp [BoundPlane.literal, h0]

theorem universe_sem {B : BBox} {reg : Pl → Registered} {q : Vec} {σ : Side} (hf : ∀ p ∈ boundPlanes B, Fits p (reg p))
    (hs : SidesAt B reg q σ) :
    (universeCompl ((boundPlanes B).map fun p => toBound (center B) p (reg p))).sem σ = true ↔ ¬ InBox B q := by
  have h1 : universeCompl ((boundPlanes B).map fun p => toBound (center B) p (reg p)) =
      .lst .or 0 (((boundPlanes B).map fun p => if (toBound (center B) p (reg p)).opposite then ((reg p).id : Int)
        else -((reg p).id : Int)).map Seq.int) := by
    simp only [universeCompl, List.map_map, Function.comp_def]; rfl
  rw [h1, Seq.sem, semAny_ints, inBox_iff]
  simp only [List.mem_map, exists_exists_and_eq_and, not_forall, not_le]
  constructor
  · rintro ⟨p, hp, h⟩
    exact ⟨p, hp, ((signed_spec (center B) (axis_unit hp) (hf p hp) (hs p hp).1 (hs p hp).2).2.2).1 h⟩
  · rintro ⟨p, hp, h⟩
    exact ⟨p, hp, ((signed_spec (center B) (axis_unit hp) (hf p hp) (hs p hp).1 (hs p hp).2).2.2).2 h⟩

/-! ### Properties -/

/-- C51: the definition of a void box without piece enclosure holds at exactly the points of the box, whatever the
orientation of the planes already registered, at every point on none of the six planes. -/
theorem C51_box_definition (B : BBox) (hB : Solid B) (reg : Pl → Registered)
    (hf : ∀ p ∈ boundPlanes B, Fits p (reg p)) (q : Vec) (σ : Side) (hs : SidesAt B reg q σ) :
    (boxDef B reg).sem σ = true ↔ InBox B q := by
  have h1 : boxDef B reg = .lst .and 0 (((boundPlanes B).map fun p =>
      (toBound (center B) p (reg p)).literal).map Seq.int) := by
    simp [boxDef, boxDefOf, List.map_map, Function.comp_def]
  rw [h1, Seq.sem, semAll_ints, inBox_iff]
  simp only [List.mem_map, forall_exists_index, and_imp, forall_apply_eq_imp_iff₂]
  refine forall₂_congr fun p hp => ?_
  obtain ⟨h0, hp1, -⟩ := signed_spec (center B) (axis_unit hp) (hf p hp) (hs p hp).1 (hs p hp).2
  have : (toBound (center B) p (reg p)).literal =
      if (toBound (center B) p (reg p)).opposite then -((reg p).id : Int) else (reg p).id := by
    simp only [BoundPlane.literal, inward_true hB hp, if_true]
    rfl
  rw [this, hp1]
  exact ⟨le_of_lt, fun h => lt_of_le_of_ne h (Ne.symm h0)⟩

/-- C50: the graveyard sphere holds the whole box. -/
theorem C50_sphere_holds_box (B : BBox) (hB : Solid B) (q : Vec) (hq : InBox B q) :
    distSq q (center B) < sphRadius B ^ 2 := by
  obtain ⟨hx, hy, hz⟩ := hB
  obtain ⟨⟨a, b⟩, ⟨c, d⟩, e, f⟩ := hq
  simp only at a b c d e f
  have h : sphRadius B ^ 2 =
      (51 / 100) ^ 2 * ((B.xmax - B.xmin) ^ 2 + (B.ymax - B.ymin) ^ 2 + (B.zmax - B.zmin) ^ 2) := by
    unfold sphRadius; rw [mul_pow, Real.sq_sqrt (by positivity)]
  rw [h]
  simp only [distSq, Vec.sq, Vec.dot, Vec.sub, center]
  nlinarith [mul_nonneg (sub_nonneg.2 a) (sub_nonneg.2 b), mul_nonneg (sub_nonneg.2 c) (sub_nonneg.2 d),
    mul_nonneg (sub_nonneg.2 e) (sub_nonneg.2 f), mul_pos (sub_pos.2 hx) (sub_pos.2 hx),
    mul_pos (sub_pos.2 hy) (sub_pos.2 hy), mul_pos (sub_pos.2 hz) (sub_pos.2 hz)]

/-- C50: the call returns two cells; the first one is the inside of the sphere without the box, the second one the
outside of the sphere; every point on none of the surfaces is in exactly one of the box, the first and the second cell. -/
theorem C50_graveyard (B : BBox) (hB : Solid B) (reg : Pl → Registered) (sph : Nat) (hsph : sph ≠ 0)
    (hf : ∀ p ∈ boundPlanes B, Fits p (reg p)) :
    ∃ inC outC, graveyard B reg sph = .ok (inC, outC) ∧
    ∀ (q : Vec) (σ : Side), SidesAt B reg q σ → distSq q (center B) ≠ sphRadius B ^ 2 →
      (σ sph = true ↔ sphRadius B ^ 2 < distSq q (center B)) →
      (inC.sem σ = true ↔ distSq q (center B) < sphRadius B ^ 2 ∧ ¬ InBox B q) ∧
      (outC.sem σ = true ↔ sphRadius B ^ 2 < distSq q (center B)) ∧
      ((InBox B q ∧ inC.sem σ = false ∧ outC.sem σ = false) ∨
       (¬ InBox B q ∧ inC.sem σ = true ∧ outC.sem σ = false) ∨
       (¬ InBox B q ∧ inC.sem σ = false ∧ outC.sem σ = true)) := by
  have hw1 : (Seq.lst .and 0 [.int (-(sph : Int))]).WF := by simp [Seq.WF, Seq.WFL, hsph]
  have hw2 : (universeCompl ((boundPlanes B).map fun p => toBound (center B) p (reg p))).WF := by
    rw [universeCompl, WF_lst]
    constructor
    · refine ⟨le_refl 0, fun _ e he => ?_⟩
      simp only [List.mem_map] at he
      obtain ⟨b, _, rfl⟩ := he
      exact ⟨_, rfl⟩
    · intro e he
      simp only [List.mem_map, exists_exists_and_eq_and] at he
      obtain ⟨p, hp, rfl⟩ := he
      have h0 : (toBound (center B) p (reg p)).id ≠ 0 := (hf p hp).1
      generalize toBound (center B) p (reg p) = b at h0
      obtain ⟨i, o, w⟩ := b
      simp only at h0
      cases o <;> simp [Seq.WF, h0]
  obtain ⟨s, hs⟩ : ∃ s, (Seq.lst .and 0 [.int (-(sph : Int))]).append
      [.seq (universeCompl ((boundPlanes B).map fun p => toBound (center B) p (reg p)))] = .ok s := by
    rw [universeCompl]
    exact ⟨_, rfl⟩
  obtain ⟨a1, a2, a3⟩ := append_shape (.inl ⟨0, [.int (-(sph : Int))], rfl⟩) hw1 hw2 hs
  refine ⟨s, .lst .and 0 [.int sph], ?_, ?_⟩
  · simp only [graveyard, graveyardCells, hs]; rfl
  · intro q σ hS hne hσ
    have hu := universe_sem hf hS
    have e2 : (Seq.lst .and 0 [.int (sph : Int)]).sem σ = true ↔ sphRadius B ^ 2 < distSq q (center B) := by
      simp only [Seq.sem, Seq.semAll, lit_pos hsph, Bool.and_true]; exact hσ
    have e1 : s.sem σ = true ↔ distSq q (center B) < sphRadius B ^ 2 ∧ ¬ InBox B q := by
      rw [a3 σ]
      simp only [Op.app, Seq.sem, Seq.semAll, lit_negN hsph, Bool.and_true, Bool.and_eq_true, hu]
      rw [Bool.not_eq_true', ← Bool.not_eq_true, hσ, not_lt]
      exact ⟨fun h => ⟨lt_of_le_of_ne h.1 hne, h.2⟩, fun h => ⟨le_of_lt h.1, h.2⟩⟩
    refine ⟨e1, e2, ?_⟩
    have hin := C50_sphere_holds_box B hB q
    by_cases hq : InBox B q
    · left
      refine ⟨hq, ?_, ?_⟩
      · rw [← Bool.not_eq_true, e1]; tauto
      · rw [← Bool.not_eq_true, e2]; exact not_lt.2 (le_of_lt (hin hq))
    · rcases lt_or_gt_of_ne hne with h | h
      · right; left
        refine ⟨hq, e1.2 ⟨h, hq⟩, ?_⟩
        rw [← Bool.not_eq_true, e2]; exact not_lt.2 (le_of_lt h)
      · right; right
        refine ⟨hq, ?_, e2.2 h⟩
        rw [← Bool.not_eq_true, e1]; exact fun h' => absurd h'.1 (not_lt.2 (le_of_lt h))

/-- Non-vacuity: a box whose six planes are numbered 1 to 6, the third one registered before with the opposite axis. -/
noncomputable def exBox : BBox := ⟨0, 1, 0, 2, 0, 3⟩

open Classical in
noncomputable def exReg (p : Pl) : Registered :=
  if p.axis = ⟨1, 0, 0⟩ then ⟨1, false, p⟩ else if p.axis = ⟨-1, 0, 0⟩ then ⟨2, false, p⟩ else
  if p.axis = ⟨0, 1, 0⟩ then ⟨3, true, ⟨p.pos, p.axis.neg⟩⟩ else if p.axis = ⟨0, -1, 0⟩ then ⟨4, false, p⟩ else
  if p.axis = ⟨0, 0, 1⟩ then ⟨5, false, p⟩ else ⟨6, true, p⟩

example : Solid exBox ∧ ∀ p ∈ boundPlanes exBox, Fits p (exReg p) := by
  refine ⟨by norm_num [Solid, exBox], ?_⟩
  intro p _
  simp only [exReg]
  split_ifs <;> simp [Fits, Vec.dot, Vec.sub]

end Geouned.Void
