import Verif.Void.PieceLemmas
/-!
# C124: the void boxes of an enclosure fill the enclosure
-/
namespace Geouned.Void
open Geouned.Geom Geouned.Box Geouned.Whole

/-- C124 in full: the void boxes of the enclosure `e` hold every point of the enclosure exactly once and no other point. The point lies on no plane of a cut; the enclosure is small
enough for the 50 rounds of C27. -/
def C124_statement : Prop :=
  ∀ (S Ω : Type) (K : Kernel S) (many : PBox S Ω → Prop) (sub : Ω → BBox → Ω) (minSize : ℝ) (e : S) (os : Ω) (q : Pt) (In : S → Prop) (k : Coord → Nat),
    K.Fits q In → (K.bbox e).Proper → (∀ c, len (K.bbox e) c < minSize * 2 ^ (k c + 1)) → k .X + k .Y + k .Z < 50 →
    (∀ z, Reach (splitPBox K many sub minSize) (ofSolid K (sub os) e) z → many z → ∀ b1 b2, split minSize z.box = some (b1, b2) → z.box.Int q → b1.Int q ∨ b2.Int q) →
    (In e → ExactlyOne (PBox.Holds q In) (enclosureBoxes K many sub minSize e os)) ∧ (¬ In e → ∀ z ∈ enclosureBoxes K many sub minSize e os, ¬ z.Holds q In)

/-- C124, proved part: when no box cuts the piece into several solids.
Missing: cuts that leave several solids in a half (there C124 is false); points on the cuts. -/
theorem C124_boxes_partial {S Ω : Type} (K : Kernel S) (many : PBox S Ω → Prop) (sub : Ω → BBox → Ω) (minSize : ℝ) (e : S) (os : Ω) (q : Pt) (In : S → Prop) (k : Coord → Nat)
    (hK : K.Fits q In) (he : (K.bbox e).Proper) (hk : ∀ c, len (K.bbox e) c < minSize * 2 ^ (k c + 1)) (h50 : k .X + k .Y + k .Z < 50)
    (hoff : ∀ z, Reach (splitPBox K many sub minSize) (ofSolid K (sub os) e) z → many z → ∀ b1 b2, split minSize z.box = some (b1, b2) → z.box.Int q → b1.Int q ∨ b2.Int q)
    (hone : ∀ z, Reach (splitPBox K many sub minSize) (ofSolid K (sub os) e) z → many z → ∀ s b1 b2, z.piece = some s → split minSize z.box = some (b1, b2) →
      (K.common b1 s).length ≤ 1 ∧ (K.common b2 s).length ≤ 1) :
    (In e → ExactlyOne (PBox.Holds q In) (enclosureBoxes K many sub minSize e os)) ∧ (¬ In e → ∀ z ∈ enclosureBoxes K many sub minSize e os, ¬ z.Holds q In) := by
  let G : PBox S Ω → Prop := fun z => Good K q In z ∧ Reach (splitPBox K many sub minSize) (ofSolid K (sub os) e) z
  have hG : ∀ z ps, G z → splitPBox K many sub minSize z = some ps → ∀ b ∈ ps, G b := by
    intro z ps hz hs b hb
    obtain ⟨b1, b2, -, h⟩ := child_good hK hz.1 hs
    exact ⟨(h b hb).1, .step hz.2 hs hb⟩
  have hinit : ∀ y ∈ [ofSolid K (sub os) e], G y := by
    intro y hy
    simp only [List.mem_singleton] at hy
    subst hy
    exact ⟨⟨he, hK.bbox e⟩, .refl⟩
  have hdone : (voidLoop (splitPBox K many sub minSize) 50 [ofSolid K (sub os) e]).2 = [] := by
    refine voidLoop_done (R := fun r (y : PBox S Ω) => G y ∧ ∃ k : Coord → Nat, Below minSize k y.box ∧ k .X + k .Y + k .Z = r) ?_ 50 _ ?_ (by norm_num)
    · rintro r y ps ⟨hy, k, hb, rfl⟩ hs
      obtain ⟨b1, b2, h1, h2⟩ := child_good hK hy.1 hs
      obtain ⟨k', q1, q2, q3⟩ := split_below hy.1.proper hb h1
      refine ⟨k' .X + k' .Y + k' .Z, q3, fun b hbm => ⟨hG y ps hy hs b hbm, k', ?_, rfl⟩⟩
      rcases (h2 b hbm).2.1 with h | h
      · exact h.below q1
      · exact h.below q2
    · intro y hy
      refine ⟨_, h50, hinit y hy, k, ?_, rfl⟩
      simp only [List.mem_singleton] at hy
      subst hy
      exact hk
  have hcov := voidLoop_covers (P := Unit) (G := G) (Mem := fun y _ => y.Holds q In) hG
    (fun z ps hz hs _ => ⟨fun h => child_covers hK hz.1 hs (hoff z hz.2) (hone z hz.2) h, fun ⟨b, hb, h⟩ => by
      obtain ⟨b1, b2, -, h2⟩ := child_good hK hz.1 hs
      exact (h2 b hb).2.2.2 h⟩) () 50 _ hinit
  have hdis := voidLoop_disjoint (P := Unit) (G := G) (Int := fun y _ => y.Holds q In) hG
    (fun z ps hz hs => ⟨fun b hb _ h => by
        obtain ⟨b1, b2, -, h2⟩ := child_good hK hz.1 hs
        exact (h2 b hb).2.2.2 h, (child_disjoint hK hz.1 hs).imp fun h _ => h⟩) 50 _ hinit (by simp)
  rw [hdone] at hcov
  simp only [List.append_nil, List.mem_singleton, exists_eq_left] at hcov
  have hstart : (ofSolid K (sub os) e).Holds q In ↔ In e := Iff.rfl
  rw [hstart] at hcov
  refine ⟨fun h => ?_, fun h z hz hh => h (hcov.2 ⟨z, hz, hh⟩)⟩
  rw [exactlyOne_iff]
  exact ⟨hdis.2.imp fun h k => h () k.1 k.2, hcov.1 h⟩

/-- what the objects of a box are chosen from: `VoidBox.__init__` -/
noncomputable def chooseObjs (os : List VObj) (b : BBox) : List VObj := (voidObjs b os).toOption.getD []

/-- the definition from which the void cell of a box is made: the planes of the box, or the definition of the piece -/
noncomputable def PBox.definition {S Ω : Type} (reg : Pl → Registered) (pdef : S → Seq) (z : PBox S Ω) : Seq :=
  match z.piece with
  | none => boxDef z.box reg
  | some s => pdef s

/-- C124, proved part: the void cells of the enclosure `e`, which holds the cells `ms` (solids and inner enclosures). `cell z` is the void cell made of the box `z` (`guard = true`: no
execution in which C26 is false); `pdef s` is the definition of a piece, which holds at the point exactly when the point is in the piece (C60). At every point `q` with sides `σ` on no
plane of a box: if the point is in the enclosure and in no cell, it is in exactly one void cell; otherwise in none.
Missing: cuts that leave several solids in a half (there C124 is false). -/
theorem C124_void_partial {S : Type} (K : Kernel S) (many : PBox S (List VObj) → Prop) (minSize : ℝ) (e : S) (ms : List VObj) (In : S → Prop) (k : Coord → Nat)
    (he : (K.bbox e).Proper) (hk : ∀ c, len (K.bbox e) c < minSize * 2 ^ (k c + 1)) (h50 : k .X + k .Y + k .Z < 50)
    (mode : Simp) (reg : Pl → Registered) (pdef : S → Seq) (t : PBox S (List VObj) → CTable) (enum : Seq → List Nat) (f : Nat)
    (cell : PBox S (List VObj) → Option Seq) (boxes : List (PBox S (List VObj))) (hboxes : boxes = enclosureBoxes K many chooseObjs minSize e ms)
    (hsolid : ∀ z ∈ boxes, z.piece = none → Solid z.box ∧ ∀ p ∈ boundPlanes z.box, Fits p (reg p))
    (hpdef : ∀ z ∈ boxes, ∀ s, z.piece = some s → (pdef s).WF ∧ ∃ σ, (mode = .full → (t z).Sound σ) ∧ (pdef s).sem σ = false)
    (ht : mode ≠ .no → ∀ z ∈ boxes, (t z).NoEquivalence)
    (hcell : ∀ z ∈ boxes, voidCell true mode z.piece.isSome (z.definition reg pdef) (defsOf z.objs) (t z) enum f = .ok (cell z))
    (q : Vec) (σ : Side) (hK : K.Fits ⟨q.x, q.y, q.z⟩ In)
    (hoff : ∀ z, Reach (splitPBox K many chooseObjs minSize) (ofSolid K (chooseObjs ms) e) z → many z → ∀ b1 b2, split minSize z.box = some (b1, b2) →
      z.box.Int ⟨q.x, q.y, q.z⟩ → b1.Int ⟨q.x, q.y, q.z⟩ ∨ b2.Int ⟨q.x, q.y, q.z⟩)
    (hone : ∀ z, Reach (splitPBox K many chooseObjs minSize) (ofSolid K (chooseObjs ms) e) z → many z → ∀ s b1 b2, z.piece = some s → split minSize z.box = some (b1, b2) →
      (K.common b1 s).length ≤ 1 ∧ (K.common b2 s).length ≤ 1)
    (hσ : ∀ z ∈ boxes, (z.piece = none → SidesAt z.box reg q σ) ∧ ∀ s, z.piece = some s → ((pdef s).sem σ = true ↔ In s))
    (htab : ∀ z ∈ boxes, (mode ≠ .no → z.Holds ⟨q.x, q.y, q.z⟩ In → (t z).Sound σ) ∧ (mode = .full → z.piece.isSome = true → (t z).Sound σ))
    (hms : ∀ m ∈ ms, Located ⟨q.x, q.y, q.z⟩ σ m) :
    ((In e ∧ ∀ m ∈ ms, m.defn.sem σ = false) → ExactlyOne (fun d : Seq => d.sem σ = true) (boxes.filterMap cell)) ∧
    (¬ (In e ∧ ∀ m ∈ ms, m.defn.sem σ = false) → ∀ d ∈ boxes.filterMap cell, d.sem σ = false) := by
  set pt : Pt := ⟨q.x, q.y, q.z⟩ with hpt
  obtain ⟨hin, hnot⟩ := C124_boxes_partial K many chooseObjs minSize e ms pt In k hK he hk h50 hoff hone
  rw [← hboxes] at hin hnot
  -- what holds of every box of the loop
  let G : PBox S (List VObj) → Prop := fun z => Good K pt In z ∧ (∀ o ∈ z.objs, Shaped o) ∧ (z.Holds pt In → In e) ∧
    (z.Holds pt In → (∀ o ∈ z.objs, Located pt σ o) ∧ ((∃ o ∈ z.objs, o.defn.sem σ = true) ↔ ∃ m ∈ ms, m.defn.sem σ = true))
  have hobjs : ∀ (os : List VObj) (b : BBox), (∀ o ∈ os, Shaped o) → ∀ o ∈ chooseObjs os b, Shaped o := by
    intro os b h
    obtain ⟨os', h1, h2⟩ := voidObjs_shaped (B := b) os h
    simpa only [chooseObjs, h1, Except.toOption, Option.getD_some] using h2
  have hlocs : ∀ (os : List VObj) (b : BBox), b.Mem pt → (∀ o ∈ os, Located pt σ o) →
      (∀ o ∈ chooseObjs os b, Located pt σ o) ∧ ((∃ o ∈ chooseObjs os b, o.defn.sem σ = true) ↔ ∃ o ∈ os, o.defn.sem σ = true) := by
    intro os b hb h
    obtain ⟨os', r1, r2, r3, -⟩ := voidObjs_spec (B := b) hb os h
    simp only [chooseObjs, r1, Except.toOption, Option.getD_some]
    exact ⟨r2, r3⟩
  have hmem : ∀ b : BBox, b.Int pt → b.Mem pt := fun b h => ⟨⟨h.1.1.le, h.1.2.le⟩, ⟨h.2.1.1.le, h.2.1.2.le⟩, h.2.2.1.le, h.2.2.2.le⟩
  have hG : ∀ z ps, G z → splitPBox K many chooseObjs minSize z = some ps → ∀ b ∈ ps, G b := by
    rintro z ps ⟨g1, g2, g3, g4⟩ hs b hb
    obtain ⟨b1, b2, -, h⟩ := child_good hK g1 hs
    obtain ⟨c1, -, c3, c4⟩ := h b hb
    refine ⟨c1, ?_, fun k => g3 (c4 k), fun k => ?_⟩
    · rw [c3]; exact hobjs _ _ g2
    · obtain ⟨l1, l2⟩ := g4 (c4 k)
      obtain ⟨r1, r2⟩ := hlocs z.objs b.box (hmem _ (c1.inside k)) l1
      rw [c3]
      exact ⟨r1, r2.trans l2⟩
  have hinit : G (ofSolid K (chooseObjs ms) e) := by
    refine ⟨⟨he, hK.bbox e⟩, hobjs _ _ fun m hm => (hms m hm).shaped, fun h => h, fun h => ?_⟩
    exact hlocs ms _ (hmem _ (hK.bbox e h)) hms
  have hall : ∀ z ∈ boxes, G z := by
    intro z hz
    rw [hboxes] at hz
    exact ((voidLoop_forall hG 50 [_] (by intro y hy; simp only [List.mem_singleton] at hy; subst hy; exact hinit)).1 z hz).1
  -- the void cell of a box
  have key : ∀ z ∈ boxes, ((∃ c, cell z = some c ∧ c.sem σ = true) ↔ (z.Holds pt In ∧ ∀ m ∈ ms, m.defn.sem σ = false)) := by
    intro z hz
    obtain ⟨g1, g2, g3, g4⟩ := hall z hz
    have hw : ∀ d ∈ defsOf z.objs, d.WF := by
      intro d hd
      obtain ⟨o, ho, rfl⟩ := List.mem_map.1 hd
      exact (g2 o ho).2
    have hsame : z.Holds pt In → ((∀ d ∈ defsOf z.objs, d.sem σ = false) ↔ ∀ m ∈ ms, m.defn.sem σ = false) := by
      intro h
      have := not_congr (g4 h).2
      simpa [defsOf] using this
    have hend : ((∃ c, cell z = some c ∧ c.sem σ = true) ↔ (z.Holds pt In ∧ ∀ d ∈ defsOf z.objs, d.sem σ = false)) := by
      have hc := hcell z hz
      cases hp : z.piece with
      | none =>
        obtain ⟨s1, s2⟩ := hsolid z hz hp
        simp only [hp, Option.isSome_none, PBox.definition] at hc
        have hH : z.Holds pt In ↔ z.box.Int pt := by simp only [PBox.Holds, hp]
        have hint : InBox z.box q ↔ z.box.Int pt := ⟨int_of_sides s2 ((hσ z hz).1 hp), fun h => hmem _ h⟩
        rw [boxCell_spec (q := q) s1 s2 hw (fun hm => ht hm z hz) hc ((hσ z hz).1 hp) (fun hm hb => (htab z hz).1 hm (hH.2 (hint.1 hb))), hH, hint]
      | some s =>
        obtain ⟨p1, σ0, p2, p3⟩ := hpdef z hz s hp
        have hs := (hσ z hz).2 s hp
        simp only [hp, Option.isSome_some, PBox.definition] at hc
        have hH : z.Holds pt In ↔ In s := by simp only [PBox.Holds, hp]
        obtain ⟨-, hk⟩ := C26_void_cell_partial mode true (pdef s) (defsOf z.objs) (t z) enum f (cell z) (fun hm => ht hm z hz) p1 (by simp) hw
          ⟨σ0, ⟨fun _ h => absurd (p3.symm.trans h) (by decide), fun h _ => p2 h⟩, p3⟩ hc
        rw [hk σ (fun hm hb => (htab z hz).1 hm (hH.2 (hs.1 hb))) (fun h _ => (htab z hz).2 h (by simp [hp])), hs, hH]
    rw [hend]
    constructor
    · rintro ⟨a, b⟩; exact ⟨a, (hsame a).1 b⟩
    · rintro ⟨a, b⟩; exact ⟨a, (hsame a).2 b⟩
  refine ⟨fun ⟨h1, h2⟩ => ?_, fun h d hd => ?_⟩
  · obtain ⟨a1, a2⟩ := exactlyOne_iff.1 (hin h1)
    rw [exactlyOne_iff]
    refine ⟨AtMostOne.filterMap (Q := PBox.Holds pt In) a1 fun z hz c hc hs => ((key z hz).1 ⟨c, hc, hs⟩).1, ?_⟩
    · obtain ⟨z, hz, hh⟩ := a2
      obtain ⟨c, hc, hs⟩ := (key z hz).2 ⟨hh, h2⟩
      exact ⟨c, List.mem_filterMap.2 ⟨z, hz, hc⟩, hs⟩
  · obtain ⟨z, hz, hc⟩ := List.mem_filterMap.1 hd
    by_contra hne
    obtain ⟨a, b⟩ := (key z hz).1 ⟨d, hc, by simpa using hne⟩
    exact h ⟨(hall z hz).2.2.1 a, b⟩

end Geouned.Void
