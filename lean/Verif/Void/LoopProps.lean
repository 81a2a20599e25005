import Verif.Void.BoundProps
import Verif.Void.Props
import Verif.Box.SplitProps
/-!
# Properties C27 (no void box is dropped) and C52 (solids and void cells fill the universe)
-/
namespace Geouned.Void
open Geouned.Geom Geouned.Box

/-! ### Lemmas about the loop -/

section loop
variable {β P : Type} {split : β → Option (List β)}

/-- the boxes with and without a void cell are, together, the last generation of a tree of splits -/
theorem voidLoop_forall {G : β → Prop} (hG : ∀ z ps, G z → split z = some ps → ∀ b ∈ ps, G b) :
    ∀ (n : Nat) (init : List β), (∀ z ∈ init, G z) →
      (∀ z ∈ (voidLoop split n init).1, G z ∧ split z = none) ∧ (∀ z ∈ (voidLoop split n init).2, G z) := by
  intro n
  induction n with
  | zero => intro init h; simp [voidLoop]; exact h
  | succ n ih =>
    intro init h
    have hd : ∀ z ∈ init.filter (fun z => (split z).isNone), G z ∧ split z = none := by
      intro z hz
      simp only [List.mem_filter, Option.isNone_iff_eq_none] at hz
      exact ⟨h z hz.1, hz.2⟩
    have ht : ∀ z ∈ init.flatMap (fun z => (split z).getD []), G z := by
      intro z hz
      simp only [List.mem_flatMap] at hz
      obtain ⟨y, hy, hz⟩ := hz
      cases hs : split y with
      | none => rw [hs] at hz; simp at hz
      | some ps => rw [hs] at hz; exact hG y ps (h y hy) hs z (by simpa using hz)
    simp only [voidLoop]
    split
    · exact ⟨hd, by simp⟩
    · obtain ⟨a, b⟩ := ih _ ht
      refine ⟨?_, b⟩
      intro z hz
      rcases List.mem_append.1 hz with hz | hz
      · exact hd z hz
      · exact a z hz

/-- the points are kept: in a box with a cell or in a box left over -/
theorem voidLoop_covers {G : β → Prop} {Mem : β → P → Prop}
    (hG : ∀ z ps, G z → split z = some ps → ∀ b ∈ ps, G b)
    (hM : ∀ z ps, G z → split z = some ps → ∀ p, Mem z p ↔ ∃ b ∈ ps, Mem b p) (p : P) :
    ∀ (n : Nat) (init : List β), (∀ z ∈ init, G z) →
      ((∃ z ∈ init, Mem z p) ↔ ∃ z ∈ (voidLoop split n init).1 ++ (voidLoop split n init).2, Mem z p) := by
  intro n
  induction n with
  | zero => intro init h; simp [voidLoop]
  | succ n ih =>
    intro init h
    have hstep : (∃ z ∈ init, Mem z p) ↔ (∃ z ∈ init.filter (fun z => (split z).isNone), Mem z p) ∨
        ∃ z ∈ init.flatMap (fun z => (split z).getD []), Mem z p := by
      constructor
      · rintro ⟨z, hz, hp⟩
        cases hs : split z with
        | none => exact .inl ⟨z, by simp [hz, hs], hp⟩
        | some ps =>
          obtain ⟨b, hb, hbp⟩ := (hM z ps (h z hz) hs p).1 hp
          exact .inr ⟨b, List.mem_flatMap.2 ⟨z, hz, by simpa [hs] using hb⟩, hbp⟩
      · rintro (⟨z, hz, hp⟩ | ⟨z, hz, hp⟩)
        · exact ⟨z, (List.mem_filter.1 hz).1, hp⟩
        · obtain ⟨y, hy, hz⟩ := List.mem_flatMap.1 hz
          cases hs : split y with
          | none => rw [hs] at hz; simp at hz
          | some ps => exact ⟨y, hy, (hM y ps (h y hy) hs p).2 ⟨z, by simpa [hs] using hz, hp⟩⟩
    have ht : ∀ z ∈ init.flatMap (fun z => (split z).getD []), G z := by
      intro z hz
      obtain ⟨y, hy, hz⟩ := List.mem_flatMap.1 hz
      cases hs : split y with
      | none => rw [hs] at hz; simp at hz
      | some ps => rw [hs] at hz; exact hG y ps (h y hy) hs z (by simpa using hz)
    rw [hstep]
    simp only [voidLoop]
    split
    · next he => rw [he]; simp
    · rw [ih _ ht]
      simp only [List.mem_append, or_assoc]
      constructor
      · rintro (⟨z, a, b⟩ | ⟨z, a, b⟩)
        · exact ⟨z, .inl a, b⟩
        · exact ⟨z, .inr a, b⟩
      · rintro ⟨z, a | a, b⟩
        · exact .inl ⟨z, a, b⟩
        · exact .inr ⟨z, a, b⟩

/-- nothing is left over when every chain of splits is shorter than the number of rounds -/
theorem voidLoop_done {R : Nat → β → Prop}
    (hR : ∀ r z ps, R r z → split z = some ps → ∃ r', r = r' + 1 ∧ ∀ b ∈ ps, R r' b) :
    ∀ (n : Nat) (init : List β), (∀ z ∈ init, ∃ r < n, R r z) → 0 < n → (voidLoop split n init).2 = [] := by
  intro n
  induction n with
  | zero => intro init _ h; omega
  | succ n ih =>
    intro init h _
    simp only [voidLoop]
    split
    · rfl
    · next hne =>
      have ht : ∀ z ∈ init.flatMap (fun z => (split z).getD []), ∃ r < n, R r z := by
        intro z hz
        obtain ⟨y, hy, hz⟩ := List.mem_flatMap.1 hz
        obtain ⟨r, hr, hry⟩ := h y hy
        cases hs : split y with
        | none => rw [hs] at hz; simp at hz
        | some ps =>
          obtain ⟨r', e, hb⟩ := hR r y ps hry hs
          exact ⟨r', by omega, hb z (by simpa [hs] using hz)⟩
      refine ih _ ht ?_
      rcases Nat.eq_zero_or_pos n with h0 | h0
      · subst h0
        exfalso
        apply hne
        apply List.eq_nil_iff_forall_not_mem.2
        intro z hz
        obtain ⟨r, hr, _⟩ := ht z hz
        omega
      · exact h0

/-- boxes that share no inner point keep that property -/
theorem voidLoop_disjoint {G : β → Prop} {Int : β → P → Prop}
    (hG : ∀ z ps, G z → split z = some ps → ∀ b ∈ ps, G b)
    (hI : ∀ z ps, G z → split z = some ps → (∀ b ∈ ps, ∀ p, Int b p → Int z p) ∧
      ps.Pairwise (fun b c => ∀ p, Int b p → ¬ Int c p)) :
    ∀ (n : Nat) (init : List β), (∀ z ∈ init, G z) → init.Pairwise (fun b c => ∀ p, Int b p → ¬ Int c p) →
      (∀ z ∈ (voidLoop split n init).1, ∃ y ∈ init, ∀ p, Int z p → Int y p) ∧
      (voidLoop split n init).1.Pairwise (fun b c => ∀ p, Int b p → ¬ Int c p) := by
  intro n
  induction n with
  | zero => intro init h hp; simp [voidLoop]
  | succ n ih =>
    intro init h hp
    have ht : ∀ z ∈ init.flatMap (fun z => (split z).getD []), G z := by
      intro z hz
      obtain ⟨y, hy, hz⟩ := List.mem_flatMap.1 hz
      cases hs : split y with
      | none => rw [hs] at hz; simp at hz
      | some ps => rw [hs] at hz; exact hG y ps (h y hy) hs z (by simpa using hz)
    have hsub : ∀ y ∈ init, ∀ z ∈ (split y).getD [], ∀ p, Int z p → Int y p := by
      intro y hy z hz p hzp
      cases hs : split y with
      | none => rw [hs] at hz; simp at hz
      | some ps => exact (hI y ps (h y hy) hs).1 z (by simpa [hs] using hz) p hzp
    have htp : (init.flatMap (fun z => (split z).getD [])).Pairwise (fun b c => ∀ p, Int b p → ¬ Int c p) := by
      rw [List.pairwise_flatMap]
      constructor
      · intro y hy
        cases hs : split y with
        | none => simp
        | some ps => simpa using (hI y ps (h y hy) hs).2
      · refine hp.imp_of_mem ?_
        intro a b ha hb hab x hx y hy p hxp hyp
        exact hab p (hsub a ha x hx p hxp) (hsub b hb y hy p hyp)
    have hinit : ∀ z ∈ init.filter (fun z => (split z).isNone), ∃ y ∈ init, ∀ p, Int z p → Int y p := by
      intro z hz
      exact ⟨z, (List.mem_filter.1 hz).1, fun _ h => h⟩
    simp only [voidLoop]
    split
    · exact ⟨hinit, hp.filter _⟩
    · obtain ⟨a, b⟩ := ih _ ht htp
      constructor
      · intro z hz
        rcases List.mem_append.1 hz with hz | hz
        · exact hinit z hz
        · obtain ⟨y, hy, hzy⟩ := a z hz
          obtain ⟨x, hx, hy⟩ := List.mem_flatMap.1 hy
          exact ⟨x, hx, fun p hp => hsub x hx y hy p (hzy p hp)⟩
      · rw [List.pairwise_append]
        refine ⟨hp.filter _, b, ?_⟩
        intro x hx y hy p hxp hyp
        obtain ⟨w, hw, hyw⟩ := a y hy
        obtain ⟨v, hv, hwv⟩ := List.mem_flatMap.1 hw
        have hvp := hsub v hv w hwv p (hyw p hyp)
        have hxm := List.mem_filter.1 hx
        by_cases hxv : x = v
        · subst hxv
          simp only [Option.isNone_iff_eq_none] at hxm
          rw [hxm.2] at hwv
          simp at hwv
        · rcases pairwise_or hp hxm.1 hv hxv with h1 | h1
          · exact h1 p hxp hvp
          · exact h1 p hvp hxp
where
  pairwise_or {β : Type} {R : β → β → Prop} : ∀ {l : List β}, l.Pairwise R → ∀ {x y : β}, x ∈ l → y ∈ l → x ≠ y →
      R x y ∨ R y x := by
    intro l
    induction l with
    | nil => intro _ x y hx; cases hx
    | cons a l ih =>
      intro hp x y hx hy hne
      rw [List.pairwise_cons] at hp
      rcases List.mem_cons.1 hx with hx' | hx' <;> rcases List.mem_cons.1 hy with hy' | hy'
      · exact absurd (hx'.trans hy'.symm) hne
      · rw [hx']; exact .inl (hp.1 y hy')
      · rw [hy']; exact .inr (hp.1 x hx')
      · exact ih hp.2 hx' hy' hne

end loop

/-! ### The loop of the code on boxes -/

/-- a `VoidBox` without piece enclosure: its box and what it holds (`Ω`: lists of solids) -/
structure VBox (Ω : Type) where
  box : BBox
  objs : Ω

open Classical in
/-- void.py 132-138: `many` is the test on the numbers of surfaces and brackets, `sub` the selection of the solids of a
piece (void_box_class.py 21-37); `z.split(minSize)` is `Box.split` -/
noncomputable def splitVBox {Ω : Type} (many : VBox Ω → Prop) (sub : VBox Ω → BBox → Ω) (minSize : ℝ) (z : VBox Ω) :
    Option (List (VBox Ω)) :=
  if many z then (split minSize z.box).map fun p => [⟨p.1, sub z p.1⟩, ⟨p.2, sub z p.2⟩] else none

theorem splitVBox_some {Ω : Type} {many : VBox Ω → Prop} {sub : VBox Ω → BBox → Ω} {m : ℝ} {z : VBox Ω}
    {ps : List (VBox Ω)} (h : splitVBox many sub m z = some ps) :
    ∃ b1 b2, split m z.box = some (b1, b2) ∧ ps = [⟨b1, sub z b1⟩, ⟨b2, sub z b2⟩] := by
  unfold splitVBox at h
  split at h
  · cases hs : split m z.box with
    | none => rw [hs] at h; cases h
    | some p => rw [hs] at h; simp at h; exact ⟨p.1, p.2, rfl, h.symm⟩
  · cases h

/-- C27 in full: whatever the rule that decides to split, when the void generation ends every point of the initial box
is in a box that was given a void cell. -/
def C27_statement : Prop :=
  ∀ (Ω : Type) (many : VBox Ω → Prop) (sub : VBox Ω → BBox → Ω) (minSize : ℝ) (z : VBox Ω),
    0 < minSize → z.box.Proper →
    ∀ p, z.box.Mem p → ∃ b ∈ getVoidBoxes (splitVBox many sub minSize) z, b.box.Mem p

/-- one more split of the long box -/
theorem long_split (k : Nat) :
    split 1 ⟨0, 2 ^ (k + 1), 0, 1, 0, 1⟩ = some (⟨0, 2 ^ k, 0, 1, 0, 1⟩, ⟨2 ^ k, 2 ^ (k + 1), 0, 1, 0, 1⟩) := by
  have h1 : (1 : ℝ) ≤ 2 ^ k := one_le_pow₀ (by norm_num)
  have h2 : ¬ (1 / 2 * (2 : ℝ) ^ (k + 1) < 1) := by rw [pow_succ]; linarith
  have e : (1 / 2 * (2 : ℝ) ^ (k + 1)) = 2 ^ k := by rw [pow_succ]; ring
  unfold split keepDims
  rw [List.filter_cons_of_pos (by simpa using h2), List.filter_cons_of_neg (by norm_num),
    List.filter_cons_of_neg (by norm_num)]
  simp only [List.filter_nil, firstMax, cutBox, sub_zero, zero_add, e]

theorem long_loop {Ω : Type} (sub : VBox Ω → BBox → Ω) :
    ∀ (n k : Nat) (zs : List (VBox Ω)) (o : Ω), n ≤ k →
      (∀ z ∈ zs, 0 < z.box.xmin) →
      ∀ b ∈ (voidLoop (splitVBox (fun z => z.box.xmin = 0) sub 1) n (⟨⟨0, 2 ^ k, 0, 1, 0, 1⟩, o⟩ :: zs)).1,
        0 < b.box.xmin := by
  intro n
  induction n with
  | zero => intro k zs o _ _ b hb; simp [voidLoop] at hb
  | succ n ih =>
    intro k zs o hk hz b hb
    obtain ⟨k, rfl⟩ : ∃ j, k = j + 1 := ⟨k - 1, by omega⟩
    have hs : splitVBox (fun z => z.box.xmin = 0) sub 1 (⟨⟨0, 2 ^ (k + 1), 0, 1, 0, 1⟩, o⟩ : VBox Ω) =
        some [⟨⟨0, 2 ^ k, 0, 1, 0, 1⟩, sub ⟨⟨0, 2 ^ (k + 1), 0, 1, 0, 1⟩, o⟩ ⟨0, 2 ^ k, 0, 1, 0, 1⟩⟩,
          ⟨⟨2 ^ k, 2 ^ (k + 1), 0, 1, 0, 1⟩, sub ⟨⟨0, 2 ^ (k + 1), 0, 1, 0, 1⟩, o⟩ ⟨2 ^ k, 2 ^ (k + 1), 0, 1, 0, 1⟩⟩] := by
      unfold splitVBox
      rw [if_pos rfl]
      simp only [long_split, Option.map_some]
    have hzs : ∀ z ∈ zs, splitVBox (fun z => z.box.xmin = 0) sub 1 z = none := by
      intro z hzm
      unfold splitVBox
      rw [if_neg (ne_of_gt (hz z hzm))]
    have hfl : zs.flatMap (fun z => (splitVBox (fun z => z.box.xmin = 0) sub 1 z).getD []) = [] := by
      rw [List.flatMap_eq_nil_iff]
      intro z hzm; rw [hzs z hzm]; rfl
    simp only [voidLoop, List.flatMap_cons, hs, hfl, Option.getD_some, List.append_nil] at hb
    rcases List.mem_append.1 hb with hb | hb
    · rw [List.mem_filter] at hb
      rcases List.mem_cons.1 hb.1 with h0 | h0
      · rw [h0, hs] at hb; simp at hb
      · exact hz b h0
    · refine ih k _ _ (by omega) ?_ b hb
      intro z hzm
      simp only [List.mem_cons, List.not_mem_nil, or_false] at hzm
      subst hzm
      have : (0 : ℝ) < 2 ^ k := by positivity
      simpa using this

/-- C27 is false of the code: the loop stops after 50 rounds and forgets the boxes still to be processed. For a box of
length 2^60 (minimum size 1) in which the boxes at the origin have too many surfaces, the origin is in no box that gets
a void cell. -/
theorem C27_void_loop_violated : ¬ C27_statement := by
  intro h
  obtain ⟨b, hb, hm⟩ := h Unit (fun z => z.box.xmin = 0) (fun _ _ => ()) 1 ⟨⟨0, 2 ^ 60, 0, 1, 0, 1⟩, ()⟩ (by norm_num)
    (by norm_num [BBox.Proper]) ⟨0, 0, 0⟩ (by norm_num [BBox.Mem])
  have := long_loop (fun _ _ => ()) 50 60 [] () (by omega) (by simp) b hb
  have h0 := hm.1.1
  simp only at h0
  linarith

/-- C27, proved part: when in each direction the box is shorter than the minimum size times 2^(k+1), with
kx + ky + kz < 50 (for a cube: fewer than 2^17 times the minimum size), no box is left over, whatever the rule to split
and the solids: the boxes that get a void cell hold exactly the points of the initial box, no point is inside two of
them, and each of them either is below the limits on surfaces and brackets or cannot be split.
Missing: longer boxes (there C27 is false); boxes with a piece enclosure, which the CAD kernel cuts. -/
theorem C27_void_loop_partial {Ω : Type} (many : VBox Ω → Prop) (sub : VBox Ω → BBox → Ω) (minSize : ℝ) (z : VBox Ω)
    (hz : z.box.Proper) (k : Coord → Nat) (hk : ∀ c, len z.box c < minSize * 2 ^ (k c + 1))
    (h50 : k .X + k .Y + k .Z < 50) :
    (voidLoop (splitVBox many sub minSize) 50 [z]).2 = [] ∧
    (∀ p, z.box.Mem p ↔ ∃ b ∈ getVoidBoxes (splitVBox many sub minSize) z, b.box.Mem p) ∧
    (getVoidBoxes (splitVBox many sub minSize) z).Pairwise (fun b c => ∀ p, b.box.Int p → ¬ c.box.Int p) ∧
    (∀ b ∈ getVoidBoxes (splitVBox many sub minSize) z, b.box.Proper ∧
      (¬ many b ∨ ∀ c, (1 / 2) * len b.box c < minSize)) := by
  have hG : ∀ (z : VBox Ω) ps, z.box.Proper → splitVBox many sub minSize z = some ps → ∀ b ∈ ps, b.box.Proper := by
    intro z ps hz hs b hb
    obtain ⟨b1, b2, h1, rfl⟩ := splitVBox_some hs
    obtain ⟨_, _, p1, p2, _⟩ := C25_split_covers minSize z.box b1 b2 hz h1
    simp only [List.mem_cons, List.not_mem_nil, or_false] at hb
    rcases hb with rfl | rfl
    · exact p1
    · exact p2
  have hM : ∀ (z : VBox Ω) ps, z.box.Proper → splitVBox many sub minSize z = some ps →
      ∀ p, z.box.Mem p ↔ ∃ b ∈ ps, b.box.Mem p := by
    intro z ps hz hs p
    obtain ⟨b1, b2, h1, rfl⟩ := splitVBox_some hs
    rw [(C25_split_covers minSize z.box b1 b2 hz h1).1 p]
    simp
  have hI : ∀ (z : VBox Ω) ps, z.box.Proper → splitVBox many sub minSize z = some ps →
      (∀ b ∈ ps, ∀ p, b.box.Int p → z.box.Int p) ∧ ps.Pairwise (fun b c => ∀ p, b.box.Int p → ¬ c.box.Int p) := by
    intro z ps hz hs
    obtain ⟨b1, b2, h1, rfl⟩ := splitVBox_some hs
    refine ⟨?_, by simpa using (C25_split_covers minSize z.box b1 b2 hz h1).2.1⟩
    obtain ⟨c, hcut, _⟩ := split_some h1
    obtain ⟨hx, hy, hzz⟩ := hz
    have e1 : b1 = (cutBox z.box c).1 := by rw [← hcut]
    have e2 : b2 = (cutBox z.box c).2 := by rw [← hcut]
    subst e1 e2
    intro b hb p hp
    simp only [List.mem_cons, List.not_mem_nil, or_false] at hb
    rcases hb with rfl | rfl <;> cases c <;> simp only [cutBox, BBox.Int] at hp ⊢ <;>
      obtain ⟨⟨a1, a2⟩, ⟨a3, a4⟩, a5, a6⟩ := hp <;> refine ⟨⟨?_, ?_⟩, ⟨?_, ?_⟩, ?_, ?_⟩ <;> linarith
  have hinit : ∀ y ∈ [z], y.box.Proper := by intro y hy; simp at hy; subst hy; exact hz
  have hdone : (voidLoop (splitVBox many sub minSize) 50 [z]).2 = [] := by
    refine voidLoop_done (R := fun r (y : VBox Ω) => y.box.Proper ∧ ∃ k : Coord → Nat, Below minSize k y.box ∧
      k .X + k .Y + k .Z = r) ?_ 50 [z] ?_ (by norm_num)
    · rintro r y ps ⟨hy, k, hb, rfl⟩ hs
      obtain ⟨b1, b2, h1, rfl⟩ := splitVBox_some hs
      obtain ⟨k', q1, q2, q3⟩ := split_below hy hb h1
      refine ⟨k' .X + k' .Y + k' .Z, q3, ?_⟩
      intro b hbm
      refine ⟨hG y _ hy hs b hbm, ?_⟩
      simp only [List.mem_cons, List.not_mem_nil, or_false] at hbm
      rcases hbm with rfl | rfl
      · exact ⟨k', q1, rfl⟩
      · exact ⟨k', q2, rfl⟩
    · intro y hy
      simp at hy; subst hy
      exact ⟨_, h50, hz, k, hk, rfl⟩
  refine ⟨hdone, ?_, ?_, ?_⟩
  · intro p
    have := voidLoop_covers (G := fun y : VBox Ω => y.box.Proper) (Mem := fun y : VBox Ω => y.box.Mem) hG hM p 50 [z] hinit
    rw [hdone] at this
    simpa [getVoidBoxes] using this
  · exact (voidLoop_disjoint (G := fun y : VBox Ω => y.box.Proper) (Int := fun y : VBox Ω => y.box.Int) hG hI 50 [z] hinit
      (by simp)).2
  · intro b hb
    obtain ⟨g, hn⟩ := (voidLoop_forall (G := fun y : VBox Ω => y.box.Proper) hG 50 [z] hinit).1 b hb
    refine ⟨g, ?_⟩
    by_cases hm : many b
    · right
      unfold splitVBox at hn
      rw [if_pos hm] at hn
      exact (C25_split_none minSize b.box).1 (by simpa using hn)
    · exact .inl hm

/-- Non-vacuity: a 20 m cube (in mm) with the default minimum size 200 mm. -/
example : (⟨0, 20000, 0, 20000, 0, 20000⟩ : BBox).Proper ∧
    ∀ c, len (⟨0, 20000, 0, 20000, 0, 20000⟩ : BBox) c < 200 * 2 ^ ((fun _ : Coord => 6) c + 1) := by
  refine ⟨by norm_num [BBox.Proper], ?_⟩
  intro c; cases c <;> norm_num [len]

/-! ### C52: solids and void cells fill the universe -/

/-- C52: the void cells of a universe box. For each box `z` that the loop ends with, the void cell `cell z` was made from
the definition of the box and the definitions of its solids `defs z.objs` (`guard = true`: no execution in which C26 is false). At every point
`q` of space on none of the box planes, with sides `σ`, at which the tables hold and such that the solids that hold `q` are
in the list of each final box that holds `q`: if `q` is in the universe box and in no solid, it is in exactly one void
cell; if it is in a solid or outside the universe box, it is in none. -/
theorem C52_void_fills_universe_partial {Ω : Type} (defs : Ω → List Seq) (many : VBox Ω → Prop) (sub : VBox Ω → BBox → Ω)
    (minSize : ℝ) (uni : VBox Ω) (hU : uni.box.Proper) (k : Coord → Nat)
    (hk : ∀ c, len uni.box c < minSize * 2 ^ (k c + 1)) (h50 : k .X + k .Y + k .Z < 50)
    (mode : Simp) (reg : Pl → Registered) (t : VBox Ω → CTable) (enum : Seq → List Nat) (f : Nat)
    (cell : VBox Ω → Option Seq) (boxes : List (VBox Ω))
    (hboxes : boxes = getVoidBoxes (splitVBox many sub minSize) uni)
    (hsolid : ∀ z ∈ boxes, Solid z.box) (hreg : ∀ z ∈ boxes, ∀ p ∈ boundPlanes z.box, Fits p (reg p))
    (hw : ∀ z ∈ boxes, ∀ d ∈ (defs z.objs), d.WF) (ht : mode ≠ .no → ∀ z ∈ boxes, (t z).NoEquivalence)
    (hcell : ∀ z ∈ boxes, voidCell true mode false (boxDef z.box reg) (defs z.objs) (t z) enum f = .ok (cell z))
    (solids : List Seq) (q : Vec) (σ : Side) (hσ : ∀ z ∈ boxes, SidesAt z.box reg q σ)
    (htab : mode ≠ .no → ∀ z ∈ boxes, InBox z.box q → (t z).Sound σ)
    (hobj : ∀ z ∈ boxes, InBox z.box q → ((∃ d ∈ (defs z.objs), d.sem σ = true) ↔ ∃ d ∈ solids, d.sem σ = true)) :
    (InBox uni.box q → (∀ d ∈ solids, d.sem σ = false) →
      ∃ z ∈ boxes, ∃ c, cell z = some c ∧ c.sem σ = true) ∧
    boxes.Pairwise (fun z z' => ¬ ((∃ c, cell z = some c ∧ c.sem σ = true) ∧ ∃ c, cell z' = some c ∧ c.sem σ = true)) ∧
    (¬ InBox uni.box q ∨ (∃ d ∈ solids, d.sem σ = true) →
      ∀ z ∈ boxes, ∀ c, cell z = some c → c.sem σ = false) := by
  obtain ⟨-, hcov, hdis, -⟩ := C27_void_loop_partial many sub minSize uni hU k hk h50
  rw [← hboxes] at hcov hdis
  have key : ∀ z ∈ boxes, ((∃ c, cell z = some c ∧ c.sem σ = true) ↔ (InBox z.box q ∧ ∀ d ∈ solids, d.sem σ = false)) := by
    intro z hz
    have hflat := boxDef_flat (hreg z hz)
    have hdef := C51_box_definition z.box (hsolid z hz) reg (hreg z hz) q σ (hσ z hz)
    have hbw : (boxDef z.box reg).WF := by
      obtain ⟨ns, h1, h2⟩ := hflat
      rw [h1, WF_lst]
      constructor
      · refine ⟨le_refl 0, fun _ e he => ?_⟩
        simp only [List.mem_map] at he
        obtain ⟨n, _, rfl⟩ := he
        exact ⟨n, rfl⟩
      · intro e he
        simp only [List.mem_map] at he
        obtain ⟨n, hn, rfl⟩ := he
        exact h2 n hn
    have hout : ∃ σ, Trusted mode false (boxDef z.box reg) (t z) σ ∧ (boxDef z.box reg).sem σ = false := by
      obtain ⟨ns, h1, h2⟩ := hflat
      have hne : ns ≠ [] := by
        rintro rfl
        have := congrArg (fun s => match s with | Seq.lst _ _ es => es.length | _ => 0) h1
        simp [boxDef, boxDefOf, boundPlanes] at this
      obtain ⟨n, ns', rfl⟩ := List.exists_cons_of_ne_nil hne
      have hf : (boxDef z.box reg).sem (fun m => decide (n < 0)) = false := by
        rw [h1]
        have hn := h2 n (by simp)
        have : lit (fun _ => decide (n < 0)) n = false := by
          unfold lit; split <;> simp <;> omega
        simp [Seq.sem, Seq.semAll, this]
      exact ⟨_, ⟨fun _ h => absurd (hf.symm.trans h) (by decide), fun _ h => absurd h (by decide)⟩, hf⟩
    obtain ⟨-, hk⟩ := C26_void_cell_partial mode false (boxDef z.box reg) (defs z.objs) (t z) enum f (cell z)
      (fun hm => ht hm z hz) hbw (fun _ => hflat) (hw z hz) hout (hcell z hz)
    rw [hk σ (fun hm hb => htab hm z hz (hdef.1 hb)) (fun _ h => by cases h), hdef]
    constructor
    · rintro ⟨a, b⟩
      refine ⟨a, fun d hd => ?_⟩
      by_contra hne
      obtain ⟨d', hd', hs'⟩ := (hobj z hz a).2 ⟨d, hd, by simpa using hne⟩
      rw [b d' hd'] at hs'; cases hs'
    · rintro ⟨a, b⟩
      refine ⟨a, fun d hd => ?_⟩
      by_contra hne
      obtain ⟨d', hd', hs'⟩ := (hobj z hz a).1 ⟨d, hd, by simpa using hne⟩
      rw [b d' hd'] at hs'; cases hs'
  have hint : ∀ z ∈ boxes, InBox z.box q → z.box.Int ⟨q.x, q.y, q.z⟩ := by
    intro z hz hin
    have hne : ∀ p ∈ boundPlanes z.box, p.val q ≠ 0 := fun p hp =>
      (signed_spec (center z.box) (axis_unit hp) (hreg z hz p hp) (hσ z hz p hp).1 (hσ z hz p hp).2).1
    rw [inBox_iff] at hin
    have hpos : ∀ p ∈ boundPlanes z.box, 0 < p.val q := fun p hp => lt_of_le_of_ne (hin p hp) (Ne.symm (hne p hp))
    simp only [boundPlanes, List.mem_cons, List.not_mem_nil, or_false, forall_eq_or_imp, forall_eq, Pl.val, Vec.dot,
      Vec.sub] at hpos
    obtain ⟨a, b, c, d, e, f⟩ := hpos
    refine ⟨⟨?_, ?_⟩, ⟨?_, ?_⟩, ?_, ?_⟩ <;> simp only <;> linarith
  refine ⟨?_, ?_, ?_⟩
  · intro hq hns
    obtain ⟨z, hz, hzq⟩ := (hcov ⟨q.x, q.y, q.z⟩).1 hq
    exact ⟨z, hz, (key z hz).2 ⟨hzq, hns⟩⟩
  · refine hdis.imp_of_mem ?_
    rintro z z' hz hz' hd ⟨h1, h2⟩
    exact hd _ (hint z hz ((key z hz).1 h1).1) (hint z' hz' ((key z' hz').1 h2).1)
  · intro hor z hz c hc
    by_contra hne
    obtain ⟨a, b⟩ := (key z hz).1 ⟨c, hc, by simpa using hne⟩
    rcases hor with h | ⟨d, hd, hs⟩
    · exact h ((hcov ⟨q.x, q.y, q.z⟩).2 ⟨z, hz, a⟩)
    · rw [b d hd] at hs; cases hs

/-- the definition of the example box: plane 3 was registered with the opposite axis -/
theorem exBox_def : boxDef exBox exReg = .lst .and 0 ([1, 2, -3, 4, 5, 6].map Seq.int) := by
  have hB : Solid exBox := by norm_num [Solid, exBox]
  have hin := fun p hp r => inward_true hB (p := p) hp r
  have hu := fun p hp => axis_unit (B := exBox) (p := p) hp
  have e1 : ∀ p ∈ boundPlanes exBox, (exReg p).surf.axis = p.axis → (toBound (center exBox) p (exReg p)).literal =
      ((exReg p).id : Int) := by
    intro p hp h
    have hno : (toBound (center exBox) p (exReg p)).opposite = false := by
      simp only [toBound, Bool.and_eq_false_iff, decide_eq_false_iff_not]
      right; rw [h]; exact not_opposite_self (hu p hp)
    simp only [BoundPlane.literal, hin p hp, hno, if_true, Bool.false_eq_true, if_false]
    rfl
  have e2 : ∀ p ∈ boundPlanes exBox, (exReg p).surf.axis = p.axis.neg → (exReg p).exist = true →
      (toBound (center exBox) p (exReg p)).literal = -((exReg p).id : Int) := by
    intro p hp h he
    have hyes : (toBound (center exBox) p (exReg p)).opposite = true := by
      simp only [toBound, Bool.and_eq_true, decide_eq_true_eq]
      rw [h]
      exact ⟨he, opposite_of (t := -1) (hu p hp) (by norm_num) (by ext <;> simp [Vec.neg, Vec.smul]) (by norm_num)⟩
    simp only [BoundPlane.literal, hin p hp, hyes, if_true]
    rfl
  have x1 : ((1 : ℝ) = -1) = False := by norm_num
  have x2 : ((-1 : ℝ) = 1) = False := by norm_num
  have x3 : ((-1 : ℝ) = 0) = False := by norm_num
  unfold boxDef boxDefOf
  simp only [List.map_map, Function.comp_def]
  congr 1
  simp only [boundPlanes, List.map_cons, List.map_nil]
  rw [e1 _ (by simp [boundPlanes]) (by simp [exReg]), e1 _ (by simp [boundPlanes]) (by simp [exReg, x2]),
    e2 _ (by simp [boundPlanes]) (by simp [exReg]) (by simp [exReg]), e1 _ (by simp [boundPlanes]) (by simp [exReg, x2]),
    e1 _ (by simp [boundPlanes]) (by simp [exReg]), e1 _ (by simp [boundPlanes]) (by simp [exReg, x2])]
  simp [exReg, x2]

/-- Non-vacuity of C52: the box of 1 x 2 x 3 with the solid 7 -8, not split, option "no". -/
example : let z : VBox (List Seq) := ⟨exBox, [.lst .and 0 [.int 7, .int (-8)]]⟩
    getVoidBoxes (splitVBox (fun _ => False) (fun z _ => z.objs) 1) z = [z] ∧ Solid z.box ∧
    (∀ p ∈ boundPlanes z.box, Fits p (exReg p)) ∧
    ∃ c, voidCell true .no false (boxDef z.box exReg) z.objs (freeTable false) Seq.surfaces 60 = .ok (some c) := by
  refine ⟨?_, by norm_num [Solid, exBox], ?_, ?_⟩
  · simp [getVoidBoxes, voidLoop, splitVBox]
  · intro p _
    simp only [exReg]
    split_ifs <;> simp [Fits, Vec.dot, Vec.sub]
  · simp only [exBox_def]
    exact ⟨_, by rfl⟩

end Geouned.Void
