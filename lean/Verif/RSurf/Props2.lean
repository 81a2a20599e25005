import Verif.RSurf.Props
/-!
# C73: transformation cards, C72: surfaces with a transformation
-/
namespace Geouned.RSurf
open Geouned.Geom

/-! ## C73 -/

/-- Full property: every transformation card (`trMeaning`, the manual) is read as the map that it means; the matrix works in mm. -/
def C73_statement : Prop :=
  ∀ (star : Bool) (entries : List ℝ) f, trMeaning star entries = some f →
    ∃ m, getTransMatrix entries star = some m ∧ ∀ p, m.mul (mm p) = mm (f p)

/-- It holds except for two axes given by cosines, and for `M = -1`. -/
theorem C73_tr_card_partial (star : Bool) (entries : List ℝ) (f : Vec → Vec) (h : trMeaning star entries = some f) (h9 : entries.length = 9 → star = true)
    (h13 : entries[12]? ≠ some (-1 : ℝ)) : ∃ m, getTransMatrix entries star = some m ∧ ∀ p, m.mul (mm p) = mm (f p) := by
  unfold trMeaning at h
  split at h
  · rename_i o1 o2 o3
    simp only [Option.some.injEq] at h; subst h
    refine ⟨_, rfl, fun p => ?_⟩
    ext <;> simp only [Tr.mul, Mat.mulVec, mm, Vec.smul, Vec.add] <;> ring
  · simp only [Option.some.injEq] at h; subst h
    have hs := h9 rfl
    subst hs
    exact ⟨_, rfl, fun p => by
      ext <;> simp [Tr.mul, Mat.mulVec, mm, frame, dirVec, dirCos, cosd, Vec.smul, Vec.add, Vec.cross] <;> ring⟩
  · simp only [Option.some.injEq] at h; subst h
    exact ⟨_, rfl, fun p => by
      ext <;> cases star <;> simp [Tr.mul, Mat.mulVec, mm, frame, dirVec, dirCos, cosd, Vec.smul, Vec.add, Vec.cross] <;> ring⟩
  · split at h
    · simp only [Option.some.injEq] at h; subst h
      exact ⟨_, rfl, fun p => by
      ext <;> cases star <;> simp [Tr.mul, Mat.mulVec, mm, frame, dirVec, dirCos, cosd, Vec.smul, Vec.add, Vec.cross] <;> ring⟩
    · split at h
      · rename_i e; subst e; simp at h13
      · simp at h
  · simp at h

/-- a rotation by 30 degrees about z, given by angles -/
example : ∃ f, trMeaning true [1, 2, 3, 30, 60, 90, 120, 30, 90, 90, 90, 0] = some f ∧ (([1, 2, 3, 30, 60, 90, 120, 30, 90, 90, 90, 0] : List ℝ).length = 9 → true = true) ∧
    ([1, 2, 3, 30, 60, 90, 120, 30, 90, 90, 90, 0] : List ℝ)[12]? ≠ some (-1 : ℝ) := ⟨_, rfl, by simp, by simp⟩

/-- Two axes given by cosines: reading the card raises, whatever the numbers. -/
theorem C73_two_axes_violated (o1 o2 o3 b1 b2 b3 b4 b5 b6 : ℝ) :
    (∃ f, trMeaning false [o1, o2, o3, b1, b2, b3, b4, b5, b6] = some f) ∧ getTransMatrix [o1, o2, o3, b1, b2, b3, b4, b5, b6] false = none :=
  ⟨⟨_, rfl⟩, rfl⟩

/-- `M = -1` is ignored: with the identity as rotation the displacement has the wrong sign. -/
theorem C73_minus_one_violated :
    ∃ f m, trMeaning false [1, 0, 0, 1, 0, 0, 0, 1, 0, 0, 0, 1, -1] = some f ∧ getTransMatrix [1, 0, 0, 1, 0, 0, 0, 1, 0, 0, 0, 1, -1] false = some m ∧
      mm (f ⟨0, 0, 0⟩) = ⟨-10, 0, 0⟩ ∧ m.mul (mm ⟨0, 0, 0⟩) = ⟨10, 0, 0⟩ := by
  refine ⟨fun p => frame ⟨0, 0, 0⟩ ⟨1, 0, 0⟩ ⟨0, 1, 0⟩ ⟨0, 0, 1⟩ (p.sub ⟨1, 0, 0⟩), _, ?_, rfl, ?_, ?_⟩
  · have : ¬ (-1 : ℝ) = 1 := by norm_num
    simp [trMeaning, this, dirVec, dirCos]
  · ext <;> simp [mm, frame, Vec.sub, Vec.smul, Vec.add]
  · ext <;> simp [mm, Tr.mul, Mat.mulVec, Vec.smul, Vec.add]

theorem C73_violated : ¬ C73_statement := by
  intro h
  obtain ⟨⟨f, hf⟩, hn⟩ := C73_two_axes_violated 0 0 0 1 0 0 0 1 0
  obtain ⟨m, hm, _⟩ := h _ _ _ hf
  rw [hn] at hm; simp at hm

/-- Transformations in parentheses after TRCL or FILL are read in the same way (without `M = -1`, and never with two axes). -/
theorem C73_inline_partial (angle : Bool) (entries : List ℝ) (f : Vec → Vec) (h : trMeaning angle entries = some f) (h9 : entries.length ≠ 9)
    (h13 : entries[12]? ≠ some (-1 : ℝ)) : ∃ m, inlineMatrix entries angle = some m ∧ ∀ p, m.mul (mm p) = mm (f p) := by
  cases angle with
  | false =>
    obtain ⟨m, hm, hp⟩ := C73_tr_card_partial false entries f h (fun e => absurd e h9) h13
    exact ⟨m, by simpa [inlineMatrix] using hm, hp⟩
  | true =>
    obtain ⟨m, hm, hp⟩ := C73_tr_card_partial true entries f h (fun e => absurd e h9) h13
    refine ⟨m, ?_, hp⟩
    rw [← hm]
    unfold trMeaning at h
    split at h
    · simp [inlineMatrix, getTransMatrix]
    · simp at h9
    · simp [inlineMatrix, getTransMatrix]
    · simp [inlineMatrix, getTransMatrix]
    · simp at h

example : ∃ f, trMeaning true [1, 2, 3] = some f ∧ ([1, 2, 3] : List ℝ).length ≠ 9 ∧ ([1, 2, 3] : List ℝ)[12]? ≠ some (-1 : ℝ) := ⟨_, rfl, by simp, by simp⟩

/-- … and with two axes they always raise, with angles too. -/
theorem C73_inline_two_axes_violated (angle : Bool) (o1 o2 o3 b1 b2 b3 b4 b5 b6 : ℝ) :
    (∃ f, trMeaning angle [o1, o2, o3, b1, b2, b3, b4, b5, b6] = some f) ∧ inlineMatrix [o1, o2, o3, b1, b2, b3, b4, b5, b6] angle = none := by
  refine ⟨⟨_, rfl⟩, ?_⟩
  cases angle <;> simp [inlineMatrix, getTransMatrix]

/-! ## C72 -/

/-- the map keeps distances -/
def KeepsDistances (f : Vec → Vec) : Prop := ∀ p q, distSq (f p) (f q) = distSq p q

/-- the files of C72: different names and numbers; every TR card means a motion of space; every surface card has a meaning and its transformation, if any, is in the file -/
def GoodFile (ts : List TCard) (cs : List FCard) : Prop :=
  (ts.map (·.num)).Nodup ∧ (cs.map (·.name)).Nodup ∧ (∀ t ∈ ts, ∃ f, trMeaning t.star t.entries = some f ∧ KeepsDistances f) ∧
    ∀ c ∈ cs, (cardMeaning c.mn c.args).isSome ∧ ∀ k, c.tr = some k → k = 0 ∨ ∃ t ∈ ts, t.num = k

/-- the point of the main system, in cm, at which the card sees the point `p` of its own system -/
def SeenAt (ts : List TCard) (c : FCard) (p q : Vec) : Prop :=
  ((c.tr = none ∨ c.tr = some 0) ∧ q = p) ∨ ∃ t ∈ ts, c.tr = some t.num ∧ t.num ≠ 0 ∧ ∃ f, trMeaning t.star t.entries = some f ∧ q = f p

/-- Full property: the surfaces of a file have the sides that the cards mean, moved by their transformations. -/
def C72_statement : Prop :=
  ∀ ts cs, GoodFile ts cs →
    ∃ ss, readSurfaces ts cs = some ss ∧ ss.length = cs.length ∧
      ∀ (i : Nat) c, cs[i]? = some c → ∃ s, ss[i]? = some (c.name, s) ∧
        ∀ r, cardMeaning c.mn c.args = some r → ∀ p q, SeenAt ts c p q →
          (r.pos p → surfaceSide (mm q) s = some true) ∧ (r.neg p → surfaceSide (mm q) s = some false)

theorem transList_spec : ∀ (ts : List TCard), (∀ t ∈ ts, ∃ m, getTransMatrix t.entries t.star = some m) →
    ∃ l, transList ts = some l ∧ l.map (·.1) = ts.map (·.num) ∧ ∀ t ∈ ts, (ts.map (·.num)).Nodup → ∃ m, getTransMatrix t.entries t.star = some m ∧ l.lookup t.num = some m
  | [], _ => ⟨[], rfl, rfl, by simp⟩
  | t :: ts, h => by
    obtain ⟨m, hm⟩ := h t (by simp)
    obtain ⟨l, e, en, el⟩ := transList_spec ts (fun t' ht => h t' (by simp [ht]))
    refine ⟨(t.num, m) :: l, by simp [transList, hm, e], by simp [en], fun t' ht hnd => ?_⟩
    simp only [List.map_cons, List.nodup_cons, List.mem_map, not_exists, not_and] at hnd
    rcases List.mem_cons.mp ht with rfl | ht
    · exact ⟨m, hm, by simp⟩
    · obtain ⟨m', hm', hl⟩ := el t' ht hnd.2
      refine ⟨m', hm', ?_⟩
      have : t'.num ≠ t.num := hnd.1 t' ht
      rw [List.lookup_cons, show (t'.num == t.num) = false by simpa using this]; exact hl

theorem surfCards_spec (l : List (Nat × Tr)) : ∀ cs : List FCard, (∀ c ∈ cs, ∃ t, transformationMatrix l c.tr = some t) →
    ∃ sc, surfCards l cs = some sc ∧ sc.length = cs.length ∧
      ∀ (i : Nat) c, cs[i]? = some c → ∃ t, transformationMatrix l c.tr = some t ∧ sc[i]? = some ⟨c.name, c.mn, c.args, t⟩
  | [], _ => ⟨[], rfl, rfl, by simp⟩
  | c :: cs, h => by
    obtain ⟨t, ht⟩ := h c (by simp)
    obtain ⟨sc, e, el, ei⟩ := surfCards_spec l cs (fun c' hc => h c' (by simp [hc]))
    refine ⟨⟨c.name, c.mn, c.args, t⟩ :: sc, by simp [surfCards, ht, e], by simp [el], fun i c' hi => ?_⟩
    cases i with
    | zero => simp only [List.getElem?_cons_zero, Option.some.injEq] at hi; subst hi; exact ⟨t, ht, by simp⟩
    | succ i => simpa using ei i c' (by simpa using hi)

/-- the transformation cards of C73, read rightly -/
def TrRead (t : TCard) : Prop := (t.entries.length = 9 → t.star = true) ∧ t.entries[12]? ≠ some (-1 : ℝ)

/-- a card with a transformation: not P with a normal of length other than one; not a box with a displacement -/
def TrPossible (ts : List TCard) (c : FCard) : Prop :=
  ∀ t ∈ ts, c.tr = some t.num → t.num ≠ 0 →
    (∀ a b d e, c.mn = "P" → c.args = [a, b, d, e] → a ^ 2 + b ^ 2 + d ^ 2 = 1) ∧
    (c.mn = "BOX" ∨ c.mn = "RPP" → ∃ l, t.entries = 0 :: 0 :: 0 :: l)

theorem rigid_of_keeps {m : Tr} {f : Vec → Vec} (hf : KeepsDistances f) (hm : ∀ p, m.mul (mm p) = mm (f p)) : Rigid m := by
  intro p q
  have e : ∀ p : Vec, p = mm (Vec.smul (1 / 10) p) := fun p => by ext <;> simp [mm, Vec.smul]
  have d : ∀ p q, distSq (mm p) (mm q) = 100 * distSq p q := fun p q => by simp only [distSq, mm, Vec.smul, Vec.sub, Vec.sq, Vec.dot]; ring
  rw [e p, e q, hm, hm, d, d, hf]

theorem getTransMatrix_b {star : Bool} {l : List ℝ} {m : Tr} (h : getTransMatrix (0 :: 0 :: 0 :: l) star = some m) : m.b = ⟨0, 0, 0⟩ := by
  unfold getTransMatrix at h
  split at h
  · rename_i e; simp only [List.cons.injEq] at e
    simp only [Option.some.injEq] at h; subst h
    simp [← e.1, ← e.2.1, ← e.2.2.1]
  · rename_i e; simp only [List.cons.injEq] at e
    split at h
    · simp only [Option.some.injEq] at h; subst h
      simp [← e.1, ← e.2.1, ← e.2.2.1]
    · simp at h
  · rename_i e; simp only [List.cons.injEq] at e
    simp only [Option.some.injEq] at h; subst h
    simp [← e.1, ← e.2.1, ← e.2.2.1]
  · simp at h

theorem C72_transformed_cards_partial (ts : List TCard) (cs : List FCard) (hg : GoodFile ts cs) (ht : ∀ t ∈ ts, TrRead t)
    (hc : ∀ c ∈ cs, ¬ TwoPointTrouble c.mn c.args ∧ TrPossible ts c) :
    ∃ ss, readSurfaces ts cs = some ss ∧ ss.length = cs.length ∧
      ∀ (i : Nat) c, cs[i]? = some c → ∃ s, ss[i]? = some (c.name, s) ∧
        ∀ r, cardMeaning c.mn c.args = some r → ∀ p q, SeenAt ts c p q → offFacets c.mn c.args p →
          (r.pos p → surfaceSide (mm q) s = some true) ∧ (r.neg p → surfaceSide (mm q) s = some false) := by
  obtain ⟨hn1, hn2, hg1, hg2⟩ := hg
  have hm : ∀ t ∈ ts, ∃ m f, getTransMatrix t.entries t.star = some m ∧ trMeaning t.star t.entries = some f ∧ Rigid m ∧ ∀ p, m.mul (mm p) = mm (f p) := by
    intro t htt
    obtain ⟨f, hf, hk⟩ := hg1 t htt
    obtain ⟨m, e, hp⟩ := C73_tr_card_partial t.star t.entries f hf (ht t htt).1 (ht t htt).2
    exact ⟨m, f, e, hf, rigid_of_keeps hk hp, hp⟩
  obtain ⟨l, e1, e2, e3⟩ := transList_spec ts (fun t htt => by obtain ⟨m, f, h, _⟩ := hm t htt; exact ⟨m, h⟩)
  have hlk : ∀ c ∈ cs, (c.tr = none ∨ c.tr = some 0) ∧ transformationMatrix l c.tr = some none ∨
      ∃ t ∈ ts, c.tr = some t.num ∧ t.num ≠ 0 ∧ ∃ m, getTransMatrix t.entries t.star = some m ∧ transformationMatrix l c.tr = some (some m) := by
    intro c hcc
    cases hk : c.tr with
    | none => exact .inl ⟨.inl rfl, rfl⟩
    | some k =>
      cases k with
      | zero => exact .inl ⟨.inr rfl, rfl⟩
      | succ k =>
        rcases (hg2 c hcc).2 _ hk with h0 | ⟨t, htt, he⟩
        · simp at h0
        · obtain ⟨m, h1, h2⟩ := e3 t htt hn1
          refine .inr ⟨t, htt, by rw [he], by rw [he]; simp, m, h1, ?_⟩
          rw [he] at h2
          simp [transformationMatrix, h2]
  obtain ⟨sc, f1, f2, f3⟩ := surfCards_spec l cs (fun c hcc => by
    rcases hlk c hcc with ⟨_, h⟩ | ⟨t, _, _, _, m, _, h⟩
    · exact ⟨_, h⟩
    · exact ⟨_, h⟩)
  -- what each card gives
  have key : ∀ c ∈ cs, ∀ t, transformationMatrix l c.tr = some t → ∃ s bp bR s', makeSurf c.mn c.args = some (.surf s bp bR) ∧ place t s = some s' ∧
      ∀ r, cardMeaning c.mn c.args = some r → ∀ p q, SeenAt ts c p q → offFacets c.mn c.args p →
          (r.pos p → surfaceSide (mm q) s' = some true) ∧ (r.neg p → surfaceSide (mm q) s' = some false) := by
    intro c hcc t htr
    obtain ⟨r, hr⟩ := Option.isSome_iff_exists.mp (hg2 c hcc).1
    obtain ⟨s, bp, bR, es, hbad, ha⟩ := good_card (hc c hcc).1 hr
    rcases hlk c hcc with ⟨hno, h⟩ | ⟨t', htt, ho, hnz, m, hmm, h⟩
    · rw [h, Option.some.injEq] at htr
      subst htr
      refine ⟨s, bp, bR, s, es, rfl, fun r' hr' p q hs hp => ?_⟩
      rw [hr, Option.some.injEq] at hr'; subst hr'
      rcases hs with ⟨_, rfl⟩ | ⟨t2, _, h2, h2n, _⟩
      · exact ha q hp
      · rcases hno with h0 | h0 <;> rw [h0] at h2 <;> simp at h2
        exact absurd h2.symm h2n
    · rw [h, Option.some.injEq] at htr
      subst htr
      obtain ⟨m', f, g1, g2, g3, g4⟩ := hm t' htt
      rw [hmm, Option.some.injEq] at g1; subst g1
      obtain ⟨hP, hB⟩ := (hc c hcc).2 t' htt ho hnz
      have hside : ∃ s', transform m s = some s' ∧ ∀ p, surfaceSide (m.mul p) s' = surfaceSide p s := by
        by_cases hbx : c.mn = "BOX" ∨ c.mn = "RPP"
        · obtain ⟨P, v1, v2, v3, rfl⟩ := box_made hr es hbx
          obtain ⟨l0, hl0⟩ := hB hbx
          rw [hl0] at hmm
          obtain ⟨s', q1, q2⟩ := box_rot g3 (getTransMatrix_b hmm) P v1 v2 v3
          exact ⟨s', q1, fun p => by simp only [surfaceSide, q2]⟩
        · push Not at hbx
          have hmv : Moves s := card_moves hr es hbad ⟨hbx.1, hbx.2, hP⟩
          obtain ⟨s', q1, _, q2⟩ := transform_side g3 hmv
          exact ⟨s', q1, q2⟩
      obtain ⟨s', q1, q2⟩ := hside
      refine ⟨s, bp, bR, s', es, q1, fun r' hr' p q hs hp => ?_⟩
      rw [hr, Option.some.injEq] at hr'; subst hr'
      rcases hs with ⟨h0, _⟩ | ⟨t2, ht2, h2, h2n, f2, hf2, rfl⟩
      · rcases h0 with h0 | h0 <;> rw [h0] at ho <;> simp at ho
        exact absurd ho.symm hnz
      · have : t2 = t' := by
          rw [ho, Option.some.injEq] at h2
          exact (List.inj_on_of_nodup_map hn1 htt ht2 h2).symm
        subst this
        rw [g2, Option.some.injEq] at hf2; subst hf2
        rw [← g4, q2]
        exact ha p hp
  have hsc : ∀ c ∈ sc, ∃ s bp bR s', makeSurf c.mn c.args = some (.surf s bp bR) ∧ place c.tr s = some s' := by
    intro c hcc
    obtain ⟨i, hi⟩ := List.getElem?_of_mem hcc
    have hlt : i < cs.length := by
      rw [← f2]; exact (List.getElem?_eq_some_iff.mp hi).1
    obtain ⟨t, w1, w2⟩ := f3 i cs[i] (List.getElem?_eq_getElem hlt)
    rw [hi, Option.some.injEq] at w2
    subst w2
    obtain ⟨s, bp, bR, s', k1, k2, _⟩ := key cs[i] (List.getElem_mem hlt) t w1
    exact ⟨s, bp, bR, s', k1, k2⟩
  obtain ⟨ss, e, el, ei⟩ := primLoop_map sc {} [] hsc
  refine ⟨ss, ?_, by rw [el, f2], fun i c hi => ?_⟩
  · simp only [readSurfaces, e1, f1, Option.bind_eq_bind, Option.bind_some, getSurfaces]
    simpa using e
  · obtain ⟨t, w1, w2⟩ := f3 i c hi
    obtain ⟨s, bp, bR, s', k1, k2, k3⟩ := ei i _ w2
    obtain ⟨s0, bp0, bR0, s0', j1, j2, j3⟩ := key c (List.mem_of_getElem? hi) t w1
    dsimp only at k1 k2 k3
    rw [j1] at k1
    have := some_surf k1; subst this
    rw [j2, Option.some.injEq] at k2; subst k2
    exact ⟨s0', k3, j3⟩

theorem keeps_translation (a b c : ℝ) : KeepsDistances fun p => p.add ⟨a, b, c⟩ := by
  intro p q; simp only [distSq, Vec.sub, Vec.add, Vec.sq, Vec.dot]; ring

/-- a file with two transformations: a displaced cone, a rotated box and a plane without transformation -/
example : GoodFile [⟨1, false, [1, 2, 3]⟩, ⟨7, false, [0, 0, 0, 0, 1, 0, -1, 0, 0, 0, 0, 1]⟩]
      [⟨1, "KZ", [1, 4, -1], some 1⟩, ⟨2, "RPP", [0, 1, 0, 2, 0, 3], some 7⟩, ⟨5, "P", [0, 0, 2, 6], none⟩] ∧
    (∀ t ∈ ([⟨1, false, [1, 2, 3]⟩, ⟨7, false, [0, 0, 0, 0, 1, 0, -1, 0, 0, 0, 0, 1]⟩] : List TCard), TrRead t) ∧
    ∀ c ∈ ([⟨1, "KZ", [1, 4, -1], some 1⟩, ⟨2, "RPP", [0, 1, 0, 2, 0, 3], some 7⟩, ⟨5, "P", [0, 0, 2, 6], none⟩] : List FCard),
      ¬ TwoPointTrouble c.mn c.args ∧ TrPossible [⟨1, false, [1, 2, 3]⟩, ⟨7, false, [0, 0, 0, 0, 1, 0, -1, 0, 0, 0, 0, 1]⟩] c := by
  refine ⟨⟨by simp, by simp, ?_, ?_⟩, ?_, ?_⟩
  · intro t ht
    simp only [List.mem_cons, List.not_mem_nil, or_false] at ht
    rcases ht with rfl | rfl
    · exact ⟨_, rfl, keeps_translation 1 2 3⟩
    · refine ⟨_, rfl, ?_⟩
      intro p q; simp [distSq, frame, dirVec, dirCos, Vec.sub, Vec.add, Vec.smul, Vec.sq, Vec.dot]; ring
  · intro c hc
    simp only [List.mem_cons, List.not_mem_nil, or_false] at hc
    rcases hc with rfl | rfl | rfl
    · refine ⟨?_, by simp⟩
      simp [cardMeaning, planeCards, sphereCards, cylCards, coneCards, coneCard]
    · refine ⟨?_, by simp⟩
      simp [cardMeaning, planeCards, sphereCards, cylCards, coneCards, torusCards, pointCards, boxCards]
    · refine ⟨?_, by simp⟩
      simp [cardMeaning, planeCards]
  · intro t ht
    simp only [List.mem_cons, List.not_mem_nil, or_false] at ht
    rcases ht with rfl | rfl <;> exact ⟨by simp, by simp⟩
  · intro c hc
    simp only [List.mem_cons, List.not_mem_nil, or_false] at hc
    rcases hc with rfl | rfl | rfl <;> refine ⟨by simp [TwoPointTrouble], ?_⟩ <;> simp [TrPossible]

/-- A plane `P` with a normal of length 2 and the null displacement: the plane z = 1 becomes the plane z = 4. -/
theorem C72_plane_violated :
    GoodFile [⟨1, false, [0, 0, 0]⟩] [⟨1, "P", [0, 0, 2, 2], some 1⟩] ∧
    ∃ s r, readSurfaces [⟨1, false, [0, 0, 0]⟩] [⟨1, "P", [0, 0, 2, 2], some 1⟩] = some [(1, s)] ∧ cardMeaning "P" [0, 0, 2, 2] = some r ∧
      SeenAt [⟨1, false, [0, 0, 0]⟩] ⟨1, "P", [0, 0, 2, 2], some 1⟩ ⟨0, 0, 3⟩ ⟨0, 0, 3⟩ ∧ r.pos ⟨0, 0, 3⟩ ∧ surfaceSide (mm ⟨0, 0, 3⟩) s = some false := by
  have hm : cardMeaning "P" [0, 0, 2, 2] = some (.ofFun fun p => 0 * p.x + 0 * p.y + 2 * p.z - 2) := by simp [cardMeaning, planeCards]
  refine ⟨⟨by simp, by simp, ?_, ?_⟩, ?_⟩
  · intro t ht
    simp only [List.mem_cons, List.not_mem_nil, or_false] at ht
    subst ht
    exact ⟨_, rfl, keeps_translation 0 0 0⟩
  · intro c hc
    simp only [List.mem_cons, List.not_mem_nil, or_false] at hc
    subst hc
    exact ⟨by simp [hm], by simp⟩
  · have n2 : (⟨0, 0, 2⟩ : Vec).len = 2 := by
      rw [sqrt_eq_len]; simp only [Vec.sq, Vec.dot]; rw [show (0 * 0 + 0 * 0 + 2 * 2 : ℝ) = 2 ^ 2 by norm_num]; exact Real.sqrt_sq (by norm_num)
    have ht : transform ⟨⟨1, 0, 0, 0, 1, 0, 0, 0, 1⟩, ⟨0 * 10, 0 * 10, 0 * 10⟩⟩ (.plane ⟨0, 0, 2⟩ (2 * 10)) = some (.plane ⟨0, 0, 1⟩ 40) := by
      have e : Tr.rot ⟨⟨1, 0, 0, 0, 1, 0, 0, 0, 1⟩, ⟨0 * 10, 0 * 10, 0 * 10⟩⟩ ⟨0, 0, 2⟩ = ⟨0, 0, 2⟩ := by ext <;> simp [Tr.rot, Mat.mulVec]
      have e2 : (⟨0, 0, 2⟩ : Vec).normalize = some ⟨0, 0, 1⟩ := by
        rw [normalize_ne (by norm_num [Vec.sq, Vec.dot]), n2]; simp [Vec.smul]
      simp only [transform, e, e2, Option.bind_eq_bind, Option.bind_some, Option.some.injEq, Surf.plane.injEq, true_and]
      norm_num [Tr.mul, Mat.mulVec, Vec.smul, Vec.add, Vec.dot]
    refine ⟨.plane ⟨0, 0, 1⟩ 40, _, ?_, hm, ?_, ?_, ?_⟩
    · have h1 : makeSurf "P" [0, 0, 2, 2] = some (.surf (.plane ⟨0, 0, 2⟩ (2 * 10)) false false) := rfl
      simp only [readSurfaces, transList, getTransMatrix, surfCards, transformationMatrix, Option.bind_eq_bind, Option.bind_some, List.lookup, BEq.rfl, Option.map_some,
        getSurfaces, primLoop, h1, place, ht, List.nil_append]
    · refine .inr ⟨⟨1, false, [0, 0, 0]⟩, by simp, rfl, by simp, _, rfl, ?_⟩
      ext <;> simp [Vec.add]
    · show (0:ℝ) < _; norm_num
    · apply side_false (x := -10)
      · norm_num [inout, mm, Vec.smul, Vec.dot]
      · norm_num

/-- A box with a displacement: its edges are displaced too. The unit cube moved by (5, 0, 0) cm contains the image of (3, 1/10, 1/10). -/
theorem C72_box_violated :
    GoodFile [⟨1, false, [5, 0, 0]⟩] [⟨1, "RPP", [0, 1, 0, 1, 0, 1], some 1⟩] ∧
    ∃ s r, readSurfaces [⟨1, false, [5, 0, 0]⟩] [⟨1, "RPP", [0, 1, 0, 1, 0, 1], some 1⟩] = some [(1, s)] ∧ cardMeaning "RPP" [0, 1, 0, 1, 0, 1] = some r ∧
      SeenAt [⟨1, false, [5, 0, 0]⟩] ⟨1, "RPP", [0, 1, 0, 1, 0, 1], some 1⟩ ⟨3, 1/10, 1/10⟩ ⟨8, 1/10, 1/10⟩ ∧ r.pos ⟨3, 1/10, 1/10⟩ ∧
      surfaceSide (mm ⟨8, 1/10, 1/10⟩) s = some false := by
  have hm : (cardMeaning "RPP" [0, 1, 0, 1, 0, 1]) = some ⟨fun p => (0:ℝ) < p.x ∧ p.x < 1 ∧ 0 < p.y ∧ p.y < 1 ∧ 0 < p.z ∧ p.z < 1,
        fun p => p.x < 0 ∨ 1 < p.x ∨ p.y < 0 ∨ 1 < p.y ∨ p.z < 0 ∨ 1 < p.z⟩ := by
    simp [cardMeaning, planeCards, sphereCards, cylCards, coneCards, torusCards, pointCards, boxCards]
  refine ⟨⟨by simp, by simp, ?_, ?_⟩, ?_⟩
  · intro t ht
    simp only [List.mem_cons, List.not_mem_nil, or_false] at ht
    subst ht
    exact ⟨_, rfl, keeps_translation 5 0 0⟩
  · intro c hc
    simp only [List.mem_cons, List.not_mem_nil, or_false] at hc
    subst hc
    exact ⟨by simp [hm], by simp⟩
  · let m : Tr := ⟨⟨1, 0, 0, 0, 1, 0, 0, 0, 1⟩, ⟨5 * 10, 0 * 10, 0 * 10⟩⟩
    refine ⟨.box (m.mul (Vec.smul 10 ⟨0, 0, 0⟩)) (m.mul (Vec.smul 10 ⟨1 - 0, 0, 0⟩)) (m.mul (Vec.smul 10 ⟨0, 1 - 0, 0⟩)) (m.mul (Vec.smul 10 ⟨0, 0, 1 - 0⟩)), _, ?_, hm, ?_, ?_, ?_⟩
    · have h1 : makeSurf "RPP" [0, 1, 0, 1, 0, 1] = some (.surf (.box (Vec.smul 10 ⟨0, 0, 0⟩) (Vec.smul 10 ⟨1 - 0, 0, 0⟩) (Vec.smul 10 ⟨0, 1 - 0, 0⟩) (Vec.smul 10 ⟨0, 0, 1 - 0⟩)) true false) := rfl
      simp only [readSurfaces, transList, getTransMatrix, surfCards, transformationMatrix, Option.bind_eq_bind, Option.bind_some, List.lookup, BEq.rfl, Option.map_some,
        getSurfaces, primLoop, h1, place, transform, List.nil_append, m]
    · refine .inr ⟨⟨1, false, [5, 0, 0]⟩, by simp, rfl, by simp, _, rfl, ?_⟩
      ext <;> norm_num [Vec.add]
    · exact .inr (.inl (by norm_num))
    · apply side_false (x := -1) _ (by norm_num)
      norm_num [inout, btw_eq, m, Tr.mul, Mat.mulVec, mm, Vec.smul, Vec.add, Vec.sub, Vec.dot, Vec.sq]

theorem C72_violated : ¬ C72_statement := by
  intro h
  obtain ⟨hg, s, r, e, hm, hs, hp, hn⟩ := C72_plane_violated
  obtain ⟨ss, e', _, hi⟩ := h _ _ hg
  rw [e, Option.some.injEq] at e'
  subst e'
  obtain ⟨s', e1, e2⟩ := hi 0 _ rfl
  simp only [List.getElem?_cons_zero, Option.some.injEq, Prod.mk.injEq, true_and] at e1
  subst e1
  have := (e2 r hm _ _ hs).1 hp
  rw [this] at hn
  simp at hn

/-! ### TRCL: surfaces are copied, and the copies are moved -/

theorem card_original {mn : String} {args : List ℝ} {r : Region} {s : Surf} {bp bR : Bool} (hm : cardMeaning mn args = some r) (h : makeSurf mn args = some (.surf s bp bR))
    (hx : mn ≠ "REC") (m : Tr) : originalAfter m s = s := by
  have hp : ∀ e ne l, pointsMade e ne l = some (.surf s bp bR) → originalAfter m s = s := by
    intro e ne l h
    unfold pointsMade at h
    split at h
    · rw [← some_surf h]; rfl
    · split at h
      · simp only [div?, Option.bind_eq_bind] at h
        split at h
        · simp at h
        · simp only [Option.bind_some] at h
          split at h
          · simp at h
          · simp only [Option.bind_some] at h
            split at h <;> (rw [← some_surf h]; rfl)
      · split at h
        · split at h <;> (rw [← some_surf h]; rfl)
        · simp at h
    · simp at h
  have hc : ∀ p e ne t2 l, coneMade p e ne t2 l = some (.surf s bp bR) → originalAfter m s = s := by
    intro p e ne t2 l h
    unfold coneMade at h
    split at h
    · simp at h
    · rw [← some_surf h]; rfl
  unfold cardMeaning at hm
  replace hm := or_some hm
  rcases hm with hm | hm
  · unfold planeCards at hm
    split at hm
    · rw [← some_surf (show some (Made.surf (.plane vX _) false false) = _ from h)]; rfl
    · rw [← some_surf (show some (Made.surf (.plane vY _) false false) = _ from h)]; rfl
    · rw [← some_surf (show some (Made.surf (.plane vZ _) false false) = _ from h)]; rfl
    · rw [← some_surf (show some (Made.surf (.plane _ _) false false) = _ from h)]; rfl
    · rename_i x1 y1 z1 x2 y2 z2 x3 y3 z3
      have h' : ((threePlane ⟨x1, y1, z1⟩ ⟨x2, y2, z2⟩ ⟨x3, y3, z3⟩).map fun s => Made.surf s false false) = some (.surf s bp bR) := h
      simp only [Option.map_eq_some_iff, Made.surf.injEq] at h'
      obtain ⟨s0, h1, h2, _⟩ := h'
      subst h2
      rw [threePlane_eq] at h1
      simp only [Option.map_eq_some_iff] at h1
      obtain ⟨_, _, rfl⟩ := h1
      rfl
    · simp at hm
  replace hm := or_some hm
  rcases hm with hm | hm
  · unfold sphereCards at hm
    split at hm <;> first
      | (rw [← some_surf (show some (Made.surf (.sphere _ _) false false) = _ from h)]; rfl)
      | simp at hm
  replace hm := or_some hm
  rcases hm with hm | hm
  · unfold cylCards at hm
    split at hm <;> first
      | (rw [← some_surf (show some (Made.surf (.cyl _ _ _) true true) = _ from h)]; rfl)
      | simp at hm
  replace hm := or_some hm
  rcases hm with hm | hm
  · unfold coneCards at hm
    split at hm
    · exact hc _ _ _ _ _ (made_KX .. ▸ h)
    · exact hc _ _ _ _ _ (made_KY .. ▸ h)
    · exact hc _ _ _ _ _ (made_KZ .. ▸ h)
    · exact hc _ _ _ _ _ (made_KoX .. ▸ h)
    · exact hc _ _ _ _ _ (made_KoY .. ▸ h)
    · exact hc _ _ _ _ _ (made_KoZ .. ▸ h)
    · simp at hm
  replace hm := or_some hm
  rcases hm with hm | hm
  · unfold torusCards at hm
    split at hm <;> first
      | (rw [← some_surf (show some (Made.surf (.torus _ _ _ _ _) true false) = _ from h)]; rfl)
      | simp at hm
  replace hm := or_some hm
  rcases hm with hm | hm
  · unfold pointCards at hm
    split at hm
    · rw [made_X] at h; exact hp _ _ _ h
    · rw [made_Y] at h; exact hp _ _ _ h
    · rw [made_Z] at h; exact hp _ _ _ h
    · simp at hm
  replace hm := or_some hm
  rcases hm with hm | hm
  · unfold boxCards at hm
    split at hm
    · rw [← some_surf (show some (Made.surf (.box _ _ _ _) true false) = _ from h)]; rfl
    · rw [← some_surf (show some (Made.surf (.box _ _ _ _) true false) = _ from h)]; rfl
    · simp at hm
  · unfold canCards at hm
    split at hm
    · rw [← some_surf (show some (Made.surf (.can _ _ _) true true) = _ from h)]; rfl
    · exact absurd rfl hx
    · exact absurd rfl hx
    · rw [← some_surf (show some (Made.surf (.tcone _ _ _ _) true false) = _ from h)]; rfl
    · simp at hm

/-- Full property for TRCL: the copy of a surface bounds the moved regions, and the original is not changed by it. -/
def C72_copy_statement : Prop :=
  ∀ (mn : String) (args : List ℝ) r, cardMeaning mn args = some r → ∀ s, getSurfaces [⟨1, mn, args, none⟩] = some [(1, s)] → ∀ m, Rigid m →
    (∃ s', transform m s = some s' ∧ ∀ p, surfaceSide (m.mul p) s' = surfaceSide p s) ∧ ∀ p, surfaceSide p (originalAfter m s) = surfaceSide p s

theorem single_made {mn : String} {args : List ℝ} {s : Surf} (h : getSurfaces [⟨1, mn, args, none⟩] = some [(1, s)]) : ∃ bp bR, makeSurf mn args = some (.surf s bp bR) := by
  rw [getSurfaces, primLoop] at h
  cases hm : makeSurf mn args with
  | none => rw [hm] at h; simp at h
  | some w =>
    rw [hm] at h
    cases w with
    | surf s0 bp bR =>
      simp [place, primLoop] at h
      exact ⟨bp, bR, by rw [h]⟩
    | stale a R => simp at h

/-- It holds for all cards but P (with a normal that is not a unit vector), BOX and RPP (with a displacement), REC, and the troublesome two-point cards. -/
theorem C72_copy_partial (mn : String) (args : List ℝ) (r : Region) (hm : cardMeaning mn args = some r) (s : Surf) (hs : getSurfaces [⟨1, mn, args, none⟩] = some [(1, s)])
    (m : Tr) (hr : Rigid m) (hb : ¬ TwoPointTrouble mn args) (hP : ∀ a b c d, mn = "P" → args = [a, b, c, d] → a ^ 2 + b ^ 2 + c ^ 2 = 1)
    (hB : mn = "BOX" ∨ mn = "RPP" → m.b = ⟨0, 0, 0⟩) :
    (∃ s', transform m s = some s' ∧ ∀ p, surfaceSide (m.mul p) s' = surfaceSide p s) ∧ (mn ≠ "REC" → originalAfter m s = s) := by
  obtain ⟨bp, bR, es⟩ := single_made hs
  obtain ⟨s0, _, _, e0, hbad, _⟩ := good_card hb hm
  rw [es] at e0
  have := some_surf e0; subst this
  refine ⟨?_, fun hx => card_original hm es hx m⟩
  by_cases hbx : mn = "BOX" ∨ mn = "RPP"
  · obtain ⟨P, v1, v2, v3, rfl⟩ := box_made hm es hbx
    obtain ⟨s', q1, q2⟩ := box_rot hr (hB hbx) P v1 v2 v3
    exact ⟨s', q1, fun p => by simp only [surfaceSide, q2]⟩
  · push Not at hbx
    obtain ⟨s', q1, _, q2⟩ := transform_side hr (card_moves hm es hbad ⟨hbx.1, hbx.2, hP⟩)
    exact ⟨s', q1, q2⟩

/-- the motion "rotate by 90 degrees about z, then move by 5 cm along x", and the rotation alone -/
def quarter : Tr := ⟨⟨0, -1, 0, 1, 0, 0, 0, 0, 1⟩, ⟨50, 0, 0⟩⟩
theorem quarter_rigid : Rigid quarter := by
  intro p q; simp only [quarter, Tr.mul, Mat.mulVec, distSq, Vec.sub, Vec.add, Vec.sq, Vec.dot]; ring

example : ∃ r s, cardMeaning "RCC" [0, 0, 0, 0, 0, 4, 1] = some r ∧ getSurfaces [⟨1, "RCC", [0, 0, 0, 0, 0, 4, 1], none⟩] = some [(1, s)] ∧ Rigid quarter ∧
    ¬ TwoPointTrouble "RCC" [0, 0, 0, 0, 0, 4, 1] := by
  refine ⟨trcRegion ⟨0, 0, 0⟩ ⟨0, 0, 4⟩ 1 1, .can (Vec.smul 10 ⟨0, 0, 0⟩) (Vec.smul 10 ⟨0, 0, 4⟩) (1 * 10), ?_, ?_, quarter_rigid, by simp [TwoPointTrouble]⟩
  · simp [cardMeaning, planeCards, sphereCards, cylCards, coneCards, torusCards, pointCards, boxCards, canCards, Vec.sq, Vec.dot]
  · have h1 : makeSurf "RCC" [0, 0, 0, 0, 0, 4, 1] = some (.surf (.can (Vec.smul 10 ⟨0, 0, 0⟩) (Vec.smul 10 ⟨0, 0, 4⟩) (1 * 10)) true true) := rfl
    simp only [getSurfaces, primLoop, h1, Option.bind_eq_bind, Option.bind_some, place, List.nil_append]

/-- The original elliptical cylinder of a REC card is changed when a copy is moved: the point (15, 0, 10) mm was inside, and is then found outside. -/
theorem C72_copy_violated :
    (∃ r s, cardMeaning "REC" [0, 0, 0, 0, 0, 4, 2, 0, 0, 0, 1, 0] = some r ∧ getSurfaces [⟨1, "REC", [0, 0, 0, 0, 0, 4, 2, 0, 0, 0, 1, 0], none⟩] = some [(1, s)] ∧
      Rigid quarter ∧ surfaceSide ⟨15, 0, 10⟩ s = some false ∧ surfaceSide ⟨15, 0, 10⟩ (originalAfter quarter s) = some true) ∧ ¬ C72_copy_statement := by
  have key : ∃ r s, cardMeaning "REC" [0, 0, 0, 0, 0, 4, 2, 0, 0, 0, 1, 0] = some r ∧ getSurfaces [⟨1, "REC", [0, 0, 0, 0, 0, 4, 2, 0, 0, 0, 1, 0], none⟩] = some [(1, s)] ∧
      Rigid quarter ∧ surfaceSide ⟨15, 0, 10⟩ s = some false ∧ surfaceSide ⟨15, 0, 10⟩ (originalAfter quarter s) = some true := by
    have n1 : (⟨2, 0, 0⟩ : Vec).len = 2 := by
      rw [sqrt_eq_len]; simp only [Vec.sq, Vec.dot]; rw [show (2 * 2 + 0 * 0 + 0 * 0 : ℝ) = 2 ^ 2 by norm_num]; exact Real.sqrt_sq (by norm_num)
    have n2 : (⟨0, 1, 0⟩ : Vec).len = 1 := by
      rw [sqrt_eq_len]; simp [Vec.sq, Vec.dot]
    refine ⟨recRegion ⟨0, 0, 0⟩ ⟨0, 0, 4⟩ ⟨2, 0, 0⟩ ⟨0, 1, 0⟩,
      .ecyl (Vec.smul 10 ⟨0, 0, 0⟩) (Vec.smul 10 ⟨0, 0, 4⟩) (1 * 10) (2 * 10) (Vec.smul (1 / 1) ⟨0, 1, 0⟩) (Vec.smul (1 / 2) ⟨2, 0, 0⟩) true, ?_, ?_, quarter_rigid, ?_, ?_⟩
    · simp [cardMeaning, planeCards, sphereCards, cylCards, coneCards, torusCards, pointCards, boxCards, canCards, Vec.sq, Vec.dot, Orth3]
    · have h1 : makeSurf "REC" [0, 0, 0, 0, 0, 4, 2, 0, 0, 0, 1, 0] = ((⟨2, 0, 0⟩ : Vec).normalize).bind fun M => ((⟨0, 1, 0⟩ : Vec).normalize).bind fun N =>
          some (Made.surf (recMade ⟨0, 0, 0⟩ ⟨0, 0, 4⟩ M (Vec.len ⟨2, 0, 0⟩) N (Vec.len ⟨0, 1, 0⟩)) true false) := rfl
      rw [normalize_ne (by norm_num [Vec.sq, Vec.dot]), normalize_ne (by norm_num [Vec.sq, Vec.dot]), n1, n2] at h1
      have h2 : ¬ (2 * 10 : ℝ) < 1 * 10 := by norm_num
      simp only [Option.bind_some, recMade, if_neg h2] at h1
      simp only [getSurfaces, primLoop, h1, Option.bind_eq_bind, Option.bind_some, place, List.nil_append]
    · apply side_false (x := -1) _ (by norm_num)
      rw [ecyl_inout (by norm_num) (by norm_num)]
      norm_num [Vec.smul, Vec.sub, Vec.dot, btw_eq, Vec.sq]
    · apply side_true (x := 5 / 4) _ (by norm_num)
      simp only [originalAfter]
      rw [ecyl_inout (by norm_num) (by norm_num)]
      norm_num [Vec.smul, Vec.sub, Vec.dot, quarter, Tr.rot, Mat.mulVec]
  refine ⟨key, fun h => ?_⟩
  obtain ⟨r, s, h1, h2, h3, h4, h5⟩ := key
  have := (h _ _ r h1 s h2 quarter h3).2 ⟨15, 0, 10⟩
  rw [h4, h5] at this
  simp at this

end Geouned.RSurf
