import Verif.CTable.Lemmas
/-! Helper lemmas: totality of `fill`, `solid_in_box`, `remove_extra_surfaces`. -/
namespace Geouned

/-- what `fill` keeps: diagonal ints and 4-tuples elsewhere -/
structure CTable.Shape (t : CTable) : Prop where
  diag : t.DiagOK
  pairs : t.PairsOK

theorem set_shape {t : CTable} (h : t.Shape) {k1 k2 : Nat} (hne : k1 ≠ k2) (a b c d : Bool) :
    (t.set k1 k2 (.pair a b c d)).Shape := by
  constructor
  · intro k hk
    obtain ⟨d, h1, h2⟩ := h.diag k hk
    refine ⟨d, ?_, h2⟩
    simp only [CTable.set]
    rw [if_neg (by rintro ⟨rfl, rfl⟩; exact hne rfl)]; exact h1
  · intro x y e hxy he
    simp only [CTable.set] at he
    split at he
    · simp at he; exact ⟨_, _, _, _, he.symm⟩
    · exact h.pairs x y e hxy he

theorem fillRow_total {k1 : Nat} : ∀ (ks : List Nat) (t : CTable) (m : List (Nat × Nat)), t.Shape → k1 ∉ ks →
    ∃ t' m', fillRow k1 ks (t, m) = .ok (t', m') ∧ t'.Shape ∧ t'.keys = t.keys ∧
      ∀ p ∈ m', p ∈ m ∨ (p.1 = k1 ∧ p.2 ∈ ks) := by
  intro ks
  induction ks with
  | nil => intro t m h _; exact ⟨t, m, rfl, h, rfl, fun p hp => .inl hp⟩
  | cons k2 ks ih =>
    intro t m h hk
    simp only [List.mem_cons, not_or] at hk
    simp only [fillRow]
    cases hg : t.get k1 k2 with
    | none =>
      obtain ⟨t', m', a, b, c, d⟩ := ih t (m ++ [(k1, k2)]) h hk.2
      refine ⟨t', m', a, b, c, fun p hp => ?_⟩
      rcases d p hp with h | ⟨h1, h2⟩
      · simp only [List.mem_append, List.mem_singleton] at h
        rcases h with h | rfl
        · exact .inl h
        · exact .inr (by simp)
      · exact .inr ⟨h1, by simp [h2]⟩
    | some e =>
      obtain ⟨a, b, c, d, rfl⟩ := h.pairs k1 k2 e hk.1 hg
      obtain ⟨t', m', a1, b1, c1, d1⟩ := ih (t.set k2 k1 (.pair a d c b)) m (set_shape h (Ne.symm hk.1) _ _ _ _) hk.2
      refine ⟨t', m', ?_, b1, c1, fun p hp => ?_⟩
      · simpa [CTVal.transpose, bind, Except.bind] using a1
      · rcases d1 p hp with h | ⟨h1, h2⟩
        · exact .inl h
        · exact .inr ⟨h1, by simp [h2]⟩

theorem fillRows_total : ∀ (ks : List Nat) (t : CTable) (m : List (Nat × Nat)), t.Shape → ks.Nodup →
    ∃ t' m', fillRows ks (t, m) = .ok (t', m') ∧ t'.Shape ∧ t'.keys = t.keys ∧
      ∀ p ∈ m', p ∈ m ∨ (p.1 ∈ ks ∧ p.2 ∈ ks ∧ p.1 ≠ p.2) := by
  intro ks
  induction ks with
  | nil => intro t m h _; exact ⟨t, m, rfl, h, rfl, fun p hp => .inl hp⟩
  | cons k1 ks ih =>
    intro t m h hnd
    simp only [List.nodup_cons] at hnd
    obtain ⟨t1, m1, a, b, c, d⟩ := fillRow_total ks t m h hnd.1
    obtain ⟨t', m', a1, b1, c1, d1⟩ := ih t1 m1 b hnd.2
    refine ⟨t', m', ?_, b1, c1.trans c, fun p hp => ?_⟩
    · simp only [fillRows, bind_ok]; exact ⟨_, a, a1⟩
    · rcases d1 p hp with h | ⟨h1, h2, h3⟩
      · rcases d p h with h | ⟨h1, h2⟩
        · exact .inl h
        · refine .inr ⟨by simp [h1], by simp [h2], ?_⟩
          rintro h; rw [h1] at h; exact hnd.1 (h ▸ h2)
      · exact .inr ⟨by simp [h1], by simp [h2], h3⟩

theorem combineDiag_total {d1 d2 : Int} (h1 : d1 = -1 ∨ d1 = 0 ∨ d1 = 1) (h2 : d2 = -1 ∨ d2 = 0 ∨ d2 = 1) :
    ∃ a b c d, combineDiag (.diag d1) (.diag d2) = .ok (.pair a b c d) ∧ ¬ (CTVal.pair a b c d).Equivalence := by
  rcases h1 with rfl | rfl | rfl <;> rcases h2 with rfl | rfl | rfl <;>
    exact ⟨_, _, _, _, rfl, by simp [CTVal.Equivalence]⟩

theorem fillMissing_total : ∀ (ms : List (Nat × Nat)) (t : CTable), t.Shape →
    (∀ p ∈ ms, p.1 ∈ t.keys ∧ p.2 ∈ t.keys ∧ p.1 ≠ p.2) →
    ∃ t', fillMissing ms t = .ok t' ∧ t'.Shape := by
  intro ms
  induction ms with
  | nil => intro t h _; exact ⟨t, rfl, h⟩
  | cons p ms ih =>
    obtain ⟨k1, k2⟩ := p
    intro t h hm
    obtain ⟨m1, m2, m3⟩ := hm (k1, k2) (by simp)
    obtain ⟨d1, g1, q1⟩ := h.diag k1 m1
    obtain ⟨d2, g2, q2⟩ := h.diag k2 m2
    obtain ⟨a, b, c, d, hc, -⟩ := combineDiag_total q1 q2
    have hs := set_shape (set_shape h m3 a b c d) (Ne.symm m3) a d c b
    obtain ⟨t', h1, h2⟩ := ih _ hs (fun p hp => hm p (by simp [hp]))
    refine ⟨t', ?_, h2⟩
    simp only [fillMissing, CTable.at, g1, g2, bind, Except.bind, hc, CTVal.transpose]
    exact h1

theorem fill_total {t : CTable} (h : t.Shape) (hnd : t.keys.Nodup) : ∃ t', t.fill = .ok t' ∧ t'.Shape := by
  obtain ⟨t1, m, a, b, c, d⟩ := fillRows_total t.keys t [] h hnd
  obtain ⟨t', h1, h2⟩ := fillMissing_total m t1 b (fun p hp => by
    rcases d p hp with h | h
    · simp at h
    · rw [c]; exact h)
  refine ⟨t', ?_, h2⟩
  simp only [CTable.fill, bind_ok]
  exact ⟨_, a, h1⟩

/-! no equivalences -/

theorem set_noEq {t : CTable} (h : t.NoEquivalence) {k1 k2 : Nat} {e : CTVal} (he : ¬ e.Equivalence) :
    (t.set k1 k2 e).NoEquivalence := by
  intro a b e' h'
  simp only [CTable.set] at h'
  split at h'
  · simp at h'; rw [← h']; exact he
  · exact h a b e' h'

theorem transpose_noEq {e e' : CTVal} (h : e.transpose = .ok e') (he : ¬ e.Equivalence) : ¬ e'.Equivalence := by
  cases e with
  | raw d => simp [CTVal.transpose] at h
  | diag d => simp [CTVal.transpose] at h; subst h; simp [CTVal.Equivalence]
  | pair a b c d =>
    simp [CTVal.transpose] at h; subst h
    revert he; cases a <;> cases b <;> cases c <;> cases d <;> simp [CTVal.Equivalence]

theorem combine_noEq {d1 d2 e : CTVal} (h : combineDiag d1 d2 = .ok e) : ¬ e.Equivalence := by
  cases d1 with
  | raw d => simp [combineDiag] at h
  | pair a b c d => simp [combineDiag] at h
  | diag d1 =>
    cases d2 with
    | raw d => simp [combineDiag] at h
    | pair a b c d => simp [combineDiag] at h
    | diag d2 =>
      simp only [combineDiag] at h
      repeat' split at h
      all_goals first
        | (simp at h; done)
        | (simp only [Except.ok.injEq] at h; subst h; simp [CTVal.Equivalence])

theorem fillRow_noEq {k1 : Nat} : ∀ (ks : List Nat) (t t' : CTable) (m m' : List (Nat × Nat)),
    t.NoEquivalence → fillRow k1 ks (t, m) = .ok (t', m') → t'.NoEquivalence := by
  intro ks
  induction ks with
  | nil => intro t t' m m' hs h; simp [fillRow] at h; rw [← h.1]; exact hs
  | cons k2 ks ih =>
    intro t t' m m' hs h
    simp only [fillRow] at h
    cases hg : t.get k1 k2 with
    | none => simp only [hg] at h; exact ih _ _ _ _ hs h
    | some e =>
      simp only [hg, bind_ok] at h
      obtain ⟨e', he, h⟩ := h
      exact ih _ _ _ _ (set_noEq hs (transpose_noEq he (hs k1 k2 e hg))) h

theorem fillRows_noEq : ∀ (ks : List Nat) (t t' : CTable) (m m' : List (Nat × Nat)),
    t.NoEquivalence → fillRows ks (t, m) = .ok (t', m') → t'.NoEquivalence := by
  intro ks
  induction ks with
  | nil => intro t t' m m' hs h; simp [fillRows] at h; rw [← h.1]; exact hs
  | cons k1 ks ih =>
    intro t t' m m' hs h
    simp only [fillRows, bind_ok] at h
    obtain ⟨⟨t1, m1⟩, h1, h⟩ := h
    exact ih _ _ _ _ (fillRow_noEq ks _ _ _ _ hs h1) h

theorem fillMissing_noEq : ∀ (ms : List (Nat × Nat)) (t t' : CTable),
    t.NoEquivalence → fillMissing ms t = .ok t' → t'.NoEquivalence := by
  intro ms
  induction ms with
  | nil => intro t t' hs h; simp [fillMissing] at h; rw [← h]; exact hs
  | cons p ms ih =>
    obtain ⟨k1, k2⟩ := p
    intro t t' hs h
    simp only [fillMissing, bind_ok] at h
    obtain ⟨d1, h1, d2, h2, new, hn, new', hn', h⟩ := h
    have := combine_noEq hn
    exact ih _ _ (set_noEq (set_noEq hs this) (transpose_noEq hn' this)) h

theorem fill_noEq {t t' : CTable} (hs : t.NoEquivalence) (h : t.fill = .ok t') : t'.NoEquivalence := by
  simp only [CTable.fill, bind_ok] at h
  obtain ⟨⟨t1, m⟩, h1, h⟩ := h
  exact fillMissing_noEq m t1 t' (fillRows_noEq _ _ _ _ _ hs h1) h

theorem fill_keys {t t' : CTable} (h : t.fill = .ok t') : t'.keys = t.keys := by
  simp only [CTable.fill, bind_ok] at h
  obtain ⟨⟨t1, m⟩, h1, h⟩ := h
  exact (fillMissing_mono _ _ _ h).2.1.trans (fillRows_mono _ _ _ _ _ h1).2.2.1

theorem fill_diag {t t' : CTable} (h : t.fill = .ok t') {k : Nat} (hk : (t.get k k).isSome) : (t'.get k k).isSome := by
  simp only [CTable.fill, bind_ok] at h
  obtain ⟨⟨t1, m⟩, h1, h⟩ := h
  exact (fillMissing_mono _ _ _ h).1 _ _ ((fillRows_mono _ _ _ _ _ h1).1 _ _ hk)

theorem csetLoop_total {t : CTable} {v : Nat} : ∀ ks : List Nat,
    (∀ k ∈ ks, ∃ e, t.get v k = some e ∧ ∀ d, e ≠ .raw d) → ∃ r, csetLoop t v ks = .ok r := by
  intro ks
  induction ks with
  | nil => intro _; exact ⟨_, rfl⟩
  | cons k ks ih =>
    intro h
    obtain ⟨e, he, hr⟩ := h k (by simp)
    obtain ⟨r, hr'⟩ := ih (fun k hk => h k (by simp [hk]))
    obtain ⟨d, hd⟩ := dependence_total e hr
    simp only [csetLoop, CTable.at, he, hd, hr', bind, Except.bind]
    exact ⟨_, rfl⟩

theorem constraintSet_total {t t' : CTable} (h : t.Shape) (hnd : t.keys.Nodup) (hf : t.fill = .ok t') {v : Nat}
    (hv : v ∈ t.keys) : ∃ ts fs, t'.constraintSet v = .ok (ts, fs) := by
  obtain ⟨t2, h2, hs⟩ := fill_total h hnd
  rw [hf] at h2; cases h2
  have : ∃ r, csetLoop t' v t'.keys = .ok r := by
    apply csetLoop_total
    intro k hk
    rw [fill_keys hf] at hk
    by_cases hvk : v = k
    · subst hvk
      obtain ⟨d, hd, -⟩ := hs.diag v (by rw [fill_keys hf]; exact hv)
      exact ⟨_, hd, by simp⟩
    · obtain ⟨e, he⟩ := Option.isSome_iff_exists.1 (fill_complete hf hv hk hvk)
      obtain ⟨a, b, c, d, rfl⟩ := hs.pairs v k e hvk he
      exact ⟨_, he, by simp⟩
  obtain ⟨⟨ts, fs, tn, fn⟩, hr⟩ := this
  simp only [CTable.constraintSet, hr, bind, Except.bind]
  exact ⟨_, _, rfl⟩

/-! ### solid_in_box -/

theorem seqValues_spec {t : CTable} {σ : Side} (hs : t.Sound σ) : ∀ (ss : List Nat) (vs : Vals),
    seqValues t ss = .ok vs → Agrees σ vs := by
  intro ss
  induction ss with
  | nil => intro vs h; simp [seqValues] at h; subst h; simp [Agrees]
  | cons s ss ih =>
    intro vs h
    simp only [seqValues, bind_ok] at h
    obtain ⟨e, he, h⟩ := h
    have ha := hs s s e (at_ok he)
    cases e with
    | raw d => simp at h
    | pair a b c d => simp at h
    | diag d =>
      simp only [bind_ok] at h
      obtain ⟨v, hv, vs', hvs, h⟩ := h
      have ih' := ih vs' hvs
      simp only [CTVal.Allows, true_and] at ha
      rcases ha with rfl | ⟨rfl, hx⟩ | ⟨rfl, hx⟩
      · simp [boolVals] at hv; subst hv; simp at h; subst h; exact ih'
      · simp [boolVals] at hv; subst hv; simp at h; subst h
        intro k b hb
        simp at hb
        rcases hb with ⟨rfl, rfl⟩ | hb
        · exact hx
        · exact ih' k b hb
      · simp [boolVals] at hv; subst hv; simp at h; subst h
        intro k b hb
        simp at hb
        rcases hb with ⟨rfl, rfl⟩ | hb
        · exact hx
        · exact ih' k b hb

theorem bool?_sem {r : Ev} {b : Bool} (h : r.bool? = some b) (σ : Side) : r.sem σ = b := by
  cases r with
  | bool x => simpa [Ev.bool?, Ev.sem] using h
  | seq s => simp [Ev.bool?] at h

theorem solidInBox_spec {t : CTable} {enum : Seq → List Nat} {f : Nat} {s s' : Seq} {r : Option Bool} (hw : s.WF)
    (hq : t.NoEquivalence) (h : t.solidInBox enum f s = .ok (s', r)) :
    s'.WF ∧ (∀ σ, s'.sem σ = s.sem σ) ∧ ∀ b, r = some b → ∀ σ, t.Sound σ → s.sem σ = b := by
  simp only [CTable.solidInBox] at h
  split at h
  · simp only [bind_ok] at h
    obtain ⟨vs, hv, ⟨s1, r1⟩, he, h⟩ := h
    simp at h; obtain ⟨rfl, rfl⟩ := h
    obtain ⟨e1, e2, e3, e4⟩ := evaluate_spec hw he
    refine ⟨e1, e3, fun b hb σ hs => ?_⟩
    rw [← e4 σ (seqValues_spec hs _ _ hv)]
    exact bool?_sem hb σ
  · split at h
    · simp at h
    · next s0 rest hsurf =>
      simp only [bind_ok] at h
      obtain ⟨⟨ts, fs⟩, hc, h⟩ := h
      have hcon : ∀ σ, t.Sound σ → Consistent σ s0 ts fs := fun σ hs => constraintSet_sound hs hq hc
      cases ts with
      | none =>
        cases fs with
        | none =>
          simp at h; obtain ⟨rfl, rfl⟩ := h
          refine ⟨hw, fun _ => rfl, fun b _ σ hs => ?_⟩
          obtain ⟨h1, h2⟩ := hcon σ hs
          cases hv : σ s0 with
          | true => obtain ⟨_, h3, _⟩ := h1 hv; cases h3
          | false => obtain ⟨_, h3, _⟩ := h2 hv; cases h3
        | some fs =>
          simp only [bind_ok] at h
          obtain ⟨⟨s1, r1⟩, he, h⟩ := h
          simp at h; obtain ⟨rfl, rfl⟩ := h
          obtain ⟨e1, e2, e3, e4⟩ := evaluate_spec hw he
          refine ⟨e1, e3, fun b hb σ hs => ?_⟩
          obtain ⟨h1, h2⟩ := hcon σ hs
          cases hv : σ s0 with
          | true => obtain ⟨_, h3, _⟩ := h1 hv; cases h3
          | false =>
            obtain ⟨_, h3, ha⟩ := h2 hv; cases h3
            rw [← e4 σ ha]; exact bool?_sem hb σ
      | some ts =>
        simp only [bind_ok] at h
        obtain ⟨⟨s1, r1⟩, he, h⟩ := h
        obtain ⟨e1, e2, e3, e4⟩ := evaluate_spec hw he
        cases hb1 : r1.bool? with
        | none =>
          simp only [hb1] at h
          simp at h; obtain ⟨rfl, rfl⟩ := h
          exact ⟨e1, e3, fun b hb => by simp at hb⟩
        | some tv =>
          cases fs with
          | none =>
            simp [hb1] at h; obtain ⟨rfl, rfl⟩ := h
            refine ⟨e1, e3, fun b hb σ hs => ?_⟩
            obtain ⟨h1, h2⟩ := hcon σ hs
            cases hv : σ s0 with
            | false => obtain ⟨_, h3, _⟩ := h2 hv; cases h3
            | true =>
              obtain ⟨_, h3, ha⟩ := h1 hv; cases h3
              rw [← e4 σ ha, bool?_sem hb1 σ]; simpa using hb
          | some fs =>
            simp only [hb1, bind_ok] at h
            obtain ⟨⟨s2, r2⟩, he2, h⟩ := h
            obtain ⟨g1, g2, g3, g4⟩ := evaluate_spec e1 he2
            cases hb2 : r2.bool? with
            | none =>
              simp only [hb2] at h
              simp at h; obtain ⟨rfl, rfl⟩ := h
              exact ⟨g1, fun σ => (g3 σ).trans (e3 σ), fun b hb => by simp at hb⟩
            | some fv =>
              simp only [hb2] at h
              simp at h; obtain ⟨rfl, rfl⟩ := h
              refine ⟨g1, fun σ => (g3 σ).trans (e3 σ), fun b hb σ hs => ?_⟩
              split at hb
              · next htf =>
                simp at hb
                obtain ⟨h1, h2⟩ := hcon σ hs
                cases hv : σ s0 with
                | true =>
                  obtain ⟨_, h3, ha⟩ := h1 hv; cases h3
                  rw [← e4 σ ha, bool?_sem hb1 σ]; exact hb
                | false =>
                  obtain ⟨_, h3, ha⟩ := h2 hv; cases h3
                  rw [← e3 σ, ← g4 σ ha, bool?_sem hb2 σ]
                  rw [← hb]; exact htf.symm
              · simp at hb

/-! ### remove_extra_surfaces -/

theorem outSurfaces_spec {t : CTable} : ∀ (ks out : List Nat), outSurfaces t ks = .ok out →
    ∀ k ∈ out, t.get k k ≠ some (.diag 0) := by
  intro ks
  induction ks with
  | nil => intro out h; simp [outSurfaces] at h; subst h; simp
  | cons k ks ih =>
    intro out h
    simp only [outSurfaces, bind_ok] at h
    obtain ⟨e, he, out', ho, h⟩ := h
    have ih' := ih out' ho
    have hg := at_ok he
    split at h
    · simp at h
    · simp at h; subst h; exact ih'
    · next hd =>
      simp at h; subst h
      intro k' hk'
      rcases List.mem_cons.1 hk' with rfl | hk'
      · rw [hg]; simp; exact hd
      · exact ih' k' hk'

theorem Side.set_self {σ : Side} {v : Nat} {b : Bool} (h : σ v = b) : σ.set v b = σ := by
  funext w; simp only [Side.set]; split
  · next hw => subst hw; exact h.symm
  · rfl

theorem substOut_spec {t : CTable} {f : Nat} {out : List Nat} (ho : ∀ k ∈ out, t.get k k ≠ some (.diag 0)) :
    ∀ (ks : List Nat) (s s' : Seq), (∀ k ∈ ks, k ∈ out) → s.WF → substOut t f ks s = .ok s' →
    s'.WF ∧ ∀ σ, t.Sound σ → s'.sem σ = s.sem σ := by
  intro ks
  induction ks with
  | nil => intro s s' _ hw h; simp [substOut] at h; subst h; exact ⟨hw, fun _ _ => rfl⟩
  | cons k ks ih =>
    intro s s' hk hw h
    simp only [substOut, bind_ok] at h
    obtain ⟨e, he, h⟩ := h
    have hg := at_ok he
    cases e with
    | raw d => simp at h
    | pair a b c d => simp at h
    | diag d =>
      simp only [bind_ok] at h
      obtain ⟨s1, h1, h⟩ := h
      obtain ⟨w1, w2⟩ := subst_spec (var := k) (val := .b (decide (d > 0))) trivial f s s1 hw h1
      obtain ⟨v1, v2⟩ := ih s1 s' (fun k hk' => hk k (by simp [hk'])) w1 h
      refine ⟨v1, fun σ hs => ?_⟩
      rw [v2 σ hs, w2 σ]
      have ha := hs k k _ hg
      have hd : d ≠ 0 := by
        intro h0; subst h0; exact ho k (hk k (by simp)) hg
      have : σ k = decide (d > 0) := by
        simp only [CTVal.Allows, true_and] at ha
        rcases ha with rfl | ⟨rfl, hx⟩ | ⟨rfl, hx⟩
        · exact absurd rfl hd
        · simpa using hx
        · simpa using hx
      simp only [Side.subst, Int.natAbs_natCast]
      rw [Side.set_self this]

theorem semAny_cons (σ : Side) (e : Seq) (es : List Seq) : Seq.semAny σ (e :: es) = (e.sem σ || Seq.semAny σ es) := rfl

theorem append_or_one {l : Int} {es : List Seq} {s new : Seq} (hw : (Seq.lst .or l es).WF) (hs : s.WF)
    (h : (Seq.lst .or l es).append [.seq s] = .ok new) :
    new.WF ∧ ∀ σ, new.sem σ = ((Seq.lst .or l es).sem σ || s.sem σ) := by
  obtain ⟨h1, h2⟩ := append_spec hw (items := [.seq s]) (by simpa [Item.WF] using hs) h
  refine ⟨h1, fun σ => ?_⟩
  rw [h2 σ, sem_lst]
  simp [itemsSem, Op.app, Op.neutral, Item.sem]

theorem append_lst {op : Op} {l : Int} {es : List Seq} {o : Op} {l' : Int} {xs : List Seq} {new : Seq}
    (h : (Seq.lst op l es).append [.seq (.lst o l' xs)] = .ok new) : ∃ l2 es2, new = .lst op l2 es2 := by
  simp only [Seq.append, appendLoop] at h
  simp at h
  exact ⟨_, _, h.symm⟩

theorem boolOf_sem {s : Seq} {b : Bool} (h : s.boolOf = some b) (σ : Side) : s.sem σ = b := by
  cases s with
  | boo o l b' => simp [Seq.boolOf] at h; simp [h]
  | int n => simp [Seq.boolOf] at h
  | lst o l es => simp [Seq.boolOf] at h

theorem extraLoop_spec {t : CTable} {enum : Seq → List Nat} {f : Nat} {out : List Nat} (hq : t.NoEquivalence)
    (ho : ∀ k ∈ out, t.get k k ≠ some (.diag 0)) :
    ∀ (subs : List Seq) (l : Int) (es : List Seq) (r : Bool ⊕ Seq), (∀ s ∈ subs, s.WF) → (Seq.lst .or l es).WF →
    extraLoop false t enum f out subs (.lst .or l es) = .ok r →
    match r with
    | .inl b => b = true ∧ ∀ σ, t.Sound σ → ((Seq.lst .or l es).sem σ || Seq.semAny σ subs) = true
    | .inr new => new.WF ∧ ∀ σ, t.Sound σ → new.sem σ = ((Seq.lst .or l es).sem σ || Seq.semAny σ subs) := by
  intro subs
  induction subs with
  | nil =>
    intro l es r _ hw h
    simp [extraLoop] at h
    subst h
    exact ⟨hw, fun σ _ => by simp [Seq.semAny]⟩
  | cons sub subs ih =>
    intro l es r hws hw h
    have hws' := fun s hs => hws s (List.mem_cons_of_mem _ hs)
    have hsub := hws sub (by simp)
    simp only [extraLoop, bind_ok] at h
    obtain ⟨sub1, hc, h⟩ := h
    obtain ⟨c1, c2⟩ := check_spec f sub sub1 hsub hc
    simp only [Bool.false_bne] at h
    have skip : ∀ r, (∀ σ, t.Sound σ → sub.sem σ = false) → extraLoop false t enum f out subs (.lst .or l es) = .ok r →
        match r with
        | .inl b => b = true ∧ ∀ σ, t.Sound σ → ((Seq.lst .or l es).sem σ || Seq.semAny σ (sub :: subs)) = true
        | .inr new => new.WF ∧ ∀ σ, t.Sound σ → new.sem σ = ((Seq.lst .or l es).sem σ || Seq.semAny σ (sub :: subs)) := by
      intro r hz h
      have := ih l es r hws' hw h
      cases r with
      | inl b => exact ⟨this.1, fun σ hs => by rw [semAny_cons, hz σ hs]; simpa using this.2 σ hs⟩
      | inr new => exact ⟨this.1, fun σ hs => by rw [semAny_cons, hz σ hs]; simpa using this.2 σ hs⟩
    have full : ∀ r, (∀ σ, t.Sound σ → sub.sem σ = true) → (.ok (.inl true) : M (Bool ⊕ Seq)) = .ok r →
        match r with
        | .inl b => b = true ∧ ∀ σ, t.Sound σ → ((Seq.lst .or l es).sem σ || Seq.semAny σ (sub :: subs)) = true
        | .inr new => new.WF ∧ ∀ σ, t.Sound σ → new.sem σ = ((Seq.lst .or l es).sem σ || Seq.semAny σ (sub :: subs)) := by
      intro r hz h
      simp at h; subst h
      exact ⟨rfl, fun σ hs => by rw [semAny_cons, hz σ hs]; simp⟩
    cases hb : sub1.boolOf with
    | some b =>
      simp only [hb, Option.map_some] at h
      cases b with
      | false => exact skip r (fun σ _ => by rw [← c2 σ]; exact boolOf_sem hb σ) h
      | true => exact full r (fun σ _ => by rw [← c2 σ]; exact boolOf_sem hb σ) h
    | none =>
      simp only [hb, Option.map_none, bind_ok] at h
      obtain ⟨⟨sub2, res⟩, hsb, h⟩ := h
      obtain ⟨b1, b2, b3⟩ := solidInBox_spec c1 hq hsb
      cases res with
      | some b =>
        cases b with
        | true => exact full r (fun σ hs => by rw [← c2 σ]; exact b3 true rfl σ hs) h
        | false => exact skip r (fun σ hs => by rw [← c2 σ]; exact b3 false rfl σ hs) h
      | none =>
        simp only [bind_ok] at h
        obtain ⟨sub3, hso, h⟩ := h
        have h3 : sub3.WF ∧ ∀ σ, t.Sound σ → sub3.sem σ = sub.sem σ := by
          have : sub3.WF ∧ ∀ σ, t.Sound σ → sub3.sem σ = sub2.sem σ := by
            unfold reduceSub at hso
            split at hso
            · exact substOut_spec ho _ _ _ (by intro k hk; simp at hk; exact hk.2.1) b1 hso
            · simp at hso; subst hso; exact ⟨b1, fun _ _ => rfl⟩
          exact ⟨this.1, fun σ hs => by rw [this.2 σ hs, b2 σ, c2 σ]⟩
        cases sub3 with
        | boo o lv b =>
          cases b with
          | false => exact skip r (fun σ hs => by rw [← h3.2 σ hs]; simp) h
          | true => exact full r (fun σ hs => by rw [← h3.2 σ hs]; simp) h
        | int n => simp at h
        | lst o lv xs =>
          simp only [bind_ok] at h
          obtain ⟨new, hn, h⟩ := h
          obtain ⟨n1, n2⟩ := append_or_one hw h3.1 hn
          obtain ⟨l2, es2, rfl⟩ := append_lst hn
          have := ih l2 es2 r hws' n1 h
          cases r with
          | inl b =>
            exact ⟨this.1, fun σ hs => by
              have h9 := this.2 σ hs
              rw [n2 σ, h3.2 σ hs] at h9; rw [semAny_cons, ← Bool.or_assoc]; exact h9⟩
          | inr new =>
            exact ⟨this.1, fun σ hs => by
              have h9 := this.2 σ hs
              rw [n2 σ, h3.2 σ hs] at h9; rw [semAny_cons, ← Bool.or_assoc]; exact h9⟩

theorem removeExtra_spec {t : CTable} {enum : Seq → List Nat} {f : Nat} {op : Op} {l : Int} {es : List Seq} {r : Seq}
    (hw : (Seq.lst op l es).WF) (hq : t.NoEquivalence) (h : removeExtra false t enum f (.lst op l es) = .ok r) :
    ∀ σ, t.Sound σ → r.sem σ = (Seq.lst op l es).sem σ := by
  simp only [removeExtra, bind_ok] at h
  obtain ⟨out, ho, h⟩ := h
  split at h
  · simp at h; subst h; intros; rfl
  · simp only [bind_ok] at h
    obtain ⟨subs, hs, r1, hl, h⟩ := h
    have hsubs : (∀ s ∈ subs, s.WF) ∧ ∀ σ, Seq.semAny σ subs = (Seq.lst op l es).sem σ := by
      cases op with
      | or =>
        simp [loopCells] at hs; subst hs
        rw [WF_lst] at hw
        exact ⟨hw.2, fun σ => by simp [Seq.sem]⟩
      | and =>
        simp only [loopCells, bind_ok] at hs
        obtain ⟨x, hx, hs⟩ := hs
        simp [Seq.append, appendLoop] at hx
        subst hx
        simp [Seq.elemsOf] at hs
        subst hs
        exact ⟨by simpa using hw, fun σ => by simp [Seq.semAny]⟩
    have := extraLoop_spec hq (outSurfaces_spec _ _ ho) subs 0 [] r1 hsubs.1 (empty_WF .or) hl
    cases r1 with
    | inl b =>
      simp at h; subst h
      intro σ hs
      have h2 := this.2 σ hs
      simp [Seq.sem, Seq.semAny] at h2
      rw [← hsubs.2 σ, h2, this.1]; simp [Seq.sem]
    | inr new =>
      simp at h; subst h
      intro σ hs
      rw [clean_sem, this.2 σ hs, hsubs.2 σ, show (Seq.lst .or 0 []).sem σ = false from rfl, Bool.false_or]

/-- the sub-cells `remove_extra_surfaces` loops over (326-332) -/
def subCells : Seq → List Seq
  | .lst .or _ es => es
  | s => [s]

theorem extraLoop_same {t : CTable} {enum : Seq → List Nat} {f : Nat} {out : List Nat} :
    ∀ (subs : List Seq) (new : Seq), (∀ s ∈ subs, ∀ s', s.check f = .ok s' → s'.boolOf = none) →
    extraLoop true t enum f out subs new = extraLoop false t enum f out subs new := by
  intro subs
  induction subs with
  | nil => intro new _; rfl
  | cons s subs ih =>
    intro new h
    have ih' := fun new => ih new (fun s hs => h s (by simp [hs]))
    simp only [extraLoop]
    cases hc : s.check f with
    | error e => rfl
    | ok s' =>
      simp only [bind, Except.bind]
      have := h s (by simp) s' hc
      simp only [this, Option.map_none, ih']

theorem removeExtra_same {t : CTable} {enum : Seq → List Nat} {f : Nat} {op : Op} {l : Int} {es : List Seq}
    (h : ∀ s ∈ subCells (.lst op l es), ∀ s', s.check f = .ok s' → s'.boolOf = none) :
    removeExtra true t enum f (.lst op l es) = removeExtra false t enum f (.lst op l es) := by
  simp only [removeExtra]
  cases outSurfaces t t.keys with
  | error e => rfl
  | ok out =>
    simp only [bind, Except.bind]
    split
    · rfl
    · cases op with
      | or => simp only [loopCells]; rw [extraLoop_same]; exact h
      | and =>
        simp only [loopCells, bind, Except.bind, Seq.append, appendLoop, Seq.elemsOf, List.nil_append]
        rw [extraLoop_same]; exact h

/-! ### pair entries -/

theorem sideLoop_spec : ∀ (ps : List (Bool × Bool)) (p0 cur : Option (Bool × Bool)) (r : Bool × Bool),
    (∀ q, p0 = some q → q.1 = true ∨ q.2 = true) → (∀ p ∈ ps, p.1 = true ∨ p.2 = true) →
    (∀ q, p0 = some q → cur = some q) → sideLoop ps p0 cur = some r →
    (∀ p ∈ ps, (p.1 = true → r.1 = true) ∧ (p.2 = true → r.2 = true)) ∧
    (∀ q, p0 = some q → (q.1 = true → r.1 = true) ∧ (q.2 = true → r.2 = true)) := by
  intro ps
  induction ps with
  | nil =>
    intro p0 cur r _ _ hc h
    refine ⟨by simp, fun q hq => ?_⟩
    simp [sideLoop] at h
    rw [hc q hq] at h; simp at h; subst h; simp
  | cons p ps ih =>
    intro p0 cur r h0 hp hc h
    simp only [sideLoop] at h
    have hp' := fun p hq => hp p (List.mem_cons_of_mem _ hq)
    split at h
    · next heq => simp at h; subst h; subst heq; simp
    · next hne =>
      cases p0 with
      | none =>
        simp only at h
        obtain ⟨a, b⟩ := ih (some p) (some p) r (by simpa using hp p (by simp)) hp' (by simp) h
        refine ⟨fun q hq => ?_, by simp⟩
        rcases List.mem_cons.1 hq with rfl | hq
        · exact b q rfl
        · exact a q hq
      | some q =>
        simp only at h
        split at h
        · simp at h; subst h; simp
        · next hpq =>
          simp at hpq; subst hpq
          obtain ⟨a, b⟩ := ih (some p) (some p) r h0 hp' (by simp) h
          refine ⟨fun q hq => ?_, b⟩
          rcases List.mem_cons.1 hq with rfl | hq
          · exact b q rfl
          · exact a q hq

end Geouned
