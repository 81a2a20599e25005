import Verif.CTable.Model
import Verif.Bool.Lemmas4
/-! Helper lemmas on constraint tables. -/
namespace Geouned

theorem dependence_spec {e : CTVal} {tv fv : Dep} (h : e.dependence = .ok (tv, fv)) (hq : ¬ e.Equivalence) {x y : Bool}
    (ha : e.Allows x y) :
    (x = true → tv ≠ .null ∧ ∀ b, tv = .val b → y = b) ∧
    (x = false → fv ≠ .null ∧ ∀ b, fv = .val b → y = b) := by
  cases e with
  | raw d => simp [CTVal.dependence] at h
  | diag d =>
    simp only [CTVal.dependence] at h
    simp only [CTVal.Allows] at ha
    obtain ⟨rfl, ha⟩ := ha
    split at h
    · simp at h; obtain ⟨rfl, rfl⟩ := h
      cases x <;> simp
    · split at h
      · simp at h; obtain ⟨rfl, rfl⟩ := h
        next h0 h1 =>
        subst h1
        simp at ha; subst ha; simp
      · simp at h; obtain ⟨rfl, rfl⟩ := h
        next h0 h1 =>
        simp [h0, h1] at ha
        simp [ha.2]
  | pair a b c d =>
    simp only [CTVal.Allows] at ha
    simp only [CTVal.Equivalence, CTVal.pair.injEq] at hq
    revert h ha hq
    cases a <;> cases b <;> cases c <;> cases d <;>
      simp only [CTVal.dependence, ones, indexFrom, bind, Except.bind] <;>
      intro h <;> simp at h <;> obtain ⟨rfl, rfl⟩ := h <;>
      cases x <;> cases y <;> simp

theorem dependence_total (e : CTVal) (h : ∀ d, e ≠ .raw d) : ∃ r, e.dependence = .ok r := by
  cases e with
  | raw d => exact absurd rfl (h d)
  | diag d =>
    simp only [CTVal.dependence]
    split
    · exact ⟨_, rfl⟩
    · split <;> exact ⟨_, rfl⟩
  | pair a b c d => cases a <;> cases b <;> cases c <;> cases d <;> exact ⟨_, rfl⟩

/-- every implication an entry allows to conclude is reported -/
theorem dependence_complete {a b c d : Bool} {tv fv : Dep} (h : (CTVal.pair a b c d).dependence = .ok (tv, fv))
    (hq : ¬ (CTVal.pair a b c d).Equivalence) :
    (tv = .null ↔ ∀ y, ¬ (CTVal.pair a b c d).Allows true y) ∧
    (fv = .null ↔ ∀ y, ¬ (CTVal.pair a b c d).Allows false y) ∧
    (∀ v, (CTVal.pair a b c d).Allows true v → (¬ (CTVal.pair a b c d).Allows true (!v)) →
      tv = .val v ∨ fv = .null) ∧
    (∀ v, (CTVal.pair a b c d).Allows false v → (¬ (CTVal.pair a b c d).Allows false (!v)) →
      fv = .val v ∨ tv = .null) := by
  simp only [CTVal.Allows]
  simp only [CTVal.Equivalence, CTVal.pair.injEq] at hq
  revert h hq
  cases a <;> cases b <;> cases c <;> cases d <;>
    simp only [CTVal.dependence, ones, indexFrom, bind, Except.bind] <;>
    intro h <;> simp at h <;> obtain ⟨rfl, rfl⟩ := h <;> simp

theorem at_ok {t : CTable} {a b : Nat} {e : CTVal} (h : t.at a b = .ok e) : t.get a b = some e := by
  unfold CTable.at at h
  cases hg : t.get a b with
  | none => simp [hg] at h
  | some e' => simp [hg] at h; rw [h]

theorem csetLoop_spec {t : CTable} {v : Nat} {σ : Side} (hs : t.Sound σ) (hq : t.NoEquivalence) :
    ∀ (ks : List Nat) (ts fs : Vals) (tn fn : Bool), csetLoop t v ks = .ok (ts, fs, tn, fn) →
    (σ v = true → tn = false ∧ Agrees σ ts) ∧ (σ v = false → fn = false ∧ Agrees σ fs) := by
  intro ks
  induction ks with
  | nil =>
    intro ts fs tn fn h
    simp [csetLoop] at h
    obtain ⟨rfl, rfl, rfl, rfl⟩ := h
    simp [Agrees]
  | cons k ks ih =>
    intro ts fs tn fn h
    simp only [csetLoop, bind_ok] at h
    obtain ⟨e, he, ⟨tv, fv⟩, hd, ⟨ts0, fs0, tn0, fn0⟩, hl, h⟩ := h
    simp only [Except.ok.injEq, Prod.mk.injEq] at h
    obtain ⟨rfl, rfl, rfl, rfl⟩ := h
    have ih' := ih _ _ _ _ hl
    have ha := hs v k e (at_ok he)
    have hd' := dependence_spec hd (hq v k e (at_ok he)) ha
    constructor
    · intro hv
      obtain ⟨i1, i2⟩ := ih'.1 hv
      obtain ⟨d1, d2⟩ := hd'.1 hv
      refine ⟨by simp [i1, d1], ?_⟩
      intro k' b hb
      cases tv with
      | unknown => exact i2 k' b hb
      | null => exact i2 k' b hb
      | val b' =>
        simp only [List.mem_cons, Prod.mk.injEq, Option.some.injEq] at hb
        rcases hb with ⟨rfl, rfl⟩ | hb
        · exact d2 b rfl
        · exact i2 k' b hb
    · intro hv
      obtain ⟨i1, i2⟩ := ih'.2 hv
      obtain ⟨d1, d2⟩ := hd'.2 hv
      refine ⟨by simp [i1, d1], ?_⟩
      intro k' b hb
      cases fv with
      | unknown => exact i2 k' b hb
      | null => exact i2 k' b hb
      | val b' =>
        simp only [List.mem_cons, Prod.mk.injEq, Option.some.injEq] at hb
        rcases hb with ⟨rfl, rfl⟩ | hb
        · exact d2 b rfl
        · exact i2 k' b hb

theorem constraintSet_sound {t : CTable} {v : Nat} {σ : Side} (hs : t.Sound σ) (hq : t.NoEquivalence) {ts fs : Option Vals}
    (h : t.constraintSet v = .ok (ts, fs)) : Consistent σ v ts fs := by
  simp only [CTable.constraintSet, bind_ok] at h
  obtain ⟨⟨ts0, fs0, tn, fn⟩, hl, h⟩ := h
  simp only [Except.ok.injEq, Prod.mk.injEq] at h
  obtain ⟨rfl, rfl⟩ := h
  have := csetLoop_spec hs hq _ _ _ _ _ hl
  constructor
  · intro hv; obtain ⟨h1, h2⟩ := this.1 hv; exact ⟨ts0, by simp [h1], h2⟩
  · intro hv; obtain ⟨h1, h2⟩ := this.2 hv; exact ⟨fs0, by simp [h1], h2⟩

theorem combineDiag_spec {d1 d2 e : CTVal} (h : combineDiag d1 d2 = .ok e) (x y : Bool) :
    e.Allows x y ↔ d1.Allows x x ∧ d2.Allows y y := by
  cases d1 with
  | raw d => simp [combineDiag] at h
  | pair a b c d => simp [combineDiag] at h
  | diag d1 =>
    cases d2 with
    | raw d => simp [combineDiag] at h
    | pair a b c d => simp [combineDiag] at h
    | diag d2 =>
      simp only [combineDiag] at h
      repeat' split at h
      all_goals first
        | (simp at h; done)
        | (next hc =>
            obtain ⟨rfl, rfl⟩ := hc
            simp only [Except.ok.injEq] at h
            subst h
            cases x <;> cases y <;> simp [CTVal.Allows])

theorem transpose_spec {e e' : CTVal} (h : e.transpose = .ok e') (x y : Bool) (ha : e.Allows x y) :
    e'.Allows y x := by
  cases e with
  | raw d => simp [CTVal.transpose] at h
  | diag d => simp [CTVal.transpose] at h; subst h; simp [CTVal.Allows]
  | pair a b c d =>
    simp [CTVal.transpose] at h; subst h
    simp only [CTVal.Allows] at ha ⊢
    revert ha
    cases x <;> cases y <;> simp

theorem set_sound {t : CTable} {σ : Side} {k1 k2 : Nat} {e : CTVal} (hs : t.Sound σ) (he : e.Allows (σ k1) (σ k2)) :
    (t.set k1 k2 e).Sound σ := by
  intro a b e' h
  simp only [CTable.set] at h
  split at h
  · next hc => obtain ⟨rfl, rfl⟩ := hc; simp at h; subst h; exact he
  · exact hs a b e' h

theorem fillRow_sound {σ : Side} {k1 : Nat} : ∀ (ks : List Nat) (t t' : CTable) (m m' : List (Nat × Nat)),
    t.Sound σ → fillRow k1 ks (t, m) = .ok (t', m') → t'.Sound σ := by
  intro ks
  induction ks with
  | nil => intro t t' m m' hs h; simp [fillRow] at h; rw [← h.1]; exact hs
  | cons k2 ks ih =>
    intro t t' m m' hs h
    simp only [fillRow] at h
    cases hg : t.get k1 k2 with
    | none => simp only [hg] at h; exact ih _ _ _ _ hs h
    | some e =>
      simp only [hg, bind_ok] at h
      obtain ⟨e', he, h⟩ := h
      exact ih _ _ _ _ (set_sound hs (transpose_spec he _ _ (hs k1 k2 e hg))) h

theorem fillRows_sound {σ : Side} : ∀ (ks : List Nat) (t t' : CTable) (m m' : List (Nat × Nat)),
    t.Sound σ → fillRows ks (t, m) = .ok (t', m') → t'.Sound σ := by
  intro ks
  induction ks with
  | nil => intro t t' m m' hs h; simp [fillRows] at h; rw [← h.1]; exact hs
  | cons k1 ks ih =>
    intro t t' m m' hs h
    simp only [fillRows, bind_ok] at h
    obtain ⟨⟨t1, m1⟩, h1, h⟩ := h
    exact ih _ _ _ _ (fillRow_sound ks _ _ _ _ hs h1) h

theorem fillMissing_sound {σ : Side} : ∀ (ms : List (Nat × Nat)) (t t' : CTable),
    t.Sound σ → fillMissing ms t = .ok t' → t'.Sound σ := by
  intro ms
  induction ms with
  | nil => intro t t' hs h; simp [fillMissing] at h; rw [← h]; exact hs
  | cons p ms ih =>
    obtain ⟨k1, k2⟩ := p
    intro t t' hs h
    simp only [fillMissing, bind_ok] at h
    obtain ⟨d1, h1, d2, h2, new, hn, new', hn', h⟩ := h
    have ha : new.Allows (σ k1) (σ k2) :=
      (combineDiag_spec hn _ _).2 ⟨hs _ _ _ (at_ok h1), hs _ _ _ (at_ok h2)⟩
    exact ih _ _ (set_sound (set_sound hs ha) (transpose_spec hn' _ _ ha)) h

theorem fill_sound {σ : Side} {t t' : CTable} (hs : t.Sound σ) (h : t.fill = .ok t') : t'.Sound σ := by
  simp only [CTable.fill, bind_ok] at h
  obtain ⟨⟨t1, m⟩, h1, h⟩ := h
  exact fillMissing_sound m t1 t' (fillRows_sound _ _ _ _ _ hs h1) h

/-! completeness of `fill` -/

theorem set_get_some {t : CTable} {a b k1 k2 : Nat} {e : CTVal} (h : (t.get a b).isSome) :
    ((t.set k1 k2 e).get a b).isSome := by
  simp only [CTable.set]; split <;> simp [h]

theorem set_get_self (t : CTable) (k1 k2 : Nat) (e : CTVal) : ((t.set k1 k2 e).get k1 k2).isSome := by
  simp [CTable.set]

theorem fillRow_mono {k1 : Nat} : ∀ (ks : List Nat) (t t' : CTable) (m m' : List (Nat × Nat)),
    fillRow k1 ks (t, m) = .ok (t', m') → (∀ a b, (t.get a b).isSome → (t'.get a b).isSome) ∧ (∀ p ∈ m, p ∈ m') ∧
      t'.keys = t.keys ∧
      ∀ k2 ∈ ks, ((t'.get k1 k2).isSome ∧ (t'.get k2 k1).isSome) ∨ (k1, k2) ∈ m' := by
  intro ks
  induction ks with
  | nil => intro t t' m m' h; simp [fillRow] at h; obtain ⟨rfl, rfl⟩ := h; simp
  | cons k2 ks ih =>
    intro t t' m m' h
    simp only [fillRow] at h
    cases hg : t.get k1 k2 with
    | none =>
      simp only [hg] at h
      obtain ⟨i1, i2, i3, i4⟩ := ih _ _ _ _ h
      refine ⟨i1, fun p hp => i2 p (by simp [hp]), i3, ?_⟩
      intro k hk
      rcases List.mem_cons.1 hk with rfl | hk
      · exact .inr (i2 _ (by simp))
      · exact i4 k hk
    | some e =>
      simp only [hg, bind_ok] at h
      obtain ⟨e', he, h⟩ := h
      obtain ⟨i1, i2, i3, i4⟩ := ih _ _ _ _ h
      refine ⟨fun a b hh => i1 a b (set_get_some hh), i2, i3, ?_⟩
      intro k hk
      rcases List.mem_cons.1 hk with rfl | hk
      · left
        exact ⟨i1 _ _ (set_get_some (by simp [hg])), i1 _ _ (set_get_self _ _ _ _)⟩
      · exact i4 k hk

theorem fillRows_mono : ∀ (ks : List Nat) (t t' : CTable) (m m' : List (Nat × Nat)),
    fillRows ks (t, m) = .ok (t', m') → (∀ a b, (t.get a b).isSome → (t'.get a b).isSome) ∧ (∀ p ∈ m, p ∈ m') ∧
      t'.keys = t.keys ∧
      ∀ a ∈ ks, ∀ b ∈ ks, a ≠ b → ((t'.get a b).isSome ∧ (t'.get b a).isSome) ∨ (a, b) ∈ m' ∨ (b, a) ∈ m' := by
  intro ks
  induction ks with
  | nil => intro t t' m m' h; simp [fillRows] at h; obtain ⟨rfl, rfl⟩ := h; simp
  | cons k1 ks ih =>
    intro t t' m m' h
    simp only [fillRows, bind_ok] at h
    obtain ⟨⟨t1, m1⟩, h1, h⟩ := h
    obtain ⟨i1, i2, i3, i4⟩ := ih _ _ _ _ h
    obtain ⟨j1, j2, j3, j4⟩ := fillRow_mono _ _ _ _ _ h1
    refine ⟨fun a b hh => i1 a b (j1 a b hh), fun p hp => i2 p (j2 p hp), i3.trans j3, ?_⟩
    have key : ∀ k ∈ ks, ((t'.get k1 k).isSome ∧ (t'.get k k1).isSome) ∨ (k1, k) ∈ m' := by
      intro k hk
      rcases j4 k hk with ⟨a, b⟩ | hm
      · exact .inl ⟨i1 _ _ a, i1 _ _ b⟩
      · exact .inr (i2 _ hm)
    intro a ha b hb hab
    rcases List.mem_cons.1 ha with rfl | ha
    · rcases List.mem_cons.1 hb with rfl | hb
      · exact absurd rfl hab
      · rcases key b hb with h | h
        · exact .inl h
        · exact .inr (.inl h)
    · rcases List.mem_cons.1 hb with rfl | hb
      · rename_i hka
        rcases key a (by assumption) with h | h
        · exact .inl ⟨h.2, h.1⟩
        · exact .inr (.inr h)
      · exact i4 a ha b hb hab

theorem fillMissing_mono : ∀ (ms : List (Nat × Nat)) (t t' : CTable), fillMissing ms t = .ok t' →
    (∀ a b, (t.get a b).isSome → (t'.get a b).isSome) ∧ t'.keys = t.keys ∧
    ∀ p ∈ ms, (t'.get p.1 p.2).isSome ∧ (t'.get p.2 p.1).isSome := by
  intro ms
  induction ms with
  | nil => intro t t' h; simp [fillMissing] at h; subst h; simp
  | cons p ms ih =>
    obtain ⟨k1, k2⟩ := p
    intro t t' h
    simp only [fillMissing, bind_ok] at h
    obtain ⟨d1, h1, d2, h2, new, hn, new', hn', h⟩ := h
    obtain ⟨i1, i2, i3⟩ := ih _ _ h
    refine ⟨fun a b hh => i1 a b (set_get_some (set_get_some hh)), i2, ?_⟩
    intro p hp
    rcases List.mem_cons.1 hp with rfl | hp
    · exact ⟨i1 _ _ (set_get_some (set_get_self _ _ _ _)), i1 _ _ (set_get_self _ _ _ _)⟩
    · exact i3 p hp

theorem fill_complete {t t' : CTable} (h : t.fill = .ok t') {a b : Nat} (ha : a ∈ t.keys) (hb : b ∈ t.keys)
    (hab : a ≠ b) : (t'.get a b).isSome := by
  simp only [CTable.fill, bind_ok] at h
  obtain ⟨⟨t1, m⟩, h1, h⟩ := h
  obtain ⟨i1, i2, i3, i4⟩ := fillRows_mono _ _ _ _ _ h1
  obtain ⟨j1, j2, j3⟩ := fillMissing_mono _ _ _ h
  rcases i4 a ha b hb hab with ⟨x, y⟩ | x | x
  · exact j1 _ _ x
  · exact (j3 _ x).1
  · exact (j3 _ x).2

end Geouned
