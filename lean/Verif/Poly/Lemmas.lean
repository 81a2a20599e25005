import Verif.Poly.Model
import Verif.RBool.Props
/-! Lemmas about `clean` and `change_surf` -/
namespace Geouned.Poly
open Geouned Geouned.Text

theorem hasL_iff (n : Int) (es : List Seq) : HasL n es ↔ ∃ e ∈ es, Has n e := by
  induction es with
  | nil => simp [HasL]
  | cons e es ih => simp [HasL, ih]

theorem has_lst (n : Int) (o : Op) (l : Int) (es : List Seq) : Has n (.lst o l es) ↔ ∃ e ∈ es, Has n e := by
  simp [Has, hasL_iff]

mutual
theorem has_occurs {n : Int} : ∀ {s : Seq}, Has n s → s.Occurs n.natAbs
  | .int m, h => by simp only [Has] at h; subst h; rfl
  | .boo _ _ _, h => by simp [Has] at h
  | .lst _ _ es, h => by simp only [Has] at h; simp only [Seq.Occurs]; exact hasL_occurs h
theorem hasL_occurs {n : Int} : ∀ {es : List Seq}, HasL n es → Seq.OccursL n.natAbs es
  | [], h => by simp [HasL] at h
  | e :: es, h => by
    simp only [HasL] at h
    simp only [Seq.OccursL]
    rcases h with h | h
    · exact .inl (has_occurs h)
    · exact .inr (hasL_occurs h)
end

theorem occurs_has {v : Nat} : ∀ {s : Seq}, s.Occurs v → Has v s ∨ Has (-(v : Int)) s := by
  have main : ∀ (k : Nat) (s : Seq), s.depth ≤ k → s.Occurs v → Has v s ∨ Has (-(v : Int)) s := by
    intro k
    induction k with
    | zero =>
      intro s hk h
      cases s with
      | int m =>
        simp only [Seq.Occurs] at h
        simp only [Has]
        omega
      | boo o l b => simp [Seq.Occurs] at h
      | lst o l es => rw [depth_lst] at hk; omega
    | succ k ih =>
      intro s hk h
      cases s with
      | int m =>
        simp only [Seq.Occurs] at h
        simp only [Has]
        omega
      | boo o l b => simp [Seq.Occurs] at h
      | lst o l es =>
        obtain ⟨e, he, h1⟩ := (RBool.occurs_lst _ _ _ _).1 h
        have := depth_mem (o := o) (l := l) he
        rcases ih e (by omega) h1 with h2 | h2
        · exact .inl ((has_lst _ _ _ _).2 ⟨e, he, h2⟩)
        · exact .inr ((has_lst _ _ _ _).2 ⟨e, he, h2⟩)
  intro s h
  exact main s.depth s (Nat.le_refl _) h

/-! ### `clean` -/

/-- what `clean` may return: a boolean, or a sequence without booleans -/
def Clean (s : Seq) : Prop := (∃ o l b, s = .boo o l b) ∨ s.NoBool

/-- value of the result of a loop -/
def sumSem (op : Op) (σ : Side) : Bool ⊕ List Seq → Bool
  | .inl b => b
  | .inr es => semL op σ es

theorem cleanL_other (op : Op) (e : Seq) (es : List Seq)
    (hu : cleanL op (e :: es) = (match cleanL op es with
      | .inl b => .inl b
      | .inr es' =>
        match clean e with
        | .boo _ _ b => if b = !op.neutral then .inl b else .inr es'
        | e' => .inr (e' :: es')))
    (hn : ∀ n, e ≠ .int n)
    (he : (∀ σ, (clean e).sem σ = e.sem σ) ∧ Clean (clean e) ∧ (clean e).depth ≤ e.depth ∧ (∀ n, Has n (clean e) → Has n e) ∧
      ((∀ n, e ≠ .int n) → ∀ n, clean e ≠ .int n))
    (ih : (∀ σ, sumSem op σ (cleanL op es) = semL op σ es) ∧ (∀ b, cleanL op es = .inl b → b = !op.neutral) ∧
      ∀ es', cleanL op es = .inr es' → (∀ e ∈ es', e.NoBool) ∧ Seq.depthL es' ≤ Seq.depthL es ∧ ∀ n, HasL n es' → HasL n es) :
    (∀ σ, sumSem op σ (cleanL op (e :: es)) = semL op σ (e :: es)) ∧ (∀ b, cleanL op (e :: es) = .inl b → b = !op.neutral) ∧
      ∀ es', cleanL op (e :: es) = .inr es' → (∀ e ∈ es', e.NoBool) ∧ Seq.depthL es' ≤ Seq.depthL (e :: es) ∧ ∀ n, HasL n es' → HasL n (e :: es) := by
  obtain ⟨h1, h2, h3⟩ := ih
  obtain ⟨g1, g2, g3, g4, g5⟩ := he
  have g5 := g5 hn
  rw [hu]
  cases hc : cleanL op es with
  | inl b =>
    have hb := h2 b hc
    refine ⟨fun σ => ?_, fun c h => by cases h; exact hb, fun es' h => by cases h⟩
    have := h1 σ
    rw [hc] at this
    simp only [sumSem] at this ⊢
    rw [semL_cons, ← this, hb, RBool.app_stop']
  | inr xs =>
    obtain ⟨k1, k2, k3⟩ := h3 xs hc
    have hs : ∀ σ, semL op σ xs = semL op σ es := fun σ => by have := h1 σ; rw [hc] at this; exact this
    cases hce : clean e with
    | int n => exact absurd hce (g5 n)
    | boo o l b =>
      have gb : ∀ σ, e.sem σ = b := fun σ => by rw [← g1 σ, hce]; rfl
      dsimp only
      split
      · next hb =>
        refine ⟨fun σ => ?_, fun c h => by cases h; exact hb, fun es' h => by cases h⟩
        simp only [sumSem]
        rw [semL_cons, gb, hb, RBool.app_stop]
      · next hb =>
        refine ⟨fun σ => ?_, fun c h => (nomatch h), fun es' h => ?_⟩
        · simp only [sumSem]
          rw [semL_cons, gb, RBool.app_go hb, hs]
        · cases h
          refine ⟨k1, ?_, fun m hm => ?_⟩
          · simp only [Seq.depthL]; omega
          · simp only [HasL]; exact .inr (k3 m hm)
    | lst o l ys =>
      rw [hce] at g1 g2 g3 g4
      refine ⟨fun σ => ?_, fun c h => (nomatch h), fun es' h => ?_⟩
      · simp only [sumSem]
        rw [semL_cons, semL_cons, g1, hs]
      · cases h
        refine ⟨?_, ?_, fun m hm => ?_⟩
        · intro x hx
          rcases List.mem_cons.1 hx with rfl | hx
          · rcases g2 with ⟨_, _, _, h⟩ | h
            · cases h
            · exact h
          · exact k1 x hx
        · simp only [Seq.depthL]; omega
        · simp only [HasL] at hm ⊢
          exact hm.imp (g4 m) (k3 m)

mutual
theorem clean_spec : ∀ s : Seq, (∀ σ, (clean s).sem σ = s.sem σ) ∧ Clean (clean s) ∧ (clean s).depth ≤ s.depth ∧
    (∀ n, Has n (clean s) → Has n s) ∧ ((∀ n, s ≠ .int n) → ∀ n, clean s ≠ .int n)
  | .int n => ⟨fun _ => rfl, .inr trivial, Nat.le_refl _, fun _ h => h, fun h => absurd rfl (h n)⟩
  | .boo o l b => ⟨fun _ => rfl, .inl ⟨_, _, _, rfl⟩, Nat.le_refl _, fun _ h => h, fun _ _ => by simp [clean]⟩
  | .lst op l es => by
    obtain ⟨h1, h2, h3⟩ := cleanL_spec op es
    simp only [clean]
    cases hc : cleanL op es with
    | inl b =>
      refine ⟨fun σ => ?_, .inl ⟨_, _, _, rfl⟩, by simp [Seq.depth], fun n h => by simp [Has] at h, fun _ _ => by simp⟩
      have := h1 σ
      rw [hc] at this
      rw [sem_lst, ← this]; rfl
    | inr es' =>
      obtain ⟨k1, k2, k3⟩ := h3 es' hc
      cases es' with
      | nil =>
        refine ⟨fun σ => ?_, .inl ⟨_, _, _, rfl⟩, by simp [Seq.depth], fun n h => by simp [Has] at h, fun _ _ => by simp⟩
        have := h1 σ
        rw [hc] at this
        rw [sem_lst, ← this]; rfl
      | cons e es' =>
        refine ⟨fun σ => ?_, .inr ((noBool_lst _ _ _).2 k1), ?_, fun n h => ?_, fun _ _ => by simp⟩
        · have := h1 σ
          rw [hc] at this
          rw [sem_lst, sem_lst, ← this]; rfl
        · rw [depth_lst, depth_lst]; omega
        · simp only [Has] at h ⊢; exact k3 n h
theorem cleanL_spec (op : Op) : ∀ es : List Seq, (∀ σ, sumSem op σ (cleanL op es) = semL op σ es) ∧ (∀ b, cleanL op es = .inl b → b = !op.neutral) ∧
    ∀ es', cleanL op es = .inr es' → (∀ e ∈ es', e.NoBool) ∧ Seq.depthL es' ≤ Seq.depthL es ∧ ∀ n, HasL n es' → HasL n es
  | [] => by
    refine ⟨fun σ => rfl, fun b h => by simp [cleanL] at h, ?_⟩
    intro es' h
    simp only [cleanL] at h
    cases h
    exact ⟨by simp, Nat.le_refl _, fun n h => h⟩
  | .int n :: es => by
    obtain ⟨h1, h2, h3⟩ := cleanL_spec op es
    simp only [cleanL]
    cases hc : cleanL op es with
    | inl b =>
      have hb := h2 b hc
      refine ⟨fun σ => ?_, fun c h => by cases h; exact hb, fun es' h => by cases h⟩
      have := h1 σ
      rw [hc] at this
      simp only [sumSem] at this ⊢
      rw [semL_cons, ← this, hb, RBool.app_stop']
    | inr xs =>
      obtain ⟨k1, k2, k3⟩ := h3 xs hc
      refine ⟨fun σ => ?_, fun c h => (nomatch h), fun es' h => ?_⟩
      · have := h1 σ
        rw [hc] at this
        simp only [sumSem] at this ⊢
        rw [semL_cons, semL_cons, ← this]
      · cases h
        refine ⟨?_, ?_, fun m hm => ?_⟩
        · intro e he
          rcases List.mem_cons.1 he with rfl | he
          · trivial
          · exact k1 e he
        · simp only [Seq.depthL]; omega
        · simp only [HasL] at hm ⊢
          exact hm.imp id (k3 m)
  | .boo o l b :: es => cleanL_other op (.boo o l b) es (by rw [cleanL] <;> first | rfl | simp) (by simp) (clean_spec (.boo o l b)) (cleanL_spec op es)
  | .lst o l xs :: es => cleanL_other op (.lst o l xs) es (by rw [cleanL] <;> first | rfl | simp) (by simp) (clean_spec (.lst o l xs)) (cleanL_spec op es)
end

end Geouned.Poly
