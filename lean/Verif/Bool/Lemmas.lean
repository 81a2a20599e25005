import Verif.Bool.Model
/-! Helper lemmas about the model of `boolean_function.py`. The property theorems are in `Props.lean`. -/
namespace Geouned

/-- binary operation of an operator -/
def Op.app : Op → Bool → Bool → Bool
  | .and => (· && ·)
  | .or => (· || ·)

/-- meaning of a list of elements under an operator -/
def semL (op : Op) (σ : Side) : List Seq → Bool
  | [] => op.neutral
  | e :: es => op.app (e.sem σ) (semL op σ es)

theorem semAll_eq (σ : Side) (es : List Seq) : Seq.semAll σ es = semL .and σ es := by
  induction es with
  | nil => simp [Seq.semAll, semL, Op.neutral]
  | cons e es ih => simp [Seq.semAll, semL, Op.app, ih]

theorem semAny_eq (σ : Side) (es : List Seq) : Seq.semAny σ es = semL .or σ es := by
  induction es with
  | nil => simp [Seq.semAny, semL, Op.neutral]
  | cons e es ih => simp [Seq.semAny, semL, Op.app, ih]

@[simp] theorem sem_lst (op : Op) (l : Int) (es : List Seq) (σ : Side) :
    (Seq.lst op l es).sem σ = semL op σ es := by
  cases op <;> simp [Seq.sem, semAll_eq, semAny_eq]

@[simp] theorem sem_boo (op : Op) (l : Int) (b : Bool) (σ : Side) :
    (Seq.boo op l b).sem σ = b := by simp [Seq.sem]

@[simp] theorem sem_int (n : Int) (σ : Side) : (Seq.int n).sem σ = lit σ n := by simp [Seq.sem]

@[simp] theorem semL_nil (op : Op) (σ : Side) : semL op σ [] = op.neutral := rfl
@[simp] theorem semL_cons (op : Op) (σ : Side) (e : Seq) (es : List Seq) :
    semL op σ (e :: es) = op.app (e.sem σ) (semL op σ es) := rfl

@[simp] theorem app_neutral_left (op : Op) (b : Bool) : op.app op.neutral b = b := by
  cases op <;> cases b <;> rfl
@[simp] theorem app_neutral_right (op : Op) (b : Bool) : op.app b op.neutral = b := by
  cases op <;> cases b <;> rfl
theorem app_assoc (op : Op) (a b c : Bool) : op.app (op.app a b) c = op.app a (op.app b c) := by
  cases op <;> cases a <;> cases b <;> cases c <;> rfl
theorem app_comm (op : Op) (a b : Bool) : op.app a b = op.app b a := by
  cases op <;> cases a <;> cases b <;> rfl
theorem app_left_comm (op : Op) (a b c : Bool) : op.app a (op.app b c) = op.app b (op.app a c) := by
  cases op <;> cases a <;> cases b <;> cases c <;> rfl
@[simp] theorem app_idem (op : Op) (a : Bool) : op.app a a = a := by
  cases op <;> cases a <;> rfl
@[simp] theorem app_absorb_left (op : Op) (b : Bool) : op.app (!op.neutral) b = !op.neutral := by
  cases op <;> cases b <;> rfl
@[simp] theorem app_absorb_right (op : Op) (b : Bool) : op.app b (!op.neutral) = !op.neutral := by
  cases op <;> cases b <;> rfl
theorem ne_neutral {op : Op} {b : Bool} (h : b ≠ op.neutral) : b = !op.neutral := by
  cases op <;> cases b <;> simp_all [Op.neutral]
@[simp] theorem app_not (op : Op) (b : Bool) : op.app b (!b) = !op.neutral := by
  cases op <;> cases b <;> rfl
@[simp] theorem app_not' (op : Op) (b : Bool) : op.app (!b) b = !op.neutral := by
  cases op <;> cases b <;> rfl
@[simp] theorem comp_neutral (op : Op) : op.comp.neutral = !op.neutral := by cases op <;> rfl
theorem not_app (op : Op) (a b : Bool) : (!op.app a b) = op.comp.app (!a) (!b) := by
  cases op <;> cases a <;> cases b <;> rfl

@[simp] theorem semL_append (op : Op) (σ : Side) (a b : List Seq) :
    semL op σ (a ++ b) = op.app (semL op σ a) (semL op σ b) := by
  induction a with
  | nil => simp
  | cons e a ih => simp [ih, app_assoc]

theorem semL_perm {op : Op} {σ : Side} {a b : List Seq} (h : a.Perm b) :
    semL op σ a = semL op σ b := by
  induction h with
  | nil => rfl
  | cons x _ ih => simp [ih]
  | swap x y l => simp [app_left_comm]
  | trans _ _ ih1 ih2 => exact ih1.trans ih2

@[simp] theorem semL_reverse (op : Op) (σ : Side) (a : List Seq) :
    semL op σ a.reverse = semL op σ a := semL_perm (List.reverse_perm a)

theorem semL_mem_absorb {op : Op} {σ : Side} {es : List Seq} {e : Seq} (h : e ∈ es)
    (he : e.sem σ = !op.neutral) : semL op σ es = !op.neutral := by
  induction es with
  | nil => simp at h
  | cons x es ih =>
    rcases List.mem_cons.1 h with rfl | h
    · simp [he]
    · simp [ih h]

theorem semL_mem_app {op : Op} {σ : Side} {es : List Seq} {e : Seq} (h : e ∈ es) :
    op.app (e.sem σ) (semL op σ es) = semL op σ es := by
  induction es with
  | nil => simp at h
  | cons x es ih =>
    rcases List.mem_cons.1 h with rfl | h
    · simp [← app_assoc]
    · simp only [semL_cons]; rw [app_left_comm, ih h]

theorem semL_congr {op : Op} {σ τ : Side} {es : List Seq} (h : ∀ e ∈ es, e.sem σ = e.sem τ) :
    semL op σ es = semL op τ es := by
  induction es with
  | nil => rfl
  | cons x es ih =>
    simp only [semL_cons]
    rw [h x (by simp), ih (fun e he => h e (by simp [he]))]

theorem lit_neg (σ : Side) {n : Int} (h : n ≠ 0) : lit σ (-n) = !lit σ n := by
  unfold lit
  rw [Int.natAbs_neg]
  by_cases h1 : n < 0
  · have : ¬ (-n < 0) := by omega
    rw [if_neg this, if_pos h1]; simp
  · have : -n < 0 := by omega
    rw [if_pos this, if_neg h1]

/-! ### well-formedness -/

theorem WFL_iff (es : List Seq) : Seq.WFL es ↔ ∀ e ∈ es, e.WF := by
  induction es with
  | nil => simp [Seq.WFL]
  | cons e es ih => simp [Seq.WFL, ih]

@[simp] theorem WF_boo (op : Op) (l : Int) (b : Bool) : (Seq.boo op l b).WF := by simp [Seq.WF]
@[simp] theorem WF_int (n : Int) : (Seq.int n).WF ↔ n ≠ 0 := by simp [Seq.WF]

/-- all elements are surface numbers -/
def AllInt (es : List Seq) : Prop := ∀ e ∈ es, ∃ n, e = .int n

theorem WF_lst (op : Op) (l : Int) (es : List Seq) :
    (Seq.lst op l es).WF ↔ (0 ≤ l ∧ (l = 0 → AllInt es)) ∧ ∀ e ∈ es, e.WF := by
  simp [Seq.WF, WFL_iff, AllInt]

/-! ### `Except` -/

@[simp] theorem bind_ok {α β : Type} (x : M α) (f : α → M β) (b : β) :
    (x >>= f) = .ok b ↔ ∃ a, x = .ok a ∧ f a = .ok b := by
  cases x with
  | error e => simp [bind, Except.bind]
  | ok a => simp [bind, Except.bind]

@[simp] theorem pure_ok {α : Type} (a b : α) : (pure a : M α) = .ok b ↔ a = b := by
  simp [pure, Except.pure]

/-! ### clean -/

theorem cleanLoop_spec (op : Op) (es : List Seq) :
    match cleanLoop op es with
    | .inl b => b = !op.neutral ∧ ∀ σ, semL op σ es = b
    | .inr es' => (∀ e ∈ es', e ∈ es) ∧ (∀ e ∈ es', ∀ o l b, e ≠ .boo o l b) ∧
        ∀ σ, semL op σ es' = semL op σ es := by
  induction es with
  | nil => simp [cleanLoop]
  | cons e es ih =>
    unfold cleanLoop
    cases h : cleanLoop op es with
    | inl b =>
      rw [h] at ih
      refine ⟨ih.1, fun σ => ?_⟩
      simp only [semL_cons, ih.2 σ]
      rw [ih.1]; simp
    | inr es' =>
      rw [h] at ih
      obtain ⟨h1, h2, h3⟩ := ih
      cases e with
      | int n =>
        refine ⟨?_, ?_, fun σ => by simp [h3]⟩
        · intro x hx
          rcases List.mem_cons.1 hx with rfl | hx
          · simp
          · simp [h1 x hx]
        · intro x hx
          rcases List.mem_cons.1 hx with rfl | hx
          · simp
          · exact h2 x hx
      | lst o l xs =>
        refine ⟨?_, ?_, fun σ => by simp [h3]⟩
        · intro x hx
          rcases List.mem_cons.1 hx with rfl | hx
          · simp
          · simp [h1 x hx]
        · intro x hx
          rcases List.mem_cons.1 hx with rfl | hx
          · simp
          · exact h2 x hx
      | boo o l b =>
        simp only
        by_cases hb : b = op.neutral
        · subst hb
          simp only [beq_self_eq_true, if_true]
          exact ⟨fun x hx => by simp [h1 x hx], h2, fun σ => by simp [h3]⟩
        · have : (b == op.neutral) = false := by simpa using hb
          simp only [this, Bool.false_eq_true, if_false]
          refine ⟨ne_neutral hb, fun σ => ?_⟩
          have := ne_neutral hb
          simp only [semL_cons, sem_boo]
          rw [this]; simp

theorem cleanEnd_WF {op : Op} {l : Int} {es : List Seq} (h : (Seq.lst op l es).WF) :
    (cleanEnd op l (cleanLoop op es)).WF := by
  have hs := cleanLoop_spec op es
  cases hc : cleanLoop op es with
  | inl b => simp [cleanEnd]
  | inr es' =>
    rw [hc] at hs
    cases es' with
    | nil => simp [cleanEnd]
    | cons x xs =>
      rw [WF_lst] at h
      simp only [cleanEnd]
      rw [WF_lst]
      exact ⟨⟨h.1.1, fun h0 e he => h.1.2 h0 e (hs.1 e he)⟩, fun e he => h.2 e (hs.1 e he)⟩

theorem cleanEnd_sem (op : Op) (l : Int) (es : List Seq) (σ : Side) :
    (cleanEnd op l (cleanLoop op es)).sem σ = semL op σ es := by
  have hs := cleanLoop_spec op es
  cases hc : cleanLoop op es with
  | inl b => rw [hc] at hs; simp [cleanEnd, hs.2]
  | inr es' =>
    rw [hc] at hs
    cases es' with
    | nil => simpa [cleanEnd] using hs.2.2 σ
    | cons x xs => simpa [cleanEnd] using hs.2.2 σ

theorem cleanSelf_WF {s : Seq} (h : s.WF) : s.cleanSelf.WF := by
  cases s with
  | int n => exact h
  | boo op l b => exact h
  | lst op l es => exact cleanEnd_WF h

theorem cleanSelf_sem (s : Seq) (σ : Side) : s.cleanSelf.sem σ = s.sem σ := by
  cases s with
  | int n => rfl
  | boo op l b => rfl
  | lst op l es => simp [Seq.cleanSelf, cleanEnd_sem]

mutual
theorem clean_sem (σ : Side) : ∀ s : Seq, s.clean.sem σ = s.sem σ
  | .int n => rfl
  | .boo _ _ _ => rfl
  | .lst op l es => by
    simp only [Seq.clean, cleanEnd_sem, sem_lst]
    exact cleanL_sem op σ es
theorem cleanL_sem (op : Op) (σ : Side) : ∀ es : List Seq, semL op σ (Seq.cleanL es) = semL op σ es
  | [] => rfl
  | e :: es => by
    simp only [Seq.cleanL, semL_cons]
    rw [clean_sem σ e, cleanL_sem op σ es]
end

theorem clean_int {s : Seq} {n : Int} (h : s = .int n) : s.clean = .int n := by
  subst h; simp [Seq.clean]

mutual
theorem clean_WF : ∀ s : Seq, s.WF → s.clean.WF
  | .int n, h => by simpa [Seq.clean] using h
  | .boo _ _ _, _ => by simp [Seq.clean]
  | .lst op l es, h => by
    rw [WF_lst] at h
    simp only [Seq.clean]
    apply cleanEnd_WF
    rw [WF_lst]
    refine ⟨⟨h.1.1, fun h0 => cleanL_int es (h.1.2 h0)⟩, ?_⟩
    exact cleanL_WF es h.2
theorem cleanL_WF : ∀ es : List Seq, (∀ e ∈ es, e.WF) → ∀ e ∈ Seq.cleanL es, e.WF
  | [], _ => by simp [Seq.cleanL]
  | x :: xs, h => by
    intro e he
    simp only [Seq.cleanL, List.mem_cons] at he
    rcases he with rfl | he
    · exact clean_WF x (h x (by simp))
    · exact cleanL_WF xs (fun y hy => h y (by simp [hy])) e he
theorem cleanL_int : ∀ es : List Seq, AllInt es → AllInt (Seq.cleanL es)
  | [], _ => by simp [Seq.cleanL, AllInt]
  | x :: xs, h => by
    intro e he
    simp only [Seq.cleanL, List.mem_cons] at he
    rcases he with rfl | he
    · obtain ⟨n, hn⟩ := h x (by simp)
      exact ⟨n, clean_int hn⟩
    · exact cleanL_int xs (fun y hy => h y (by simp [hy])) e he
end

/-! ### level_update -/

mutual
theorem levelUpdate_sem (σ : Side) : ∀ s : Seq, s.levelUpdate.sem σ = s.sem σ
  | .int n => by simp [Seq.levelUpdate]
  | .boo _ _ _ => by simp [Seq.levelUpdate]
  | .lst op l es => by
    simp only [Seq.levelUpdate, sem_lst]
    exact levelUpdateL_sem op σ es
theorem levelUpdateL_sem (op : Op) (σ : Side) :
    ∀ es : List Seq, semL op σ (Seq.levelUpdateL es).2 = semL op σ es
  | [] => rfl
  | .int n :: es => by
    simp only [Seq.levelUpdateL, semL_cons]; rw [levelUpdateL_sem op σ es]
  | .boo o l b :: es => by
    simp only [Seq.levelUpdateL, semL_cons, sem_boo]; rw [levelUpdateL_sem op σ es]
  | .lst o l xs :: es => by
    simp only [Seq.levelUpdateL, semL_cons]
    rw [levelUpdateL_sem op σ es, levelUpdate_sem σ (.lst o l xs)]
end

theorem levelUpdateL_nonneg : ∀ es : List Seq, 0 ≤ (Seq.levelUpdateL es).1
  | [] => by simp [Seq.levelUpdateL]
  | .int n :: es => by simpa [Seq.levelUpdateL] using levelUpdateL_nonneg es
  | .boo o l b :: es => by simp [Seq.levelUpdateL]; omega
  | .lst o l xs :: es => by
    have := levelUpdateL_nonneg es
    simp only [Seq.levelUpdateL]; omega

theorem levelUpdate_lst_nonneg (op : Op) (l : Int) (es : List Seq) :
    0 ≤ (Seq.levelUpdate (.lst op l es)).levOf := by
  simp only [Seq.levelUpdate, Seq.levOf]
  exact levelUpdateL_nonneg es

theorem levelUpdateL_zero : ∀ es : List Seq, (Seq.levelUpdateL es).1 = 0 →
    AllInt (Seq.levelUpdateL es).2 ∧ AllInt es
  | [], _ => by simp [Seq.levelUpdateL, AllInt]
  | .int n :: es, h => by
    have := levelUpdateL_zero es (by simpa [Seq.levelUpdateL] using h)
    constructor
    · intro e he
      simp only [Seq.levelUpdateL, List.mem_cons] at he
      rcases he with rfl | he
      · exact ⟨n, rfl⟩
      · exact this.1 e he
    · intro e he
      rcases List.mem_cons.1 he with rfl | he
      · exact ⟨n, rfl⟩
      · exact this.2 e he
  | .boo o l b :: es, h => by
    simp [Seq.levelUpdateL] at h; omega
  | .lst o l xs :: es, h => by
    have h2 := levelUpdateL_nonneg xs
    simp only [Seq.levelUpdateL, Seq.levelUpdate, Seq.levOf] at h; omega

mutual
theorem levelUpdate_WF : ∀ s : Seq, s.WF → s.levelUpdate.WF
  | .int n, h => by simpa [Seq.levelUpdate] using h
  | .boo _ _ _, _ => by simp [Seq.levelUpdate]
  | .lst op l es, h => by
    rw [WF_lst] at h
    simp only [Seq.levelUpdate]
    rw [WF_lst]
    exact ⟨⟨levelUpdateL_nonneg es, fun h0 => (levelUpdateL_zero es h0).1⟩, levelUpdateL_WF es h.2⟩
theorem levelUpdateL_WF : ∀ es : List Seq, (∀ e ∈ es, e.WF) → ∀ e ∈ (Seq.levelUpdateL es).2, e.WF
  | [], _ => by simp [Seq.levelUpdateL]
  | .int n :: es, h => by
    intro e he
    simp only [Seq.levelUpdateL, List.mem_cons] at he
    rcases he with rfl | he
    · exact h _ (by simp)
    · exact levelUpdateL_WF es (fun y hy => h y (by simp [hy])) e he
  | .boo o l b :: es, h => by
    intro e he
    simp only [Seq.levelUpdateL, List.mem_cons] at he
    rcases he with rfl | he
    · simp
    · exact levelUpdateL_WF es (fun y hy => h y (by simp [hy])) e he
  | .lst o l xs :: es, h => by
    intro e he
    simp only [Seq.levelUpdateL, List.mem_cons] at he
    rcases he with rfl | he
    · exact levelUpdate_WF (.lst o l xs) (h _ (by simp))
    · exact levelUpdateL_WF es (fun y hy => h y (by simp [hy])) e he
end

/-- stored levels are exact (what `level_update` establishes): used to see that a level can be
decremented when a single child is unwrapped -/
theorem levelUpdateL_le {es : List Seq} {e : Seq} (h : e ∈ (Seq.levelUpdateL es).2) :
    e.levOf + 1 ≤ (Seq.levelUpdateL es).1 := by
  induction es with
  | nil => simp [Seq.levelUpdateL] at h
  | cons x xs ih =>
    have hn := levelUpdateL_nonneg xs
    cases x with
    | int n =>
      simp only [Seq.levelUpdateL, List.mem_cons] at h ⊢
      rcases h with rfl | h
      · simp [Seq.levOf]; exact hn
      · exact ih h
    | boo o l b =>
      simp only [Seq.levelUpdateL, List.mem_cons] at h ⊢
      rcases h with rfl | h
      · simp only [Seq.levOf]; omega
      · have := ih h; omega
    | lst o l ys =>
      simp only [Seq.levelUpdateL, List.mem_cons] at h ⊢
      rcases h with rfl | h
      · omega
      · have := ih h; omega

/-! ### group_single -/

theorem removeInt_perm (n : Int) (rest : List Seq) :
    (Seq.int n :: removeInt n rest).Perm (Seq.int n :: rest) := by
  unfold removeInt
  split
  · next h =>
    apply List.Perm.cons
    have hx : ∃ a ∈ rest.reverse, isInt n a = true := by
      simpa using h
    obtain ⟨a, l1, l2, h1, h2, h3, h4⟩ := List.exists_of_eraseP hx.choose_spec.1 hx.choose_spec.2
    have ha : a = .int n := by
      cases a <;> simp_all [isInt]
    subst ha
    rw [h4]
    refine (List.Perm.cons _ (List.reverse_perm _)).trans ?_
    refine (List.perm_middle).symm.trans ?_
    rw [← h3]
    exact List.reverse_perm rest
  · exact List.Perm.refl _

theorem removeInt_length (n : Int) (rest : List Seq) : (removeInt n rest).length = rest.length := by
  have := (removeInt_perm n rest).length_eq
  simpa using this

theorem groupLoop_spec {σ : Side} {op : Op} : ∀ (k : Nat) (rest kept group : List Seq) (r : List Seq × List Seq),
    rest.length = k → (∀ e ∈ rest, e.WF) → (∀ e ∈ kept, e.WF) → (∀ e ∈ group, e.WF) → AllInt group →
    groupLoop k rest kept group = .ok r →
    (∀ e ∈ r.1, e.WF) ∧ (∀ e ∈ r.2, e.WF) ∧ AllInt r.2 ∧ (∀ e ∈ r.1, e ∈ kept ∨ e ∈ rest) ∧
    (∀ e ∈ r.1, e ∈ kept ∨ ∀ n, e ≠ .int n) ∧
    op.app (semL op σ r.1) (semL op σ r.2) =
      op.app (semL op σ rest) (op.app (semL op σ kept) (semL op σ group)) := by
  intro k
  induction k with
  | zero =>
    intro rest kept group r hl hw1 hw2 hw3 hg h
    have : rest = [] := List.length_eq_zero_iff.1 hl
    subst this
    simp [groupLoop] at h; subst h
    exact ⟨hw2, hw3, hg, fun e he => .inl he, fun e he => .inl he, by simp⟩
  | succ k ih =>
    intro rest kept group r hl hw1 hw2 hw3 hg h
    cases rest with
    | nil => simp at hl
    | cons e rest =>
      have hl' : rest.length = k := by simpa using hl
      cases e with
      | int n =>
        simp only [groupLoop] at h
        have hp := removeInt_perm n rest
        have hm : ∀ x ∈ removeInt n rest, x ∈ Seq.int n :: rest := fun x hx =>
          hp.mem_iff.1 (List.mem_cons_of_mem _ hx)
        obtain ⟨h1, h2, h3, h4, h5, h6⟩ := ih (removeInt n rest) kept (group ++ [.int n]) r
          (by rw [removeInt_length, hl']) (fun x hx => hw1 x (hm x hx)) hw2
          (by intro x hx; rcases List.mem_append.1 hx with hx | hx
              · exact hw3 x hx
              · simp at hx; subst hx; exact hw1 _ (by simp))
          (by intro x hx; rcases List.mem_append.1 hx with hx | hx
              · exact hg x hx
              · simp at hx; exact ⟨n, hx⟩) h
        refine ⟨h1, h2, h3, ?_, h5, ?_⟩
        · intro x hx
          rcases h4 x hx with h | h
          · exact .inl h
          · exact .inr (hm x h)
        · rw [h6]
          have hs : semL op σ (Seq.int n :: removeInt n rest) = semL op σ (Seq.int n :: rest) := semL_perm hp
          rw [← hs]
          simp only [semL_append, semL_cons, semL_nil, app_neutral_right]
          rw [← app_assoc op (semL op σ kept), ← app_assoc op (semL op σ (removeInt n rest)), app_comm op _ ((Seq.int n).sem σ), app_assoc]
      | boo o l b =>
        simp only [groupLoop] at h
        split at h
        · simp at h
        · obtain ⟨h1, h2, h3, h4, h5, h6⟩ := ih rest (.boo o l b :: kept) group r hl'
            (fun x hx => hw1 x (by simp [hx]))
            (by intro x hx; rcases List.mem_cons.1 hx with rfl | hx
                · simp
                · exact hw2 x hx) hw3 hg h
          refine ⟨h1, h2, h3, ?_, ?_, ?_⟩
          · intro x hx
            rcases h4 x hx with h | h
            · rcases List.mem_cons.1 h with rfl | h
              · simp
              · exact .inl h
            · exact .inr (by simp [h])
          · intro x hx
            rcases h5 x hx with h | h
            · rcases List.mem_cons.1 h with rfl | h
              · right; simp
              · exact .inl h
            · exact .inr h
          · rw [h6]
            simp only [semL_cons]
            simp only [app_assoc]
            rw [app_left_comm]
      | lst o l xs =>
        simp only [groupLoop] at h
        split at h
        · next x =>
          have hwx := hw1 _ (List.mem_cons_self)
          rw [WF_lst] at hwx
          obtain ⟨n, hn⟩ := hwx.1.2 rfl x (by simp)
          have hwn := hwx.2 x (by simp)
          subst hn
          obtain ⟨h1, h2, h3, h4, h5, h6⟩ := ih rest kept (group ++ [.int n]) r hl'
            (fun x hx => hw1 x (by simp [hx])) hw2
            (by intro x hx; rcases List.mem_append.1 hx with hx | hx
                · exact hw3 x hx
                · simp at hx; subst hx; exact hwn)
            (by intro x hx; rcases List.mem_append.1 hx with hx | hx
                · exact hg x hx
                · simp at hx; exact ⟨n, hx⟩) h
          refine ⟨h1, h2, h3, ?_, h5, ?_⟩
          · intro x hx
            rcases h4 x hx with h | h
            · exact .inl h
            · exact .inr (by simp [h])
          · rw [h6]
            simp only [semL_append, semL_cons, semL_nil, app_neutral_right, sem_lst]
            rw [← app_assoc op (semL op σ kept), ← app_assoc op (semL op σ rest), app_comm op _ ((Seq.int n).sem σ), app_assoc]
        · obtain ⟨h1, h2, h3, h4, h5, h6⟩ := ih rest (.lst o l xs :: kept) group r hl'
            (fun x hx => hw1 x (by simp [hx]))
            (by intro x hx; rcases List.mem_cons.1 hx with rfl | hx
                · exact hw1 _ (by simp)
                · exact hw2 x hx) hw3 hg h
          refine ⟨h1, h2, h3, ?_, ?_, ?_⟩
          · intro x hx
            rcases h4 x hx with h | h
            · rcases List.mem_cons.1 h with rfl | h
              · simp
              · exact .inl h
            · exact .inr (by simp [h])
          · intro x hx
            rcases h5 x hx with h | h
            · rcases List.mem_cons.1 h with rfl | h
              · right; simp
              · exact .inl h
            · exact .inr h
          · rw [h6]
            simp only [semL_cons]
            simp only [app_assoc]
            rw [app_left_comm]

/-- everything used later about `group_single` on a list-valued sequence -/
theorem groupSingle_lst {op : Op} {l : Int} {es : List Seq} {s' : Seq} (hw : (Seq.lst op l es).WF)
    (h : Seq.groupSingle (.lst op l es) = .ok s') :
    ∃ es', s' = .lst op l es' ∧ s'.WF ∧ (∀ σ, semL op σ es' = semL op σ es) ∧
      (l ≠ 0 → ∀ e ∈ es', ∀ n, e ≠ .int n) ∧
      (∀ e ∈ es', e ∈ es ∨ ∃ g, e = .lst op 0 g) := by
  simp only [Seq.groupSingle] at h
  split at h
  · next h0 =>
    simp at h
    exact ⟨es, h.symm, h ▸ hw, fun _ => rfl, fun hn => absurd h0 hn, fun e he => .inl he⟩
  · next h0 =>
    simp only [bind_ok] at h
    obtain ⟨⟨kept, group⟩, hg, h⟩ := h
    rw [WF_lst] at hw
    have key := fun σ => groupLoop_spec (σ := σ) (op := op) es.length es.reverse [] [] (kept, group) (by simp)
      (by intro e he; exact hw.2 e (by simpa using he)) (by simp) (by simp) (by simp [AllInt]) hg
    obtain ⟨h1, h2, h3, h4, h5, -⟩ := key (fun _ => true)
    simp only [List.not_mem_nil, false_or, List.mem_reverse] at h4 h5
    cases group with
    | nil =>
      simp at h
      refine ⟨kept, h.symm, ?_, fun σ => ?_, fun _ => h5, fun e he => .inl (h4 e he)⟩
      · rw [← h, WF_lst]; exact ⟨⟨hw.1.1, fun hh => absurd hh h0⟩, h1⟩
      · obtain ⟨-, -, -, -, -, h6⟩ := key σ
        simpa using h6
    | cons g gs =>
      simp at h
      refine ⟨.lst op 0 (g :: gs) :: kept, h.symm, ?_, fun σ => ?_, fun _ => ?_, ?_⟩
      · rw [← h, WF_lst]
        refine ⟨⟨hw.1.1, fun hh => absurd hh h0⟩, ?_⟩
        intro e he
        rcases List.mem_cons.1 he with rfl | he
        · rw [WF_lst]; exact ⟨⟨by omega, fun _ => h3⟩, h2⟩
        · exact h1 e he
      · obtain ⟨-, -, -, -, -, h6⟩ := key σ
        simp only [semL_reverse, semL_nil, app_neutral_right] at h6
        rw [← h6]; simp only [semL_cons, sem_lst]; exact app_comm _ _ _
      · intro e he
        rcases List.mem_cons.1 he with rfl | he
        · simp
        · exact h5 e he
      · intro e he
        rcases List.mem_cons.1 he with rfl | he
        · exact .inr ⟨_, rfl⟩
        · exact .inl (h4 e he)

theorem groupSingle_spec {s s' : Seq} (hw : s.WF) (h : s.groupSingle = .ok s') :
    s'.WF ∧ ∀ σ, s'.sem σ = s.sem σ := by
  cases s with
  | int n => simp [Seq.groupSingle] at h
  | boo op l b => simp [Seq.groupSingle] at h; subst h; simp
  | lst op l es =>
    obtain ⟨es', h1, h2, h3, -⟩ := groupSingle_lst hw h
    subst h1
    exact ⟨h2, fun σ => by simp [h3]⟩

/-! ### check -/

theorem dedup_map_length {α β : Type} [DecidableEq α] [DecidableEq β] (f : α → β) (l : List α)
    (hf : ∀ a ∈ l, ∀ b ∈ l, f a = f b → a = b) : (dedup (l.map f)).length = (dedup l).length := by
  induction l with
  | nil => rfl
  | cons a l ih =>
    have ih' := ih (fun x hx y hy => hf x (by simp [hx]) y (by simp [hy]))
    simp only [List.map_cons, dedup]
    have : f a ∈ l.map f ↔ a ∈ l := by
      constructor
      · intro h
        obtain ⟨b, hb, hab⟩ := List.mem_map.1 h
        have := hf b (by simp [hb]) a (by simp) hab
        exact this ▸ hb
      · exact fun h => List.mem_map.2 ⟨a, h, rfl⟩
    by_cases h : a ∈ l
    · rw [if_pos h, if_pos (this.2 h), ih']
    · rw [if_neg h, if_neg (fun hh => h (this.1 hh))]
      simp [ih']

theorem allInt_eq {es : List Seq} (h : AllInt es) : es = (intsOf es).map .int ∧ seqCount es = 0 ∧
    Seq.surfacesL es = (intsOf es).map Int.natAbs := by
  induction es with
  | nil => simp [intsOf, seqCount, Seq.surfacesL]
  | cons e es ih =>
    obtain ⟨n, rfl⟩ := h e (by simp)
    obtain ⟨h1, h2, h3⟩ := ih (fun x hx => h x (by simp [hx]))
    refine ⟨?_, ?_, ?_⟩
    · simp only [intsOf, List.map_cons]; rw [← h1]
    · simpa [seqCount] using h2
    · simp only [Seq.surfacesL, Seq.surfaces, intsOf, List.map_cons, h3]; rfl

theorem sameCount_false {es : List Seq} (h : AllInt es) (hc : sameCount es = false) :
    ∃ n : Int, n ≠ 0 ∧ Seq.int n ∈ es ∧ Seq.int (-n) ∈ es := by
  obtain ⟨h1, h2, h3⟩ := allInt_eq h
  by_cases hx : ∃ a ∈ intsOf es, ∃ b ∈ intsOf es, a.natAbs = b.natAbs ∧ a ≠ b
  · obtain ⟨a, ha, b, hb, hab, hne⟩ := hx
    have hb' : b = -a := by omega
    refine ⟨a, by omega, ?_, ?_⟩
    · rw [h1]; exact List.mem_map.2 ⟨a, ha, rfl⟩
    · rw [h1]; exact List.mem_map.2 ⟨b, hb, by rw [hb']⟩
  · exfalso
    have : (dedup ((intsOf es).map Int.natAbs)).length = (dedup (intsOf es)).length := by
      apply dedup_map_length
      intro a ha b hb hab
      by_cases hab' : a = b
      · exact hab'
      · exact absurd ⟨a, ha, b, hb, hab, hab'⟩ hx
    simp [sameCount, h2, h3, this] at hc

theorem check0_lst (op : Op) (l : Int) (es : List Seq) :
    Seq.check0 (.lst op l es) =
      if l = 0 then (if sameCount es then .lst op 0 es else .boo op (-1) (!op.neutral)) else .lst op l es := by
  unfold Seq.check0
  split
  · next h => simp_all
  · next h1 => 
    rw [if_neg]
    intro h; subst h; exact h1 _ _ rfl

theorem check0_spec {s : Seq} (hw : s.WF) : s.check0.WF ∧ ∀ σ, s.check0.sem σ = s.sem σ := by
  cases s with
  | int n => exact ⟨hw, fun _ => rfl⟩
  | boo op l b => exact ⟨hw, fun _ => rfl⟩
  | lst op l es =>
    rw [check0_lst]
    split
    · next h0 =>
      subst h0
      split
      · exact ⟨hw, fun _ => rfl⟩
      · next hc =>
        rw [WF_lst] at hw
        obtain ⟨n, hn, h1, h2⟩ := sameCount_false (hw.1.2 rfl) (by simpa using hc)
        refine ⟨by simp, fun σ => ?_⟩
        simp only [sem_boo, sem_lst]
        symm
        have e1 := semL_mem_app (op := op) (σ := σ) h1
        have e2 := semL_mem_app (op := op) (σ := σ) h2
        rw [← e1, ← e2, ← app_assoc]
        simp [lit_neg σ hn]
    · exact ⟨hw, fun _ => rfl⟩

theorem checkLoop_spec {rec : Seq → M Seq} {op : Op}
    (hrec : ∀ s s', s.WF → rec s = .ok s' → s'.WF ∧ ∀ σ, s'.sem σ = s.sem σ) :
    ∀ (es : List Seq) (r : Bool ⊕ List Seq), (∀ e ∈ es, e.WF) → checkLoop rec op es = .ok r →
    match r with
    | .inl b => b = !op.neutral ∧ ∀ σ, semL op σ es = b
    | .inr es' => (∀ e ∈ es', e.WF) ∧ ∀ σ, semL op σ es' = semL op σ es := by
  intro es
  induction es with
  | nil => intro r _ h; simp [checkLoop] at h; subst h; simp
  | cons e es ih =>
    intro r hw h
    simp only [checkLoop, bind_ok] at h
    obtain ⟨r1, h1, h⟩ := h
    have ih1 := ih r1 (fun x hx => hw x (by simp [hx])) h1
    cases r1 with
    | inl b =>
      simp at h; subst h
      refine ⟨ih1.1, fun σ => ?_⟩
      rw [semL_cons, ih1.2 σ, ih1.1]; simp
    | inr es' =>
      simp only [bind_ok] at h
      obtain ⟨e', he', h⟩ := h
      obtain ⟨hw', hs'⟩ := hrec e e' (hw e (by simp)) he'
      obtain ⟨i1, i2⟩ := ih1
      cases e' with
      | boo o l b =>
        simp only at h
        split at h
        · next hb =>
          simp at h; subst h
          refine ⟨i1, fun σ => ?_⟩
          have := hs' σ
          simp only [sem_boo] at this
          simp at hb; subst hb
          simp [i2 σ, ← this]
        · next hb =>
          simp at h; subst h
          have hb' := ne_neutral (by simpa using hb)
          refine ⟨hb', fun σ => ?_⟩
          have := hs' σ
          simp only [sem_boo] at this
          rw [semL_cons, ← this, hb']; simp
      | int n =>
        simp at h; subst h
        refine ⟨?_, fun σ => by simp only [semL_cons]; rw [hs' σ, i2 σ]⟩
        intro x hx; rcases List.mem_cons.1 hx with rfl | hx
        · exact hw'
        · exact i1 x hx
      | lst o l ys =>
        simp at h; subst h
        refine ⟨?_, fun σ => by simp only [semL_cons]; rw [hs' σ, i2 σ]⟩
        intro x hx; rcases List.mem_cons.1 hx with rfl | hx
        · exact hw'
        · exact i1 x hx

theorem check_spec : ∀ (f : Nat) (s s' : Seq), s.WF → Seq.check f s = .ok s' →
    s'.WF ∧ ∀ σ, s'.sem σ = s.sem σ := by
  intro f
  induction f with
  | zero => intro s s' _ h; simp [Seq.check] at h
  | succ f ih =>
    intro s s' hw h
    cases s with
    | int n => simp [Seq.check] at h
    | boo op l b => simp [Seq.check] at h; subst h; simp
    | lst op l es =>
      simp only [Seq.check] at h
      split at h
      · simp at h; subst h; exact check0_spec hw
      · next h0 =>
        simp only [bind_ok] at h
        obtain ⟨g, hg, h⟩ := h
        obtain ⟨es1, rfl, hw1, hs1, -, -⟩ := groupSingle_lst hw hg
        simp only [bind_ok] at h
        obtain ⟨r, hr, h⟩ := h
        have := checkLoop_spec (fun s s' hw h => ih s s' hw h) es1 r ((WF_lst _ _ _).1 hw1).2 hr
        cases r with
        | inl b =>
          simp at h; subst h
          exact ⟨by simp, fun σ => by simp [← hs1 σ, this.2 σ]⟩
        | inr es' =>
          obtain ⟨i1, i2⟩ := this
          cases es' with
          | nil =>
            simp at h; subst h
            refine ⟨by simp, fun σ => ?_⟩
            have := i2 σ
            simp at this
            simp [← hs1 σ, ← this]
          | cons x xs =>
            simp at h; subst h
            refine ⟨?_, fun σ => ?_⟩
            · rw [WF_lst]; exact ⟨⟨((WF_lst _ _ _).1 hw1).1.1, fun hh => absurd hh h0⟩, i1⟩
            · rw [sem_lst, sem_lst, ← hs1 σ, i2 σ]

end Geouned
