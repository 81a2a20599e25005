import Verif.Poly.Lemmas
/-! Lemmas about `change_surf` -/
namespace Geouned.Poly
open Geouned Geouned.Text

/-- value of an element -/
def xsem (σ : Side) : Bool ⊕ Seq → Bool
  | .inl b => b
  | .inr e => e.sem σ

/-- value of a list of elements that may be bare booleans -/
def semX (op : Op) (σ : Side) (xs : List (Bool ⊕ Seq)) : Bool :=
  match op with
  | .and => xs.all (xsem σ)
  | .or => xs.any (xsem σ)

@[simp] theorem semX_nil (op : Op) (σ : Side) : semX op σ [] = op.neutral := by cases op <;> rfl

theorem semX_cons (op : Op) (σ : Side) (x : Bool ⊕ Seq) (xs : List (Bool ⊕ Seq)) : semX op σ (x :: xs) = op.app (xsem σ x) (semX op σ xs) := by
  cases op <;> rfl

theorem semX_reverse (op : Op) (σ : Side) (xs : List (Bool ⊕ Seq)) : semX op σ xs.reverse = semX op σ xs := by
  cases op <;> simp [semX]

theorem neutral_of {op : Op} {b : Bool} (h : ¬ b = !op.neutral) : b = op.neutral := by
  cases op <;> cases b <;> simp_all [Op.neutral]

theorem app_left_comm' (op : Op) (a b c : Bool) : op.app (op.app a b) c = op.app b (op.app a c) := by
  cases op <;> cases a <;> cases b <;> cases c <;> rfl

theorem app_assoc' (op : Op) (a b c : Bool) : op.app (op.app a b) c = op.app a (op.app b c) := by
  cases op <;> cases a <;> cases b <;> cases c <;> rfl

theorem removeBool_length (b : Bool) (rest : List (Bool ⊕ Seq)) : (removeBool b rest).length = rest.length := by
  unfold removeBool
  split
  · next h =>
    obtain ⟨a, ha, hb⟩ := List.any_eq_true.1 h
    have h1 : (rest.reverse.eraseP (pyEq b)).length = rest.reverse.length - 1 := List.length_eraseP_of_mem (by simpa using ha) hb
    have h2 : 0 < rest.length := List.length_pos_of_mem ha
    simp only [List.length_cons, List.length_reverse] at h1 ⊢
    omega
  · rfl

theorem removeBool_mem {b : Bool} {rest : List (Bool ⊕ Seq)} {x : Bool ⊕ Seq} (h : x ∈ removeBool b rest) : x = .inl b ∨ x ∈ rest := by
  unfold removeBool at h
  split at h
  · rcases List.mem_cons.1 h with h | h
    · exact .inl h
    · right
      rw [List.mem_reverse] at h
      simpa using List.mem_of_mem_eraseP h
  · exact .inr h

/-- the loop of `clean`: nothing is lost upwards if the bare booleans are all true, nothing is gained if they are all false -/
theorem cleanRaw_spec (op : Op) (σ : Side) : ∀ (k : Nat) (rest : List (Bool ⊕ Seq)) (kept : List Seq), rest.length ≤ k →
    ((∀ b, .inl b ∈ rest → b = true) → op.app (semX op σ rest) (semL op σ kept) = true → sumSem op σ (cleanRaw op k rest kept) = true) ∧
    ((∀ b, .inl b ∈ rest → b = false) → sumSem op σ (cleanRaw op k rest kept) = true → op.app (semX op σ rest) (semL op σ kept) = true) := by
  intro k
  induction k with
  | zero =>
    intro rest kept hk
    have : rest = [] := List.length_eq_zero_iff.1 (by omega)
    subst this
    simp [cleanRaw, sumSem]
  | succ k ih =>
    intro rest kept hk
    cases rest with
    | nil => simp [cleanRaw, sumSem]
    | cons x rest =>
      have hk' : rest.length ≤ k := by simpa using hk
      cases x with
      | inl b =>
        simp only [cleanRaw]
        split
        · next hb =>
          refine ⟨fun h _ => ?_, fun h h' => ?_⟩
          · simp only [sumSem]; exact h b (by simp)
          · simp only [sumSem] at h'; have := h b (by simp); rw [this] at h'; cases h'
        · next hb =>
          have hb := neutral_of hb
          obtain ⟨i1, i2⟩ := ih (removeBool b rest) kept (by rw [removeBool_length]; exact hk')
          have back : ∀ (c : Bool), (∀ d, .inl d ∈ (.inl b :: rest : List (Bool ⊕ Seq)) → d = c) → ∀ d, .inl d ∈ removeBool b rest → d = c := by
            intro c hc d hd
            rcases removeBool_mem hd with h | h
            · cases h; exact hc b (by simp)
            · exact hc d (by simp [h])
          refine ⟨fun h hs => i1 (back true h) ?_, fun h hs => ?_⟩
          · have hbt : b = true := h b (by simp)
            have : op = .and := by cases op <;> simp_all [Op.neutral]
            subst this
            simp only [semX, Op.app, Bool.and_eq_true, List.all_eq_true] at hs ⊢
            refine ⟨fun y hy => ?_, hs.2⟩
            rcases removeBool_mem hy with rfl | hy
            · exact hs.1 _ (by simp)
            · exact hs.1 _ (by simp [hy])
          · have hbt : b = false := h b (by simp)
            have : op = .or := by cases op <;> simp_all [Op.neutral]
            subst this
            have := i2 (back false h) hs
            simp only [semX, Op.app, Bool.or_eq_true, List.any_eq_true] at this ⊢
            rcases this with ⟨y, hy, hv⟩ | h
            · left
              rcases removeBool_mem hy with rfl | hy
              · rw [hbt] at hv; simp [xsem] at hv
              · exact ⟨y, by simp [hy], hv⟩
            · exact .inr h
      | inr e =>
        have lift : ∀ (kept' : List Seq), op.app (semX op σ rest) (semL op σ kept') = op.app (semX op σ (.inr e :: rest)) (semL op σ kept) →
            ((∀ b, .inl b ∈ (.inr e :: rest : List (Bool ⊕ Seq)) → b = true) → op.app (semX op σ (.inr e :: rest)) (semL op σ kept) = true →
              sumSem op σ (cleanRaw op k rest kept') = true) ∧
            ((∀ b, .inl b ∈ (.inr e :: rest : List (Bool ⊕ Seq)) → b = false) → sumSem op σ (cleanRaw op k rest kept') = true →
              op.app (semX op σ (.inr e :: rest)) (semL op σ kept) = true) := by
          intro kept' hh
          obtain ⟨i1, i2⟩ := ih rest kept' hk'
          rw [hh] at i1 i2
          exact ⟨fun h => i1 fun b hb => h b (by simp [hb]), fun h => i2 fun b hb => h b (by simp [hb])⟩
        have other : (∀ n, e ≠ .int n) → cleanRaw op (k + 1) (.inr e :: rest) kept = (match clean e with
            | .boo _ _ b => if b = !op.neutral then .inl b else cleanRaw op k rest kept
            | e' => cleanRaw op k rest (e' :: kept)) →
            ((∀ b, .inl b ∈ (.inr e :: rest : List (Bool ⊕ Seq)) → b = true) → op.app (semX op σ (.inr e :: rest)) (semL op σ kept) = true →
              sumSem op σ (cleanRaw op (k + 1) (.inr e :: rest) kept) = true) ∧
            ((∀ b, .inl b ∈ (.inr e :: rest : List (Bool ⊕ Seq)) → b = false) → sumSem op σ (cleanRaw op (k + 1) (.inr e :: rest) kept) = true →
              op.app (semX op σ (.inr e :: rest)) (semL op σ kept) = true) := by
          intro hn hu
          rw [hu]
          obtain ⟨g1, -, -, -, g5⟩ := clean_spec e
          cases hc : clean e with
          | int n => exact absurd hc (g5 hn n)
          | boo o l b =>
            have gb : e.sem σ = b := by rw [← g1 σ, hc]; rfl
            dsimp only
            split
            · next hb =>
              have : op.app (semX op σ (.inr e :: rest)) (semL op σ kept) = b := by
                rw [semX_cons]
                show op.app (op.app (e.sem σ) _) _ = b
                rw [gb, hb, RBool.app_stop, RBool.app_stop]
              rw [this]
              exact ⟨fun _ h => h, fun _ h => h⟩
            · next hb =>
              apply lift
              rw [semX_cons]
              show _ = op.app (op.app (e.sem σ) _) _
              rw [gb, RBool.app_go hb]
          | lst o l xs =>
            dsimp only
            apply lift
            rw [semX_cons, semL_cons]
            show _ = op.app (op.app (e.sem σ) _) _
            rw [← g1 σ, hc, app_left_comm']
        cases e with
        | int n =>
          simp only [cleanRaw]
          apply lift
          rw [semX_cons, semL_cons]
          show op.app _ (op.app (Seq.sem σ (.int n)) _) = op.app (op.app (Seq.sem σ (.int n)) _) _
          cases op <;> cases (Seq.int n).sem σ <;> cases semX _ σ rest <;> cases semL _ σ kept <;> rfl
        | boo o l b => exact other (by simp) (by rw [cleanRaw] <;> first | rfl | simp)
        | lst o l xs => exact other (by simp) (by rw [cleanRaw] <;> first | rfl | simp)

/-- shape of the result of the loop -/
theorem cleanRaw_shape (op : Op) (Q : Int → Prop) : ∀ (k : Nat) (rest : List (Bool ⊕ Seq)) (kept : List Seq) (es : List Seq), rest.length ≤ k →
    (∀ e, .inr e ∈ rest → ∀ n, Has n e → Q n) → (∀ e ∈ kept, e.NoBool ∧ ∀ n, Has n e → Q n) →
    cleanRaw op k rest kept = .inr es → ∀ e ∈ es, e.NoBool ∧ ∀ n, Has n e → Q n := by
  intro k
  induction k with
  | zero =>
    intro rest kept es _ _ h2 h
    simp [cleanRaw] at h
    subst h
    exact h2
  | succ k ih =>
    intro rest kept es hk h1 h2 h
    cases rest with
    | nil => simp [cleanRaw] at h; subst h; exact h2
    | cons x rest =>
      have hk' : rest.length ≤ k := by simpa using hk
      have h1' : ∀ e, .inr e ∈ rest → ∀ n, Has n e → Q n := fun e he => h1 e (by simp [he])
      cases x with
      | inl b =>
        simp only [cleanRaw] at h
        split at h
        · cases h
        · refine ih _ _ _ (by rw [removeBool_length]; exact hk') ?_ h2 h
          intro e he
          rcases removeBool_mem he with h' | h'
          · cases h'
          · exact h1' e h'
      | inr e =>
        have he := h1 e (by simp)
        have other : (∀ n, e ≠ .int n) → (match clean e with
            | .boo _ _ b => if b = !op.neutral then .inl b else cleanRaw op k rest kept
            | e' => cleanRaw op k rest (e' :: kept)) = Sum.inr es → ∀ e ∈ es, e.NoBool ∧ ∀ n, Has n e → Q n := by
          intro hn h
          obtain ⟨-, g2, -, g4, g5⟩ := clean_spec e
          cases hc : clean e with
          | int n => exact absurd hc (g5 hn n)
          | boo o l b =>
            rw [hc] at h
            dsimp only at h
            split at h
            · cases h
            · exact ih _ _ _ hk' h1' h2 h
          | lst o l xs =>
            rw [hc] at h g2 g4
            refine ih _ _ _ hk' h1' ?_ h
            intro y hy
            rcases List.mem_cons.1 hy with rfl | hy
            · refine ⟨?_, fun n hn => he n (g4 n hn)⟩
              rcases g2 with ⟨_, _, _, h⟩ | h
              · cases h
              · exact h
            · exact h2 y hy
        cases e with
        | int n =>
          simp only [cleanRaw] at h
          refine ih _ _ _ hk' h1' ?_ h
          intro y hy
          rcases List.mem_cons.1 hy with rfl | hy
          · exact ⟨trivial, he⟩
          · exact h2 y hy
        | boo o l b => exact other (by simp) (by rw [cleanRaw] at h <;> first | exact h | simp)
        | lst o l xs => exact other (by simp) (by rw [cleanRaw] at h <;> first | exact h | simp)

theorem cleanTop_sem (op : Op) (l : Int) (xs : List (Bool ⊕ Seq)) (σ : Side) :
    (cleanTop op l xs).sem σ = sumSem op σ (cleanRaw op xs.length xs.reverse []) := by
  unfold cleanTop
  cases cleanRaw op xs.length xs.reverse [] with
  | inl b => rfl
  | inr es =>
    cases es with
    | nil => simp [sumSem, Seq.sem]
    | cons e es => simp [sumSem]

theorem cleanTop_up {op : Op} {l : Int} {xs : List (Bool ⊕ Seq)} {σ : Side} (h : ∀ b, .inl b ∈ xs → b = true) (hs : semX op σ xs = true) :
    (cleanTop op l xs).sem σ = true := by
  rw [cleanTop_sem]
  refine (cleanRaw_spec op σ xs.length xs.reverse [] (by simp)).1 (fun b hb => h b (by simpa using hb)) ?_
  rw [semX_reverse, hs]
  cases op <;> rfl

theorem cleanTop_down {op : Op} {l : Int} {xs : List (Bool ⊕ Seq)} {σ : Side} (h : ∀ b, .inl b ∈ xs → b = false)
    (hs : (cleanTop op l xs).sem σ = true) : semX op σ xs = true := by
  rw [cleanTop_sem] at hs
  have := (cleanRaw_spec op σ xs.length xs.reverse [] (by simp)).2 (fun b hb => h b (by simpa using hb)) hs
  rw [semX_reverse] at this
  cases op <;> simpa [Op.app, Op.neutral, semL] using this

theorem cleanTop_shape {op : Op} {l : Int} {xs : List (Bool ⊕ Seq)} {Q : Int → Prop} (h : ∀ e, .inr e ∈ xs → ∀ n, Has n e → Q n) :
    Clean (cleanTop op l xs) ∧ (∀ n, Has n (cleanTop op l xs) → Q n) ∧ ∀ n, cleanTop op l xs ≠ .int n := by
  unfold cleanTop
  cases hc : cleanRaw op xs.length xs.reverse [] with
  | inl b => exact ⟨.inl ⟨_, _, _, rfl⟩, fun n hn => by simp [Has] at hn, fun n => by simp⟩
  | inr es =>
    have := cleanRaw_shape op Q xs.length xs.reverse [] es (by simp) (fun e he => h e (by simpa using he)) (by simp) hc
    cases es with
    | nil => exact ⟨.inl ⟨_, _, _, rfl⟩, fun n hn => by simp [Has] at hn, fun n => by simp⟩
    | cons e es =>
      refine ⟨.inr ((noBool_lst _ _ _).2 fun x hx => (this x hx).1), fun n hn => ?_, fun n => by simp⟩
      obtain ⟨x, hx, hn⟩ := (has_lst _ _ _ _).1 hn
      exact (this x hx).2 n hn

end Geouned.Poly
