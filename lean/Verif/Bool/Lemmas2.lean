import Verif.Bool.Lemmas
/-! Helper lemmas: `join_operators`, `substitute`, `evaluate`, `get_complementary`, `append`. -/
namespace Geouned

theorem levelUpdateL_mem_nonneg {es : List Seq} {o : Op} {l : Int} {xs : List Seq}
    (h : Seq.lst o l xs ∈ (Seq.levelUpdateL es).2) : 0 ≤ l := by
  induction es with
  | nil => simp [Seq.levelUpdateL] at h
  | cons x es ih =>
    cases x with
    | int n =>
      simp only [Seq.levelUpdateL, List.mem_cons] at h
      rcases h with h | h
      · cases h
      · exact ih h
    | boo o' l' b =>
      simp only [Seq.levelUpdateL, List.mem_cons] at h
      rcases h with h | h
      · cases h
      · exact ih h
    | lst o' l' ys =>
      simp only [Seq.levelUpdateL, List.mem_cons] at h
      rcases h with h | h
      · simp only [Seq.levelUpdate] at h
        cases h
        exact levelUpdateL_nonneg ys
      · exact ih h

/-- list-valued children have levels between 0 and `l - 1` -/
def ChildLev (l : Int) (es : List Seq) : Prop :=
  ∀ e ∈ es, ∀ o l' xs, e = .lst o l' xs → 0 ≤ l' ∧ l' + 1 ≤ l

theorem splitOps_spec : ∀ (es : List Seq) (r : List Seq × List Seq), splitOps es = .ok r →
    (r.1 ++ r.2).Perm es ∧ (∀ e ∈ r.1, e.opOf = .ok .and) ∧ (∀ e ∈ r.2, e.opOf = .ok .or) := by
  intro es
  induction es with
  | nil => intro r h; simp [splitOps] at h; subst h; simp
  | cons e es ih =>
    intro r h
    simp only [splitOps, bind_ok] at h
    obtain ⟨op, hop, ⟨a, o⟩, hr, h⟩ := h
    obtain ⟨h1, h2, h3⟩ := ih _ hr
    cases op with
    | and =>
      simp at h; subst h
      refine ⟨by simpa using h1, ?_, h3⟩
      intro x hx; rcases List.mem_cons.1 hx with rfl | hx
      · exact hop
      · exact h2 x hx
    | or =>
      simp at h; subst h
      refine ⟨?_, h2, ?_⟩
      · exact List.perm_middle.trans (List.Perm.cons _ h1)
      · intro x hx; rcases List.mem_cons.1 hx with rfl | hx
        · exact hop
        · exact h3 x hx

theorem concatElems_spec (op : Op) : ∀ (es xs : List Seq), (∀ e ∈ es, e.WF) → (∀ e ∈ es, e.opOf = .ok op) →
    concatElems es = .ok xs → (∀ e ∈ xs, e.WF) ∧ ∀ σ, semL op σ xs = semL op σ es := by
  intro es
  induction es with
  | nil => intro xs _ _ h; simp [concatElems] at h; subst h; simp
  | cons e es ih =>
    intro xs hw hop h
    simp only [concatElems, bind_ok] at h
    obtain ⟨x, hx, ys, hy, h⟩ := h
    obtain ⟨h1, h2⟩ := ih ys (fun e he => hw e (by simp [he])) (fun e he => hop e (by simp [he])) hy
    simp at h; subst h
    have hwe := hw e (by simp)
    have hoe := hop e (by simp)
    cases e with
    | int n => simp [Seq.elemsOf] at hx
    | boo o l b => simp [Seq.elemsOf] at hx
    | lst o l es' =>
      simp [Seq.elemsOf] at hx; subst hx
      simp [Seq.opOf] at hoe; subst hoe
      rw [WF_lst] at hwe
      refine ⟨?_, fun σ => by simp [h2 σ]⟩
      intro e he
      rcases List.mem_append.1 he with he | he
      · exact hwe.2 e he
      · exact h1 e he

theorem mergeSame_spec {op : Op} {l : Int} {same others : List Seq} {s' : Seq} (hl : l > 0)
    (hc : ChildLev l others)
    (hw1 : ∀ e ∈ same, e.WF) (hw2 : ∀ e ∈ others, e.WF) (hop : ∀ e ∈ same, e.opOf = .ok op)
    (h : mergeSame op l same others = .ok s') :
    ∃ l' es', s' = .lst op l' es' ∧ l' > 0 ∧ ChildLev l' es' ∧ (∀ e ∈ es', e.WF) ∧
      ∀ σ, semL op σ es' = op.app (semL op σ same) (semL op σ others) := by
  simp only [mergeSame, bind_ok] at h
  obtain ⟨xs, hxs, h⟩ := h
  obtain ⟨h1, h2⟩ := concatElems_spec op same xs hw1 hop hxs
  simp at h; subst h
  refine ⟨_, _, rfl, by omega, ?_, ?_, fun σ => ?_⟩
  · intro e he o l' ys heq
    rcases List.mem_append.1 he with he | he
    · have := hc e he o l' ys heq; omega
    · simp only [List.mem_singleton] at he
      have hn := levelUpdateL_nonneg xs
      rw [he] at heq
      simp only [Seq.levelUpdate] at heq ⊢
      cases heq
      simp only [Seq.levOf]; omega
  · intro e he
    rcases List.mem_append.1 he with he | he
    · exact hw2 e he
    · simp only [List.mem_singleton] at he
      subst he
      simp only [Seq.levelUpdate]
      rw [WF_lst]
      exact ⟨⟨levelUpdateL_nonneg xs, fun h0 => (levelUpdateL_zero xs h0).1⟩, levelUpdateL_WF xs h1⟩
  · simp only [semL_append, semL_cons, semL_nil, app_neutral_right, levelUpdate_sem, sem_lst, h2 σ]
    exact app_comm _ _ _

theorem joinMerge_spec {op : Op} {l : Int} {es : List Seq} {s' : Seq} (hl : l > 0) (hc : ChildLev l es)
    (hw : ∀ e ∈ es, e.WF) (h : joinMerge op l es = .ok s') :
    ∃ l' es', s' = .lst op l' es' ∧ l' > 0 ∧ ChildLev l' es' ∧ (∀ e ∈ es', e.WF) ∧
      ∀ σ, semL op σ es' = semL op σ es := by
  simp only [joinMerge, bind_ok] at h
  obtain ⟨⟨ands, ors⟩, hs, h⟩ := h
  obtain ⟨hp, ha, ho⟩ := splitOps_spec es _ hs
  have hm1 : ∀ e ∈ ands, e ∈ es := fun e he => hp.mem_iff.1 (by simp [he])
  have hm2 : ∀ e ∈ ors, e ∈ es := fun e he => hp.mem_iff.1 (by simp [he])
  cases op with
  | and =>
    simp only at h
    split at h
    · obtain ⟨l', es', h1, h2, h3, h4, h5⟩ := mergeSame_spec hl (fun e he => hc e (hm2 e he))
        (fun e he => hw e (hm1 e he)) (fun e he => hw e (hm2 e he)) ha h
      refine ⟨l', es', h1, h2, h3, h4, fun σ => ?_⟩
      rw [h5, ← semL_append]; exact semL_perm hp
    · simp at h; exact ⟨l, es, h.symm, hl, hc, hw, fun _ => rfl⟩
  | or =>
    simp only at h
    split at h
    · obtain ⟨l', es', h1, h2, h3, h4, h5⟩ := mergeSame_spec hl (fun e he => hc e (hm1 e he))
        (fun e he => hw e (hm2 e he)) (fun e he => hw e (hm1 e he)) ho h
      refine ⟨l', es', h1, h2, h3, h4, fun σ => ?_⟩
      rw [h5, app_comm, ← semL_append]; exact semL_perm hp
    · simp at h; exact ⟨l, es, h.symm, hl, hc, hw, fun _ => rfl⟩

/-- a step that keeps well-formedness and meaning -/
def Keeps (rec : Seq → M Seq) : Prop :=
  ∀ s s', s.WF → rec s = .ok s' → s'.WF ∧ ∀ σ, s'.sem σ = s.sem σ

theorem mapM'_spec {rec : Seq → M Seq} (hrec : Keeps rec) : ∀ (es es' : List Seq), (∀ e ∈ es, e.WF) →
    mapM' rec es = .ok es' → (∀ e ∈ es', e.WF) ∧ ∀ op σ, semL op σ es' = semL op σ es := by
  intro es
  induction es with
  | nil => intro es' _ h; simp [mapM'] at h; subst h; simp
  | cons e es ih =>
    intro es' hw h
    simp only [mapM', bind_ok] at h
    obtain ⟨e', he, xs, hx, h⟩ := h
    simp at h; subst h
    obtain ⟨h1, h2⟩ := hrec e e' (hw e (by simp)) he
    obtain ⟨h3, h4⟩ := ih xs (fun y hy => hw y (by simp [hy])) hx
    refine ⟨?_, fun op σ => by simp [h2, h4]⟩
    intro y hy; rcases List.mem_cons.1 hy with rfl | hy
    · exact h1
    · exact h3 y hy

theorem joinUnwrap_spec {rec : Seq → M Seq} (hrec : Keeps rec) {op : Op} {l : Int} {es : List Seq} {s' : Seq}
    (hl : l > 0) (hc : ChildLev l es) (hw : ∀ e ∈ es, e.WF) (h : joinUnwrap rec (.lst op l es) = .ok s') :
    s'.WF ∧ ∀ σ, s'.sem σ = semL op σ es := by
  have hwf : (Seq.lst op l es).WF := by rw [WF_lst]; exact ⟨⟨by omega, fun h0 => by omega⟩, hw⟩
  simp only [joinUnwrap] at h
  split at h
  · next e =>
    simp only [hl, if_true, bind_ok] at h
    obtain ⟨op', ho, xs, hx, h⟩ := h
    have hwe := hw e (by simp)
    cases e with
    | int n => simp [Seq.elemsOf] at hx
    | boo o l' b => simp [Seq.elemsOf] at hx
    | lst o l' ys =>
      simp [Seq.elemsOf] at hx; subst hx
      simp [Seq.opOf] at ho; subst ho
      have hlev := hc _ (by simp) o l' ys rfl
      rw [WF_lst] at hwe
      obtain ⟨h1, h2⟩ := hrec _ _ (by rw [WF_lst]; exact ⟨⟨by omega, fun h0 => hwe.1.2 (by omega)⟩, hwe.2⟩) h
      exact ⟨h1, fun σ => by rw [h2 σ]; simp⟩
  · simp at h; subst h; exact ⟨hwf, fun σ => by simp⟩

theorem joinEnd_spec {rec : Seq → M Seq} (hrec : Keeps rec) {sl : Bool} {s s' : Seq} (hw : s.WF)
    (h : joinEnd rec sl s = .ok s') : s'.WF ∧ ∀ σ, s'.sem σ = s.sem σ := by
  unfold joinEnd at h
  split at h
  · simp at h; subst h; exact check0_spec hw
  · next h0 =>
    split at h
    · simp at h; subst h; exact ⟨hw, fun _ => rfl⟩
    · split at h
      · next op l es =>
        simp only [bind_ok] at h
        obtain ⟨es', he, h⟩ := h
        simp at h; subst h
        obtain ⟨h1, h2⟩ := mapM'_spec hrec es es' ((WF_lst _ _ _).1 hw).2 he
        refine ⟨?_, fun σ => by simp [h2]⟩
        rw [WF_lst]; exact ⟨⟨((WF_lst _ _ _).1 hw).1.1, fun hh => absurd hh h0⟩, h1⟩
      · simp at h; subst h; exact ⟨hw, fun _ => rfl⟩

theorem joinOps_spec : ∀ (f : Nat) (sl : Bool), Keeps (Seq.joinOps f sl) := by
  intro f
  induction f with
  | zero => intro sl s s' _ h; simp [Seq.joinOps] at h
  | succ f ih =>
    intro sl s s' hw h
    cases s with
    | int n => simp [Seq.joinOps] at h
    | boo op l b => simp [Seq.joinOps] at h; subst h; simp
    | lst op l es =>
      simp only [Seq.joinOps] at h
      have hw1 := levelUpdate_WF _ (cleanSelf_WF hw)
      have hs1 : ∀ σ, (Seq.cleanSelf (.lst op l es)).levelUpdate.sem σ = (Seq.lst op l es).sem σ := by
        intro σ; rw [levelUpdate_sem, cleanSelf_sem]
      generalize hs : (Seq.cleanSelf (.lst op l es)) = c at h hw1 hs1
      split at h
      · simp at h; subst h; exact ⟨hw1, hs1⟩
      · next h0 =>
        cases c with
        | int n => simp [Seq.levelUpdate, Seq.groupSingle] at h
        | boo o l' b => simp [Seq.levelUpdate, Seq.levOf] at h0
        | lst o l' xs =>
          simp only [bind_ok] at h
          obtain ⟨g, hg, h⟩ := h
          simp only [Seq.levelUpdate] at hg hw1 h0 hs1
          simp only [Seq.levOf] at h0
          have hn := levelUpdateL_nonneg xs
          obtain ⟨es', rfl, hwg, hsg, -, hmem⟩ := groupSingle_lst hw1 hg
          have hc : ChildLev (Seq.levelUpdateL xs).1 es' := by
            intro e he o' l'' ys heq
            rcases hmem e he with hm | ⟨g, hm⟩
            · subst heq
              have := levelUpdateL_le hm
              simp only [Seq.levOf] at this
              exact ⟨levelUpdateL_mem_nonneg hm, this⟩
            · rw [hm] at heq; cases heq
              omega
          simp only [bind_ok] at h
          obtain ⟨m, hm, u, hu, h⟩ := h
          obtain ⟨l2, es2, rfl, p1, p2, p3, p4⟩ := joinMerge_spec (by omega) hc ((WF_lst _ _ _).1 hwg).2 hm
          obtain ⟨q1, q2⟩ := joinUnwrap_spec (ih false) p1 p2 p3 hu
          obtain ⟨r1, r2⟩ := joinEnd_spec (ih false) q1 h
          refine ⟨r1, fun σ => ?_⟩
          rw [r2, q2, p4, hsg, ← hs1 σ, sem_lst]

/-! ### substitute -/

/-- what `substitute` does to the assignment -/
def Side.subst (σ : Side) (v : Nat) : Val → Side
  | .b b => σ.set v b
  | .n k => σ.set v (lit σ k)

theorem lit_set_ne (σ : Side) {n : Int} {v : Nat} (b : Bool) (h : n.natAbs ≠ v) :
    lit (σ.set v b) n = lit σ n := by
  unfold lit Side.set; simp [h]

theorem lit_subst_ne (σ : Side) {n : Int} {v : Nat} (val : Val) (h : n.natAbs ≠ v) :
    lit (σ.subst v val) n = lit σ n := by
  cases val <;> exact lit_set_ne σ _ h

theorem lit_set_eq (σ : Side) {n : Int} {v : Nat} (b : Bool) (h0 : n ≠ 0) (h : n.natAbs = v) :
    lit (σ.set v b) n = if n = (v : Int) then b else !b := by
  unfold lit Side.set
  by_cases hn : n < 0
  · have : ¬ n = (v : Int) := by omega
    simp [h, hn, this]
  · have : n = (v : Int) := by omega
    simp [h, hn, this]

/-- a step that performs the substitution -/
def Substs (var : Int) (val : Val) (rec : Seq → M Seq) : Prop :=
  ∀ s s', s.WF → rec s = .ok s' → s'.WF ∧ ∀ σ : Side, s'.sem σ = s.sem (σ.subst var.natAbs val)

/-- the replacement value is a genuine surface -/
def Val.ok : Val → Prop
  | .b _ => True
  | .n k => k ≠ 0

theorem substLoop_spec {rec : Seq → M Seq} {op : Op} {var : Int} {val : Val} (hv : val.ok)
    (hrec : Substs var val rec) :
    ∀ (es : List Seq) (r : Bool ⊕ List Seq), (∀ e ∈ es, e.WF) → substLoop rec op var val es = .ok r →
    match r with
    | .inl b => b = !op.neutral ∧ ∀ σ : Side, semL op (σ.subst var.natAbs val) es = b
    | .inr es' => (∀ e ∈ es', e.WF) ∧ (AllInt es → AllInt es') ∧
        ∀ σ : Side, semL op σ es' = semL op (σ.subst var.natAbs val) es := by
  intro es
  induction es with
  | nil => intro r _ h; simp [substLoop] at h; subst h; simp [AllInt]
  | cons e es ih =>
    intro r hw h
    simp only [substLoop, bind_ok] at h
    obtain ⟨r1, h1, h⟩ := h
    have ih1 := ih r1 (fun x hx => hw x (by simp [hx])) h1
    have hwe := hw e (by simp)
    cases r1 with
    | inl b =>
      simp at h; subst h
      refine ⟨ih1.1, fun σ => ?_⟩
      rw [semL_cons, ih1.2 σ, ih1.1]; simp
    | inr es' =>
      obtain ⟨i1, i2, i3⟩ := ih1
      cases e with
      | int n =>
        simp only at h
        have hn0 : n ≠ 0 := by simpa using hwe
        split at h
        · next hn =>
          cases val with
          | n k =>
            have hk : k ≠ 0 := hv
            simp only at h
            simp at h; subst h
            refine ⟨?_, ?_, fun σ => ?_⟩
            · intro x hx; rcases List.mem_cons.1 hx with rfl | hx
              · split <;> simp <;> omega
              · exact i1 x hx
            · intro ha x hx; rcases List.mem_cons.1 hx with rfl | hx
              · split <;> exact ⟨_, rfl⟩
              · exact i2 (fun y hy => ha y (by simp [hy])) x hx
            · simp only [semL_cons, i3 σ, sem_int, Side.subst]
              rw [lit_set_eq σ _ hn0 hn]
              by_cases hh : n = (var.natAbs : Int)
              · rw [if_pos hh, if_pos hh]; simp
              · rw [if_neg hh, if_neg hh]; simp [lit_neg σ hk]
          | b v =>
            simp only at h
            have hlit : ∀ σ : Side, lit (σ.subst var.natAbs (.b v)) n = if n = (var.natAbs : Int) then v else !v :=
              fun σ => by simp only [Side.subst]; exact lit_set_eq σ v hn0 hn
            generalize hbv : (if n = (var.natAbs : Int) then v else !v) = bv at h hlit
            split at h
            · next hb =>
              simp at h; subst h
              simp at hb; subst hb
              refine ⟨i1, fun ha => i2 (fun y hy => ha y (by simp [hy])), fun σ => ?_⟩
              simp [semL_cons, hlit σ, i3 σ]
            · next hb =>
              simp at h; subst h
              have hb' := ne_neutral (by simpa using hb)
              refine ⟨hb', fun σ => ?_⟩
              simp only [semL_cons, sem_int, hlit σ]
              rw [hb']; simp
        · next hn =>
          simp at h; subst h
          refine ⟨?_, ?_, fun σ => ?_⟩
          · intro x hx; rcases List.mem_cons.1 hx with rfl | hx
            · exact hwe
            · exact i1 x hx
          · intro ha x hx; rcases List.mem_cons.1 hx with rfl | hx
            · exact ⟨n, rfl⟩
            · exact i2 (fun y hy => ha y (by simp [hy])) x hx
          · simp only [semL_cons, sem_int, i3 σ]
            rw [lit_subst_ne σ val hn]
      | boo o l b =>
        simp only [bind_ok] at h
        obtain ⟨e', he', h⟩ := h
        simp at h; subst h
        obtain ⟨j1, j2⟩ := hrec _ e' hwe he'
        refine ⟨?_, ?_, fun σ => by simp only [semL_cons]; rw [j2 σ, i3 σ]⟩
        · intro x hx; rcases List.mem_cons.1 hx with rfl | hx
          · exact j1
          · exact i1 x hx
        · intro ha
          obtain ⟨n, hn⟩ := ha (.boo o l b) (by simp)
          cases hn
      | lst o l ys =>
        simp only [bind_ok] at h
        obtain ⟨e', he', h⟩ := h
        simp at h; subst h
        obtain ⟨j1, j2⟩ := hrec _ e' hwe he'
        refine ⟨?_, ?_, fun σ => by simp only [semL_cons]; rw [j2 σ, i3 σ]⟩
        · intro x hx; rcases List.mem_cons.1 hx with rfl | hx
          · exact j1
          · exact i1 x hx
        · intro ha
          obtain ⟨n, hn⟩ := ha (.lst o l ys) (by simp)
          cases hn

theorem subst_spec {var : Int} {val : Val} (hv : val.ok) : ∀ f : Nat, Substs var val (Seq.subst f var val) := by
  intro f
  induction f with
  | zero => intro s s' _ h; simp [Seq.subst] at h
  | succ f ih =>
    intro s s' hw h
    cases s with
    | int n => simp [Seq.subst] at h
    | boo op l b => simp [Seq.subst] at h; subst h; simp
    | lst op l es =>
      simp only [Seq.subst, bind_ok] at h
      obtain ⟨r, hr, h⟩ := h
      rw [WF_lst] at hw
      have key := substLoop_spec (op := op) hv ih es r hw.2 hr
      cases r with
      | inl b => simp at h; subst h; exact ⟨by simp, fun σ => by simp [key.2 σ]⟩
      | inr es' =>
        obtain ⟨k1, k2, k3⟩ := key
        cases es' with
        | nil =>
          simp at h; subst h
          refine ⟨by simp, fun σ => ?_⟩
          have := k3 σ
          simpa using this
        | cons x xs =>
          simp only at h
          have hw1 : (Seq.lst op l (x :: xs)).WF := by
            rw [WF_lst]; exact ⟨⟨hw.1.1, fun h0 => k2 (hw.1.2 h0)⟩, k1⟩
          obtain ⟨c1, c2⟩ := check0_spec (cleanSelf_WF hw1)
          obtain ⟨r1, r2⟩ := joinOps_spec f true _ _ c1 h
          refine ⟨r1, fun σ => ?_⟩
          rw [r2, c2, cleanSelf_sem, sem_lst, k3 σ, sem_lst]

/-! ### evaluate -/

theorem set_self (σ : Side) (v : Nat) : σ.set v (σ v) = σ := by
  funext w; unfold Side.set; split
  · next h => rw [h]
  · rfl

theorem evalLoop_spec (f : Nat) : ∀ (vs : Vals) (s s' : Seq), s.WF → evalLoop f vs s = .ok s' →
    s'.WF ∧ ∀ σ, Agrees σ vs → s'.sem σ = s.sem σ := by
  intro vs
  induction vs with
  | nil => intro s s' hw h; simp [evalLoop] at h; subst h; exact ⟨hw, fun _ _ => rfl⟩
  | cons v vs ih =>
    intro s s' hw h
    have hag : ∀ σ, Agrees σ (v :: vs) → Agrees σ vs := fun σ ha k b hb => ha k b (by simp [hb])
    obtain ⟨k, ob⟩ := v
    cases ob with
    | none =>
      cases s with
      | boo op l b => simp [evalLoop] at h; subst h; exact ⟨hw, fun _ _ => rfl⟩
      | int n =>
        simp only [evalLoop] at h
        obtain ⟨h1, h2⟩ := ih _ _ hw h
        exact ⟨h1, fun σ ha => h2 σ (hag σ ha)⟩
      | lst op l es =>
        simp only [evalLoop] at h
        obtain ⟨h1, h2⟩ := ih _ _ hw h
        exact ⟨h1, fun σ ha => h2 σ (hag σ ha)⟩
    | some b =>
      simp only [evalLoop, bind_ok] at h
      obtain ⟨s1, hs1, h⟩ := h
      obtain ⟨j1, j2⟩ := subst_spec (var := k) (val := .b b) trivial f s s1 hw hs1
      have hstep : ∀ σ, Agrees σ ((k, some b) :: vs) → s1.sem σ = s.sem σ := by
        intro σ ha
        rw [j2 σ]
        have : σ k = b := ha k b (by simp)
        simp only [Side.subst, Int.natAbs_natCast]
        rw [← this, set_self]
      cases s1 with
      | boo op l b' => simp at h; subst h; exact ⟨j1, hstep⟩
      | int n =>
        simp only at h
        obtain ⟨h1, h2⟩ := ih _ _ j1 h
        exact ⟨h1, fun σ ha => by rw [h2 σ (hag σ ha), hstep σ ha]⟩
      | lst op l es =>
        simp only at h
        obtain ⟨h1, h2⟩ := ih _ _ j1 h
        exact ⟨h1, fun σ ha => by rw [h2 σ (hag σ ha), hstep σ ha]⟩

/-- meaning of the result of `evaluate` -/
theorem Ev.of_sem (s : Seq) (σ : Side) : (Ev.of s).sem σ = s.sem σ := by
  cases s <;> simp [Ev.of, Ev.sem]

theorem Ev.of_WF {s : Seq} (h : s.WF) : (Ev.of s).WF := by
  cases s <;> simp_all [Ev.of, Ev.WF]

theorem evaluate_spec {f : Nat} {vs : Vals} {s s' : Seq} {r : Ev} (hw : s.WF)
    (h : s.evaluate f vs = .ok (s', r)) :
    s'.WF ∧ r.WF ∧ (∀ σ, s'.sem σ = s.sem σ) ∧ ∀ σ, Agrees σ vs → r.sem σ = s.sem σ := by
  cases s with
  | int n => simp [Seq.evaluate] at h
  | boo op l b =>
    simp [Seq.evaluate] at h
    obtain ⟨rfl, rfl⟩ := h
    exact ⟨hw, trivial, fun _ => rfl, fun _ _ => by simp [Ev.sem]⟩
  | lst op l es =>
    simp only [Seq.evaluate, bind_ok] at h
    obtain ⟨g, hg, e, he, h⟩ := h
    simp at h
    obtain ⟨rfl, rfl⟩ := h
    obtain ⟨g1, g2⟩ := groupSingle_spec hw hg
    obtain ⟨e1, e2⟩ := evalLoop_spec f vs g e g1 he
    exact ⟨g1, Ev.of_WF e1, g2, fun σ ha => by rw [Ev.of_sem, e2 σ ha, g2]⟩

/-! ### get_complementary -/

theorem negInts_spec (op : Op) : ∀ (es cs : List Seq), (∀ e ∈ es, e.WF) → negInts es = .ok cs →
    (∀ e ∈ cs, e.WF) ∧ AllInt cs ∧ ∀ σ, semL op.comp σ cs = !semL op σ es := by
  intro es
  induction es with
  | nil => intro cs _ h; simp [negInts] at h; subst h; simp [AllInt]
  | cons e es ih =>
    intro cs hw h
    cases e with
    | int n =>
      simp only [negInts, bind_ok] at h
      obtain ⟨xs, hx, h⟩ := h
      simp at h; subst h
      have hn : n ≠ 0 := by simpa using hw (.int n) (by simp)
      obtain ⟨h1, h2, h3⟩ := ih xs (fun y hy => hw y (by simp [hy])) hx
      refine ⟨?_, ?_, fun σ => ?_⟩
      · intro y hy; rcases List.mem_cons.1 hy with rfl | hy
        · simp; exact hn
        · exact h1 y hy
      · intro y hy; rcases List.mem_cons.1 hy with rfl | hy
        · exact ⟨_, rfl⟩
        · exact h2 y hy
      · simp only [semL_cons, sem_int, lit_neg σ hn, h3 σ, not_app]
    | boo o l b => simp [negInts] at h
    | lst o l ys => simp [negInts] at h

def Comps (rec : Seq → M (Seq × Seq)) : Prop :=
  ∀ s s' c, s.WF → rec s = .ok (s', c) →
    s'.WF ∧ c.WF ∧ (∀ σ, s'.sem σ = s.sem σ) ∧ ∀ σ, c.sem σ = !s.sem σ

theorem compLoop_spec {rec : Seq → M (Seq × Seq)} (hrec : Comps rec) (op : Op) :
    ∀ (es es' cs : List Seq), (∀ e ∈ es, e.WF) → compLoop rec es = .ok (es', cs) →
    (∀ e ∈ es', e.WF) ∧ (∀ e ∈ cs, e.WF) ∧ (∀ σ, semL op σ es' = semL op σ es) ∧
      ∀ σ, semL op.comp σ cs = !semL op σ es := by
  intro es
  induction es with
  | nil =>
    intro es' cs _ h
    simp [compLoop] at h
    obtain ⟨rfl, rfl⟩ := h
    simp
  | cons e es ih =>
    intro es' cs hw h
    simp only [compLoop, bind_ok] at h
    obtain ⟨⟨e', c⟩, he, ⟨xs, ys⟩, hx, h⟩ := h
    simp at h
    obtain ⟨rfl, rfl⟩ := h
    obtain ⟨a1, a2, a3, a4⟩ := hrec e e' c (hw e (by simp)) he
    obtain ⟨b1, b2, b3, b4⟩ := ih xs ys (fun y hy => hw y (by simp [hy])) hx
    refine ⟨?_, ?_, fun σ => by simp [a3, b3], fun σ => ?_⟩
    · intro y hy; rcases List.mem_cons.1 hy with rfl | hy
      · exact a1
      · exact b1 y hy
    · intro y hy; rcases List.mem_cons.1 hy with rfl | hy
      · exact a2
      · exact b2 y hy
    · simp only [semL_cons, a4, b4, not_app]

theorem comp_spec : ∀ f : Nat, Comps (Seq.comp f) := by
  intro f
  induction f with
  | zero => intro s s' c _ h; simp [Seq.comp] at h
  | succ f ih =>
    intro s s' c hw h
    cases s with
    | int n => simp [Seq.comp] at h
    | boo op l b => simp [Seq.comp] at h
    | lst op l es =>
      simp only [Seq.comp] at h
      split at h
      · next h0 =>
        simp only [bind_ok] at h
        obtain ⟨cs, hc, h⟩ := h
        simp at h
        obtain ⟨rfl, rfl⟩ := h
        have hw' := (WF_lst _ _ _).1 hw
        have k := negInts_spec op es cs hw'.2 hc
        refine ⟨hw, ?_, fun _ => rfl, fun σ => by simp [k.2.2 σ]⟩
        rw [WF_lst]; exact ⟨⟨hw'.1.1, fun _ => k.2.1⟩, k.1⟩
      · next h0 =>
        simp only [bind_ok] at h
        obtain ⟨g, hg, h⟩ := h
        obtain ⟨es1, rfl, hw1, hs1, -, -⟩ := groupSingle_lst hw hg
        simp only [bind_ok] at h
        obtain ⟨⟨es2, cs⟩, hc, h⟩ := h
        simp at h
        obtain ⟨rfl, rfl⟩ := h
        obtain ⟨k1, k2, k3, k4⟩ := compLoop_spec ih op es1 es2 cs ((WF_lst _ _ _).1 hw1).2 hc
        refine ⟨?_, ?_, fun σ => ?_, fun σ => ?_⟩
        · rw [WF_lst]; exact ⟨⟨((WF_lst _ _ _).1 hw).1.1, fun hh => absurd hh h0⟩, k1⟩
        · rw [WF_lst]; exact ⟨⟨((WF_lst _ _ _).1 hw).1.1, fun hh => absurd hh h0⟩, k2⟩
        · rw [sem_lst, sem_lst, k3, hs1]
        · rw [sem_lst, sem_lst, k4, hs1]

/-! ### append -/

theorem any_isInt {n : Int} {es : List Seq} (h : es.any (isInt n) = true) : Seq.int n ∈ es := by
  obtain ⟨a, ha, h⟩ := List.any_eq_true.1 h
  cases a with
  | int m => simp [isInt] at h; exact h ▸ ha
  | boo o l b => simp [isInt] at h
  | lst o l xs => simp [isInt] at h

/-- joint meaning of the appended items -/
def itemsSem (op : Op) (σ : Side) : List Item → Bool
  | [] => op.neutral
  | i :: r => op.app (i.sem σ) (itemsSem op σ r)

theorem appendLoop_spec (op : Op) : ∀ (items : List Item) (l : Int) (es : List Seq) (s' : Seq),
    (Seq.lst op l es).WF → (∀ i ∈ items, i.WF) → appendLoop op l es items = .ok s' →
    s'.WF ∧ ∀ σ, s'.sem σ = op.app (semL op σ es) (itemsSem op σ items) := by
  intro items
  induction items with
  | nil =>
    intro l es s' hw _ h
    simp [appendLoop] at h; subst h
    exact ⟨hw, fun σ => by simp [itemsSem]⟩
  | cons i r ih =>
    intro l es s' hw hi h
    have hi' : ∀ j ∈ r, j.WF := fun j hj => hi j (by simp [hj])
    -- the three situations
    have intCase : ∀ (n : Int), n ≠ 0 →
        (if es.any (isInt n) then appendLoop op l es r
          else if es.any (isInt (-n)) then .ok (.boo op (-1) (!op.neutral))
          else appendLoop op (max l 0) (es ++ [.int n]) r) = .ok s' →
        s'.WF ∧ ∀ σ, s'.sem σ = op.app (semL op σ es) (op.app (lit σ n) (itemsSem op σ r)) := by
      intro n hn0 h
      split at h
      · next hm =>
        obtain ⟨h1, h2⟩ := ih l es s' hw hi' h
        refine ⟨h1, fun σ => ?_⟩
        have := semL_mem_app (op := op) (σ := σ) (any_isInt hm)
        simp only [sem_int] at this
        rw [h2 σ, ← this]
        cases op <;> cases lit σ n <;> simp [Op.app]
      · split at h
        · next hm =>
          simp at h; subst h
          refine ⟨by simp, fun σ => ?_⟩
          have := semL_mem_app (op := op) (σ := σ) (any_isInt hm)
          simp only [sem_int, lit_neg σ hn0] at this
          rw [← this]
          cases op <;> cases lit σ n <;> simp [Op.app, Op.neutral]
        · rw [WF_lst] at hw
          obtain ⟨h1, h2⟩ := ih (max l 0) (es ++ [.int n]) s'
            (by
              rw [WF_lst]
              refine ⟨⟨by omega, fun h0 e he => ?_⟩, fun e he => ?_⟩
              · rcases List.mem_append.1 he with he | he
                · exact hw.1.2 (by omega) e he
                · simp at he; exact ⟨n, he⟩
              · rcases List.mem_append.1 he with he | he
                · exact hw.2 e he
                · simp at he; subst he; simpa using hn0) hi' h
          refine ⟨h1, fun σ => ?_⟩
          rw [h2 σ]; simp [app_assoc]
    have boolCase : ∀ (b : Bool),
        (if b == op.neutral then appendLoop op l es r else .ok (.boo op (-1) b)) = .ok s' →
        s'.WF ∧ ∀ σ, s'.sem σ = op.app (semL op σ es) (op.app b (itemsSem op σ r)) := by
      intro b h
      split at h
      · next hb =>
        simp at hb; subst hb
        obtain ⟨h1, h2⟩ := ih l es s' hw hi' h
        exact ⟨h1, fun σ => by simp [h2 σ]⟩
      · next hb =>
        simp at h; subst h
        have := ne_neutral (by simpa using hb)
        exact ⟨by simp, fun σ => by rw [this]; simp⟩
    cases i with
    | int n => simp only [appendLoop] at h; exact intCase n (hi (.int n) (by simp)) h
    | bool b => simp only [appendLoop] at h; exact boolCase b h
    | seq s =>
      cases s with
      | int n =>
        simp only [appendLoop] at h
        simpa [itemsSem, Item.sem] using intCase n (by simpa [Item.WF] using (hi _ List.mem_cons_self : (Item.seq (.int n)).WF)) h
      | boo o l' b =>
        simp only [appendLoop] at h
        simpa [itemsSem, Item.sem] using boolCase b h
      | lst o l' xs =>
        simp only [appendLoop] at h
        have hx : (Seq.lst o l' xs).WF := hi (.seq (.lst o l' xs)) (by simp)
        have hl' := ((WF_lst _ _ _).1 hx).1.1
        rw [WF_lst] at hw
        obtain ⟨h1, h2⟩ := ih (max l (l' + 1)) (es ++ [.lst o l' xs]) s'
          (by
            rw [WF_lst]
            refine ⟨⟨by omega, fun h0 => by omega⟩, fun e he => ?_⟩
            rcases List.mem_append.1 he with he | he
            · exact hw.2 e he
            · simp at he; subst he; exact hx) hi' h
        refine ⟨h1, fun σ => ?_⟩
        rw [h2 σ]; simp [app_assoc, itemsSem, Item.sem]

end Geouned
