import Verif.Bool.Lemmas2
/-! Helper lemmas: surfaces, `factorize`, `simplify`. -/
namespace Geouned

/-! ### surfaces -/

theorem OccursL_iff (v : Nat) (es : List Seq) : Seq.OccursL v es ↔ ∃ e ∈ es, e.Occurs v := by
  induction es with
  | nil => simp [Seq.OccursL]
  | cons e es ih => simp [Seq.OccursL, ih]

@[simp] theorem occ_lst (v : Nat) (op : Op) (l : Int) (es : List Seq) :
    (Seq.lst op l es).Occurs v ↔ ∃ e ∈ es, e.Occurs v := by
  simp [Seq.Occurs, OccursL_iff]
@[simp] theorem occ_boo (v : Nat) (op : Op) (l : Int) (b : Bool) : ¬ (Seq.boo op l b).Occurs v := by
  simp [Seq.Occurs]
@[simp] theorem occ_int (v : Nat) (n : Int) : (Seq.int n).Occurs v ↔ n.natAbs = v := by
  simp [Seq.Occurs]

mutual
theorem mem_surfaces (v : Nat) : ∀ s : Seq, v ∈ s.surfaces ↔ s.Occurs v
  | .int n => by simp [Seq.surfaces, eq_comm]
  | .boo _ _ _ => by simp [Seq.surfaces]
  | .lst op l es => by
    simp only [Seq.surfaces, Seq.Occurs]
    exact mem_surfacesL v es
theorem mem_surfacesL (v : Nat) : ∀ es : List Seq, v ∈ Seq.surfacesL es ↔ Seq.OccursL v es
  | [] => by simp [Seq.surfacesL, Seq.OccursL]
  | e :: es => by
    simp only [Seq.surfacesL, Seq.OccursL, List.mem_append]
    rw [mem_surfaces v e, mem_surfacesL v es]
end

mutual
theorem sem_support {σ τ : Side} : ∀ s : Seq, (∀ v, s.Occurs v → σ v = τ v) → s.sem σ = s.sem τ
  | .int n, h => by
    have := h n.natAbs (by simp)
    simp [lit, this]
  | .boo _ _ _, _ => by simp
  | .lst op l es, h => by
    simp only [sem_lst]
    exact semL_support op es (fun v hv => h v (by simpa [Seq.Occurs] using hv))
theorem semL_support {σ τ : Side} (op : Op) : ∀ es : List Seq, (∀ v, Seq.OccursL v es → σ v = τ v) →
    semL op σ es = semL op τ es
  | [], _ => rfl
  | e :: es, h => by
    simp only [semL_cons]
    rw [sem_support e (fun v hv => h v (by simp [Seq.OccursL, hv])),
      semL_support op es (fun v hv => h v (by simp [Seq.OccursL, hv]))]
end

mutual
theorem occ_ne_zero {v : Nat} : ∀ s : Seq, s.WF → s.Occurs v → v ≠ 0
  | .int n, hw, h => by
    simp only [WF_int] at hw
    simp only [occ_int] at h
    omega
  | .boo _ _ _, _, h => by simp at h
  | .lst op l es, hw, h => occL_ne_zero es ((WF_lst _ _ _).1 hw).2 (by simpa [Seq.Occurs] using h)
theorem occL_ne_zero {v : Nat} : ∀ es : List Seq, (∀ e ∈ es, e.WF) → Seq.OccursL v es → v ≠ 0
  | [], _, h => by simp [Seq.OccursL] at h
  | e :: es, hw, h => by
    simp only [Seq.OccursL] at h
    rcases h with h | h
    · exact occ_ne_zero e (hw e (by simp)) h
    · exact occL_ne_zero es (fun x hx => hw x (by simp [hx])) h
end

/-! no operation invents surfaces -/

theorem cleanEnd_occ {op : Op} {l : Int} {es : List Seq} {v : Nat}
    (h : (cleanEnd op l (cleanLoop op es)).Occurs v) : ∃ e ∈ es, e.Occurs v := by
  have hs := cleanLoop_spec op es
  cases hc : cleanLoop op es with
  | inl b => rw [hc] at h; simp [cleanEnd] at h
  | inr es' =>
    rw [hc] at hs h
    cases es' with
    | nil => simp [cleanEnd] at h
    | cons x xs =>
      simp only [cleanEnd, occ_lst] at h
      obtain ⟨e, he, h⟩ := h
      exact ⟨e, hs.1 e he, h⟩

theorem cleanSelf_occ {s : Seq} {v : Nat} (h : s.cleanSelf.Occurs v) : s.Occurs v := by
  cases s with
  | int n => exact h
  | boo op l b => exact h
  | lst op l es => simpa using cleanEnd_occ h

mutual
theorem levelUpdate_occ (v : Nat) : ∀ s : Seq, s.levelUpdate.Occurs v ↔ s.Occurs v
  | .int n => by simp [Seq.levelUpdate]
  | .boo _ _ _ => by simp [Seq.levelUpdate]
  | .lst op l es => by
    simp only [Seq.levelUpdate, occ_lst]
    exact levelUpdateL_occ v es
theorem levelUpdateL_occ (v : Nat) : ∀ es : List Seq,
    (∃ e ∈ (Seq.levelUpdateL es).2, e.Occurs v) ↔ ∃ e ∈ es, e.Occurs v
  | [] => by simp [Seq.levelUpdateL]
  | .int n :: es => by simp [Seq.levelUpdateL]; rw [levelUpdateL_occ v es]
  | .boo o l b :: es => by simp [Seq.levelUpdateL]; rw [levelUpdateL_occ v es]
  | .lst o l xs :: es => by
    simp only [Seq.levelUpdateL, List.mem_cons, exists_eq_or_imp]
    rw [levelUpdateL_occ v es, levelUpdate_occ v (.lst o l xs)]
end

theorem groupLoop_occ {v : Nat} : ∀ (k : Nat) (rest kept group : List Seq) (r : List Seq × List Seq),
    groupLoop k rest kept group = .ok r → (∃ e ∈ r.1 ++ r.2, e.Occurs v) →
    ∃ e ∈ rest ++ kept ++ group, e.Occurs v := by
  intro k
  induction k with
  | zero =>
    intro rest kept group r h he
    simp [groupLoop] at h; subst h
    obtain ⟨e, he, h⟩ := he
    exact ⟨e, by simp at he ⊢; rcases he with he | he <;> simp [he], h⟩
  | succ k ih =>
    intro rest kept group r h he
    cases rest with
    | nil =>
      simp [groupLoop] at h; subst h
      simpa using he
    | cons x rest =>
      cases x with
      | int n =>
        simp only [groupLoop] at h
        obtain ⟨e, h1, h2⟩ := ih _ _ _ _ h he
        have hm : ∀ y ∈ removeInt n rest, y ∈ Seq.int n :: rest := fun y hy =>
          (removeInt_perm n rest).mem_iff.1 (List.mem_cons_of_mem _ hy)
        refine ⟨e, ?_, h2⟩
        simp only [List.mem_append, List.mem_cons, List.not_mem_nil, or_false] at h1 ⊢
        rcases h1 with (h1 | h1) | (h1 | h1)
        · have := hm e h1
          simp only [List.mem_cons] at this
          rcases this with h | h
          · exact .inl (.inl (.inl h))
          · exact .inl (.inl (.inr h))
        · exact .inl (.inr h1)
        · exact .inr h1
        · exact .inl (.inl (.inl h1))
      | boo o l b =>
        simp only [groupLoop] at h
        split at h
        · simp at h
        · obtain ⟨e, h1, h2⟩ := ih _ _ _ _ h he
          refine ⟨e, ?_, h2⟩
          simp only [List.mem_append, List.mem_cons] at h1 ⊢
          rcases h1 with (h1 | (h1 | h1)) | h1 <;> simp [h1]
      | lst o l xs =>
        simp only [groupLoop] at h
        split at h
        · next x =>
          obtain ⟨e, h1, h2⟩ := ih _ _ _ _ h he
          simp only [List.mem_append, List.mem_cons, List.not_mem_nil, or_false] at h1
          rcases h1 with (h1 | h1) | (h1 | h1)
          · exact ⟨e, by simp [h1], h2⟩
          · exact ⟨e, by simp [h1], h2⟩
          · exact ⟨e, by simp [h1], h2⟩
          · exact ⟨.lst o 0 [x], by simp, by simpa [h1] using h2⟩
        · obtain ⟨e, h1, h2⟩ := ih _ _ _ _ h he
          refine ⟨e, ?_, h2⟩
          simp only [List.mem_append, List.mem_cons] at h1 ⊢
          rcases h1 with (h1 | (h1 | h1)) | h1 <;> simp [h1]

theorem groupSingle_occ {s s' : Seq} {v : Nat} (h : s.groupSingle = .ok s') (ho : s'.Occurs v) : s.Occurs v := by
  cases s with
  | int n => simp [Seq.groupSingle] at h
  | boo op l b => simp [Seq.groupSingle] at h; subst h; exact ho
  | lst op l es =>
    simp only [Seq.groupSingle] at h
    split at h
    · simp at h; subst h; exact ho
    · simp only [bind_ok] at h
      obtain ⟨⟨kept, group⟩, hg, h⟩ := h
      have key := groupLoop_occ (v := v) _ _ _ _ _ hg
      have hx : ∃ e ∈ kept ++ group, e.Occurs v := by
        cases group with
        | nil =>
          simp at h; subst h; simpa using ho
        | cons g gs =>
          simp at h; subst h
          simp only [occ_lst, List.mem_cons, exists_eq_or_imp] at ho
          rcases ho with (ho | ⟨e, he, ho⟩) | ⟨e, he, ho⟩
          · exact ⟨g, by simp, ho⟩
          · exact ⟨e, by simp [he], ho⟩
          · exact ⟨e, by simp [he], ho⟩
      obtain ⟨e, he, h2⟩ := key hx
      simp at he
      simp only [occ_lst]
      exact ⟨e, he, h2⟩

theorem check0_occ {s : Seq} {v : Nat} (h : s.check0.Occurs v) : s.Occurs v := by
  cases s with
  | int n => exact h
  | boo op l b => exact h
  | lst op l es =>
    rw [check0_lst] at h
    split at h
    · split at h
      · simpa using h
      · simp at h
    · exact h

/-- a step that invents no surface -/
def NoNew (rec : Seq → M Seq) : Prop := ∀ s s' v, rec s = .ok s' → s'.Occurs v → s.Occurs v

theorem mapM'_occ {rec : Seq → M Seq} (hrec : NoNew rec) {v : Nat} : ∀ (es es' : List Seq),
    mapM' rec es = .ok es' → (∃ e ∈ es', e.Occurs v) → ∃ e ∈ es, e.Occurs v := by
  intro es
  induction es with
  | nil => intro es' h; simp [mapM'] at h; subst h; simp
  | cons e es ih =>
    intro es' h
    simp only [mapM', bind_ok] at h
    obtain ⟨e', he, xs, hx, h⟩ := h
    simp at h; subst h
    simp only [List.mem_cons, exists_eq_or_imp]
    rintro (h | h)
    · exact .inl (hrec _ _ _ he h)
    · exact .inr (ih xs hx h)

theorem concatElems_occ {v : Nat} : ∀ (es xs : List Seq), concatElems es = .ok xs →
    (∃ e ∈ xs, e.Occurs v) → ∃ e ∈ es, e.Occurs v := by
  intro es
  induction es with
  | nil => intro xs h; simp [concatElems] at h; subst h; simp
  | cons e es ih =>
    intro xs h
    simp only [concatElems, bind_ok] at h
    obtain ⟨x, hx, ys, hy, h⟩ := h
    simp at h; subst h
    simp only [List.mem_append, List.mem_cons, exists_eq_or_imp]
    rintro ⟨y, hy' | hy', ho⟩
    · left
      cases e with
      | int n => simp [Seq.elemsOf] at hx
      | boo o l b => simp [Seq.elemsOf] at hx
      | lst o l es' => simp [Seq.elemsOf] at hx; subst hx; simp only [occ_lst]; exact ⟨y, hy', ho⟩
    · right; exact ih ys hy ⟨y, hy', ho⟩

theorem mergeSame_occ {op : Op} {l : Int} {same others : List Seq} {s' : Seq} {v : Nat}
    (h : mergeSame op l same others = .ok s') (ho : s'.Occurs v) :
    ∃ e ∈ same ++ others, e.Occurs v := by
  simp only [mergeSame, bind_ok] at h
  obtain ⟨xs, hxs, h⟩ := h
  simp at h; subst h
  simp only [occ_lst, List.mem_append, List.mem_singleton] at ho
  obtain ⟨e, he | he, ho⟩ := ho
  · exact ⟨e, by simp [he], ho⟩
  · subst he
    rw [levelUpdate_occ] at ho
    simp only [occ_lst] at ho
    obtain ⟨e, he, ho⟩ := concatElems_occ same xs hxs ho
    exact ⟨e, by simp [he], ho⟩

theorem joinMerge_occ {op : Op} {l : Int} {es : List Seq} {s' : Seq} {v : Nat}
    (h : joinMerge op l es = .ok s') (ho : s'.Occurs v) : ∃ e ∈ es, e.Occurs v := by
  simp only [joinMerge, bind_ok] at h
  obtain ⟨⟨ands, ors⟩, hs, h⟩ := h
  obtain ⟨hp, -, -⟩ := splitOps_spec es _ hs
  have mem : ∀ e, e ∈ ands ∨ e ∈ ors → e ∈ es := fun e he => hp.mem_iff.1 (by simpa using he)
  cases op with
  | and =>
    simp only at h
    split at h
    · obtain ⟨e, he, ho⟩ := mergeSame_occ h ho
      exact ⟨e, mem e (by simpa using he), ho⟩
    · simp at h; subst h; simpa using ho
  | or =>
    simp only at h
    split at h
    · obtain ⟨e, he, ho⟩ := mergeSame_occ h ho
      exact ⟨e, mem e (by simpa [or_comm] using he), ho⟩
    · simp at h; subst h; simpa using ho

theorem joinUnwrap_occ {rec : Seq → M Seq} (hrec : NoNew rec) : NoNew (joinUnwrap rec) := by
  intro s s' v h ho
  cases s with
  | int n => simp [joinUnwrap] at h; subst h; exact ho
  | boo op l b => simp [joinUnwrap] at h; subst h; exact ho
  | lst op l es =>
    simp only [joinUnwrap] at h
    split at h
    · next e =>
      split at h
      · simp only [bind_ok] at h
        obtain ⟨op', -, xs, hx, h⟩ := h
        have := hrec _ _ _ h ho
        cases e with
        | int n => simp [Seq.elemsOf] at hx
        | boo o l' b => simp [Seq.elemsOf] at hx
        | lst o l' ys =>
          simp [Seq.elemsOf] at hx; subst hx
          simpa using this
      · simp at h; subst h; exact ho
    · simp at h; subst h; exact ho

theorem joinEnd_occ {rec : Seq → M Seq} (hrec : NoNew rec) {sl : Bool} : NoNew (joinEnd rec sl) := by
  intro s s' v h ho
  unfold joinEnd at h
  split at h
  · simp at h; subst h; exact check0_occ ho
  · split at h
    · simp at h; subst h; exact ho
    · cases s with
      | lst op l es =>
        simp only [bind_ok] at h
        obtain ⟨es', he, h⟩ := h
        simp at h; subst h
        simp only [occ_lst] at ho ⊢
        exact mapM'_occ hrec es es' he ho
      | int n => simp at h; subst h; exact ho
      | boo o l b => simp at h; subst h; exact ho

theorem joinOps_occ : ∀ (f : Nat) (sl : Bool), NoNew (Seq.joinOps f sl) := by
  intro f
  induction f with
  | zero => intro sl s s' v h; simp [Seq.joinOps] at h
  | succ f ih =>
    intro sl s s' v h ho
    cases s with
    | int n => simp [Seq.joinOps] at h
    | boo op l b => simp [Seq.joinOps] at h; subst h; exact ho
    | lst op l es =>
      simp only [Seq.joinOps] at h
      split at h
      · simp at h; subst h
        rw [levelUpdate_occ] at ho
        exact cleanSelf_occ ho
      · simp only [bind_ok] at h
        obtain ⟨g, hg, h⟩ := h
        have key : g.Occurs v := by
          cases g with
          | int n => simp at h; subst h; exact ho
          | boo o l' b => simp at h; subst h; exact ho
          | lst o l' xs =>
            simp only [bind_ok] at h
            obtain ⟨m, hm, u, hu, h⟩ := h
            have h1 := joinEnd_occ (ih false) _ _ _ h ho
            have h2 := joinUnwrap_occ (ih false) _ _ _ hu h1
            simpa using joinMerge_occ hm h2
        have := groupSingle_occ hg key
        rw [levelUpdate_occ] at this
        exact cleanSelf_occ this

theorem substLoop_occ {rec : Seq → M Seq} {op : Op} {var : Int} {b : Bool}
    (hrec : ∀ s s', rec s = .ok s' → ¬ s'.Occurs var.natAbs) :
    ∀ (es es' : List Seq), substLoop rec op var (.b b) es = .ok (.inr es') →
    ∀ e ∈ es', ¬ e.Occurs var.natAbs := by
  intro es
  induction es with
  | nil => intro es' h; simp [substLoop] at h; subst h; simp
  | cons e es ih =>
    intro es' h
    simp only [substLoop, bind_ok] at h
    obtain ⟨r1, h1, h⟩ := h
    cases r1 with
    | inl b' => simp at h
    | inr xs =>
      have ih' := ih xs h1
      cases e with
      | int n =>
        simp only at h
        split at h
        · generalize (if n = var.natAbs then b else !b) = bv at h
          split at h
          · simp at h; subst h; exact ih'
          · simp at h
        · next hn =>
          simp at h; subst h
          intro x hx; rcases List.mem_cons.1 hx with rfl | hx
          · simpa using hn
          · exact ih' x hx
      | boo o l b' =>
        simp only [bind_ok] at h
        obtain ⟨e', he', h⟩ := h
        simp at h; subst h
        intro x hx; rcases List.mem_cons.1 hx with rfl | hx
        · exact hrec _ _ he'
        · exact ih' x hx
      | lst o l ys =>
        simp only [bind_ok] at h
        obtain ⟨e', he', h⟩ := h
        simp at h; subst h
        intro x hx; rcases List.mem_cons.1 hx with rfl | hx
        · exact hrec _ _ he'
        · exact ih' x hx

theorem subst_occ {var : Int} {b : Bool} : ∀ (f : Nat) (s s' : Seq), Seq.subst f var (.b b) s = .ok s' →
    ¬ s'.Occurs var.natAbs := by
  intro f
  induction f with
  | zero => intro s s' h; simp [Seq.subst] at h
  | succ f ih =>
    intro s s' h
    cases s with
    | int n => simp [Seq.subst] at h
    | boo op l b => simp [Seq.subst] at h; subst h; simp
    | lst op l es =>
      simp only [Seq.subst, bind_ok] at h
      obtain ⟨r, hr, h⟩ := h
      cases r with
      | inl b' => simp at h; subst h; simp
      | inr es' =>
        have key := substLoop_occ ih es es' hr
        cases es' with
        | nil => simp at h; subst h; simp
        | cons x xs =>
          simp only at h
          intro ho
          have h1 := cleanSelf_occ (check0_occ (joinOps_occ f true _ _ _ h ho))
          simp only [occ_lst] at h1
          obtain ⟨e, he, h1⟩ := h1
          exact key e he h1

/-! ### factorize -/

theorem append_spec {op : Op} {l : Int} {es : List Seq} {items : List Item} {s' : Seq}
    (hw : (Seq.lst op l es).WF) (hi : ∀ i ∈ items, i.WF) (h : (Seq.lst op l es).append items = .ok s') :
    s'.WF ∧ ∀ σ, s'.sem σ = op.app (semL op σ es) (itemsSem op σ items) := by
  simp only [Seq.append] at h
  exact appendLoop_spec op items l es s' hw hi h

theorem empty_WF (op : Op) : (Seq.lst op 0 []).WF := by
  rw [WF_lst]; simp [AllInt]

theorem single_WF (op : Op) {n : Int} (h : n ≠ 0) : (Seq.lst op 0 [.int n]).WF := by
  rw [WF_lst]; simp [AllInt, h]

theorem lit_nat (σ : Side) (v : Nat) : lit σ v = σ v := by
  unfold lit; simp

theorem pairSeq_spec {op : Op} {f : Nat} {n : Int} {s x y : Seq} (hn : n ≠ 0) (hs : s.WF)
    (h1 : (Seq.lst op 0 []).append [.int n, .seq s] = .ok x) (h2 : x.joinOps f true = .ok y) :
    y.WF ∧ ∀ σ, y.sem σ = op.app (lit σ n) (s.sem σ) := by
  obtain ⟨a1, a2⟩ := append_spec (empty_WF op) (by
    intro i hi
    simp at hi
    rcases hi with rfl | rfl
    · exact hn
    · exact hs) h1
  obtain ⟨b1, b2⟩ := joinOps_spec f true _ _ a1 h2
  refine ⟨b1, fun σ => ?_⟩
  rw [b2, a2]; simp [itemsSem, Item.sem]

theorem newSeqOf_spec {f v : Nat} {t e : Ev} {new : Seq} (hv : v ≠ 0) (ht : t.WF) (he : e.WF)
    (h : newSeqOf f v t e = .ok (some new)) :
    new.WF ∧ ∀ σ, new.sem σ = if σ v then t.sem σ else e.sem σ := by
  have hv' : (v : Int) ≠ 0 := by omega
  have hv'' : (-(v : Int)) ≠ 0 := by omega
  have lneg : ∀ σ, lit σ (-(v : Int)) = !σ v := fun σ => by rw [lit_neg σ hv', lit_nat]
  cases t with
  | bool tb =>
    cases tb with
    | false =>
      cases e with
      | bool eb =>
        cases eb with
        | true =>
          simp [newSeqOf] at h; subst h
          refine ⟨single_WF _ hv'', fun σ => ?_⟩
          simp [lneg, Ev.sem]
        | false =>
          simp [newSeqOf] at h; subst h
          exact ⟨by simp, fun σ => by simp [Ev.sem]⟩
      | seq s =>
        simp only [newSeqOf, bind_ok] at h
        obtain ⟨x, hx, y, hy, h⟩ := h
        simp at h; subst h
        obtain ⟨a1, a2⟩ := pairSeq_spec hv'' he hx hy
        refine ⟨a1, fun σ => ?_⟩
        rw [a2, lneg]; cases σ v <;> simp [Op.app, Ev.sem]
    | true =>
      cases e with
      | bool eb =>
        cases eb with
        | true =>
          simp [newSeqOf] at h; subst h
          exact ⟨by simp, fun σ => by simp [Ev.sem]⟩
        | false =>
          simp [newSeqOf] at h; subst h
          refine ⟨single_WF _ hv', fun σ => ?_⟩
          simp [lit_nat, Ev.sem]
      | seq s =>
        simp only [newSeqOf, bind_ok] at h
        obtain ⟨x, hx, y, hy, h⟩ := h
        simp at h; subst h
        obtain ⟨a1, a2⟩ := pairSeq_spec hv' he hx hy
        refine ⟨a1, fun σ => ?_⟩
        rw [a2, lit_nat]; cases σ v <;> simp [Op.app, Ev.sem]
  | seq s =>
    cases e with
    | bool eb =>
      cases eb with
      | true =>
        simp only [newSeqOf, bind_ok] at h
        obtain ⟨x, hx, y, hy, h⟩ := h
        simp at h; subst h
        obtain ⟨a1, a2⟩ := pairSeq_spec hv'' ht hx hy
        refine ⟨a1, fun σ => ?_⟩
        rw [a2, lneg]; cases σ v <;> simp [Op.app, Ev.sem]
      | false =>
        simp only [newSeqOf, bind_ok] at h
        obtain ⟨x, hx, y, hy, h⟩ := h
        simp at h; subst h
        obtain ⟨a1, a2⟩ := pairSeq_spec hv' ht hx hy
        refine ⟨a1, fun σ => ?_⟩
        rw [a2, lit_nat]; cases σ v <;> simp [Op.app, Ev.sem]
    | seq s2 => simp [newSeqOf] at h

theorem delAt_lt {idx : List Nat} {j : Nat} : ∀ (es : List Seq) (i : Nat), j < i →
    delAt (j :: idx) i es = delAt idx i es := by
  intro es
  induction es with
  | nil => intro i _; rfl
  | cons e es ih =>
    intro i hj
    have : ((j :: idx).contains i) = idx.contains i := by
      simp only [List.contains_cons]
      have : (i == j) = false := by simp; omega
      simp [this]
    simp only [delAt, this, ih (i + 1) (by omega)]

theorem involved_ge {vals : List Nat} : ∀ (es : List Seq) (i : Nat) (ps : List Nat) (xs : List Seq),
    involved vals i es = .ok (ps, xs) → ∀ p ∈ ps, i ≤ p := by
  intro es
  induction es with
  | nil => intro i ps xs h; simp [involved] at h; obtain ⟨rfl, rfl⟩ := h; simp
  | cons e es ih =>
    intro i ps xs h
    cases e with
    | int n => simp [involved] at h
    | boo o l b =>
      simp only [involved, bind_ok] at h
      obtain ⟨⟨ps', xs'⟩, h1, h⟩ := h
      have := ih (i + 1) ps' xs' h1
      simp only at h
      split at h
      · simp at h; obtain ⟨rfl, rfl⟩ := h
        intro p hp; rcases List.mem_cons.1 hp with rfl | hp
        · omega
        · have := this p hp; omega
      · simp at h; obtain ⟨rfl, rfl⟩ := h
        intro p hp; have := this p hp; omega
    | lst o l ys =>
      simp only [involved, bind_ok] at h
      obtain ⟨⟨ps', xs'⟩, h1, h⟩ := h
      have := ih (i + 1) ps' xs' h1
      simp only at h
      split at h
      · simp at h; obtain ⟨rfl, rfl⟩ := h
        intro p hp; rcases List.mem_cons.1 hp with rfl | hp
        · omega
        · have := this p hp; omega
      · simp at h; obtain ⟨rfl, rfl⟩ := h
        intro p hp; have := this p hp; omega

theorem involved_step {vals : List Nat} {e : Seq} {es : List Seq} {i : Nat} {ps : List Nat} {xs : List Seq}
    (h : involved vals i (e :: es) = .ok (ps, xs)) :
    ∃ ps' xs', involved vals (i + 1) es = .ok (ps', xs') ∧
      ((ps = i :: ps' ∧ xs = e :: xs') ∨ (ps = ps' ∧ xs = xs')) := by
  cases e with
  | int n => simp [involved] at h
  | boo o l b =>
    simp only [involved, bind_ok] at h
    obtain ⟨⟨ps', xs'⟩, h1, h⟩ := h
    refine ⟨ps', xs', h1, ?_⟩
    simp only at h
    split at h
    · simp at h; exact .inl ⟨h.1.symm, h.2.symm⟩
    · simp at h; exact .inr ⟨h.1.symm, h.2.symm⟩
  | lst o l ys =>
    simp only [involved, bind_ok] at h
    obtain ⟨⟨ps', xs'⟩, h1, h⟩ := h
    refine ⟨ps', xs', h1, ?_⟩
    simp only at h
    split at h
    · simp at h; exact .inl ⟨h.1.symm, h.2.symm⟩
    · simp at h; exact .inr ⟨h.1.symm, h.2.symm⟩

theorem involved_perm {vals : List Nat} : ∀ (es : List Seq) (i : Nat) (ps : List Nat) (xs : List Seq),
    involved vals i es = .ok (ps, xs) → (delAt ps i es ++ xs).Perm es := by
  intro es
  induction es with
  | nil => intro i ps xs h; simp [involved] at h; obtain ⟨rfl, rfl⟩ := h; simp [delAt]
  | cons e es ih =>
    intro i ps xs h
    obtain ⟨ps', xs', h1, h2⟩ := involved_step h
    have ih' := ih (i + 1) ps' xs' h1
    have hge := involved_ge es (i + 1) ps' xs' h1
    rcases h2 with ⟨rfl, rfl⟩ | ⟨rfl, rfl⟩
    · simp only [delAt, List.contains_cons, beq_self_eq_true, Bool.true_or, if_true]
      rw [delAt_lt es (i + 1) (by omega)]
      exact List.perm_middle.trans (List.Perm.cons _ ih')
    · have hni : (ps.contains i) = false := by
        by_cases hc : ps.contains i
        · have := hge i (by simpa using hc); omega
        · simpa using hc
      simp only [delAt, hni]
      exact List.Perm.cons _ ih'

theorem involved_single {vals : List Nat} : ∀ (es : List Seq) (i p : Nat) (e : Seq),
    involved vals i es = .ok ([p], [e]) → i ≤ p ∧ es[p - i]? = some e := by
  intro es
  induction es with
  | nil => intro i p e h; simp [involved] at h
  | cons x es ih =>
    intro i p e h
    obtain ⟨ps', xs', h1, h2⟩ := involved_step h
    rcases h2 with ⟨h3, h4⟩ | ⟨rfl, rfl⟩
    · simp at h3 h4
      obtain ⟨rfl, -⟩ := h3
      obtain ⟨rfl, -⟩ := h4
      simp
    · obtain ⟨h3, h4⟩ := ih (i + 1) p e h1
      refine ⟨by omega, ?_⟩
      have : p - i = (p - (i + 1)) + 1 := by omega
      rw [this, List.getElem?_cons_succ]; exact h4

theorem involved_lengths {vals : List Nat} : ∀ (es : List Seq) (i : Nat) (ps : List Nat) (xs : List Seq),
    involved vals i es = .ok (ps, xs) → ps.length = xs.length := by
  intro es
  induction es with
  | nil => intro i ps xs h; simp [involved] at h; obtain ⟨rfl, rfl⟩ := h; simp
  | cons x es ih =>
    intro i ps xs h
    obtain ⟨ps', xs', h1, h2⟩ := involved_step h
    have := ih _ _ _ h1
    rcases h2 with ⟨rfl, rfl⟩ | ⟨rfl, rfl⟩ <;> simp [this]

theorem involved_nonint {vals : List Nat} : ∀ (es : List Seq) (i : Nat) (ps : List Nat) (xs : List Seq),
    involved vals i es = .ok (ps, xs) → ∀ e ∈ es, ∀ n, e ≠ .int n := by
  intro es
  induction es with
  | nil => intro i ps xs h; simp
  | cons x es ih =>
    intro i ps xs h
    obtain ⟨ps', xs', h1, -⟩ := involved_step h
    intro e he n hn
    rcases List.mem_cons.1 he with rfl | he
    · subst hn; simp [involved] at h
    · exact ih _ _ _ h1 e he n hn

theorem levOfElems_pos {xs : List Seq} (hw : ∀ e ∈ xs, e.WF) (hn : ∀ e ∈ xs, ∀ n, e ≠ .int n)
    (hb : ∀ e ∈ xs, ∀ o l b, e ≠ .boo o l b) : 0 ≤ levOfElems xs ∧ (levOfElems xs = 0 → xs = []) := by
  induction xs with
  | nil => simp [levOfElems]
  | cons x xs ih =>
    have ih' := ih (fun e he => hw e (by simp [he])) (fun e he => hn e (by simp [he])) (fun e he => hb e (by simp [he]))
    cases x with
    | int n => exact absurd rfl (hn _ (by simp) n)
    | boo o l b => exact absurd rfl (hb _ (by simp) o l b)
    | lst o l ys =>
      have := ((WF_lst _ _ _).1 (hw _ (by simp : Seq.lst o l ys ∈ Seq.lst o l ys :: xs))).1.1
      simp only [levOfElems, Seq.levOf]
      constructor
      · omega
      · intro h; omega

/-- elements selected by `involved` mention a surface, so they are not bare booleans -/
theorem involved_nonboo {vals : List Nat} : ∀ (es : List Seq) (i : Nat) (ps : List Nat) (xs : List Seq),
    involved vals i es = .ok (ps, xs) → ∀ e ∈ xs, ∀ o l b, e ≠ .boo o l b := by
  intro es
  induction es with
  | nil => intro i ps xs h; simp [involved] at h; obtain ⟨rfl, rfl⟩ := h; simp
  | cons x es ih =>
    intro i ps xs h
    cases x with
    | int n => simp [involved] at h
    | boo o l b =>
      simp only [involved, bind_ok] at h
      obtain ⟨⟨ps', xs'⟩, h1, h⟩ := h
      simp [Seq.surfaces] at h
      obtain ⟨rfl, rfl⟩ := h
      exact ih _ _ _ h1
    | lst o l ys =>
      simp only [involved, bind_ok] at h
      obtain ⟨⟨ps', xs'⟩, h1, h⟩ := h
      have ih' := ih _ _ _ h1
      simp only at h
      split at h
      · simp at h
        obtain ⟨rfl, rfl⟩ := h
        intro e he; rcases List.mem_cons.1 he with rfl | he
        · simp
        · exact ih' e he
      · simp at h
        obtain ⟨rfl, rfl⟩ := h
        exact ih'

theorem updateBase_spec {vals : List Nat} {op : Op} {l : Int} {es : List Seq} {ps : List Nat} {xs : List Seq}
    {f : Nat} {new s' : Seq} (hw : (Seq.lst op l es).WF) (hnew : new.WF)
    (hi : involved vals 0 es = .ok (ps, xs)) (h : updateBase true f new ps (.lst op l es) = .ok s') :
    s'.WF ∧ ∀ σ, new.sem σ = semL op σ xs → s'.sem σ = semL op σ es := by
  have hp := involved_perm es 0 ps xs hi
  have hsem : ∀ σ, semL op σ es = op.app (semL op σ (delAt ps 0 es)) (semL op σ xs) := by
    intro σ; rw [← semL_append]; exact (semL_perm hp).symm
  have hmem : ∀ e ∈ delAt ps 0 es, e ∈ es := fun e he => hp.mem_iff.1 (by simp [he])
  have hw' := (WF_lst _ _ _).1 hw
  have hwrest : (Seq.lst op l (delAt ps 0 es)).WF := by
    rw [WF_lst]
    exact ⟨⟨hw'.1.1, fun h0 e he => hw'.1.2 h0 e (hmem e he)⟩, fun e he => hw'.2 e (hmem e he)⟩
  have main : ∀ (x y : Seq), (Seq.lst op l (delAt ps 0 es)).append [.seq new] = .ok x →
      Seq.joinOps f false x = .ok y →
      y.WF ∧ ∀ σ, new.sem σ = semL op σ xs → y.sem σ = semL op σ es := by
    intro x y hx hy
    obtain ⟨a1, a2⟩ := append_spec hwrest (by intro i hi; simp at hi; subst hi; exact hnew) hx
    obtain ⟨b1, b2⟩ := joinOps_spec f false _ _ a1 hy
    refine ⟨b1, fun σ hσ => ?_⟩
    rw [b2, a2, hsem]
    simp [itemsSem, Item.sem, hσ]
  cases new with
  | boo o l' b =>
    simp only [updateBase] at h
    split at h
    · simp at h
    · next hc =>
      simp at h; subst h
      refine ⟨by simp, fun σ hσ => ?_⟩
      simp only [sem_boo] at hσ ⊢
      rw [hsem, ← hσ]
      by_cases hb : b = op.neutral
      · have : delAt ps 0 es = [] := by
          simpa [hb] using hc
        simp [this, hb]
      · rw [ne_neutral hb]; simp
  | int n =>
    simp only [updateBase, bind_ok] at h
    obtain ⟨x, hx, h⟩ := h
    exact main x s' hx h
  | lst o l' ys =>
    simp only [updateBase, bind_ok] at h
    obtain ⟨x, hx, h⟩ := h
    exact main x s' hx h

theorem semL_set {op : Op} {σ : Side} {es : List Seq} {p : Nat} {e e' : Seq} (hp : es[p]? = some e)
    (h : e'.sem σ = e.sem σ) : semL op σ (es.set p e') = semL op σ es := by
  induction es generalizing p with
  | nil => simp at hp
  | cons x es ih =>
    cases p with
    | zero => simp at hp; subst hp; simp [h]
    | succ p => simp at hp; simp [ih hp]

theorem mem_set_cases {es : List Seq} {p : Nat} {e' x : Seq} (h : x ∈ es.set p e') : x = e' ∨ x ∈ es := by
  rcases List.mem_or_eq_of_mem_set h with h | h
  · exact .inr h
  · exact .inl h

theorem subSeq_spec : ∀ (f : Nat) (vals : List Nat) (s sub : Seq) (path idx : List Nat), s.WF →
    Seq.subSeq f vals s = .ok (some (path, idx), sub) →
    sub.WF ∧ ∀ (g : Nat) (new s' : Seq), new.WF → updatePath true g new idx path s = .ok s' →
      s'.WF ∧ ∀ σ, new.sem σ = sub.sem σ → s'.sem σ = s.sem σ := by
  intro f
  induction f with
  | zero => intro vals s sub path idx _ h; simp [Seq.subSeq] at h
  | succ f ih =>
    intro vals s sub path idx hw h
    cases s with
    | int n => simp [Seq.subSeq] at h
    | boo op l b => simp only [Seq.subSeq] at h; split at h <;> simp at h
    | lst op l es =>
      simp only [Seq.subSeq] at h
      split at h
      · simp at h
      · next h0 =>
        simp only [bind_ok] at h
        obtain ⟨⟨ps, xs⟩, hi, h⟩ := h
        have hw' := (WF_lst _ _ _).1 hw
        have hp := involved_perm es 0 ps xs hi
        have hmx : ∀ e ∈ xs, e ∈ es := fun e he => hp.mem_iff.1 (by simp [he])
        have flat : (Except.ok (some ([], ps), Seq.lst op (levOfElems xs) xs) : M _) = .ok (some (path, idx), sub) →
            sub.WF ∧ ∀ (g : Nat) (new s' : Seq), new.WF → updatePath true g new idx path (.lst op l es) = .ok s' →
            s'.WF ∧ ∀ σ, new.sem σ = sub.sem σ → s'.sem σ = (Seq.lst op l es).sem σ := by
          intro h
          simp at h
          obtain ⟨⟨rfl, rfl⟩, rfl⟩ := h
          constructor
          · obtain ⟨q1, q2⟩ := levOfElems_pos (fun e he => hw'.2 e (hmx e he))
              (fun e he => involved_nonint es 0 ps xs hi e (hmx e he)) (involved_nonboo es 0 ps xs hi)
            rw [WF_lst]
            exact ⟨⟨q1, fun hh => by rw [q2 hh]; simp [AllInt]⟩, fun e he => hw'.2 e (hmx e he)⟩
          · intro g new s' hnew hu
            simp only [updatePath] at hu
            obtain ⟨u1, u2⟩ := updateBase_spec hw hnew hi hu
            exact ⟨u1, fun σ hσ => by rw [sem_lst]; exact u2 σ (by simpa using hσ)⟩
        simp only at h
        split at h
        · next p e =>
          split at h
          · simp only [bind_ok] at h
            obtain ⟨⟨pos, sb⟩, hr, h⟩ := h
            cases pos with
            | none => simp at h
            | some pi =>
              obtain ⟨path', idx'⟩ := pi
              simp at h
              obtain ⟨⟨rfl, rfl⟩, rfl⟩ := h
              obtain ⟨-, hget⟩ := involved_single es 0 p e hi
              simp only [Nat.sub_zero] at hget
              have hee : e ∈ es := List.mem_of_getElem? hget
              obtain ⟨i1, i2⟩ := ih vals e sb path' idx' (hw'.2 e hee) hr
              refine ⟨i1, ?_⟩
              intro g new s' hnew hu
              simp only [updatePath, hget, bind_ok] at hu
              obtain ⟨e', he', hu⟩ := hu
              simp at hu; subst hu
              obtain ⟨j1, j2⟩ := i2 g new e' hnew he'
              constructor
              · rw [WF_lst]
                refine ⟨⟨hw'.1.1, fun hh => absurd hh h0⟩, ?_⟩
                intro x hx
                rcases mem_set_cases hx with rfl | hx
                · exact j1
                · exact hw'.2 x hx
              · intro σ hσ
                simp only [sem_lst]
                exact semL_set hget (j2 σ hσ)
          · exact flat h
        · exact flat h

theorem assignEv_spec {self s' : Seq} {r : Ev} (hr : r.WF) (h : self.assignEv r = .ok s') :
    s'.WF ∧ ∀ σ, s'.sem σ = r.sem σ := by
  cases r with
  | bool b =>
    simp only [Seq.assignEv, bind_ok] at h
    obtain ⟨op, -, h⟩ := h
    simp at h; subst h
    exact ⟨by simp, fun σ => by simp [Ev.sem]⟩
  | seq s =>
    simp [Seq.assignEv] at h; subst h
    exact ⟨hr, fun σ => rfl⟩

/-- helper: a sequence equal to the `ite` of its two cofactors at consistent points -/
theorem cofactor_eq {σ : Side} {v : Nat} {ts fs : Vals} {t e : Ev} {x : Bool}
    (hc : Consistent σ v (some ts) (some fs))
    (ht : Agrees σ ts → t.sem σ = x) (he : Agrees σ fs → e.sem σ = x) :
    (if σ v then t.sem σ else e.sem σ) = x := by
  by_cases hv : σ v = true
  · obtain ⟨vs, h1, h2⟩ := hc.1 hv
    simp at h1; subst h1
    simp [hv, ht h2]
  · have hv' : σ v = false := by simpa using hv
    obtain ⟨vs, h1, h2⟩ := hc.2 hv'
    simp at h1; subst h1
    simp [hv', he h2]

theorem factorize_spec {f v : Nat} {ts fs : Option Vals} {s s' : Seq} (hv : v ≠ 0) (hw : s.WF)
    (h : s.factorize true f v ts fs = .ok s') :
    s'.WF ∧ ∀ σ, Consistent σ v ts fs → s'.sem σ = s.sem σ := by
  cases ts with
  | none =>
    cases fs with
    | none => simp [Seq.factorize] at h
    | some fs =>
      simp only [Seq.factorize, bind_ok] at h
      obtain ⟨⟨s1, r⟩, h1, h⟩ := h
      obtain ⟨a1, a2, a3, a4⟩ := evaluate_spec hw h1
      obtain ⟨b1, b2⟩ := assignEv_spec a2 h
      refine ⟨b1, fun σ hc => ?_⟩
      rw [b2]
      apply a4
      cases hsv : σ v with
      | true => obtain ⟨vs, h1, -⟩ := hc.1 hsv; simp at h1
      | false => obtain ⟨vs, h1, h2⟩ := hc.2 hsv; simp at h1; subst h1; exact h2
  | some ts =>
    cases fs with
    | none =>
      simp only [Seq.factorize, bind_ok] at h
      obtain ⟨⟨s1, r⟩, h1, h⟩ := h
      obtain ⟨a1, a2, a3, a4⟩ := evaluate_spec hw h1
      obtain ⟨b1, b2⟩ := assignEv_spec a2 h
      refine ⟨b1, fun σ hc => ?_⟩
      rw [b2]
      apply a4
      cases hsv : σ v with
      | false => obtain ⟨vs, h1, -⟩ := hc.2 hsv; simp at h1
      | true => obtain ⟨vs, h1, h2⟩ := hc.1 hsv; simp at h1; subst h1; exact h2
    | some fs =>
      simp only [Seq.factorize, bind_ok] at h
      obtain ⟨⟨pos, sub⟩, hsub, h⟩ := h
      cases pos with
      | none =>
        simp only [bind_ok] at h
        obtain ⟨⟨s1, t⟩, h1, ⟨s2, e⟩, h2, n, hn, h⟩ := h
        obtain ⟨a1, a2, a3, a4⟩ := evaluate_spec hw h1
        obtain ⟨b1, b2, b3, b4⟩ := evaluate_spec a1 h2
        cases n with
        | none =>
          simp at h; subst h
          exact ⟨b1, fun σ _ => by rw [b3, a3]⟩
        | some new =>
          simp at h; subst h
          obtain ⟨c1, c2⟩ := newSeqOf_spec hv a2 b2 hn
          refine ⟨c1, fun σ hc => ?_⟩
          rw [c2]
          exact cofactor_eq hc (a4 σ) (fun ha => by rw [b4 σ ha, a3])
      | some pos =>
        obtain ⟨path, idx⟩ := pos
        simp only [bind_ok] at h
        obtain ⟨⟨s1, t⟩, h1, ⟨s2, e⟩, h2, n, hn, h⟩ := h
        obtain ⟨w1, w2⟩ := subSeq_spec f _ s sub path idx hw hsub
        obtain ⟨a1, a2, a3, a4⟩ := evaluate_spec w1 h1
        obtain ⟨b1, b2, b3, b4⟩ := evaluate_spec a1 h2
        cases n with
        | none => simp at h; subst h; exact ⟨hw, fun σ _ => rfl⟩
        | some new =>
          obtain ⟨c1, c2⟩ := newSeqOf_spec hv a2 b2 hn
          simp only [Seq.update, bind_ok] at h
          obtain ⟨u, hu, h⟩ := h
          simp at h; subst h
          obtain ⟨d1, d2⟩ := w2 f new u c1 hu
          refine ⟨cleanSelf_WF d1, fun σ hc => ?_⟩
          rw [cleanSelf_sem]
          apply d2
          rw [c2]
          exact cofactor_eq hc (a4 σ) (fun ha => by rw [b4 σ ha, a3])

/-! ### simplify -/

theorem setsOf_consistent {ct : Option CTab} {σ : Side} {v : Nat} {a b : Option Vals} (hc : CTSound ct σ)
    (h : setsOf ct v = .ok (a, b)) : Consistent σ v a b := by
  cases ct with
  | none =>
    simp [setsOf] at h
    obtain ⟨rfl, rfl⟩ := h
    constructor
    · intro hv; refine ⟨_, rfl, ?_⟩
      intro k b hb
      simp at hb
      obtain ⟨rfl, rfl⟩ := hb; exact hv
    · intro hv; refine ⟨_, rfl, ?_⟩
      intro k b hb
      simp at hb
      obtain ⟨rfl, rfl⟩ := hb; exact hv
  | some t => exact hc t rfl v a b h

/-- a step that keeps well-formedness, and meaning at the points satisfying `P` -/
def KeepsOn (P : Side → Prop) (rec : Seq → M Seq) : Prop :=
  ∀ s s', s.WF → rec s = .ok s' → s'.WF ∧ ∀ σ, P σ → s'.sem σ = s.sem σ

theorem mapM'_on {P : Side → Prop} {rec : Seq → M Seq} (hrec : KeepsOn P rec) :
    ∀ (es es' : List Seq), (∀ e ∈ es, e.WF) → mapM' rec es = .ok es' →
    (∀ e ∈ es', e.WF) ∧ ∀ op σ, P σ → semL op σ es' = semL op σ es := by
  intro es
  induction es with
  | nil => intro es' _ h; simp [mapM'] at h; subst h; simp
  | cons e es ih =>
    intro es' hw h
    simp only [mapM', bind_ok] at h
    obtain ⟨e', he, xs, hx, h⟩ := h
    simp at h; subst h
    obtain ⟨h1, h2⟩ := hrec e e' (hw e (by simp)) he
    obtain ⟨h3, h4⟩ := ih xs (fun y hy => hw y (by simp [hy])) hx
    refine ⟨?_, fun op σ hp => by simp [h2 σ hp, h4 op σ hp]⟩
    intro y hy; rcases List.mem_cons.1 hy with rfl | hy
    · exact h1
    · exact h3 y hy

theorem simpSeqLoop_spec {f : Nat} {ct : Option CTab} : ∀ (vs names : List Nat) (s s' : Seq), s.WF →
    (∀ v ∈ names, v ≠ 0) → simpSeqLoop true f ct vs names s = .ok s' →
    s'.WF ∧ ∀ σ, CTSound ct σ → s'.sem σ = s.sem σ := by
  intro vs
  induction vs with
  | nil => intro names s s' hw _ h; simp [simpSeqLoop] at h; subst h; exact ⟨hw, fun _ _ => rfl⟩
  | cons v vs ih =>
    intro names s s' hw hn h
    simp only [simpSeqLoop] at h
    split at h
    · next hc =>
      simp only [bind_ok] at h
      obtain ⟨⟨a, b⟩, hab, d, hd, h⟩ := h
      have hv : v ≠ 0 := hn v (by simpa using hc)
      cases d with
      | false => exact ih names s s' hw hn (by simpa using h)
      | true =>
        simp only [if_true, bind_ok] at h
        obtain ⟨s1, h1, h⟩ := h
        obtain ⟨f1, f2⟩ := factorize_spec hv hw h1
        have step : ∀ σ, CTSound ct σ → s1.sem σ = s.sem σ := fun σ hs => f2 σ (setsOf_consistent hs hab)
        have hn1 : ∀ w ∈ s1.surfaces, w ≠ 0 := fun w hw' => occ_ne_zero s1 f1 ((mem_surfaces w s1).1 hw')
        cases s1 with
        | boo op l b' => simp at h; subst h; exact ⟨f1, step⟩
        | int n =>
          obtain ⟨g1, g2⟩ := ih _ _ s' f1 hn1 h
          exact ⟨g1, fun σ hs => by rw [g2 σ hs, step σ hs]⟩
        | lst op l es =>
          obtain ⟨g1, g2⟩ := ih _ _ s' f1 hn1 h
          exact ⟨g1, fun σ hs => by rw [g2 σ hs, step σ hs]⟩
    · exact ih names s s' hw hn h

theorem simpSeq_spec {enum : Seq → List Nat} {f : Nat} {ct : Option CTab} {s s' : Seq} (hw : s.WF)
    (h : s.simpSeq true enum f ct = .ok s') : s'.WF ∧ ∀ σ, CTSound ct σ → s'.sem σ = s.sem σ := by
  unfold Seq.simpSeq at h
  split at h
  · simp at h; subst h
    exact ⟨clean_WF s hw, fun σ _ => clean_sem σ s⟩
  · exact simpSeqLoop_spec _ _ s s' hw (fun w hw' => occ_ne_zero s hw ((mem_surfaces w s).1 hw')) h

theorem simpInner_spec {P : Side → Prop} {rec : Seq → M Seq} (hrec : KeepsOn P rec) {f : Nat} :
    KeepsOn P (simpInner f rec) := by
  intro s s' hw h
  cases s with
  | int n => simp [simpInner] at h
  | boo op l b =>
    simp only [simpInner] at h
    split at h
    · simp at h
    · simp at h; subst h; exact ⟨hw, fun _ _ => rfl⟩
  | lst op l es =>
    simp only [simpInner] at h
    split at h
    · next hl =>
      simp only [bind_ok] at h
      obtain ⟨es', he, s1, h1, h⟩ := h
      simp at h; subst h
      have hw' := (WF_lst _ _ _).1 hw
      obtain ⟨a1, a2⟩ := mapM'_on hrec es es' hw'.2 he
      have w1 : (Seq.lst op l es').WF := by
        rw [WF_lst]; exact ⟨⟨hw'.1.1, fun h0 => by omega⟩, a1⟩
      obtain ⟨b1, b2⟩ := joinOps_spec f false _ _ (clean_WF _ w1) h1
      refine ⟨levelUpdate_WF _ b1, fun σ hp => ?_⟩
      rw [levelUpdate_sem, b2, clean_sem, sem_lst, a2 op σ hp, sem_lst]
    · simp at h; subst h; exact ⟨hw, fun _ _ => rfl⟩

theorem simplify_spec {enum : Seq → List Nat} {ct : Option CTab} : ∀ (f depth : Nat),
    KeepsOn (CTSound ct) (Seq.simplify true enum ct f depth) := by
  intro f
  induction f with
  | zero => intro depth s s' _ h; simp [Seq.simplify] at h
  | succ f ih =>
    intro depth s s' hw h
    simp only [Seq.simplify, bind_ok] at h
    obtain ⟨s1, h1, h⟩ := h
    obtain ⟨a1, a2⟩ := simpInner_spec (ih (depth + 1)) s s1 hw h1
    cases s1 with
    | int n => simp at h; subst h; exact ⟨a1, a2⟩
    | boo op l b => simp at h; subst h; exact ⟨a1, a2⟩
    | lst op l es =>
      simp only at h
      split at h
      · simp only [bind_ok] at h
        obtain ⟨s2, h2, h⟩ := h
        obtain ⟨b1, b2⟩ := simpSeq_spec a1 h2
        split at h
        · obtain ⟨c1, c2⟩ := ih (depth + 1) s2 s' b1 h
          exact ⟨c1, fun σ hs => by rw [c2 σ hs, b2 σ hs, a2 σ hs]⟩
        · simp at h; subst h
          exact ⟨b1, fun σ hs => by rw [b2 σ hs, a2 σ hs]⟩
      · simp at h; subst h; exact ⟨a1, a2⟩

/-! ### the guarded run is a run of the code -/

theorem updateBase_guard {f : Nat} {new s s' : Seq} {idx : List Nat} (h : updateBase true f new idx s = .ok s') :
    updateBase false f new idx s = .ok s' := by
  cases s with
  | int n => simp [updateBase] at h
  | boo op l b => simp [updateBase] at h
  | lst op l es =>
    cases new with
    | int n => simpa [updateBase] using h
    | lst o l' ys => simpa [updateBase] using h
    | boo o l' b =>
      simp only [updateBase] at h ⊢
      split at h
      · simp at h
      · simpa using h

theorem updatePath_guard {f : Nat} {new : Seq} {idx : List Nat} : ∀ (path : List Nat) (s s' : Seq),
    updatePath true f new idx path s = .ok s' → updatePath false f new idx path s = .ok s' := by
  intro path
  induction path with
  | nil => intro s s' h; exact updateBase_guard h
  | cons p path ih =>
    intro s s' h
    cases s with
    | int n => simp [updatePath] at h
    | boo op l b => simp [updatePath] at h
    | lst op l es =>
      simp only [updatePath] at h ⊢
      cases hp : es[p]? with
      | none => simp [hp] at h
      | some e =>
        simp only [hp, bind_ok] at h ⊢
        obtain ⟨e', he, h⟩ := h
        exact ⟨e', ih _ _ he, h⟩

theorem factorize_guard {f v : Nat} {ts fs : Option Vals} {s s' : Seq}
    (h : s.factorize true f v ts fs = .ok s') : s.factorize false f v ts fs = .ok s' := by
  cases ts with
  | none => cases fs <;> simpa [Seq.factorize] using h
  | some ts =>
    cases fs with
    | none => simpa [Seq.factorize] using h
    | some fs =>
      simp only [Seq.factorize, bind_ok] at h ⊢
      obtain ⟨⟨pos, sub⟩, hsub, h⟩ := h
      refine ⟨_, hsub, ?_⟩
      cases pos with
      | none => simpa using h
      | some pos =>
        simp only [bind_ok] at h ⊢
        obtain ⟨⟨s1, t⟩, h1, ⟨s2, e⟩, h2, n, hn, h⟩ := h
        refine ⟨_, h1, _, h2, _, hn, ?_⟩
        cases n with
        | none => simpa using h
        | some new =>
          simp only [Seq.update, bind_ok] at h ⊢
          obtain ⟨u, hu, h⟩ := h
          exact ⟨u, updatePath_guard _ _ _ hu, h⟩

theorem simpSeqLoop_guard {f : Nat} {ct : Option CTab} : ∀ (vs names : List Nat) (s s' : Seq),
    simpSeqLoop true f ct vs names s = .ok s' → simpSeqLoop false f ct vs names s = .ok s' := by
  intro vs
  induction vs with
  | nil => intro names s s' h; simpa [simpSeqLoop] using h
  | cons v vs ih =>
    intro names s s' h
    simp only [simpSeqLoop] at h ⊢
    split at h
    · next hc =>
      rw [if_pos hc]
      simp only [bind_ok] at h ⊢
      obtain ⟨⟨a, b⟩, hab, d, hd, h⟩ := h
      refine ⟨_, hab, _, hd, ?_⟩
      cases d with
      | false => simpa using ih _ _ _ (by simpa using h)
      | true =>
        simp only [if_true, bind_ok] at h ⊢
        obtain ⟨s1, h1, h⟩ := h
        refine ⟨s1, factorize_guard h1, ?_⟩
        cases s1 with
        | boo op l b' => simpa using h
        | int n => exact ih _ _ _ h
        | lst op l es => exact ih _ _ _ h
    · next hc => rw [if_neg hc]; exact ih _ _ _ h

theorem mapM'_mono {r1 r2 : Seq → M Seq} (hr : ∀ s s', r1 s = .ok s' → r2 s = .ok s') :
    ∀ (es es' : List Seq), mapM' r1 es = .ok es' → mapM' r2 es = .ok es' := by
  intro es
  induction es with
  | nil => intro es' h; simpa [mapM'] using h
  | cons e es ih =>
    intro es' h
    simp only [mapM', bind_ok] at h ⊢
    obtain ⟨e', he, xs, hx, h⟩ := h
    exact ⟨e', hr _ _ he, xs, ih _ hx, h⟩

theorem simplify_guard {enum : Seq → List Nat} {ct : Option CTab} : ∀ (f depth : Nat) (s s' : Seq),
    Seq.simplify true enum ct f depth s = .ok s' → Seq.simplify false enum ct f depth s = .ok s' := by
  intro f
  induction f with
  | zero => intro depth s s' h; simp [Seq.simplify] at h
  | succ f ih =>
    intro depth s s' h
    simp only [Seq.simplify, bind_ok] at h ⊢
    obtain ⟨s1, h1, h⟩ := h
    refine ⟨s1, ?_, ?_⟩
    · cases s with
      | int n => simp [simpInner] at h1
      | boo op l b => simpa [simpInner] using h1
      | lst op l es =>
        simp only [simpInner] at h1 ⊢
        split at h1
        · next hl =>
          rw [if_pos hl]
          simp only [bind_ok] at h1 ⊢
          obtain ⟨es', he, h1⟩ := h1
          exact ⟨es', mapM'_mono (fun s s' => ih (depth + 1) s s') es es' he, h1⟩
        · next hl => rw [if_neg hl]; exact h1
    · cases s1 with
      | int n => simpa using h
      | boo op l b => simpa using h
      | lst op l es =>
        simp only at h ⊢
        split at h
        · next hc =>
          rw [if_pos hc]
          simp only [bind_ok] at h ⊢
          obtain ⟨s2, h2, h⟩ := h
          refine ⟨s2, ?_, ?_⟩
          · unfold Seq.simpSeq at h2 ⊢
            split at h2
            · next hh => rw [if_pos hh]; exact h2
            · next hh => rw [if_neg hh]; exact simpSeqLoop_guard _ _ _ _ h2
          · split at h
            · next hh => rw [if_pos hh]; exact ih _ _ _ h
            · next hh => rw [if_neg hh]; exact h
        · next hc => rw [if_neg hc]; exact h

/-! ### insert_in_sequence -/

def semInsL (op : Op) (σ : Side) (t : Int) (x : Bool) : List Seq → Bool
  | [] => op.neutral
  | e :: es => op.app (Seq.semIns σ t x e) (semInsL op σ t x es)

theorem semIns_lst (op : Op) (l : Int) (es : List Seq) (σ : Side) (t : Int) (x : Bool) :
    Seq.semIns σ t x (.lst op l es) = semInsL op σ t x es := by
  have h1 : ∀ es, Seq.semInsAll σ t x es = semInsL .and σ t x es := by
    intro es; induction es with
    | nil => simp [Seq.semInsAll, semInsL, Op.neutral]
    | cons e es ih => simp [Seq.semInsAll, semInsL, Op.app, ih]
  have h2 : ∀ es, Seq.semInsAny σ t x es = semInsL .or σ t x es := by
    intro es; induction es with
    | nil => simp [Seq.semInsAny, semInsL, Op.neutral]
    | cons e es ih => simp [Seq.semInsAny, semInsL, Op.app, ih]
  cases op <;> simp [Seq.semIns, h1, h2]

theorem substIntLoop_spec {rec : Seq → M Seq} {t : Int} {new : Seq} {σ : Side}
    (hrec : ∀ s s', rec s = .ok s' → s'.sem σ = Seq.semIns σ t (new.sem σ) s) (op : Op) :
    ∀ (es es' : List Seq), substIntLoop rec t new es = .ok es' →
    semL op σ es' = semInsL op σ t (new.sem σ) es := by
  intro es
  induction es with
  | nil => intro es' h; simp [substIntLoop] at h; subst h; rfl
  | cons e es ih =>
    intro es' h
    cases e with
    | int n =>
      simp only [substIntLoop, bind_ok] at h
      obtain ⟨xs, hx, h⟩ := h
      simp at h; subst h
      simp only [semL_cons, semInsL, ih xs hx, Seq.semIns]
      split <;> simp
    | boo o l b =>
      simp only [substIntLoop, bind_ok] at h
      obtain ⟨e', he, xs, hx, h⟩ := h
      simp at h; subst h
      simp only [semL_cons, semInsL, ih xs hx, hrec _ _ he]
    | lst o l ys =>
      simp only [substIntLoop, bind_ok] at h
      obtain ⟨e', he, xs, hx, h⟩ := h
      simp at h; subst h
      simp only [semL_cons, semInsL, ih xs hx, hrec _ _ he]

theorem substInt_spec {t : Int} {new : Seq} {σ : Side} : ∀ (f : Nat) (s s' : Seq),
    Seq.substInt f t new s = .ok s' → s'.sem σ = Seq.semIns σ t (new.sem σ) s := by
  intro f
  induction f with
  | zero => intro s s' h; simp [Seq.substInt] at h
  | succ f ih =>
    intro s s' h
    cases s with
    | int n => simp [Seq.substInt] at h
    | boo op l b => simp [Seq.substInt] at h
    | lst op l es =>
      simp only [Seq.substInt, bind_ok] at h
      obtain ⟨es', he, h⟩ := h
      simp at h; subst h
      rw [sem_lst, semIns_lst]
      exact substIntLoop_spec ih op es es' he

theorem twoSeq_sem (op : Op) (t n : Int) (ht : t ≠ 0) (σ : Side) :
    (twoSeq op t n).sem σ = op.app (lit σ t) (lit σ n) := by
  unfold twoSeq
  split
  · next h => subst h; simp
  · split
    · next h => subst h; simp [lit_neg σ ht]
    · simp

end Geouned
