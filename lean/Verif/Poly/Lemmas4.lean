import Verif.Poly.Lemmas3
/-! Lemmas about `join_operators` -/
namespace Geouned.Poly
open Geouned Geouned.Text

def IsLst (s : Seq) : Prop := ∃ o l es, s = .lst o l es

theorem level_nonneg : ∀ es : List Seq, 0 ≤ level es
  | [] => by simp [level]
  | .int _ :: es => by simp only [level]; omega
  | .boo _ _ _ :: es => by have := level_nonneg es; simp only [level]; omega
  | .lst _ _ _ :: es => by have := level_nonneg es; simp only [level]; omega

theorem level_pos : ∀ {es : List Seq}, level es ≠ 0 → ∃ e ∈ es, ∀ n, e ≠ .int n
  | [], h => by simp [level] at h
  | .int _ :: es, h => by
    have h0 := level_nonneg es
    simp only [level] at h
    obtain ⟨e, he, h1⟩ := level_pos (es := es) (by omega)
    exact ⟨e, by simp [he], h1⟩
  | .boo _ _ _ :: es, h => ⟨_, List.mem_cons_self, fun n => by simp⟩
  | .lst _ _ _ :: es, h => ⟨_, List.mem_cons_self, fun n => by simp⟩

/-- what is known of the elements of a list after a step -/
structure Kept (es es' : List Seq) : Prop where
  nb : ∀ e ∈ es', e.NoBool
  depth : Seq.depthL es' ≤ Seq.depthL es
  has : ∀ n, HasL n es' → HasL n es

theorem groupLoop_kept {op : Op} {σ : Side} : ∀ (k : Nat) (rest kept group : List Seq), rest.length ≤ k → (∀ e ∈ rest, e.NoBool) →
    ∃ K G, groupLoop k rest kept group = .ok (K, G) ∧
      op.app (semL op σ K) (semL op σ G) = op.app (semL op σ rest) (op.app (semL op σ kept) (semL op σ group)) ∧
      (∀ e ∈ K, e ∈ kept ∨ e ∈ rest ∧ IsLst e) ∧ (∀ e ∈ G, e ∈ group ∨ (e ∈ rest ∧ ∃ n, e = .int n) ∨ ∃ o, .lst o 0 [e] ∈ rest) := by
  intro k
  induction k with
  | zero =>
    intro rest kept group hk _
    have : rest = [] := List.length_eq_zero_iff.1 (by omega)
    subst this
    exact ⟨kept, group, by simp [groupLoop], by cases op <;> simp [semL, Op.app, Op.neutral], fun e he => .inl he, fun e he => .inl he⟩
  | succ k ih =>
    intro rest kept group hk hnb
    cases rest with
    | nil => exact ⟨kept, group, by simp [groupLoop], by cases op <;> simp [semL, Op.app, Op.neutral], fun e he => .inl he, fun e he => .inl he⟩
    | cons e rest =>
      simp only [List.length_cons] at hk
      have hr : ∀ x ∈ rest, x.NoBool := fun x hx => hnb x (by simp [hx])
      cases e with
      | int n =>
        have hp := removeInt_perm n rest
        have hmem : ∀ x ∈ removeInt n rest, x ∈ Seq.int n :: rest := fun x hx => hp.mem_iff.1 (List.mem_cons_of_mem _ hx)
        obtain ⟨K, G, h1, h2, h3, h4⟩ := ih (removeInt n rest) kept (group ++ [.int n]) (by rw [removeInt_length]; omega) (fun x hx => hnb x (hmem x hx))
        refine ⟨K, G, by rw [groupLoop, h1], ?_, fun x hx => ?_, fun x hx => ?_⟩
        · rw [h2, ← semL_perm hp, semL_append]
          simp only [semL_cons]
          generalize semL op σ (removeInt n rest) = a
          generalize semL op σ kept = b
          generalize semL op σ group = c
          generalize (Seq.int n).sem σ = d
          cases op <;> cases a <;> cases b <;> cases c <;> cases d <;> simp [semL, Op.app, Op.neutral]
        · rcases h3 x hx with h | ⟨h, hl⟩
          · exact .inl h
          · exact .inr ⟨hmem x h, hl⟩
        · rcases h4 x hx with h | ⟨h, hn⟩ | ⟨o, h⟩
          · rcases List.mem_append.1 h with h | h
            · exact .inl h
            · simp at h; subst h; exact .inr (.inl ⟨by simp, n, rfl⟩)
          · exact .inr (.inl ⟨hmem x h, hn⟩)
          · exact .inr (.inr ⟨o, hmem _ h⟩)
      | boo o l b => have := hnb (.boo o l b) (by simp); simp [Seq.NoBool] at this
      | lst o l xs =>
        have keep : (groupLoop (k + 1) (.lst o l xs :: rest) kept group = groupLoop k rest (.lst o l xs :: kept) group) →
            ∃ K G, groupLoop (k + 1) (.lst o l xs :: rest) kept group = .ok (K, G) ∧
      op.app (semL op σ K) (semL op σ G) = op.app (semL op σ (.lst o l xs :: rest)) (op.app (semL op σ kept) (semL op σ group)) ∧
      (∀ e ∈ K, e ∈ kept ∨ e ∈ (.lst o l xs :: rest) ∧ IsLst e) ∧
      (∀ e ∈ G, e ∈ group ∨ (e ∈ (.lst o l xs :: rest) ∧ ∃ n, e = .int n) ∨ ∃ q, .lst q 0 [e] ∈ (.lst o l xs :: rest)) := by
          intro hu
          obtain ⟨K, G, h1, h2, h3, h4⟩ := ih rest (.lst o l xs :: kept) group (by omega) hr
          refine ⟨K, G, by rw [hu, h1], ?_, fun x hx => ?_, fun x hx => ?_⟩
          · rw [h2]
            simp only [semL_cons]
            generalize semL op σ rest = a
            generalize semL op σ kept = b
            generalize semL op σ group = c
            generalize (Seq.lst o l xs).sem σ = d
            cases op <;> cases a <;> cases b <;> cases c <;> cases d <;> simp [Op.app]
          · rcases h3 x hx with h | ⟨h, hl⟩
            · rcases List.mem_cons.1 h with h | h
              · subst h; exact .inr ⟨by simp, _, _, _, rfl⟩
              · exact .inl h
            · exact .inr ⟨by simp [h], hl⟩
          · rcases h4 x hx with h | ⟨h, hn⟩ | ⟨q, h⟩
            · exact .inl h
            · exact .inr (.inl ⟨by simp [h], hn⟩)
            · exact .inr (.inr ⟨q, by simp [h]⟩)
        by_cases hl : l = 0
        · subst hl
          match xs, keep with
          | [x], _ =>
            obtain ⟨K, G, h1, h2, h3, h4⟩ := ih rest kept (group ++ [x]) (by omega) hr
            refine ⟨K, G, by rw [groupLoop, h1], ?_, fun y hy => ?_, fun y hy => ?_⟩
            · rw [h2]
              have : (Seq.lst o 0 [x]).sem σ = x.sem σ := by rw [sem_lst]; cases o <;> simp [semL, Op.app, Op.neutral]
              simp only [semL_cons, semL_append, this]
              generalize semL op σ rest = a
              generalize semL op σ kept = b
              generalize semL op σ group = c
              generalize x.sem σ = d
              cases op <;> cases a <;> cases b <;> cases c <;> cases d <;> simp [semL, Op.app, Op.neutral]
            · rcases h3 y hy with h | ⟨h, hl⟩
              · exact .inl h
              · exact .inr ⟨by simp [h], hl⟩
            · rcases h4 y hy with h | ⟨h, hn⟩ | ⟨q, h⟩
              · rcases List.mem_append.1 h with h | h
                · exact .inl h
                · simp at h; subst h; exact .inr (.inr ⟨o, by simp⟩)
              · exact .inr (.inl ⟨by simp [h], hn⟩)
              · exact .inr (.inr ⟨q, by simp [h]⟩)
          | [], keep => exact keep (by rw [groupLoop]; simp)
          | x :: y :: xs, keep => exact keep (by rw [groupLoop]; simp)
        · exact keep (by rw [groupLoop]; intro x h _; exact hl h)

theorem mem_depth {e : Seq} {es : List Seq} (h : e ∈ es) : e.depth ≤ Seq.depthL es := by
  have := depth_mem (o := .and) (l := 0) h
  rw [depth_lst] at this; omega

theorem depth_pos_of {e : Seq} (h : ∀ n, e ≠ .int n) (hb : e.NoBool) : 1 ≤ e.depth := by
  cases e with
  | int n => exact absurd rfl (h n)
  | boo _ _ _ => simp [Seq.NoBool] at hb
  | lst o l es => rw [depth_lst]; omega

theorem group_kept {op : Op} {es : List Seq} (hnb : ∀ e ∈ es, e.NoBool) (hl : level es ≠ 0) :
    ∃ es', Seq.groupSingle (.lst op (level es) es) = .ok (.lst op (level es) es') ∧ (∀ e ∈ es', IsLst e) ∧ Kept es es' ∧
      ∀ σ, semL op σ es' = semL op σ es := by
  have hrev : ∀ e ∈ es.reverse, e.NoBool := fun e he => hnb e (by simpa using he)
  obtain ⟨y, hy, hyn⟩ := level_pos hl
  have hd1 : 1 ≤ Seq.depthL es := Nat.le_trans (depth_pos_of hyn (hnb y hy)) (mem_depth hy)
  obtain ⟨K, G, h1, -, h3, h4⟩ := groupLoop_kept (op := op) (σ := fun _ => true) es.length es.reverse [] [] (by simp) hrev
  have h2 : ∀ σ, op.app (semL op σ K) (semL op σ G) = semL op σ es := by
    intro σ
    obtain ⟨K', G', h1', h2', -, -⟩ := groupLoop_kept (op := op) (σ := σ) es.length es.reverse [] [] (by simp) hrev
    rw [h1] at h1'; cases h1'
    rw [h2', semL_perm (List.reverse_perm es)]
    cases op <;> simp [semL, Op.app, Op.neutral]
  have hK : ∀ e ∈ K, e ∈ es ∧ IsLst e := fun e he => by
    rcases h3 e he with h | ⟨h, hl⟩
    · simp at h
    · exact ⟨by simpa using h, hl⟩
  have hG : ∀ e ∈ G, e.NoBool ∧ e.depth + 1 ≤ Seq.depthL es ∧ ∀ n, Has n e → HasL n es := fun e he => by
    rcases h4 e he with h | ⟨h, m, rfl⟩ | ⟨o, h⟩
    · simp at h
    · refine ⟨by simp [Seq.NoBool], ?_, fun n hn => (hasL_iff _ _).2 ⟨_, by simpa using h, hn⟩⟩
      simp only [Seq.depth]; omega
    · have hm : Seq.lst o 0 [e] ∈ es := by simpa using h
      have h5 := mem_depth hm
      have h6 := depth_mem (o := o) (l := 0) (List.mem_singleton.2 rfl : e ∈ [e])
      exact ⟨(noBool_lst _ _ _).1 (hnb _ hm) e (by simp), by omega, fun n hn => (hasL_iff _ _).2 ⟨_, hm, (has_lst _ _ _ _).2 ⟨e, by simp, hn⟩⟩⟩
  unfold Seq.groupSingle
  simp only [if_neg hl, h1, bind, Except.bind]
  cases G with
  | nil =>
    refine ⟨K, rfl, fun e he => (hK e he).2, ⟨fun e he => hnb e (hK e he).1, ?_, fun n hn => ?_⟩, fun σ => ?_⟩
    · rw [depthL_le]; exact fun e he => mem_depth (hK e he).1
    · obtain ⟨e, he, h5⟩ := (hasL_iff _ _).1 hn
      exact (hasL_iff _ _).2 ⟨e, (hK e he).1, h5⟩
    · have := h2 σ
      rw [← this]; cases op <;> simp [semL, Op.app, Op.neutral]
  | cons g gs =>
    refine ⟨_, rfl, fun e he => ?_, ⟨fun e he => ?_, ?_, fun n hn => ?_⟩, fun σ => ?_⟩
    · rcases List.mem_cons.1 he with rfl | he
      · exact ⟨_, _, _, rfl⟩
      · exact (hK e he).2
    · rcases List.mem_cons.1 he with rfl | he
      · exact (noBool_lst _ _ _).2 fun x hx => (hG x hx).1
      · exact hnb e (hK e he).1
    · rw [depthL_le]
      intro e he
      rcases List.mem_cons.1 he with rfl | he
      · have : Seq.depthL (g :: gs) ≤ Seq.depthL es - 1 := by
          rw [depthL_le]
          intro x hx
          have := (hG x hx).2.1
          omega
        rw [depth_lst]; omega
      · exact mem_depth (hK e he).1
    · obtain ⟨e, he, h5⟩ := (hasL_iff _ _).1 hn
      rcases List.mem_cons.1 he with rfl | he
      · obtain ⟨x, hx, h6⟩ := (has_lst _ _ _ _).1 h5
        exact (hG x hx).2.2 n h6
      · exact (hasL_iff _ _).2 ⟨e, (hK e he).1, h5⟩
    · rw [← h2 σ, semL_cons, sem_lst]
      generalize semL op σ (g :: gs) = a
      generalize semL op σ K = b
      cases op <;> cases a <;> cases b <;> rfl

/-! ### merging and joining -/

theorem splitOps_kept {es : List Seq} (h : ∀ e ∈ es, IsLst e) : ∃ A O, splitOps es = .ok (A, O) ∧ (∀ e ∈ A, e ∈ es ∧ ∃ l xs, e = .lst .and l xs) ∧
    (∀ e ∈ O, e ∈ es ∧ ∃ l xs, e = .lst .or l xs) ∧ ∀ op σ, op.app (semL op σ A) (semL op σ O) = semL op σ es := by
  induction es with
  | nil => exact ⟨[], [], rfl, by simp, by simp, fun op σ => by cases op <;> simp [semL, Op.app, Op.neutral]⟩
  | cons e es ih =>
    obtain ⟨A, O, h1, h2, h3, h4⟩ := ih fun x hx => h x (by simp [hx])
    obtain ⟨o, l, xs, rfl⟩ := h e (by simp)
    cases o with
    | and =>
      refine ⟨.lst .and l xs :: A, O, by simp [splitOps, Seq.opOf, h1, bind, Except.bind], fun x hx => ?_, fun x hx => ?_, fun op σ => ?_⟩
      · rcases List.mem_cons.1 hx with rfl | hx
        · exact ⟨by simp, _, _, rfl⟩
        · exact ⟨by simp [(h2 x hx).1], (h2 x hx).2⟩
      · exact ⟨by simp [(h3 x hx).1], (h3 x hx).2⟩
      · rw [semL_cons, semL_cons, ← h4 op σ]
        generalize (Seq.lst .and l xs).sem σ = a
        generalize semL op σ A = b
        generalize semL op σ O = c
        cases op <;> cases a <;> cases b <;> cases c <;> rfl
    | or =>
      refine ⟨A, .lst .or l xs :: O, by simp [splitOps, Seq.opOf, h1, bind, Except.bind], fun x hx => ?_, fun x hx => ?_, fun op σ => ?_⟩
      · exact ⟨by simp [(h2 x hx).1], (h2 x hx).2⟩
      · rcases List.mem_cons.1 hx with rfl | hx
        · exact ⟨by simp, _, _, rfl⟩
        · exact ⟨by simp [(h3 x hx).1], (h3 x hx).2⟩
      · rw [semL_cons, semL_cons, ← h4 op σ]
        generalize (Seq.lst .or l xs).sem σ = a
        generalize semL op σ A = b
        generalize semL op σ O = c
        cases op <;> cases a <;> cases b <;> cases c <;> rfl

theorem concat_kept {op : Op} {es : List Seq} (h : ∀ e ∈ es, ∃ l xs, e = .lst op l xs) :
    ∃ cat, concatElems es = .ok cat ∧ (∀ σ, semL op σ cat = semL op σ es) ∧ ∀ x ∈ cat, ∃ l xs, .lst op l xs ∈ es ∧ x ∈ xs := by
  induction es with
  | nil => exact ⟨[], rfl, fun _ => rfl, by simp⟩
  | cons e es ih =>
    obtain ⟨cat, h1, h2, h3⟩ := ih fun x hx => h x (by simp [hx])
    obtain ⟨l, xs, rfl⟩ := h e (by simp)
    refine ⟨xs ++ cat, by simp [concatElems, Seq.elemsOf, h1, bind, Except.bind], fun σ => ?_, fun x hx => ?_⟩
    · rw [semL_append, semL_cons, sem_lst, h2]
    · rcases List.mem_append.1 hx with hx | hx
      · exact ⟨l, xs, by simp, hx⟩
      · obtain ⟨l', ys, h4, h5⟩ := h3 x hx
        exact ⟨l', ys, by simp [h4], h5⟩

theorem merge_kept {op : Op} {l : Int} {es : List Seq} (h : ∀ e ∈ es, IsLst e) (hnb : ∀ e ∈ es, e.NoBool) :
    ∃ r, mergeSame op l es = .ok r ∧ l ≤ r.1 ∧ (∀ e ∈ r.2, IsLst e) ∧ Kept es r.2 ∧ ∀ σ, semL op σ r.2 = semL op σ es := by
  obtain ⟨A, O, h1, h2, h3, h4⟩ := splitOps_kept h
  have fin : ∀ (S T : List Seq), (∀ e ∈ S, e ∈ es ∧ ∃ l xs, e = .lst op l xs) → (∀ e ∈ T, e ∈ es) → (∀ σ, op.app (semL op σ S) (semL op σ T) = semL op σ es) →
      ∃ r, (if 1 < S.length then (do let cat ← concatElems S; .ok (max l (level cat + 1), T ++ [.lst op (level cat) cat]) : M (Int × List Seq)) else .ok (l, es)) = .ok r ∧
        l ≤ r.1 ∧ (∀ e ∈ r.2, IsLst e) ∧ Kept es r.2 ∧ ∀ σ, semL op σ r.2 = semL op σ es := by
    intro S T hS hT hs
    split
    · next hlen =>
      obtain ⟨cat, k1, k2, k3⟩ := concat_kept fun e he => (hS e he).2
      refine ⟨_, by rw [k1]; rfl, ?_, fun e he => ?_, ⟨fun e he => ?_, ?_, fun n hn => ?_⟩, fun σ => ?_⟩
      · dsimp only; omega
      · rcases List.mem_append.1 he with he | he
        · exact h e (hT e he)
        · simp at he; subst he; exact ⟨_, _, _, rfl⟩
      · rcases List.mem_append.1 he with he | he
        · exact hnb e (hT e he)
        · simp at he; subst he
          refine (noBool_lst _ _ _).2 fun x hx => ?_
          obtain ⟨l', xs, h5, h6⟩ := k3 x hx
          exact (noBool_lst _ _ _).1 (hnb _ (hS _ h5).1) x h6
      · rw [depthL_le]
        intro e he
        rcases List.mem_append.1 he with he | he
        · exact mem_depth (hT e he)
        · simp at he; subst he
          obtain ⟨s, hs'⟩ : ∃ s, s ∈ S := by
            cases S with
            | nil => simp at hlen
            | cons s S => exact ⟨s, by simp⟩
          have hp : 1 ≤ Seq.depthL es := Nat.le_trans (depth_pos_of (by obtain ⟨a, b, c⟩ := (hS s hs').2; subst c; simp) (hnb _ (hS s hs').1)) (mem_depth (hS s hs').1)
          have : Seq.depthL cat ≤ Seq.depthL es - 1 := by
            rw [depthL_le]
            intro x hx
            obtain ⟨l', xs, h5, h6⟩ := k3 x hx
            have := mem_depth (hS _ h5).1
            have := depth_mem (o := op) (l := l') h6
            omega
          rw [depth_lst]; omega
      · obtain ⟨e, he, h5⟩ := (hasL_iff _ _).1 hn
        rcases List.mem_append.1 he with he | he
        · exact (hasL_iff _ _).2 ⟨e, hT e he, h5⟩
        · simp at he; subst he
          obtain ⟨x, hx, h6⟩ := (has_lst _ _ _ _).1 h5
          obtain ⟨l', xs, h7, h8⟩ := k3 x hx
          exact (hasL_iff _ _).2 ⟨_, (hS _ h7).1, (has_lst _ _ _ _).2 ⟨x, h8, h6⟩⟩
      · rw [← hs σ, semL_append, semL_cons, sem_lst, k2]
        generalize semL op σ S = a
        generalize semL op σ T = b
        cases op <;> cases a <;> cases b <;> rfl
    · exact ⟨_, rfl, by simp, h, ⟨hnb, Nat.le_refl _, fun _ h => h⟩, fun _ => rfl⟩
  unfold mergeSame
  simp only [h1, bind, Except.bind]
  cases op with
  | and => exact fin A O h2 (fun e he => (h3 e he).1) (h4 .and)
  | or =>
    exact fin O A h3 (fun e he => (h2 e he).1) (fun σ => by
      rw [← h4 .or σ]
      generalize semL .or σ A = a
      generalize semL .or σ O = b
      cases a <;> cases b <;> rfl)

/-- what `join_operators` keeps -/
structure Joined (s s' : Seq) : Prop where
  lst : IsLst s'
  nb : s'.NoBool
  depth : s'.depth ≤ s.depth
  has : ∀ n, Has n s' → Has n s
  sem : ∀ σ, s'.sem σ = s.sem σ
  parts : ∀ o l es, s' = .lst o l es → l ≠ 0 → ∀ e ∈ es, IsLst e

theorem mapM_joined {rec : Seq → M Seq} {op : Op} : ∀ {es : List Seq}, (∀ e ∈ es, ∃ e', rec e = .ok e' ∧ Joined e e') →
    ∃ es', mapM' rec es = .ok es' ∧ (∀ e ∈ es', IsLst e) ∧ Kept es es' ∧ ∀ σ, semL op σ es' = semL op σ es
  | [], _ => ⟨[], rfl, by simp, ⟨by simp, Nat.le_refl _, fun _ h => h⟩, fun _ => rfl⟩
  | e :: es, h => by
    obtain ⟨e', h1, hj⟩ := h e (by simp)
    obtain ⟨es', h2, h3, h4, h5⟩ := mapM_joined (op := op) fun x hx => h x (List.mem_cons_of_mem e hx)
    refine ⟨e' :: es', by simp [mapM', h1, h2, bind, Except.bind], fun x hx => ?_, ⟨fun x hx => ?_, ?_, fun n hn => ?_⟩, fun σ => ?_⟩
    · rcases List.mem_cons.1 hx with rfl | hx
      · exact hj.lst
      · exact h3 x hx
    · rcases List.mem_cons.1 hx with rfl | hx
      · exact hj.nb
      · exact h4.nb x hx
    · have := h4.depth
      have := hj.depth
      simp only [Seq.depthL]; omega
    · simp only [HasL] at hn ⊢
      rcases hn with hn | hn
      · exact .inl (hj.has n hn)
      · exact .inr (h4.has n hn)
    · rw [semL_cons, semL_cons, hj.sem, h5]

theorem joinParts_joined {rec : Seq → M Seq} {s : Seq} (hl : IsLst s) (hnb : s.NoBool) (hp : ∀ o l es, s = .lst o l es → l ≠ 0 → ∀ e ∈ es, IsLst e)
    (h : ∀ o l es, s = .lst o l es → ∀ e ∈ es, IsLst e → e.NoBool → ∃ e', rec e = .ok e' ∧ Joined e e') :
    ∃ s', joinParts rec s = .ok s' ∧ Joined s s' := by
  obtain ⟨o, l, es, rfl⟩ := hl
  unfold joinParts
  dsimp only
  by_cases h0 : l = 0
  · rw [if_pos h0]
    exact ⟨_, rfl, ⟨_, _, _, rfl⟩, hnb, Nat.le_refl _, fun _ h => h, fun _ => rfl, fun o' l' es' he hl' => by cases he; exact absurd h0 hl'⟩
  · rw [if_neg h0]
    have hls := hp _ _ _ rfl h0
    have hn := (noBool_lst _ _ _).1 hnb
    obtain ⟨es', h1, h2, h3, h4⟩ := mapM_joined (op := o) fun e he => h _ _ _ rfl e he (hls e he) (hn e he)
    refine ⟨.lst o l es', by simp [h1, bind, Except.bind], ⟨_, _, _, rfl⟩, (noBool_lst _ _ _).2 h3.nb, ?_, fun n hn => ?_, fun σ => ?_, fun o' l' es'' he _ => by cases he; exact h2⟩
    · rw [depth_lst, depth_lst]; have := h3.depth; omega
    · simp only [Has] at hn ⊢; exact h3.has n hn
    · rw [sem_lst, sem_lst, h4]

theorem Joined.trans {a b c : Seq} (h1 : Joined a b) (h2 : Joined b c) : Joined a c :=
  ⟨h2.lst, h2.nb, Nat.le_trans h2.depth h1.depth, fun n h => h1.has n (h2.has n h), fun σ => by rw [h2.sem, h1.sem], h2.parts⟩

theorem joinOps_joined : ∀ (f : Nat) (s : Seq), s.depth ≤ f → IsLst s → s.NoBool → ∃ s', joinOps f s = .ok s' ∧ Joined s s' := by
  intro f
  induction f with
  | zero =>
    rintro s hf ⟨o, l, es, rfl⟩ _
    rw [depth_lst] at hf; omega
  | succ f ih =>
    rintro s hf ⟨op, l, es, rfl⟩ hnb
    have hn := (noBool_lst _ _ _).1 hnb
    rw [depth_lst] at hf
    by_cases h0 : level es = 0
    · refine ⟨.lst op 0 es, by simp [joinOps, h0], ⟨_, _, _, rfl⟩, hnb, Nat.le_refl _, fun n h => by simpa [Has] using h, fun σ => by simp, ?_⟩
      intro o' l' es' he hl'
      cases he; exact absurd rfl hl'
    · obtain ⟨es1, g1, g2, g3, g4⟩ := group_kept (op := op) hn h0
      obtain ⟨r, m1, m2, m3, m4, m5⟩ := merge_kept (op := op) (l := level es) g2 g3.nb
      have hpos : 0 < r.1 := by have := level_nonneg es; omega
      have hd : Seq.depthL r.2 ≤ f := by have := g3.depth; have := m4.depth; omega
      have key : ∃ s', joinParts (joinOps f) (.lst op r.1 r.2) = .ok s' ∧ Joined (.lst op l es) s' := by
        obtain ⟨s', k1, k2⟩ := joinParts_joined (rec := joinOps f) (s := .lst op r.1 r.2) ⟨_, _, _, rfl⟩ ((noBool_lst _ _ _).2 m4.nb)
          (fun o' l' es' he _ => by cases he; exact m3)
          (fun o' l' es' he e hm hl hb => by cases he; exact ih e (Nat.le_trans (mem_depth hm) hd) hl hb)
        refine ⟨s', k1, ?_⟩
        refine Joined.trans (b := .lst op r.1 r.2) ⟨⟨_, _, _, rfl⟩, (noBool_lst _ _ _).2 m4.nb, ?_, fun n h => ?_, fun σ => ?_, fun o' l' es' he _ => by cases he; exact m3⟩ k2
        · rw [depth_lst, depth_lst]; have := g3.depth; have := m4.depth; omega
        · simp only [Has] at h ⊢; exact g3.has n (m4.has n h)
        · rw [sem_lst, sem_lst, m5, g4]
      have hu : joinOps (f + 1) (.lst op l es) = (match r.2 with
        | [.lst o k xs] =>
          if 0 < r.1 then do
            let s' ← joinOps f (.lst o (r.1 - 1) xs)
            joinParts (joinOps f) s'
          else joinParts (joinOps f) (.lst op r.1 r.2)
        | [.boo o _ b] =>
          if 0 < r.1 then do
            let s' ← joinOps f (.boo o (r.1 - 1) b)
            joinParts (joinOps f) s'
          else joinParts (joinOps f) (.lst op r.1 r.2)
        | _ => joinParts (joinOps f) (.lst op r.1 r.2)) := by
        rw [joinOps, if_neg h0, g1]
        show (mergeSame op (level es) es1 >>= _) = _
        rw [m1]
        rfl
      rw [hu]
      split
      · next o k xs hr2 =>
        rw [if_pos hpos]
        have hb : (Seq.lst o k xs).NoBool := m4.nb _ (by rw [hr2]; simp)
        have hdx : Seq.depthL xs + 1 ≤ f := by
          have := mem_depth (e := .lst o k xs) (es := r.2) (by rw [hr2]; simp)
          rw [depth_lst] at this; omega
        obtain ⟨s1, k1, k2⟩ := ih (.lst o (r.1 - 1) xs) (by rw [depth_lst]; exact hdx) ⟨_, _, _, rfl⟩ ((noBool_lst _ _ _).2 ((noBool_lst _ _ _).1 hb))
        obtain ⟨s2, k3, k4⟩ := joinParts_joined (rec := joinOps f) k2.lst k2.nb k2.parts
          (fun o' l' es' he e hm hl hb => by
            refine ih e ?_ hl hb
            have := depth_mem (o := o') (l := l') hm
            rw [← he] at this
            have := k2.depth
            rw [depth_lst] at this
            omega)
        refine ⟨s2, by rw [k1]; exact k3, ?_⟩
        refine Joined.trans (b := s1) ⟨k2.lst, k2.nb, ?_, fun n h => ?_, fun σ => ?_, k2.parts⟩ k4
        · have := k2.depth
          rw [depth_lst] at this ⊢
          have := g3.depth; have := m4.depth
          have := mem_depth (e := .lst o k xs) (es := r.2) (by rw [hr2]; simp)
          rw [depth_lst] at this; omega
        · have h1 := k2.has n h
          simp only [Has] at h1 ⊢
          refine g3.has n (m4.has n ?_)
          rw [hr2]
          simp only [HasL, Has]
          exact .inl h1
        · rw [k2.sem, sem_lst, sem_lst, ← g4, ← m5, hr2, semL_cons, sem_lst]
          cases op <;> simp [semL, Op.app, Op.neutral]
      · next o k b hr2 =>
        have : (Seq.boo o k b).NoBool := m4.nb _ (by rw [hr2]; simp)
        simp [Seq.NoBool] at this
      · exact key

end Geouned.Poly
