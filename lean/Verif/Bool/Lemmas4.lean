import Verif.Bool.Lemmas3
/-! Helper lemmas: no operation raises on well-formed expressions (given enough recursion depth). -/
namespace Geouned

theorem depthL_le (es : List Seq) (n : Nat) : Seq.depthL es ≤ n ↔ ∀ e ∈ es, e.depth ≤ n := by
  induction es with
  | nil => simp [Seq.depthL]
  | cons e es ih => simp [Seq.depthL, ih, Nat.max_le]

@[simp] theorem depth_int (n : Int) : (Seq.int n).depth = 0 := rfl
@[simp] theorem depth_boo (o : Op) (l : Int) (b : Bool) : (Seq.boo o l b).depth = 0 := rfl
theorem depth_lst (o : Op) (l : Int) (es : List Seq) : (Seq.lst o l es).depth = Seq.depthL es + 1 := rfl

theorem depth_lst_le (o : Op) (l : Int) (es : List Seq) (n : Nat) :
    (Seq.lst o l es).depth ≤ n + 1 ↔ ∀ e ∈ es, e.depth ≤ n := by
  rw [depth_lst, ← depthL_le]; omega

theorem depth_mem {o : Op} {l : Int} {es : List Seq} {e : Seq} (h : e ∈ es) :
    e.depth < (Seq.lst o l es).depth := by
  have := (depthL_le es (Seq.depthL es)).1 (Nat.le_refl _) e h
  rw [depth_lst]; omega

theorem allInt_depth {es : List Seq} (h : AllInt es) : Seq.depthL es = 0 := by
  have := (depthL_le es 0).2 (fun e he => by obtain ⟨n, rfl⟩ := h e he; simp)
  omega

mutual
theorem levelUpdate_depth : ∀ s : Seq, s.levelUpdate.depth = s.depth
  | .int n => by simp [Seq.levelUpdate]
  | .boo _ _ _ => by simp [Seq.levelUpdate]
  | .lst op l es => by
    simp only [Seq.levelUpdate, depth_lst]
    rw [levelUpdateL_depth es]
theorem levelUpdateL_depth : ∀ es : List Seq, Seq.depthL (Seq.levelUpdateL es).2 = Seq.depthL es
  | [] => rfl
  | .int n :: es => by simp [Seq.levelUpdateL, Seq.depthL]; rw [levelUpdateL_depth es]
  | .boo o l b :: es => by simp [Seq.levelUpdateL, Seq.depthL]; rw [levelUpdateL_depth es]
  | .lst o l xs :: es => by
    simp only [Seq.levelUpdateL, Seq.depthL]
    rw [levelUpdateL_depth es, levelUpdate_depth (.lst o l xs)]
end

/-- not a bare integer -/
def Seq.isSeq : Seq → Prop
  | .int _ => False
  | _ => True

theorem cleanSelf_cases (s : Seq) (h : s.isSeq) :
    (∃ o l b, s.cleanSelf = .boo o l b) ∨
    ∃ o l es es', s = .lst o l es ∧ s.cleanSelf = .lst o l es' ∧ (∀ e ∈ es', e ∈ es) ∧
      (∀ e ∈ es', ∀ o l b, e ≠ .boo o l b) ∧ es' ≠ [] := by
  cases s with
  | int n => simp [Seq.isSeq] at h
  | boo o l b => exact .inl ⟨o, l, b, rfl⟩
  | lst o l es =>
    have hs := cleanLoop_spec o es
    simp only [Seq.cleanSelf]
    cases hc : cleanLoop o es with
    | inl b => exact .inl ⟨_, _, _, rfl⟩
    | inr es' =>
      rw [hc] at hs
      cases es' with
      | nil => exact .inl ⟨_, _, _, rfl⟩
      | cons x xs => exact .inr ⟨o, l, es, x :: xs, rfl, rfl, hs.1, hs.2.1, by simp⟩

theorem cleanSelf_depth (s : Seq) : s.cleanSelf.depth ≤ s.depth := by
  cases s with
  | int n => simp [Seq.cleanSelf]
  | boo o l b => simp [Seq.cleanSelf]
  | lst o l es =>
    rcases cleanSelf_cases (.lst o l es) trivial with ⟨o', l', b', h⟩ | ⟨o', l', xs, es', h1, h, h2, -⟩
    · rw [h]; simp
    · rw [h]
      cases h1
      rw [depth_lst, depth_lst]
      have := (depthL_le es' (Seq.depthL es)).2 (fun e he => (depthL_le es _).1 (Nat.le_refl _) e (h2 e he))
      omega

theorem levelUpdateL_noboo {es : List Seq} (h : ∀ e ∈ es, ∀ o l b, e ≠ .boo o l b) :
    ∀ e ∈ (Seq.levelUpdateL es).2, ∀ o l b, e ≠ .boo o l b := by
  induction es with
  | nil => simp [Seq.levelUpdateL]
  | cons x es ih =>
    have ih' := ih (fun e he => h e (by simp [he]))
    cases x with
    | int n =>
      simp only [Seq.levelUpdateL, List.mem_cons]
      rintro e (rfl | he)
      · simp
      · exact ih' e he
    | boo o l b => exact absurd rfl (h _ (by simp) o l b)
    | lst o l xs =>
      simp only [Seq.levelUpdateL, List.mem_cons]
      rintro e (rfl | he)
      · simp [Seq.levelUpdate]
      · exact ih' e he

/-- boolean children of a sequence never have the stored level 0 -/
def NoBoo0 (es : List Seq) : Prop := ∀ e ∈ es, ∀ o b, e ≠ .boo o 0 b

theorem groupLoop_total : ∀ (k : Nat) (rest kept group : List Seq), NoBoo0 rest →
    ∃ r, groupLoop k rest kept group = .ok r := by
  intro k
  induction k with
  | zero => intro rest kept group _; exact ⟨_, rfl⟩
  | succ k ih =>
    intro rest kept group h
    cases rest with
    | nil => exact ⟨_, rfl⟩
    | cons x rest =>
      have hr : NoBoo0 rest := fun e he => h e (by simp [he])
      cases x with
      | int n =>
        simp only [groupLoop]
        apply ih
        intro y hy
        have hm : y ∈ Seq.int n :: rest := (removeInt_perm n rest).mem_iff.1 (List.mem_cons_of_mem _ hy)
        exact h y hm
      | boo o l b =>
        simp only [groupLoop]
        split
        · next h0 => subst h0; exact absurd rfl (h _ (by simp) o b)
        · exact ih _ _ _ hr
      | lst o l xs =>
        simp only [groupLoop]
        split
        · exact ih _ _ _ hr
        · exact ih _ _ _ hr

theorem groupSingle_total {o : Op} {l : Int} {es : List Seq} (h : NoBoo0 es) :
    ∃ s', (Seq.lst o l es).groupSingle = .ok s' := by
  simp only [Seq.groupSingle]
  split
  · exact ⟨_, rfl⟩
  · obtain ⟨⟨kept, group⟩, hr⟩ := groupLoop_total es.length es.reverse [] [] (fun e he => h e (by simpa using he))
    rw [hr]
    cases group with
    | nil => exact ⟨_, rfl⟩
    | cons g gs => exact ⟨_, rfl⟩

/-- shape of `group_single` on a list of level other than 0 -/
theorem groupSingle_full {o : Op} {l : Int} {es : List Seq} (hw : (Seq.lst o l es).WF) (h : NoBoo0 es)
    (hd : 2 ≤ (Seq.lst o l es).depth) :
    ∃ es', (Seq.lst o l es).groupSingle = .ok (.lst o l es') ∧ (Seq.lst o l es').WF ∧
      (l ≠ 0 → ∀ e ∈ es', ∀ n, e ≠ .int n) ∧ (∀ e ∈ es', e ∈ es ∨ ∃ g, e = .lst o 0 g) ∧
      (Seq.lst o l es').depth ≤ (Seq.lst o l es).depth := by
  obtain ⟨s', hs'⟩ := groupSingle_total (o := o) (l := l) h
  obtain ⟨es', rfl, h2, h3, h4, h5⟩ := groupSingle_lst hw hs'
  refine ⟨es', hs', h2, h4, h5, ?_⟩
  have hx : (Seq.lst o l es').depth ≤ ((Seq.lst o l es).depth - 1) + 1 := by
    rw [depth_lst_le]
    intro e he
    rcases h5 e he with hm | ⟨g, rfl⟩
    · have := depth_mem (o := o) (l := l) hm; omega
    · have hwg := ((WF_lst _ _ _).1 h2).2 _ he
      have := allInt_depth (((WF_lst _ _ _).1 hwg).1.2 rfl)
      rw [depth_lst]; omega
  omega

theorem splitOps_total : ∀ (es : List Seq), (∀ e ∈ es, ∀ n, e ≠ .int n) → ∃ r, splitOps es = .ok r := by
  intro es
  induction es with
  | nil => intro _; exact ⟨_, rfl⟩
  | cons e es ih =>
    intro h
    obtain ⟨⟨a, o⟩, hr⟩ := ih (fun x hx => h x (by simp [hx]))
    cases e with
    | int n => exact absurd rfl (h _ (by simp) n)
    | boo op l b => cases op <;> exact ⟨_, by simp only [splitOps, Seq.opOf, hr]; rfl⟩
    | lst op l xs => cases op <;> exact ⟨_, by simp only [splitOps, Seq.opOf, hr]; rfl⟩

theorem concatElems_total : ∀ (es : List Seq) (n : Nat), (∀ e ∈ es, ∃ o l xs, e = .lst o l xs) →
    (∀ e ∈ es, e.depth ≤ n + 1) → ∃ r, concatElems es = .ok r ∧ ∀ x ∈ r, x.depth ≤ n := by
  intro es n
  induction es with
  | nil => intro _ _; exact ⟨_, rfl, by simp⟩
  | cons e es ih =>
    intro h hd
    obtain ⟨r, hr, hr2⟩ := ih (fun x hx => h x (by simp [hx])) (fun x hx => hd x (by simp [hx]))
    obtain ⟨o, l, xs, rfl⟩ := h e (by simp)
    refine ⟨xs ++ r, by simp only [concatElems, Seq.elemsOf, hr]; rfl, ?_⟩
    intro x hx
    rcases List.mem_append.1 hx with hx | hx
    · exact (depth_lst_le o l xs n).1 (hd _ (by simp)) x hx
    · exact hr2 x hx

theorem mergeSame_total {op : Op} {l : Int} {same others : List Seq} {n : Nat}
    (h : ∀ e ∈ same ++ others, ∃ o l xs, e = .lst o l xs)
    (hd : ∀ e ∈ same ++ others, e.depth ≤ n + 1) :
    ∃ l' es', mergeSame op l same others = .ok (.lst op l' es') ∧ (∀ e ∈ es', e.depth ≤ n + 1) ∧
      (∀ e ∈ es', ∃ o l xs, e = .lst o l xs) := by
  obtain ⟨r, hr, hr2⟩ := concatElems_total same n (fun e he => h e (by simp [he])) (fun e he => hd e (by simp [he]))
  refine ⟨_, _, by simp only [mergeSame, hr]; rfl, ?_, ?_⟩
  · intro e he
    rcases List.mem_append.1 he with he | he
    · exact hd e (by simp [he])
    · simp only [List.mem_singleton] at he
      subst he
      rw [levelUpdate_depth, depth_lst_le]
      exact hr2
  · intro e he
    rcases List.mem_append.1 he with he | he
    · exact h e (by simp [he])
    · simp only [List.mem_singleton] at he
      subst he
      exact ⟨_, _, _, rfl⟩

theorem joinMerge_total {op : Op} {l : Int} {es : List Seq} {n : Nat}
    (h : ∀ e ∈ es, ∃ o l xs, e = .lst o l xs) (hd : ∀ e ∈ es, e.depth ≤ n + 1) :
    ∃ l' es', joinMerge op l es = .ok (.lst op l' es') ∧ (∀ e ∈ es', e.depth ≤ n + 1) ∧
      (∀ e ∈ es', ∃ o l xs, e = .lst o l xs) := by
  obtain ⟨⟨a, o⟩, hr⟩ := splitOps_total es (fun e he n hn => by
    obtain ⟨_, _, _, h⟩ := h e he; rw [h] at hn; cases hn)
  obtain ⟨hp, -, -⟩ := splitOps_spec es _ hr
  have hm : ∀ e, e ∈ a ∨ e ∈ o → e ∈ es := fun e he => hp.mem_iff.1 (by simpa using he)
  cases op with
  | and =>
    obtain ⟨l', es', h1, h2⟩ := mergeSame_total (op := .and) (l := l) (n := n)
      (fun e he => h e (hm e (by simpa using he)))
      (fun e he => hd e (hm e (by simpa using he)))
    by_cases hc : a.length > 1
    · exact ⟨l', es', by simp only [joinMerge, hr, bind_ok]; exact ⟨_, rfl, by simp [hc, h1]⟩, h2⟩
    · exact ⟨l, es, by simp only [joinMerge, hr, bind_ok]; exact ⟨_, rfl, by simp only [if_neg hc]⟩, hd, h⟩
  | or =>
    obtain ⟨l', es', h1, h2⟩ := mergeSame_total (op := .or) (l := l) (n := n) (same := o) (others := a)
      (fun e he => h e (hm e (by simpa [or_comm] using he)))
      (fun e he => hd e (hm e (by simpa [or_comm] using he)))
    by_cases hc : o.length > 1
    · exact ⟨l', es', by simp only [joinMerge, hr, bind_ok]; exact ⟨_, rfl, by simp [hc, h1]⟩, h2⟩
    · exact ⟨l, es, by simp only [joinMerge, hr, bind_ok]; exact ⟨_, rfl, by simp only [if_neg hc]⟩, hd, h⟩

/-- a list of level other than 0 has no loose integer -/
def Seq.Grp : Seq → Prop
  | .int _ => False
  | .boo _ _ _ => True
  | .lst _ l es => l ≠ 0 → ∀ e ∈ es, e.isSeq

theorem Seq.Grp.isSeq {s : Seq} (h : s.Grp) : s.isSeq := by
  cases s <;> simp [Seq.Grp, Seq.isSeq] at *

/-- a step that succeeds on expressions of depth less than `f`, and does not deepen them -/
def Total (f : Nat) (rec : Seq → M Seq) : Prop :=
  ∀ s, s.WF → s.isSeq → s.depth < f → ∃ s', rec s = .ok s' ∧ s'.Grp ∧ s'.depth ≤ s.depth

theorem mapM'_total {f : Nat} {rec : Seq → M Seq} (hrec : Total f rec) : ∀ (es : List Seq),
    (∀ e ∈ es, e.WF) → (∀ e ∈ es, e.isSeq) → Seq.depthL es < f →
    ∃ es', mapM' rec es = .ok es' ∧ Seq.depthL es' ≤ Seq.depthL es ∧ (∀ e ∈ es', e.isSeq) := by
  intro es
  induction es with
  | nil => intro _ _ _; exact ⟨[], rfl, by simp, by simp⟩
  | cons e es ih =>
    intro hw hs hd
    simp only [Seq.depthL] at hd
    obtain ⟨e', h1, h2, h3⟩ := hrec e (hw e (by simp)) (hs e (by simp)) (by omega)
    obtain ⟨es', k1, k2, k3⟩ := ih (fun x hx => hw x (by simp [hx])) (fun x hx => hs x (by simp [hx])) (by omega)
    refine ⟨e' :: es', by simp only [mapM', h1, k1]; rfl, by simp only [Seq.depthL]; omega, ?_⟩
    intro x hx; rcases List.mem_cons.1 hx with rfl | hx
    · exact h2.isSeq
    · exact k3 x hx

theorem check0_depth (s : Seq) : s.check0.depth ≤ s.depth := by
  cases s with
  | int n => simp [Seq.check0]
  | boo o l b => simp [Seq.check0]
  | lst o l es => rw [check0_lst]; split
                  · split <;> simp [depth_lst]
                  · exact Nat.le_refl _

theorem check0_Grp {s : Seq} (h : s.Grp) : s.check0.Grp := by
  cases s with
  | int n => exact h
  | boo o l b => exact h
  | lst o l es => rw [check0_lst]; split
                  · split <;> simp [Seq.Grp]
                  · exact h

theorem joinEnd_total {f : Nat} {rec : Seq → M Seq} (hrec : Total f rec) {sl : Bool} {s : Seq} (hw : s.WF)
    (hg : s.Grp) (hd : s.depth ≤ f) : ∃ s', joinEnd rec sl s = .ok s' ∧ s'.Grp ∧ s'.depth ≤ s.depth := by
  unfold joinEnd
  split
  · exact ⟨_, rfl, check0_Grp hg, check0_depth s⟩
  · next h0 =>
    split
    · exact ⟨_, rfl, hg, Nat.le_refl _⟩
    · cases s with
      | int n => simp [Seq.Grp] at hg
      | boo o l b => exact ⟨_, rfl, hg, Nat.le_refl _⟩
      | lst o l es =>
        rw [depth_lst] at hd
        obtain ⟨es', k1, k2, k3⟩ := mapM'_total hrec es ((WF_lst _ _ _).1 hw).2 (hg h0) (by omega)
        exact ⟨.lst o l es', by simp only [k1]; rfl, fun _ => k3, by simp only [depth_lst]; omega⟩

theorem joinOps_total : ∀ (f : Nat) (sl : Bool), Total f (Seq.joinOps f sl) := by
  intro f
  induction f with
  | zero => intro sl s _ _ h; omega
  | succ f ih =>
    intro sl s hw hs hd
    cases s with
    | int n => simp [Seq.isSeq] at hs
    | boo o l b => exact ⟨_, rfl, trivial, Nat.le_refl _⟩
    | lst op l es =>
      have hw1 := levelUpdate_WF _ (cleanSelf_WF hw)
      have hd1 : (Seq.cleanSelf (.lst op l es)).levelUpdate.depth ≤ (Seq.lst op l es).depth := by
        rw [levelUpdate_depth]; exact cleanSelf_depth _
      simp only [Seq.joinOps]
      rcases cleanSelf_cases (.lst op l es) trivial with ⟨o', l', b', h⟩ | ⟨o', l', xs, es', h1, h, h2, h3, -⟩
      · rw [h]
        simp only [Seq.levelUpdate, Seq.levOf, if_true]
        exact ⟨_, rfl, trivial, by simp⟩
      · rw [h] at hw1 hd1 ⊢
        cases h1
        simp only [Seq.levelUpdate, Seq.levOf] at hw1 hd1 ⊢
        by_cases h0 : (Seq.levelUpdateL es').1 = 0
        · refine ⟨.lst op 0 (Seq.levelUpdateL es').2, by simp only [h0, ↓reduceIte], fun hh => absurd rfl hh, ?_⟩
          rw [h0] at hd1; exact hd1
        · simp only [h0, ↓reduceIte]
          have hn := levelUpdateL_nonneg es'
          have hnb := levelUpdateL_noboo h3
          generalize hp : Seq.levelUpdateL es' = p at *
          obtain ⟨lev, ys⟩ := p
          simp only at hw1 hd1 h0 hn hnb ⊢
          have h2d : 2 ≤ (Seq.lst op lev ys).depth := by
            have hz : ¬ AllInt ys := by
              intro ha
              apply h0
              have : ∀ zs : List Seq, AllInt (Seq.levelUpdateL zs).2 → (Seq.levelUpdateL zs).1 = 0 := by
                intro zs
                induction zs with
                | nil => intro _; rfl
                | cons z zs ihz =>
                  intro haz
                  cases z with
                  | int n =>
                    simp only [Seq.levelUpdateL] at haz ⊢
                    exact ihz (fun e he => haz e (by simp [he]))
                  | boo o l b =>
                    simp only [Seq.levelUpdateL] at haz
                    obtain ⟨n, hn⟩ := haz _ (List.mem_cons_self ..)
                    cases hn
                  | lst o l b =>
                    simp only [Seq.levelUpdateL] at haz
                    obtain ⟨n, hn⟩ := haz _ (List.mem_cons_self ..)
                    simp [Seq.levelUpdate] at hn
              have := this es' (by rw [hp]; exact ha)
              rw [hp] at this; exact this
            have : ∃ e ∈ ys, ∀ n, e ≠ .int n := by
              false_or_by_contra
              rename_i hcon
              apply hz
              intro e he
              false_or_by_contra
              rename_i hcon2
              exact hcon ⟨e, he, fun n hn => hcon2 ⟨n, hn⟩⟩
            obtain ⟨e, he, hen⟩ := this
            have hlt := depth_mem (o := op) (l := lev) he
            cases e with
            | int n => exact absurd rfl (hen n)
            | boo o l b => exact absurd rfl (hnb _ he o l b)
            | lst o l zs => rw [depth_lst] at hlt; omega
          obtain ⟨gs, g1, g2, g3, g4, g5⟩ := groupSingle_full hw1 (fun e he o b => hnb e he o 0 b) h2d
          have hlst : ∀ e ∈ gs, ∃ o l xs, e = .lst o l xs := by
            intro e he
            cases e with
            | int n => exact absurd rfl (g3 h0 _ he n)
            | boo o l b =>
              rcases g4 _ he with hm | ⟨g, hm⟩
              · exact absurd rfl (hnb _ hm o l b)
              · cases hm
            | lst o l zs => exact ⟨_, _, _, rfl⟩
          obtain ⟨n, hn2⟩ : ∃ n, (Seq.lst op lev ys).depth = n + 2 := ⟨(Seq.lst op lev ys).depth - 2, by omega⟩
          have hc : ChildLev lev gs := by
            intro e he o' l'' zs heq
            rcases g4 e he with hm | ⟨g, hm⟩
            · subst heq
              have hm' : Seq.lst o' l'' zs ∈ (Seq.levelUpdateL es').2 := by rw [hp]; exact hm
              have := levelUpdateL_le hm'
              rw [hp] at this
              simp only [Seq.levOf] at this
              exact ⟨levelUpdateL_mem_nonneg hm', this⟩
            · rw [hm] at heq; cases heq
              omega
          obtain ⟨l2, es2, m1, m2, m3⟩ := joinMerge_total (op := op) (l := lev) (n := n) hlst
            (fun e he => by have := depth_mem (o := op) (l := lev) he; omega)
          obtain ⟨l3, es3, p0, p1, p2, p3, p4⟩ := joinMerge_spec (by omega) hc ((WF_lst _ _ _).1 g2).2 m1
          cases p0
          have hu : ∃ u, joinUnwrap (Seq.joinOps f false) (.lst op l2 es2) = .ok u ∧ u.Grp ∧ u.depth ≤ n + 2 := by
            have hself : (Seq.lst op l2 es2).Grp := fun _ e he => by
              obtain ⟨_, _, _, rfl⟩ := m3 e he; trivial
            have hdself : (Seq.lst op l2 es2).depth ≤ n + 2 := by
              rw [show n + 2 = (n + 1) + 1 from rfl, depth_lst_le]; exact m2
            simp only [joinUnwrap]
            split
            · next e =>
              rw [if_pos p1]
              obtain ⟨o, l', zs, rfl⟩ := m3 e (by simp)
              simp only [Seq.opOf, Seq.elemsOf]
              have hlev := p2 _ (List.mem_singleton.2 rfl) o l' zs rfl
              have hwe := p3 _ (List.mem_singleton.2 rfl)
              rw [WF_lst] at hwe
              have hde := m2 _ (List.mem_singleton.2 rfl)
              have : (Seq.lst o (l2 - 1) zs).depth = (Seq.lst o l' zs).depth := rfl
              obtain ⟨u, u1, u2, u3⟩ := ih false (.lst o (l2 - 1) zs)
                (by rw [WF_lst]; exact ⟨⟨by omega, fun h0 => hwe.1.2 (by omega)⟩, hwe.2⟩) trivial (by omega)
              exact ⟨u, u1, u2, by omega⟩
            · exact ⟨_, rfl, hself, hdself⟩
          obtain ⟨u, u1, u2, u3⟩ := hu
          obtain ⟨w1, -⟩ := joinUnwrap_spec (joinOps_spec f false) p1 p2 p3 u1
          obtain ⟨v, v1, v2, v3⟩ := joinEnd_total (ih false) (sl := sl) w1 u2 (by omega)
          refine ⟨v, ?_, v2, by omega⟩
          exact (bind_ok _ _ _).2 ⟨_, g1, (bind_ok _ _ _).2 ⟨_, m1, (bind_ok _ _ _).2 ⟨_, u1, v1⟩⟩⟩

/-! ### substitute, evaluate -/

theorem substLoop_total {f : Nat} {rec : Seq → M Seq} {op : Op} {var : Int} {val : Val}
    (hrec : ∀ s, s.WF → s.isSeq → s.depth < f → ∃ s', rec s = .ok s' ∧ s'.depth ≤ s.depth) :
    ∀ (es : List Seq), (∀ e ∈ es, e.WF) → Seq.depthL es < f →
    ∃ r, substLoop rec op var val es = .ok r ∧
      ∀ es', r = .inr es' → Seq.depthL es' ≤ Seq.depthL es := by
  intro es
  induction es with
  | nil => intro _ _; exact ⟨_, rfl, by intro es' h; cases h; simp⟩
  | cons e es ih =>
    intro hw hd
    simp only [Seq.depthL] at hd
    obtain ⟨r, hr, hr2⟩ := ih (fun x hx => hw x (by simp [hx])) (by omega)
    simp only [substLoop, hr, bind, Except.bind]
    cases r with
    | inl b => exact ⟨_, rfl, by intro es' h; cases h⟩
    | inr xs =>
      have hx := hr2 xs rfl
      cases e with
      | int n =>
        simp only
        split
        · cases val with
          | n k =>
            refine ⟨_, rfl, ?_⟩
            intro es' h; cases h
            simp only [Seq.depthL]
            split <;> simp <;> omega
          | b v =>
            simp only
            generalize (if n = var.natAbs then v else !v) = bv
            split
            · refine ⟨_, rfl, ?_⟩
              intro es' h; cases h; simp only [Seq.depthL]; omega
            · exact ⟨_, rfl, by intro es' h; cases h⟩
        · refine ⟨_, rfl, ?_⟩
          intro es' h; cases h; simp only [Seq.depthL]; omega
      | boo o l b =>
        obtain ⟨e', h1, h2⟩ := hrec (.boo o l b) (hw _ (by simp)) trivial (by simp; omega)
        simp only [h1]
        refine ⟨_, rfl, ?_⟩
        intro es' h; cases h; simp only [Seq.depthL]; omega
      | lst o l ys =>
        obtain ⟨e', h1, h2⟩ := hrec (.lst o l ys) (hw _ (by simp)) trivial (by omega)
        simp only [h1]
        refine ⟨_, rfl, ?_⟩
        intro es' h; cases h; simp only [Seq.depthL]; omega

theorem subst_total {var : Int} {val : Val} (hv : val.ok) : ∀ (f : Nat) (s : Seq), s.WF → s.isSeq → s.depth + 1 < f →
    ∃ s', Seq.subst f var val s = .ok s' ∧ s'.isSeq ∧ s'.depth ≤ s.depth := by
  intro f
  induction f with
  | zero => intro s _ _ h; omega
  | succ f ih =>
    intro s hw hs hd
    cases s with
    | int n => simp [Seq.isSeq] at hs
    | boo o l b => exact ⟨_, rfl, trivial, Nat.le_refl _⟩
    | lst op l es =>
      rw [depth_lst] at hd
      obtain ⟨r, hr, hr2⟩ := substLoop_total (f := f - 1) (rec := Seq.subst f var val) (op := op) (var := var) (val := val)
        (fun s hw hs hd => by
          obtain ⟨s', a, -, b⟩ := ih s hw hs (by omega)
          exact ⟨s', a, b⟩) es ((WF_lst _ _ _).1 hw).2 (by omega)
      have hw' := (WF_lst _ _ _).1 hw
      have key := substLoop_spec (op := op) hv (subst_spec hv f) es r hw'.2 hr
      simp only [Seq.subst, hr, bind, Except.bind]
      cases r with
      | inl b => exact ⟨_, rfl, trivial, by simp⟩
      | inr es' =>
        have hx := hr2 es' rfl
        obtain ⟨k1, k2, -⟩ := key
        cases es' with
        | nil => exact ⟨_, rfl, trivial, by simp⟩
        | cons x xs =>
          simp only
          have hw1 : (Seq.lst op l (x :: xs)).WF := by
            rw [WF_lst]; exact ⟨⟨hw'.1.1, fun h0 => k2 (hw'.1.2 h0)⟩, k1⟩
          obtain ⟨c1, -⟩ := check0_spec (cleanSelf_WF hw1)
          have d1 := check0_depth (Seq.cleanSelf (.lst op l (x :: xs)))
          have d2 := cleanSelf_depth (.lst op l (x :: xs))
          have hiss : (Seq.cleanSelf (.lst op l (x :: xs))).check0.isSeq := by
            rcases cleanSelf_cases (.lst op l (x :: xs)) trivial with ⟨o', l', b', h⟩ | ⟨o', l', xs, es', h1, h, -⟩
            · rw [h]; trivial
            · rw [h, check0_lst]; split
              · split <;> trivial
              · trivial
          rw [depth_lst] at d2
          obtain ⟨s', j1, j2, j3⟩ := joinOps_total f true _ c1 hiss (by omega)
          exact ⟨s', j1, j2.isSeq, by rw [depth_lst]; omega⟩

theorem evalLoop_total {f : Nat} : ∀ (vs : Vals) (s : Seq), s.WF → s.isSeq → s.depth + 1 < f →
    ∃ s', evalLoop f vs s = .ok s' := by
  intro vs
  induction vs with
  | nil => intro s _ _ _; exact ⟨s, rfl⟩
  | cons v vs ih =>
    intro s hw hs hd
    obtain ⟨k, ob⟩ := v
    cases ob with
    | none =>
      cases s with
      | int n => simp [Seq.isSeq] at hs
      | boo o l b => exact ⟨_, rfl⟩
      | lst o l es => exact ih _ hw hs hd
    | some b =>
      obtain ⟨s1, h1, h2, h3⟩ := subst_total (var := k) (val := .b b) trivial f s hw hs hd
      obtain ⟨w1, -⟩ := subst_spec (var := k) (val := .b b) trivial f s s1 hw h1
      simp only [evalLoop, h1, bind, Except.bind]
      cases s1 with
      | int n => simp [Seq.isSeq] at h2
      | boo o l b => exact ⟨_, rfl⟩
      | lst o l es => exact ih _ w1 h2 (by omega)

theorem NoBoolL_iff (es : List Seq) : Seq.NoBoolL es ↔ ∀ e ∈ es, e.NoBool := by
  induction es with
  | nil => simp [Seq.NoBoolL]
  | cons e es ih => simp [Seq.NoBoolL, ih]

theorem noBool_lst (o : Op) (l : Int) (es : List Seq) : (Seq.lst o l es).NoBool ↔ ∀ e ∈ es, e.NoBool := by
  simp [Seq.NoBool, NoBoolL_iff]

theorem noBoo0_of {es : List Seq} (h : ∀ e ∈ es, e.NoBool) : NoBoo0 es := by
  intro e he o b hb
  have := h e he
  rw [hb] at this; simp [Seq.NoBool] at this

theorem groupSingle_depth {o : Op} {l : Int} {es : List Seq} {s' : Seq} (hw : (Seq.lst o l es).WF)
    (h : (Seq.lst o l es).groupSingle = .ok s') : s'.depth ≤ (Seq.lst o l es).depth + 1 := by
  obtain ⟨es', rfl, h2, h3, h4, h5⟩ := groupSingle_lst hw h
  rw [depth_lst_le]
  intro e he
  rcases h5 e he with hm | ⟨g, rfl⟩
  · have := depth_mem (o := o) (l := l) hm; omega
  · have hwg := ((WF_lst _ _ _).1 h2).2 _ he
    have := allInt_depth (((WF_lst _ _ _).1 hwg).1.2 rfl)
    rw [depth_lst, depth_lst]; omega

theorem evaluate_total {f : Nat} {vs : Vals} {s : Seq} (hw : s.WF) (hs : s.isSeq) (hn : s.NoBool)
    (hd : s.depth + 2 < f) : ∃ r, s.evaluate f vs = .ok r := by
  cases s with
  | int n => simp [Seq.isSeq] at hs
  | boo o l b => exact ⟨_, rfl⟩
  | lst o l es =>
    obtain ⟨g, hg⟩ := groupSingle_total (o := o) (l := l) (noBoo0_of ((noBool_lst o l es).1 hn))
    have := groupSingle_depth hw hg
    obtain ⟨es', rfl, h2, -⟩ := groupSingle_lst hw hg
    obtain ⟨r, hr⟩ := evalLoop_total (f := f) vs (.lst o l es') h2 trivial (by omega)
    simp only [Seq.evaluate, hg, hr, bind, Except.bind]
    exact ⟨_, rfl⟩

/-! ### check, get_complementary -/

theorem group_cases {o : Op} {l : Int} {es es' : List Seq} (hw : (Seq.lst o l es).WF)
    (hn : (Seq.lst o l es).NoBool) (h0 : l ≠ 0)
    (h : (Seq.lst o l es).groupSingle = .ok (.lst o l es')) :
    ∀ e ∈ es', e.WF ∧ e.isSeq ∧ ((e ∈ es ∧ e.NoBool) ∨ ∃ g, e = .lst o 0 g ∧ AllInt g) := by
  obtain ⟨es1, hx, h2, h3, h4, h5⟩ := groupSingle_lst hw h
  cases hx
  intro e he
  have hwe := ((WF_lst _ _ _).1 h2).2 e he
  refine ⟨hwe, ?_, ?_⟩
  · cases e with
    | int n => exact absurd rfl (h4 h0 _ he n)
    | boo o l b => trivial
    | lst o l xs => trivial
  · rcases h5 e he with hm | ⟨g, rfl⟩
    · exact .inl ⟨hm, (noBool_lst o l es).1 hn e hm⟩
    · exact .inr ⟨g, rfl, ((WF_lst _ _ _).1 hwe).1.2 rfl⟩

theorem checkLoop_total {rec : Seq → M Seq} {op : Op} : ∀ (es : List Seq),
    (∀ e ∈ es, ∃ e', rec e = .ok e') → ∃ r, checkLoop rec op es = .ok r := by
  intro es
  induction es with
  | nil => intro _; exact ⟨_, rfl⟩
  | cons e es ih =>
    intro h
    obtain ⟨r, hr⟩ := ih (fun x hx => h x (by simp [hx]))
    obtain ⟨e', he⟩ := h e (by simp)
    simp only [checkLoop, hr, bind, Except.bind]
    cases r with
    | inl b => exact ⟨_, rfl⟩
    | inr xs =>
      simp only [he]
      cases e' with
      | int n => exact ⟨_, rfl⟩
      | lst o l ys => exact ⟨_, rfl⟩
      | boo o l b => simp only; split <;> exact ⟨_, rfl⟩

theorem check_total : ∀ (f : Nat) (s : Seq), s.WF → s.isSeq → s.NoBool → s.depth < f →
    ∃ s', Seq.check f s = .ok s' := by
  intro f
  induction f with
  | zero => intro s _ _ _ h; omega
  | succ f ih =>
    intro s hw hs hn hd
    cases s with
    | int n => simp [Seq.isSeq] at hs
    | boo o l b => simp [Seq.NoBool] at hn
    | lst op l es =>
      simp only [Seq.check]
      split
      · exact ⟨_, rfl⟩
      · next h0 =>
        obtain ⟨g, hg⟩ := groupSingle_total (o := op) (l := l) (noBoo0_of ((noBool_lst op l es).1 hn))
        obtain ⟨es', rfl, -⟩ := groupSingle_lst hw hg
        have hc := group_cases hw hn h0 hg
        rw [depth_lst] at hd
        obtain ⟨r, hr⟩ := checkLoop_total (rec := Seq.check f) (op := op) es' (fun e he => by
          obtain ⟨a, b, c⟩ := hc e he
          rcases c with ⟨c, d⟩ | ⟨g, rfl, c⟩
          · have := depth_mem (o := op) (l := l) c
            rw [depth_lst] at this
            exact ih e a b d (by omega)
          · cases es with
            | nil =>
              -- an empty list has no group
              simp [Seq.groupSingle, h0, groupLoop] at hg
              subst hg; simp at he
            | cons x xs =>
              cases f with
              | zero => exact absurd hd (by omega)
              | succ f => exact ⟨_, rfl⟩)
        simp only [hg, bind, Except.bind, hr]
        cases r with
        | inl b => exact ⟨_, rfl⟩
        | inr ys => cases ys <;> exact ⟨_, rfl⟩

theorem negInts_total : ∀ (es : List Seq), AllInt es → ∃ r, negInts es = .ok r := by
  intro es
  induction es with
  | nil => intro _; exact ⟨_, rfl⟩
  | cons e es ih =>
    intro h
    obtain ⟨r, hr⟩ := ih (fun x hx => h x (by simp [hx]))
    obtain ⟨n, rfl⟩ := h e (by simp)
    exact ⟨_, by simp only [negInts, hr]; rfl⟩

theorem compLoop_total {rec : Seq → M (Seq × Seq)} : ∀ (es : List Seq),
    (∀ e ∈ es, ∃ e', rec e = .ok e') → ∃ r, compLoop rec es = .ok r := by
  intro es
  induction es with
  | nil => intro _; exact ⟨_, rfl⟩
  | cons e es ih =>
    intro h
    obtain ⟨r, hr⟩ := ih (fun x hx => h x (by simp [hx]))
    obtain ⟨e', he⟩ := h e (by simp)
    exact ⟨_, by simp only [compLoop, hr, he]; rfl⟩

theorem comp_total : ∀ (f : Nat) (s : Seq), s.WF → s.isSeq → s.NoBool → s.depth < f →
    ∃ r, Seq.comp f s = .ok r := by
  intro f
  induction f with
  | zero => intro s _ _ _ h; omega
  | succ f ih =>
    intro s hw hs hn hd
    cases s with
    | int n => simp [Seq.isSeq] at hs
    | boo o l b => simp [Seq.NoBool] at hn
    | lst op l es =>
      simp only [Seq.comp]
      split
      · next h0 =>
        obtain ⟨r, hr⟩ := negInts_total es (((WF_lst _ _ _).1 hw).1.2 h0)
        exact ⟨_, by simp only [hr]; rfl⟩
      · next h0 =>
        obtain ⟨g, hg⟩ := groupSingle_total (o := op) (l := l) (noBoo0_of ((noBool_lst op l es).1 hn))
        obtain ⟨es', rfl, -⟩ := groupSingle_lst hw hg
        have hc := group_cases hw hn h0 hg
        rw [depth_lst] at hd
        obtain ⟨r, hr⟩ := compLoop_total (rec := Seq.comp f) es' (fun e he => by
          obtain ⟨a, b, c⟩ := hc e he
          rcases c with ⟨c, d⟩ | ⟨g, rfl, c⟩
          · have := depth_mem (o := op) (l := l) c
            rw [depth_lst] at this
            exact ih e a b d (by omega)
          · cases es with
            | nil =>
              simp [Seq.groupSingle, h0, groupLoop] at hg
              subst hg; simp at he
            | cons x xs =>
              cases f with
              | zero => exact absurd hd (by omega)
              | succ f =>
                obtain ⟨r, hr⟩ := negInts_total g c
                exact ⟨_, by simp only [Seq.comp, hr]; rfl⟩)
        simp only [hg, bind, Except.bind, hr]
        exact ⟨_, rfl⟩

end Geouned
