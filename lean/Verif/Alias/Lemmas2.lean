import Verif.Alias.Lemmas
/-! # Lemmas on objects in memory: uniqueness of the expression, levels, change of sign -/
namespace Geouned.Alias

/-! ## The expression at an address is unique -/

mutual
theorem holds_unique {h : Heap} : ∀ t u : Tree, t.el = u.el → t.Holds h → u.Holds h → t = u
  | .int n, u, e, _, _ => by
    cases u with
    | int m => simp [Tree.el] at e; subst e; rfl
    | boo a op b => simp [Tree.el] at e
    | lst a op ts => simp [Tree.el] at e
  | .boo a op b, u, e, ht, hu => by
    cases u with
    | int m => simp [Tree.el] at e
    | boo a' op' b' =>
      simp only [Tree.el, El.ref.injEq] at e; subst e
      simp only [Tree.Holds] at ht hu
      have h1 := ht.1.symm.trans hu.1
      have h2 := ht.2.symm.trans hu.2
      subst h1
      cases h2; rfl
    | lst a' op' ts =>
      simp only [Tree.el, El.ref.injEq] at e; subst e
      simp only [Tree.Holds] at ht hu
      exact absurd (ht.2.symm.trans hu.1.2) (by simp)
  | .lst a op ts, u, e, ht, hu => by
    cases u with
    | int m => simp [Tree.el] at e
    | boo a' op' b' =>
      simp only [Tree.el, El.ref.injEq] at e; subst e
      simp only [Tree.Holds] at ht hu
      exact absurd (ht.1.2.symm.trans hu.2) (by simp)
    | lst a' op' us =>
      simp only [Tree.el, El.ref.injEq] at e; subst e
      simp only [Tree.Holds] at ht hu
      have h1 := ht.1.1.symm.trans hu.1.1
      have h2 := ht.1.2.symm.trans hu.1.2
      subst h1
      simp only [Els.lst.injEq] at h2
      rw [holdsL_unique ts us h2 ht.2 hu.2]
theorem holdsL_unique {h : Heap} : ∀ ts us : List Tree, ts.map Tree.el = us.map Tree.el → Tree.HoldsL h ts → Tree.HoldsL h us → ts = us
  | [], [], _, _, _ => rfl
  | [], _ :: _, e, _, _ => by simp at e
  | _ :: _, [], e, _, _ => by simp at e
  | t :: ts, u :: us, e, ht, hu => by
    simp only [List.map_cons, List.cons.injEq] at e
    simp only [Tree.HoldsL] at ht hu
    rw [holds_unique t u e.1 ht.1 hu.1, holdsL_unique ts us e.2 ht.2 hu.2]
end

mutual
/-- all sub-expressions that are objects -/
def subs : Tree → List Tree
  | .int _ => []
  | .boo a op b => [.boo a op b]
  | .lst a op ts => .lst a op ts :: subsL ts
def subsL : List Tree → List Tree
  | [] => []
  | t :: ts => subs t ++ subsL ts
end

mutual
theorem subs_holds {h : Heap} : ∀ t : Tree, t.Holds h → ∀ u ∈ subs t, u.Holds h ∧ sizeOf u ≤ sizeOf t
  | .int _, _, u, hu => by simp [subs] at hu
  | .boo a op b, ht, u, hu => by
    simp only [subs, List.mem_singleton] at hu; subst hu; exact ⟨ht, Nat.le_refl _⟩
  | .lst a op ts, ht, u, hu => by
    simp only [subs, List.mem_cons] at hu
    rcases hu with rfl | hu
    · exact ⟨ht, Nat.le_refl _⟩
    · simp only [Tree.Holds] at ht
      have := subsL_holds ts ht.2 u hu
      refine ⟨this.1, ?_⟩
      simp only [Tree.lst.sizeOf_spec]; omega
theorem subsL_holds {h : Heap} : ∀ ts : List Tree, Tree.HoldsL h ts → ∀ u ∈ subsL ts, u.Holds h ∧ sizeOf u ≤ sizeOf ts
  | [], _, u, hu => by simp [subsL] at hu
  | t :: ts, ht, u, hu => by
    simp only [subsL, List.mem_append] at hu
    simp only [Tree.HoldsL] at ht
    rcases hu with hu | hu
    · have := subs_holds t ht.1 u hu
      refine ⟨this.1, ?_⟩
      simp only [List.cons.sizeOf_spec]; omega
    · have := subsL_holds ts ht.2 u hu
      refine ⟨this.1, ?_⟩
      simp only [List.cons.sizeOf_spec]; omega
end

mutual
theorem mem_addrs_subs : ∀ (t : Tree) (a : Nat), a ∈ t.addrs → ∃ u ∈ subs t, u.el = .ref a
  | .int _, a, ha => by simp [Tree.addrs] at ha
  | .boo c op b, a, ha => by
    simp only [Tree.addrs, List.mem_singleton] at ha; subst ha
    exact ⟨.boo a op b, by simp [subs], rfl⟩
  | .lst c op ts, a, ha => by
    simp only [Tree.addrs, List.mem_cons] at ha
    rcases ha with rfl | ha
    · exact ⟨.lst a op ts, by simp [subs], rfl⟩
    · obtain ⟨u, hu, e⟩ := mem_addrsL_subs ts a ha
      exact ⟨u, by simp [subs, hu], e⟩
theorem mem_addrsL_subs : ∀ (ts : List Tree) (a : Nat), a ∈ Tree.addrsL ts → ∃ u ∈ subsL ts, u.el = .ref a
  | [], a, ha => by simp [Tree.addrsL] at ha
  | t :: ts, a, ha => by
    simp only [Tree.addrsL, List.mem_append] at ha
    rcases ha with ha | ha
    · obtain ⟨u, hu, e⟩ := mem_addrs_subs t a ha
      exact ⟨u, by simp [subsL, hu], e⟩
    · obtain ⟨u, hu, e⟩ := mem_addrsL_subs ts a ha
      exact ⟨u, by simp [subsL, hu], e⟩
end

/-- an object does not contain itself -/
theorem not_self {h : Heap} {a : Nat} {op : Op} {ts : List Tree} (ht : (Tree.lst a op ts).Holds h) : a ∉ Tree.addrsL ts := by
  intro ha
  obtain ⟨u, hu, e⟩ := mem_addrsL_subs ts a ha
  have hts : Tree.HoldsL h ts := by simp only [Tree.Holds] at ht; exact ht.2
  obtain ⟨h1, h2⟩ := subsL_holds ts hts u hu
  have := holds_unique u (.lst a op ts) (by rw [e]; rfl) h1 ht
  subst this
  simp only [Tree.lst.sizeOf_spec] at h2; omega

/-! ## Levels -/

mutual
/-- level of an expression -/
def slev : Tree → Int
  | .int _ => -1
  | .boo _ _ _ => 0
  | .lst _ _ ts => slevL ts
def slevL : List Tree → Int
  | [] => 0
  | t :: ts => max (slev t + 1) (slevL ts)
end

theorem slevL_nonneg : ∀ ts : List Tree, 0 ≤ slevL ts
  | [] => by simp [slevL]
  | t :: ts => by have := slevL_nonneg ts; simp only [slevL]; omega

/-- the stored levels are right -/
def LevOK (h : Heap) (us : List Tree) : Prop := ∀ u ∈ us, ∀ a, u.el = .ref a → (h a).lev = slev u

/-- the same objects up to levels -/
def SameEls (h h' : Heap) : Prop := ∀ b, (h' b).op = (h b).op ∧ (h' b).els = (h b).els

theorem SameEls.trans {h1 h2 h3 : Heap} (a : SameEls h1 h2) (b : SameEls h2 h3) : SameEls h1 h3 :=
  fun x => ⟨(b x).1.trans (a x).1, (b x).2.trans (a x).2⟩

theorem SameEls.upd (h : Heap) (a : Nat) (l : Int) : SameEls h (upd h a { h a with lev := l }) := by
  intro b
  by_cases hb : b = a
  · subst hb; simp [upd_same]
  · simp [upd_other _ _ _ hb]

theorem SameEls.holds {h h' : Heap} (s : SameEls h h') (t : Tree) (ht : t.Holds h) : t.Holds h' := holds_congr t (fun b _ => s b) ht
theorem SameEls.holdsL {h h' : Heap} (s : SameEls h h') (t : List Tree) (ht : Tree.HoldsL h t) : Tree.HoldsL h' t := holdsL_congr t (fun b _ => s b) ht

/-- what `level_update` does -/
def LevSpec (rec : Heap → Nat → M Heap) (f : Nat) : Prop :=
  ∀ (h : Heap) (t : Tree) (a : Nat), t.depth ≤ f → t.el = .ref a → t.Holds h →
    ∃ h', rec h a = .ok h' ∧ SameEls h h' ∧ (∀ b, (∀ u ∈ subs t, u.el ≠ .ref b) → h' b = h b) ∧ LevOK h' (subs t)

theorem self_mem_subs : ∀ {t : Tree} {a : Nat}, t.el = .ref a → t ∈ subs t
  | .int _, a, e => by simp [Tree.el] at e
  | .boo _ _ _, _, _ => by simp [subs]
  | .lst _ _ _, _, _ => by simp [subs]

theorem levLoop_spec {rec : Heap → Nat → M Heap} {f : Nat} (hrec : LevSpec rec f) (a : Nat) :
    ∀ (ts : List Tree) (h : Heap) (pre : List El) (m : Int), Tree.depthL ts ≤ f → Tree.HoldsL h ts → (∀ u ∈ subsL ts, u.el ≠ .ref a) →
      (h a).els = .lst (pre ++ ts.map Tree.el) → (h a).lev = m → 0 ≤ m →
      ∃ h', levLoop rec a (List.range' pre.length ts.length) h = .ok h' ∧ SameEls h h' ∧
        (∀ b, b ≠ a → (∀ u ∈ subsL ts, u.el ≠ .ref b) → h' b = h b) ∧ LevOK h' (subsL ts) ∧ (h' a).lev = max m (slevL ts) := by
  intro ts
  induction ts with
  | nil =>
    intro h pre m _ _ _ _ hm h0
    exact ⟨h, by simp [levLoop], fun b => ⟨rfl, rfl⟩, fun b _ _ => rfl, by simp [subsL, LevOK], by simp [slevL, hm]; omega⟩
  | cons t ts ih =>
    intro h pre m hd hh ha he hm h0
    simp only [Tree.depthL] at hd
    simp only [Tree.HoldsL] at hh
    have ha1 : ∀ u ∈ subs t, u.el ≠ .ref a := fun u hu => ha u (by simp [subsL, hu])
    have ha2 : ∀ u ∈ subsL ts, u.el ≠ .ref a := fun u hu => ha u (by simp [subsL, hu])
    have hget : (pre ++ (t :: ts).map Tree.el)[pre.length]? = some t.el := by simp
    simp only [List.length_cons, List.range'_succ, levLoop, he, hget]
    cases ht : t.el with
    | int n =>
      obtain ⟨n', rfl⟩ : ∃ n', t = .int n' := by cases t <;> simp [Tree.el] at ht ⊢
      obtain ⟨h', e1, e2, e3, e4, e5⟩ := ih h (pre ++ [.int n']) m (by omega) hh.2 ha2 (by rw [he]; simp [Tree.el]) hm h0
      refine ⟨h', by simpa using e1, e2, fun b hb hb' => e3 b hb (fun u hu => hb' u (by simp [subsL, hu])), by simpa [subsL, subs] using e4, ?_⟩
      rw [e5]; simp only [slevL, slev]; have := slevL_nonneg ts; omega
    | ref c =>
      have hca : c ≠ a := by
        intro e; subst e
        exact ha1 t (self_mem_subs ht) ht
      obtain ⟨h1, r1, r2, r3, r4⟩ := hrec h t c (by omega) ht hh.1
      simp only [r1, bind, Except.bind]
      have h1a : h1 a = h a := r3 a ha1
      have h1c : (h1 c).lev = slev t := r4 t (self_mem_subs ht) c ht
      have s2 : SameEls h1 (upd h1 a { h1 a with lev := max ((h1 c).lev + 1) (h1 a).lev }) := SameEls.upd _ _ _
      have hslev : 0 ≤ slev t := by
        cases t with
        | int n => simp [Tree.el] at ht
        | boo _ _ _ => simp [slev]
        | lst _ _ us => simp only [slev]; exact slevL_nonneg us
      obtain ⟨h', e1, e2, e3, e4, e5⟩ := ih (upd h1 a { h1 a with lev := max ((h1 c).lev + 1) (h1 a).lev }) (pre ++ [.ref c])
        (max (slev t + 1) m) (by omega) ((r2.trans s2).holdsL _ hh.2) ha2 (by rw [(s2 a).2, h1a, he]; simp [ht])
        (by rw [upd_same, h1c, h1a, hm]) (by omega)
      refine ⟨h', by simpa using e1, (r2.trans s2).trans e2, ?_, ?_, ?_⟩
      · intro b hb hb'
        rw [e3 b hb (fun u hu => hb' u (by simp [subsL, hu])), upd_other _ _ _ hb, r3 b (fun u hu => hb' u (by simp [subsL, hu]))]
      · have hA : LevOK (upd h1 a { h1 a with lev := max ((h1 c).lev + 1) (h1 a).lev }) (subs t) := by
          intro u hu x ex
          have : x ≠ a := fun e => ha1 u hu (e ▸ ex)
          rw [upd_other _ _ _ this]; exact r4 u hu x ex
        have hB : LevOK h' (subs t) := by
          intro u hu x ex
          by_cases hex : ∃ v ∈ subsL ts, v.el = .ref x
          · obtain ⟨v, hvm, ev⟩ := hex
            rw [e4 v hvm x ev, holds_unique u v (ex.trans ev.symm) (subs_holds t hh.1 u hu).1 (subsL_holds ts hh.2 v hvm).1]
          · rw [e3 x (fun e => ha1 u hu (e ▸ ex)) (fun v hvm ev => hex ⟨v, hvm, ev⟩)]
            exact hA u hu x ex
        intro u hu
        simp only [subsL, List.mem_append] at hu
        rcases hu with hu | hu
        · exact hB u hu
        · exact e4 u hu
      · rw [e5]; simp only [slevL]; omega

theorem levelUpdate_spec : ∀ f, LevSpec (levelUpdate f) f := by
  intro f
  induction f with
  | zero =>
    intro h t a hd e _
    cases t with
    | int n => simp [Tree.el] at e
    | boo _ _ _ => simp [Tree.depth] at hd
    | lst _ _ _ => simp [Tree.depth] at hd
  | succ f ih =>
    intro h t a hd e hh
    cases t with
    | int n => simp [Tree.el] at e
    | boo c op b =>
      simp only [Tree.el, El.ref.injEq] at e; subst e
      simp only [Tree.Holds] at hh
      refine ⟨upd h c { h c with lev := 0 }, by simp only [levelUpdate, hh.2], SameEls.upd _ _ _, ?_, ?_⟩
      · intro b' hb
        exact upd_other _ _ _ (fun e => hb (.boo c op b) (by simp [subs]) (by simp [Tree.el, e]))
      · intro u hu x ex
        simp only [subs, List.mem_singleton] at hu; subst hu
        simp only [Tree.el, El.ref.injEq] at ex; subst ex
        simp [upd_same, slev]
    | lst c op ts =>
      simp only [Tree.el, El.ref.injEq] at e; subst e
      have hself := not_self hh
      simp only [Tree.Holds] at hh
      simp only [Tree.depth] at hd
      have s1 : SameEls h (upd h c { h c with lev := 0 }) := SameEls.upd _ _ _
      have hsubs : ∀ u ∈ subsL ts, u.el ≠ .ref c := by
        intro u hu e
        apply hself
        clear hself s1 hd hh ih
        induction ts with
        | nil => simp [subsL] at hu
        | cons t ts ih =>
          simp only [subsL, List.mem_append] at hu
          simp only [Tree.addrsL, List.mem_append]
          rcases hu with hu | hu
          · exact .inl (subs_addrs t u hu c e)
          · exact .inr (ih hu)
      obtain ⟨h', e1, e2, e3, e4, e5⟩ := levLoop_spec ih c ts (upd h c { h c with lev := 0 }) [] 0 (by omega) (s1.holdsL _ hh.2) hsubs
        (by rw [upd_same]; simpa using hh.1.2) (by rw [upd_same]) (by omega)
      refine ⟨h', ?_, s1.trans e2, ?_, ?_⟩
      · simp only [levelUpdate, hh.1.2, List.length_map, List.range_eq_range']
        simpa [hh.1.2] using e1
      · intro b hb
        have hbc : b ≠ c := fun e => hb (.lst c op ts) (by simp [subs]) (by simp [Tree.el, e])
        rw [e3 b hbc (fun u hu => hb u (by simp [subs, hu])), upd_other _ _ _ hbc]
      · intro u hu
        simp only [subs, List.mem_cons] at hu
        rcases hu with rfl | hu
        · intro x ex
          simp only [Tree.el, El.ref.injEq] at ex; subst ex
          rw [e5]; simp only [slev]; have := slevL_nonneg ts; omega
        · exact e4 u hu
where
  subs_addrs (t u : Tree) (hu : u ∈ subs t) (c : Nat) (e : u.el = .ref c) : c ∈ t.addrs := by
    cases t with
    | int n => simp [subs] at hu
    | boo a op b =>
      simp only [subs, List.mem_singleton] at hu; subst hu
      simp only [Tree.el, El.ref.injEq] at e; subst e; simp [Tree.addrs]
    | lst a op ts =>
      simp only [subs, List.mem_cons] at hu
      rcases hu with rfl | hu
      · simp only [Tree.el, El.ref.injEq] at e; subst e; simp [Tree.addrs]
      · simp only [Tree.addrs, List.mem_cons]
        exact .inr (subsL_addrs ts u hu c e)
  subsL_addrs (ts : List Tree) (u : Tree) (hu : u ∈ subsL ts) (c : Nat) (e : u.el = .ref c) : c ∈ Tree.addrsL ts := by
    cases ts with
    | nil => simp [subsL] at hu
    | cons t ts =>
      simp only [subsL, List.mem_append] at hu
      simp only [Tree.addrsL, List.mem_append]
      rcases hu with hu | hu
      · exact .inl (subs_addrs t u hu c e)
      · exact .inr (subsL_addrs ts u hu c e)

end Geouned.Alias
