import Verif.Alias.Lemmas4
/-!
# Property C58: turning a surface at export turns it everywhere

Definitions as objects: `Verif/Alias/Spec.lean`. Code model: `Verif/Alias/Model.lean`.
-/
namespace Geouned.Alias

/-! ## the general statement on the change of sign -/

/-- surface `v` is in the list of the object at `a` -/
def DirectIn (h : Heap) (a v : Nat) : Prop := ∃ es n, (h a).els = .lst es ∧ .int n ∈ es ∧ n.natAbs = v

mutual
theorem okay_of_direct {h : Heap} {v : Nat} {k : Nat → Bool} : ∀ (p : Bool) (t : Tree), t.Holds h → (∀ m, t = .int m → m.natAbs = v → p = true) →
    (∀ a ∈ t.addrs, DirectIn h a v → k a = true) → Okay v k p t
  | p, .int n, _, h1, _ => by simp only [Okay]; exact h1 n rfl
  | p, .boo _ _ _, _, _, _ => by simp [Okay]
  | p, .lst a op ts, hh, _, hk => by
    simp only [Tree.Holds] at hh
    simp only [Okay]
    refine okayL_of_direct (k a) ts hh.2 (fun m hm hv => hk a (by simp [Tree.addrs]) ⟨_, m, hh.1.2, ?_, hv⟩)
      (fun b hb => hk b (by simp [Tree.addrs, hb]))
    exact List.mem_map.mpr ⟨_, hm, rfl⟩
theorem okayL_of_direct {h : Heap} {v : Nat} {k : Nat → Bool} : ∀ (p : Bool) (ts : List Tree), Tree.HoldsL h ts →
    (∀ m, .int m ∈ ts → m.natAbs = v → p = true) → (∀ a ∈ Tree.addrsL ts, DirectIn h a v → k a = true) → OkayL v k p ts
  | p, [], _, _, _ => by simp [OkayL]
  | p, t :: ts, hh, h1, hk => by
    simp only [Tree.HoldsL] at hh
    simp only [OkayL]
    exact ⟨okay_of_direct p t hh.1 (fun m e => h1 m (by simp [e])) (fun a ha => hk a (by simp [Tree.addrsL, ha])),
      okayL_of_direct p ts hh.2 (fun m hm => h1 m (by simp [hm])) (fun a ha => hk a (by simp [Tree.addrsL, ha]))⟩
end

/-- the stored levels say 0 only for lists of ints -/
abbrev LevelsOK (h : Heap) (t : Tree) : Prop := FlatOK h t

/-- C58, any sharing: `change_surf_sign` turns surface `v` in the whole definition if every object that has `v` in its own list sits in an odd
number of places (in particular if no object is shared). -/
theorem C58_change_sign_partial (v f : Nat) (h : Heap) (a : Nat) (t : Tree) (hu : Unfolds h a t) (hp : t.Plain) (hd : t.depth ≤ f)
    (hl : LevelsOK h t) (hodd : ∀ b ∈ t.addrs, DirectIn h b v → t.addrs.count b % 2 = 1) :
    ∃ h' t', changeSign v f h a = .ok h' ∧ Unfolds h' a t' ∧ ∀ σ, t'.sem σ = t.sem (swapSides v σ) := by
  obtain ⟨he, hh⟩ := hu
  cases t with
  | int n => simp [Tree.el] at he
  | boo c op b => simp [Tree.Plain] at hp
  | lst c op ts =>
    simp only [Tree.el, El.ref.injEq] at he; subst he
    obtain ⟨h', e1, e2⟩ := changeSign_spec v f h c op ts hd hp hh hl
    refine ⟨h', togT v (fun b => par b (Tree.lst c op ts).addrs) true (.lst c op ts), e1, ⟨?_, togT_holds _ _ (fun b _ => e2 b) hh⟩, fun σ => ?_⟩
    · simp [togT, Tree.el]
    · refine togT_sem v _ σ true _ hp (okay_of_direct true _ hh (by simp) (fun b hb hdir => ?_))
      simp [par, hodd b hb hdir]

/-- C58 in full: after `insert_in_sequence` the definition can be turned: `change_surf_sign` exchanges the sides of the surface everywhere. -/
def C58_statement : Prop :=
  ∀ (f : Nat) (h : Heap) (a : Nat) (t : Tree) (tgt n : Int) (op : Op) (new v : Nat),
    Unfolds h a t → t.Plain → t.addrs.Nodup → new ∉ t.addrs → t.depth < f → tgt ≠ 0 → n ≠ 0 → tgt.natAbs ≠ n.natAbs →
    ∃ h1 t1 h2 t2, insert f h a tgt n op new = .ok h1 ∧ Unfolds h1 a t1 ∧ changeSign v f h1 a = .ok h2 ∧ Unfolds h2 a t2 ∧
      ∀ σ, t2.sem σ = t1.sem (swapSides v σ)

/-- `insert_in_sequence` on objects in memory: every place of the signed number `tgt` gets the new sequence, which is one object
sitting in all these places; the meaning is that of C15 and the levels are right. -/
theorem insert_spec (f : Nat) (h : Heap) (a : Nat) (t : Tree) (tgt n : Int) (op : Op) (new : Nat) (hu : Unfolds h a t) (hp : t.Plain)
    (hn : t.addrs.Nodup) (hnew : new ∉ t.addrs) (hd : t.depth < f) (ht : tgt ≠ 0) (hn0 : n ≠ 0) :
    ∃ h1, insert f h a tgt n op new = .ok h1 ∧ Unfolds h1 a (insT tgt (.lst new op [.int tgt, .int n]) t) ∧
      FlatOK h1 (insT tgt (.lst new op [.int tgt, .int n]) t) := by
  obtain ⟨he, hh⟩ := hu
  cases t with
  | int n => simp [Tree.el] at he
  | boo c op b => simp [Tree.Plain] at hp
  | lst c o ts =>
    simp only [Tree.el, El.ref.injEq] at he; subst he
    have hN : (Tree.lst new op [.int tgt, .int n]).Holds (upd h new ⟨op, 0, .lst [.int tgt, .int n]⟩) := by
      simp [Tree.Holds, Tree.HoldsL, upd_same, Tree.el]
    obtain ⟨h1, e1, e2, e3⟩ := substInt_spec tgt n new op f (upd h new ⟨op, 0, .lst [.int tgt, .int n]⟩) c o ts (by omega) hp
      (holds_congr _ (fun b hb => by
        have : b ≠ new := fun e => hnew (e ▸ hb)
        rw [upd_other _ _ _ this]; exact ⟨rfl, rfl⟩) hh) hn hnew hN
    have hdep := insT_depth tgt n new op (.lst c o ts)
    obtain ⟨h2, l1, l2, l3, l4⟩ := levelUpdate_spec f h1 (insT tgt (.lst new op [.int tgt, .int n]) (.lst c o ts)) c (by omega)
      (by simp [insT, Tree.el]) e2
    refine ⟨h2, ?_, ⟨by simp [insT, Tree.el], l2.holds _ e2⟩, flat_of_lev _ (insT_plain ht hn0 _ hp) l4⟩
    simp only [insert, e1, bind, Except.bind, l1]

/-- C58, partial: it holds if `tgt` sits in an odd number of places (or none), or if the surface turned is neither `tgt` nor the inserted one.
Missing: an even number of places, where it fails. -/
theorem C58_insert_then_turn_partial (f : Nat) (h : Heap) (a : Nat) (t : Tree) (tgt n : Int) (op : Op) (new v : Nat)
    (hu : Unfolds h a t) (hp : t.Plain) (hn : t.addrs.Nodup) (hnew : new ∉ t.addrs) (hd : t.depth < f) (ht : tgt ≠ 0) (hn0 : n ≠ 0)
    (hodd : t.places tgt = 0 ∨ t.places tgt % 2 = 1 ∨ (v ≠ tgt.natAbs ∧ v ≠ n.natAbs)) :
    ∃ h1 t1 h2 t2, insert f h a tgt n op new = .ok h1 ∧ Unfolds h1 a t1 ∧
      (∀ σ, t1.sem σ = t.semIns σ tgt (match op with | .and => lit σ tgt && lit σ n | .or => lit σ tgt || lit σ n)) ∧
      changeSign v f h1 a = .ok h2 ∧ Unfolds h2 a t2 ∧ ∀ σ, t2.sem σ = t1.sem (swapSides v σ) := by
  obtain ⟨h1, e1, e2, e3⟩ := insert_spec f h a t tgt n op new hu hp hn hnew hd ht hn0
  have hdep := insT_depth tgt n new op t
  have hsgn := C58_change_sign_partial v f h1 a _ e2 (insT_plain ht hn0 t hp) (by omega) e3 ?_
  · obtain ⟨h2, t2, s1, s2, s3⟩ := hsgn
    refine ⟨h1, _, h2, t2, e1, e2, fun σ => ?_, s1, s2, s3⟩
    exact insT_sem tgt n new σ op _ (by cases op <;> simp [Tree.sem, Tree.semAll, Tree.semAny]) t
  · intro b hb hdir
    rw [insT_count]
    by_cases hbn : b = new
    · subst hbn
      simp only [if_true, List.count_eq_zero_of_not_mem hnew]
      rcases hodd with h0 | h1' | h2
      · exfalso
        have : 0 < (insT tgt (.lst b op [.int tgt, .int n]) t).addrs.count b := List.count_pos_iff.mpr hb
        rw [insT_count] at this
        simp [h0, List.count_eq_zero_of_not_mem hnew] at this
      · omega
      · exfalso
        obtain ⟨u, hu1, hu2⟩ := mem_addrs_subs _ b hb
        have hNh := (subs_holds _ e2.2 u hu1).1
        obtain ⟨es, m, q1, q2, q3⟩ := hdir
        -- the new object still holds the two numbers
        have hes : es = [.int tgt, .int n] := by
          have := newObj t b hnew hb e2.2
          rw [this] at q1; simpa using q1.symm
        subst hes
        simp only [List.mem_cons, El.int.injEq, List.not_mem_nil, or_false] at q2
        rcases q2 with rfl | rfl
        · exact h2.1 q3.symm
        · exact h2.2 q3.symm
    · simp only [hbn, if_false, Nat.add_zero]
      have hb' : b ∈ t.addrs := by
        rcases ins_addrs _ _ _ b hb with hb | hb
        · exact hb
        · exact absurd (by simpa [Tree.addrs, Tree.addrsL] using hb) hbn
      have := List.nodup_iff_count.mp hn b
      have h2 : 0 < t.addrs.count b := List.count_pos_iff.mpr hb'
      omega
where
  newObj {h1 : Heap} (t : Tree) (b : Nat) (hnew : b ∉ t.addrs) (hb : b ∈ (insT tgt (.lst b op [.int tgt, .int n]) t).addrs)
      (hh : (insT tgt (.lst b op [.int tgt, .int n]) t).Holds h1) : (h1 b).els = .lst [.int tgt, .int n] := by
    cases t with
    | int m =>
      simp only [insT] at hb hh
      split at hb
      · rename_i e
        simp only [e, if_true, Tree.Holds] at hh
        simpa [Tree.el] using hh.1.2
      · simp [Tree.addrs] at hb
    | boo c o b' => exact absurd hb (by simpa [insT] using hnew)
    | lst c o ts =>
      simp only [insT, Tree.addrs, List.mem_cons, Tree.Holds, not_or] at hb hh hnew
      exact newObjL ts b hnew.2 (hb.resolve_left hnew.1) hh.2
  newObjL {h1 : Heap} (ts : List Tree) (b : Nat) (hnew : b ∉ Tree.addrsL ts) (hb : b ∈ Tree.addrsL (insL tgt (.lst b op [.int tgt, .int n]) ts))
      (hh : Tree.HoldsL h1 (insL tgt (.lst b op [.int tgt, .int n]) ts)) : (h1 b).els = .lst [.int tgt, .int n] := by
    cases ts with
    | nil => simp [insL, Tree.addrsL] at hb
    | cons t ts =>
      simp only [insL, Tree.addrsL, List.mem_append, Tree.HoldsL, not_or] at hb hh hnew
      rcases hb with hb | hb
      · exact newObj t b hnew.1 hb hh.1
      · exact newObjL ts b hnew.2 hb hh.2

/-! ## concrete cases -/

/-- OR[ AND[-5 1] AND[-5 2] ], cone 5 in two places -/
def exH : Heap := fun a =>
  match a with
  | 0 => ⟨.or, 1, .lst [.ref 1, .ref 2]⟩
  | 1 => ⟨.and, 0, .lst [.int (-5), .int 1]⟩
  | 2 => ⟨.and, 0, .lst [.int (-5), .int 2]⟩
  | _ => ⟨.and, 0, .lst []⟩

def exT : Tree := .lst 0 .or [.lst 1 .and [.int (-5), .int 1], .lst 2 .and [.int (-5), .int 2]]

theorem exT_unfolds : Unfolds exH 0 exT := by
  simp [Unfolds, exT, exH, Tree.el, Tree.Holds, Tree.HoldsL]

/-- non-vacuity of the partial theorem: surface 1 turned after plane 9 was inserted beside the cone -/
example : Unfolds exH 0 exT ∧ exT.Plain ∧ exT.addrs.Nodup ∧ 3 ∉ exT.addrs ∧ exT.depth < 3 ∧ (1 ≠ (-5 : Int).natAbs ∧ 1 ≠ (9 : Int).natAbs) :=
  ⟨exT_unfolds, by simp [exT, Tree.Plain, Tree.PlainL], by decide, by decide, by decide, by decide⟩

/-- non-vacuity: target in one place, the inserted plane turned -/
example : exT.places 1 % 2 = 1 := by decide

/-- non-vacuity of `C58_change_sign_partial` -/
example : LevelsOK exH exT ∧ ∀ b ∈ exT.addrs, exT.addrs.count b % 2 = 1 := by
  refine ⟨?_, by decide⟩
  simp [LevelsOK, exT, FlatOK, FlatOKL, exH]

/-- C58 fails: plane 9 is inserted beside the cone -5, which sits in two places, and then turned. The object that holds 9 is visited twice and
ends up as before. -/
theorem C58_violated : ¬ C58_statement := by
  intro H
  obtain ⟨h1, t1, h2, t2, e1, u1, e2, u2, hs⟩ := H 3 exH 0 exT (-5) 9 .and 3 9 exT_unfolds
    (by simp [exT, Tree.Plain, Tree.PlainL]) (by decide) (by decide) (by decide) (by decide) (by decide) (by decide)
  -- what the code computes
  have hf : ∀ b, b = 0 ∨ b = 1 ∨ b = 2 ∨ b = 3 → h1 b = h2 b := by
    obtain ⟨h1', f1, f2, f3⟩ := insert_spec 3 exH 0 exT (-5) 9 .and 3 exT_unfolds (by simp [exT, Tree.Plain, Tree.PlainL]) (by decide) (by decide)
      (by decide) (by decide) (by decide)
    rw [e1] at f1
    cases f1
    obtain ⟨h2', g1, g2⟩ := changeSign_spec 9 3 h1 0 .or _ (by decide) (by simp [insT, insL, Tree.Plain, Tree.PlainL]) f2.2 f3
    rw [e2] at g1
    cases g1
    have k0 : (h1 0).els = .lst [.ref 1, .ref 2] := by
      have := f2.2; simp [exT, insT, insL, Tree.Holds, Tree.HoldsL, Tree.el] at this; exact this.1.2
    have k1 : (h1 1).els = .lst [.ref 3, .int 1] := by
      have := f2.2; simp [exT, insT, insL, Tree.Holds, Tree.HoldsL, Tree.el] at this; exact this.2.1.1.2
    have k2 : (h1 2).els = .lst [.ref 3, .int 2] := by
      have := f2.2; simp [exT, insT, insL, Tree.Holds, Tree.HoldsL, Tree.el] at this; exact this.2.2.1.2
    intro b hb
    rw [g2 b]
    have hsame : ∀ (o : Obj) (es : List El), o.els = .lst es → es.map (flipEl 9) = es → tog 9 o = o := by
      intro o es ho hm
      rcases o with ⟨op, lev, els⟩
      simp only at ho; subst ho
      simp [tog, hm]
    rcases hb with rfl | rfl | rfl | rfl
    · rw [togIf]; split
      · exact (hsame _ _ k0 (by decide)).symm
      · rfl
    · rw [togIf]; split
      · exact (hsame _ _ k1 (by decide)).symm
      · rfl
    · rw [togIf]; split
      · exact (hsame _ _ k2 (by decide)).symm
      · rfl
    · have : par 3 (Tree.lst 0 .or (insL (-5) (.lst 3 .and [.int (-5), .int 9]) [.lst 1 .and [.int (-5), .int 1], .lst 2 .and [.int (-5), .int 2]])).addrs = false := by
        decide
      rw [this]; rfl
  obtain ⟨h1', f1, f2, f3⟩ := insert_spec 3 exH 0 exT (-5) 9 .and 3 exT_unfolds (by simp [exT, Tree.Plain, Tree.PlainL]) (by decide) (by decide)
    (by decide) (by decide) (by decide)
  rw [e1] at f1
  cases f1
  have ht1 := holds_unique _ _ (u1.1.trans f2.1.symm) u1.2 f2.2
  subst ht1
  have hhold2 : (insT (-5) (.lst 3 .and [.int (-5), .int 9]) exT).Holds h2 :=
    holds_congr _ (fun b hb => by
      rw [hf b (by simpa [exT, insT, insL, Tree.addrs, Tree.addrsL, or_assoc, or_left_comm] using hb)]; exact ⟨rfl, rfl⟩) f2.2
  have ht2 := holds_unique _ _ (u2.1.trans f2.1.symm) u2.2 hhold2
  subst ht2
  have := hs (fun i => decide (i = 9 ∨ i = 1))
  revert this
  decide

end Geouned.Alias
