import Verif.Alias.Model
/-! # Lemmas on objects in memory: frames, insertion -/
namespace Geouned.Alias

theorem upd_same (h : Heap) (a : Nat) (o : Obj) : upd h a o a = o := by simp [upd]
theorem upd_other (h : Heap) (a : Nat) (o : Obj) {b : Nat} (hb : b ≠ a) : upd h a o b = h b := by simp [upd, hb]

theorem setEl_same {h : Heap} {a i : Nat} {x : El} {es : List El} (he : (h a).els = .lst es) :
    setEl h a i x a = { h a with els := .lst (es.set i x) } := by
  simp [setEl, he, upd]

theorem setEl_other (h : Heap) (a i : Nat) (x : El) {b : Nat} (hb : b ≠ a) : setEl h a i x b = h b := by
  unfold setEl
  cases (h a).els <;> simp [upd, hb]

mutual
theorem holds_congr {h h' : Heap} : ∀ t : Tree, (∀ b ∈ t.addrs, (h' b).op = (h b).op ∧ (h' b).els = (h b).els) → t.Holds h → t.Holds h'
  | .int _, _, _ => by simp [Tree.Holds]
  | .boo a op b, e, ht => by
    have := e a (by simp [Tree.addrs])
    simp only [Tree.Holds] at ht ⊢
    rw [this.1, this.2]; exact ht
  | .lst a op ts, e, ht => by
    have := e a (by simp [Tree.addrs])
    simp only [Tree.Holds] at ht ⊢
    rw [this.1, this.2]
    exact ⟨ht.1, holdsL_congr ts (fun b hb => e b (by simp [Tree.addrs, hb])) ht.2⟩
theorem holdsL_congr {h h' : Heap} : ∀ ts : List Tree, (∀ b ∈ Tree.addrsL ts, (h' b).op = (h b).op ∧ (h' b).els = (h b).els) →
    Tree.HoldsL h ts → Tree.HoldsL h' ts
  | [], _, _ => by simp [Tree.HoldsL]
  | t :: ts, e, ht => by
    simp only [Tree.HoldsL] at ht ⊢
    exact ⟨holds_congr t (fun b hb => e b (by simp [Tree.addrsL, hb])) ht.1,
      holdsL_congr ts (fun b hb => e b (by simp [Tree.addrsL, hb])) ht.2⟩
end

mutual
/-- `N` put in each place of `tgt` -/
def insT (tgt : Int) (N : Tree) : Tree → Tree
  | .int m => if m = tgt then N else .int m
  | .boo a op b => .boo a op b
  | .lst a op ts => .lst a op (insL tgt N ts)
def insL (tgt : Int) (N : Tree) : List Tree → List Tree
  | [] => []
  | t :: ts => insT tgt N t :: insL tgt N ts
end

mutual
theorem ins_addrs (tgt : Int) (N : Tree) : ∀ t : Tree, ∀ b ∈ (insT tgt N t).addrs, b ∈ t.addrs ∨ b ∈ N.addrs
  | .int m, b, hb => by
    simp only [insT] at hb
    split at hb
    · exact .inr hb
    · simp [Tree.addrs] at hb
  | .boo a op c, b, hb => .inl hb
  | .lst a op ts, b, hb => by
    simp only [insT, Tree.addrs, List.mem_cons] at hb ⊢
    rcases hb with hb | hb
    · exact .inl (.inl hb)
    · exact (insL_addrs tgt N ts b hb).imp .inr id
theorem insL_addrs (tgt : Int) (N : Tree) : ∀ ts : List Tree, ∀ b ∈ Tree.addrsL (insL tgt N ts), b ∈ Tree.addrsL ts ∨ b ∈ N.addrs
  | [], b, hb => by simp [insL, Tree.addrsL] at hb
  | t :: ts, b, hb => by
    simp only [insL, Tree.addrsL, List.mem_append] at hb ⊢
    rcases hb with hb | hb
    · exact (ins_addrs tgt N t b hb).imp .inl id
    · exact (insL_addrs tgt N ts b hb).imp .inr id
end

theorem plainL_iff : ∀ ts : List Tree, Tree.PlainL ts ↔ ∀ t ∈ ts, t.Plain
  | [] => by simp [Tree.PlainL]
  | t :: ts => by simp [Tree.PlainL, plainL_iff ts]

/-- what the recursive call of `substInt` does -/
def InsSpec (tgt n : Int) (new : Nat) (op' : Op) (rec : Heap → Nat → M Heap) (f : Nat) : Prop :=
  ∀ (h : Heap) (a : Nat) (op : Op) (ts : List Tree), (Tree.lst a op ts).depth ≤ f → (Tree.lst a op ts).Plain →
    (Tree.lst a op ts).Holds h → (Tree.lst a op ts).addrs.Nodup → new ∉ (Tree.lst a op ts).addrs →
    (Tree.lst new op' [.int tgt, .int n]).Holds h →
    ∃ h', rec h a = .ok h' ∧ (insT tgt (.lst new op' [.int tgt, .int n]) (Tree.lst a op ts)).Holds h' ∧
      ∀ b, b ∉ (Tree.lst a op ts).addrs → h' b = h b

theorem insLoop_spec {tgt n : Int} {new : Nat} {op' : Op} {rec : Heap → Nat → M Heap} {f : Nat} (hrec : InsSpec tgt n new op' rec f)
    (a : Nat) : ∀ (ts : List Tree) (h : Heap) (pre : List El),
    Tree.depthL ts ≤ f → Tree.PlainL ts → Tree.HoldsL h ts → (Tree.addrsL ts).Nodup → new ∉ Tree.addrsL ts → a ∉ Tree.addrsL ts → new ≠ a →
    (h a).els = .lst (pre ++ ts.map Tree.el) → (Tree.lst new op' [.int tgt, .int n]).Holds h →
    ∃ h', insLoop rec tgt new a (List.range' pre.length ts.length) h = .ok h' ∧
      (h' a).els = .lst (pre ++ (insL tgt (.lst new op' [.int tgt, .int n]) ts).map Tree.el) ∧ (h' a).op = (h a).op ∧
      Tree.HoldsL h' (insL tgt (.lst new op' [.int tgt, .int n]) ts) ∧ ∀ b, b ≠ a → b ∉ Tree.addrsL ts → h' b = h b := by
  intro ts
  induction ts with
  | nil =>
    intro h pre _ _ _ _ _ _ _ he _
    exact ⟨h, by simp [insLoop], by simpa [insL] using he, rfl, by simp [insL, Tree.HoldsL], fun b _ _ => rfl⟩
  | cons t ts ih =>
    intro h pre hd hp hh hn hnew ha hna he hN
    simp only [Tree.depthL] at hd
    simp only [Tree.PlainL] at hp
    simp only [Tree.HoldsL] at hh
    simp only [Tree.addrsL, List.mem_append, not_or] at hnew ha
    simp only [Tree.addrsL] at hn
    have hn1 := (List.nodup_append.mp hn).1
    have hn2 := (List.nodup_append.mp hn).2.1
    have hn3 := (List.nodup_append.mp hn).2.2
    have hget : (pre ++ (t :: ts).map Tree.el)[pre.length]? = some t.el := by simp
    simp only [List.length_cons, List.range'_succ, insLoop, he, hget]
    cases t with
    | boo c op b => exact absurd hp.1 (by simp [Tree.Plain])
    | int m =>
      simp only [Tree.el]
      by_cases hm : m = tgt
      · simp only [hm, if_true]
        have hnew' : setEl h a pre.length (.ref new) new = h new := setEl_other _ _ _ _ hna
        obtain ⟨h', e1, e2, e3, e4, e5⟩ := ih (setEl h a pre.length (.ref new)) (pre ++ [.ref new]) (by omega) hp.2
          (holdsL_congr ts (fun b hb => by
            have : b ≠ a := fun e => ha.2 (e ▸ hb)
            rw [setEl_other _ _ _ _ this]; exact ⟨rfl, rfl⟩) hh.2) hn2 hnew.2 ha.2 hna
          (by rw [setEl_same he]; simp [Tree.el])
          (holds_congr _ (fun b hb => by
            have : b = new := by simpa [Tree.addrs, Tree.addrsL] using hb
            subst this
            rw [hnew']; exact ⟨rfl, rfl⟩) hN)
        refine ⟨h', by simpa using e1, by simpa [insL, insT, Tree.el] using e2, ?_, ?_, ?_⟩
        · rw [e3, setEl_same he]
        · simp only [insL, insT, if_true, Tree.HoldsL]
          refine ⟨holds_congr _ (fun b hb => ?_) hN, e4⟩
          have : b = new := by simpa [Tree.addrs, Tree.addrsL] using hb
          subst this
          rw [e5 b hna hnew.2, hnew']; exact ⟨rfl, rfl⟩
        · intro b hb hb'
          simp only [Tree.addrsL, List.mem_append, not_or] at hb'
          rw [e5 b hb hb'.2, setEl_other _ _ _ _ hb]
      · simp only [hm, if_false]
        obtain ⟨h', e1, e2, e3, e4, e5⟩ := ih h (pre ++ [.int m]) (by omega) hp.2 hh.2 hn2 hnew.2 ha.2 hna
          (by rw [he]; simp [Tree.el]) hN
        refine ⟨h', by simpa using e1, by simpa [insL, insT, hm, Tree.el] using e2, e3, ?_, ?_⟩
        · simp only [insL, insT, hm, if_false, Tree.HoldsL, Tree.Holds, true_and]; exact e4
        · intro b hb hb'
          simp only [Tree.addrsL, List.mem_append, not_or] at hb'
          exact e5 b hb hb'.2
    | lst c op us =>
      simp only [Tree.el]
      obtain ⟨h1, r1, r2, r3⟩ := hrec h c op us (by omega) hp.1 hh.1 hn1 hnew.1 hN
      rw [r1]
      have hfr : ∀ b ∈ Tree.addrsL ts, h1 b = h b := fun b hb =>
        r3 b (fun hb' => hn3 b hb' b hb rfl)
      obtain ⟨h', e1, e2, e3, e4, e5⟩ := ih h1 (pre ++ [.ref c]) (by omega) hp.2
        (holdsL_congr ts (fun b hb => by rw [hfr b hb]; exact ⟨rfl, rfl⟩) hh.2) hn2 hnew.2 ha.2 hna
        (by rw [r3 a ha.1, he]; simp [Tree.el])
        (holds_congr _ (fun b hb => by
            have : b = new := by simpa [Tree.addrs, Tree.addrsL] using hb
            subst this
            rw [r3 b hnew.1]; exact ⟨rfl, rfl⟩) hN)
      refine ⟨h', by simpa [bind, Except.bind] using e1, by simpa [insL, insT, Tree.el] using e2, ?_, ?_, ?_⟩
      · rw [e3, r3 a ha.1]
      · simp only [insL, Tree.HoldsL]
        refine ⟨holds_congr _ (fun b hb => ?_) r2, e4⟩
        have hb2 : b ≠ a ∧ b ∉ Tree.addrsL ts := by
          rcases ins_addrs _ _ _ b hb with hb | hb
          · exact ⟨fun e => ha.1 (e ▸ hb), fun hb' => hn3 b hb b hb' rfl⟩
          · have : b = new := by simpa [Tree.addrs, Tree.addrsL] using hb
            subst this
            exact ⟨hna, hnew.2⟩
        rw [e5 b hb2.1 hb2.2]; exact ⟨rfl, rfl⟩
      · intro b hb hb'
        simp only [Tree.addrsL, List.mem_append, not_or] at hb'
        rw [e5 b hb hb'.2, r3 b hb'.1]

theorem substInt_spec (tgt n : Int) (new : Nat) (op' : Op) : ∀ f, InsSpec tgt n new op' (substInt tgt new f) f := by
  intro f
  induction f with
  | zero => intro h a op ts hd; simp [Tree.depth] at hd
  | succ f ih =>
    intro h a op ts hd hp hh hn hnew hN
    simp only [Tree.depth] at hd
    simp only [Tree.Plain] at hp
    simp only [Tree.Holds] at hh
    simp only [Tree.addrs, List.nodup_cons] at hn
    simp only [Tree.addrs, List.mem_cons, not_or] at hnew
    obtain ⟨h', e1, e2, e3, e4, e5⟩ := insLoop_spec ih a ts h [] (by omega) hp hh.2 hn.2 hnew.2 hn.1 hnew.1 (by simpa using hh.1.2) hN
    refine ⟨h', ?_, ?_, ?_⟩
    · simp only [substInt, hh.1.2, List.length_map, List.range_eq_range']
      simpa using e1
    · simp only [insT, Tree.Holds]
      exact ⟨⟨e3.trans hh.1.1, by simpa using e2⟩, e4⟩
    · intro b hb
      simp only [Tree.addrs, List.mem_cons, not_or] at hb
      exact e5 b hb.1 hb.2

end Geouned.Alias
