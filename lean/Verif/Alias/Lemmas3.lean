import Verif.Alias.Lemmas2
/-! # Lemmas on objects in memory: change of sign -/
namespace Geouned.Alias

def flipI (v : Nat) (n : Int) : Int := if v = n.natAbs then -n else n

def flipEl (v : Nat) : El → El
  | .int n => .int (flipI v n)
  | .ref a => .ref a

/-- the sign of `v` changed in the list of the object -/
def tog (v : Nat) (o : Obj) : Obj :=
  match o.els with
  | .boo _ => o
  | .lst es => { o with els := .lst (es.map (flipEl v)) }

def togIf (v : Nat) (p : Bool) (o : Obj) : Obj := if p then tog v o else o

theorem flipEl_flipEl (v : Nat) (e : El) : flipEl v (flipEl v e) = e := by
  cases e with
  | ref a => rfl
  | int n =>
    simp only [flipEl, flipI]
    by_cases h : v = n.natAbs
    · simp [h, Int.natAbs_neg]
    · simp [h]

theorem tog_tog (v : Nat) (o : Obj) : tog v (tog v o) = o := by
  rcases o with ⟨op, lev, els⟩
  cases els with
  | boo b => rfl
  | lst es => simp [tog, Function.comp_def, flipEl_flipEl]

theorem tog_op (v : Nat) (o : Obj) : (tog v o).op = o.op := by
  rcases o with ⟨op, lev, els⟩; cases els <;> rfl
theorem tog_lev (v : Nat) (o : Obj) : (tog v o).lev = o.lev := by
  rcases o with ⟨op, lev, els⟩; cases els <;> rfl
theorem togIf_lev (v : Nat) (p : Bool) (o : Obj) : (togIf v p o).lev = o.lev := by
  cases p <;> simp [togIf, tog_lev]

theorem togIf_togIf (v : Nat) (p q : Bool) (o : Obj) : togIf v p (togIf v q o) = togIf v (xor p q) o := by
  cases p <;> cases q <;> simp [togIf, tog_tog]

/-- odd number of places -/
def par (b : Nat) (l : List Nat) : Bool := l.count b % 2 == 1

theorem par_append (b : Nat) (l m : List Nat) : par b (l ++ m) = xor (par b m) (par b l) := by
  simp only [par, List.count_append]
  have h1 : l.count b % 2 = 0 ∨ l.count b % 2 = 1 := by omega
  have h2 : m.count b % 2 = 0 ∨ m.count b % 2 = 1 := by omega
  rcases h1 with h1 | h1 <;> rcases h2 with h2 | h2 <;> simp [Nat.add_mod, h1, h2]

theorem par_not_mem {b : Nat} {l : List Nat} (h : b ∉ l) : par b l = false := by
  simp [par, List.count_eq_zero_of_not_mem h]

mutual
/-- the expression after the objects have been changed as told by `k`; `p` for the ints of the list it sits in -/
def togT (v : Nat) (k : Nat → Bool) (p : Bool) : Tree → Tree
  | .int n => .int (if p then flipI v n else n)
  | .boo a op b => .boo a op b
  | .lst a op ts => .lst a op (togTL v k (k a) ts)
def togTL (v : Nat) (k : Nat → Bool) (p : Bool) : List Tree → List Tree
  | [] => []
  | t :: ts => togT v k p t :: togTL v k p ts
end

mutual
theorem togT_addrs (v : Nat) (k : Nat → Bool) (p : Bool) : ∀ t : Tree, (togT v k p t).addrs = t.addrs
  | .int n => by simp [togT, Tree.addrs]
  | .boo a op b => by simp [togT, Tree.addrs]
  | .lst a op ts => by simp [togT, Tree.addrs, togTL_addrs v k (k a) ts]
theorem togTL_addrs (v : Nat) (k : Nat → Bool) (p : Bool) : ∀ ts : List Tree, Tree.addrsL (togTL v k p ts) = Tree.addrsL ts
  | [] => by simp [togTL, Tree.addrsL]
  | t :: ts => by simp [togTL, Tree.addrsL, togT_addrs v k p t, togTL_addrs v k p ts]
end

mutual
theorem togT_depth (v : Nat) (k : Nat → Bool) (p : Bool) : ∀ t : Tree, (togT v k p t).depth = t.depth
  | .int n => by simp [togT, Tree.depth]
  | .boo a op b => by simp [togT, Tree.depth]
  | .lst a op ts => by simp [togT, Tree.depth, togTL_depth v k (k a) ts]
theorem togTL_depth (v : Nat) (k : Nat → Bool) (p : Bool) : ∀ ts : List Tree, Tree.depthL (togTL v k p ts) = Tree.depthL ts
  | [] => by simp [togTL, Tree.depthL]
  | t :: ts => by simp [togTL, Tree.depthL, togT_depth v k p t, togTL_depth v k p ts]
end

theorem flipI_ne (v : Nat) {n : Int} (h : n ≠ 0) : flipI v n ≠ 0 := by
  simp only [flipI]; split <;> omega

mutual
theorem togT_plain (v : Nat) (k : Nat → Bool) (p : Bool) : ∀ t : Tree, t.Plain → (togT v k p t).Plain
  | .int n, h => by
    simp only [togT, Tree.Plain] at h ⊢
    cases p
    · simpa using h
    · simpa using flipI_ne v h
  | .boo a op b, h => by simp [Tree.Plain] at h
  | .lst a op ts, h => by simp only [togT, Tree.Plain] at h ⊢; exact togTL_plain v k (k a) ts h
theorem togTL_plain (v : Nat) (k : Nat → Bool) (p : Bool) : ∀ ts : List Tree, Tree.PlainL ts → Tree.PlainL (togTL v k p ts)
  | [], h => by simp [togTL, Tree.PlainL]
  | t :: ts, h => by
    simp only [togTL, Tree.PlainL] at h ⊢
    exact ⟨togT_plain v k p t h.1, togTL_plain v k p ts h.2⟩
end

theorem togT_el (v : Nat) (k : Nat → Bool) (p : Bool) (t : Tree) : (togT v k p t).el = if p then flipEl v t.el else t.el := by
  cases t <;> cases p <;> simp [togT, Tree.el, flipEl]

theorem togTL_el (v : Nat) (k : Nat → Bool) (p : Bool) : ∀ ts : List Tree,
    (togTL v k p ts).map Tree.el = if p then (ts.map Tree.el).map (flipEl v) else ts.map Tree.el
  | [] => by simp [togTL]
  | t :: ts => by
    simp only [togTL, List.map_cons, togT_el, togTL_el v k p ts]
    cases p <;> simp

theorem togTL_length (v : Nat) (k : Nat → Bool) (p : Bool) : ∀ ts : List Tree, (togTL v k p ts).length = ts.length
  | [] => rfl
  | t :: ts => by simp [togTL, togTL_length v k p ts]

theorem togIf_els {v : Nat} {p : Bool} {o : Obj} {es : List El} (h : o.els = .lst es) :
    (togIf v p o).els = .lst (if p then es.map (flipEl v) else es) := by
  rcases o with ⟨op, lev, els⟩
  simp only at h; subst h
  cases p <;> simp [togIf, tog]

theorem togIf_op (v : Nat) (p : Bool) (o : Obj) : (togIf v p o).op = o.op := by
  cases p <;> simp [togIf, tog_op]

theorem togIf_boo {v : Nat} {p : Bool} {o : Obj} {b : Bool} (h : o.els = .boo b) : (togIf v p o).els = .boo b := by
  rcases o with ⟨op, lev, els⟩
  simp only at h; subst h
  cases p <;> simp [togIf, tog]

mutual
theorem togT_holds {v : Nat} {k : Nat → Bool} {h h' : Heap} (p : Bool) : ∀ t : Tree, (∀ b ∈ t.addrs, h' b = togIf v (k b) (h b)) → t.Holds h →
    (togT v k p t).Holds h'
  | .int n, _, _ => by simp [togT, Tree.Holds]
  | .boo a op b, e, ht => by
    simp only [togT, Tree.Holds] at ht ⊢
    rw [e a (by simp [Tree.addrs])]
    exact ⟨(togIf_op _ _ _).trans ht.1, togIf_boo ht.2⟩
  | .lst a op ts, e, ht => by
    simp only [togT, Tree.Holds] at ht ⊢
    rw [e a (by simp [Tree.addrs]), togIf_op, togIf_els ht.1.2, togTL_el]
    exact ⟨⟨ht.1.1, rfl⟩, togTL_holds (k a) ts (fun b hb => e b (by simp [Tree.addrs, hb])) ht.2⟩
theorem togTL_holds {v : Nat} {k : Nat → Bool} {h h' : Heap} (p : Bool) : ∀ ts : List Tree, (∀ b ∈ Tree.addrsL ts, h' b = togIf v (k b) (h b)) →
    Tree.HoldsL h ts → Tree.HoldsL h' (togTL v k p ts)
  | [], _, _ => by simp [togTL, Tree.HoldsL]
  | t :: ts, e, ht => by
    simp only [togTL, Tree.HoldsL] at ht ⊢
    exact ⟨togT_holds p t (fun b hb => e b (by simp [Tree.addrsL, hb])) ht.1,
      togTL_holds p ts (fun b hb => e b (by simp [Tree.addrsL, hb])) ht.2⟩
end

mutual
/-- a sequence of stored level 0 holds ints only -/
def FlatOK (h : Heap) : Tree → Prop
  | .int _ => True
  | .boo _ _ _ => True
  | .lst a _ ts => ((h a).lev = 0 → ∀ u ∈ ts, ∃ n, u = .int n) ∧ FlatOKL h ts
def FlatOKL (h : Heap) : List Tree → Prop
  | [] => True
  | t :: ts => FlatOK h t ∧ FlatOKL h ts
end

theorem togTL_ints (v : Nat) (k : Nat → Bool) (p : Bool) : ∀ ts : List Tree, (∀ u ∈ ts, ∃ n, u = .int n) → ∀ u ∈ togTL v k p ts, ∃ n, u = .int n
  | [], _, u, hu => by simp [togTL] at hu
  | t :: ts, h, u, hu => by
    simp only [togTL, List.mem_cons] at hu
    rcases hu with rfl | hu
    · obtain ⟨n, rfl⟩ := h t (by simp)
      exact ⟨_, by simp only [togT]; rfl⟩
    · exact togTL_ints v k p ts (fun u hu => h u (by simp [hu])) u hu

mutual
theorem togT_flat {v : Nat} {k : Nat → Bool} {h h' : Heap} (p : Bool) (hl : ∀ b, (h' b).lev = (h b).lev) : ∀ t : Tree, FlatOK h t → FlatOK h' (togT v k p t)
  | .int n, _ => by simp [togT, FlatOK]
  | .boo a op b, _ => by simp [togT, FlatOK]
  | .lst a op ts, ht => by
    simp only [togT, FlatOK] at ht ⊢
    rw [hl a]
    exact ⟨fun e => togTL_ints v k _ ts (ht.1 e), togTL_flat (k a) hl ts ht.2⟩
theorem togTL_flat {v : Nat} {k : Nat → Bool} {h h' : Heap} (p : Bool) (hl : ∀ b, (h' b).lev = (h b).lev) : ∀ ts : List Tree, FlatOKL h ts → FlatOKL h' (togTL v k p ts)
  | [], _ => by simp [togTL, FlatOKL]
  | t :: ts, ht => by
    simp only [togTL, FlatOKL] at ht ⊢
    exact ⟨togT_flat p hl t ht.1, togTL_flat p hl ts ht.2⟩
end

mutual
theorem flat_congr {h h' : Heap} : ∀ t : Tree, (∀ b ∈ t.addrs, (h' b).lev = (h b).lev) → FlatOK h t → FlatOK h' t
  | .int _, _, _ => by simp [FlatOK]
  | .boo _ _ _, _, _ => by simp [FlatOK]
  | .lst a op ts, e, ht => by
    simp only [FlatOK] at ht ⊢
    rw [e a (by simp [Tree.addrs])]
    exact ⟨ht.1, flatL_congr ts (fun b hb => e b (by simp [Tree.addrs, hb])) ht.2⟩
theorem flatL_congr {h h' : Heap} : ∀ ts : List Tree, (∀ b ∈ Tree.addrsL ts, (h' b).lev = (h b).lev) → FlatOKL h ts → FlatOKL h' ts
  | [], _, _ => by simp [FlatOKL]
  | t :: ts, e, ht => by
    simp only [FlatOKL] at ht ⊢
    exact ⟨flat_congr t (fun b hb => e b (by simp [Tree.addrsL, hb])) ht.1, flatL_congr ts (fun b hb => e b (by simp [Tree.addrsL, hb])) ht.2⟩
end

/-- what `change_surf_sign` does: each object is changed once for each place -/
def SignSpec (v : Nat) (rec : Heap → Nat → M Heap) (f : Nat) : Prop :=
  ∀ (h : Heap) (a : Nat) (op : Op) (ts : List Tree), (Tree.lst a op ts).depth ≤ f → (Tree.lst a op ts).Plain → (Tree.lst a op ts).Holds h →
    FlatOK h (.lst a op ts) → ∃ h', rec h a = .ok h' ∧ ∀ b, h' b = togIf v (par b (Tree.lst a op ts).addrs) (h b)

theorem signLoop_spec {v : Nat} {rec : Heap → Nat → M Heap} {f : Nat} (hrec : SignSpec v rec f) (a : Nat) (flat : Bool) :
    ∀ (m : Nat) (ts : List Tree) (h : Heap) (pre : List El), ts.length = m → Tree.depthL ts ≤ f → Tree.PlainL ts → Tree.HoldsL h ts → FlatOKL h ts →
      a ∉ Tree.addrsL ts → (flat = true → ∀ u ∈ ts, ∃ n, u = .int n) → (h a).els = .lst (pre ++ ts.map Tree.el) →
      ∃ h', signLoop rec v a flat (List.range' pre.length m) h = .ok h' ∧
        h' a = { h a with els := .lst (pre ++ (ts.map Tree.el).map (flipEl v)) } ∧
        ∀ b, b ≠ a → h' b = togIf v (par b (Tree.addrsL ts)) (h b) := by
  intro m
  induction m with
  | zero =>
    intro ts h pre hm _ _ _ _ _ _ he
    have : ts = [] := List.eq_nil_of_length_eq_zero hm
    subst this
    refine ⟨h, by simp [signLoop], ?_, fun b _ => by simp [Tree.addrsL, par, togIf]⟩
    simp only [List.map_nil, List.append_nil] at he ⊢
    rw [← he]
  | succ m ih =>
    intro ts h pre hm hd hp hh hf ha hfl he
    cases ts with
    | nil => simp at hm
    | cons t ts =>
    simp only [List.length_cons, Nat.add_right_cancel_iff] at hm
    simp only [Tree.depthL] at hd
    simp only [Tree.PlainL] at hp
    simp only [Tree.HoldsL] at hh
    simp only [FlatOKL] at hf
    simp only [Tree.addrsL, List.mem_append, not_or] at ha
    have hget : (pre ++ (t :: ts).map Tree.el)[pre.length]? = some t.el := by simp
    simp only [List.range'_succ, signLoop, he, hget]
    cases t with
    | boo c op b => exact absurd hp.1 (by simp [Tree.Plain])
    | int n =>
      simp only [Tree.el]
      have hstep : ∃ h1 : Heap, (if v = n.natAbs then setEl h a pre.length (.int (-n)) else h) = h1 ∧
          h1 a = { h a with els := .lst (pre ++ [.int (flipI v n)] ++ ts.map Tree.el) } ∧ ∀ b, b ≠ a → h1 b = h b := by
        refine ⟨_, rfl, ?_, ?_⟩
        · by_cases hv : v = n.natAbs
          · simp only [hv, if_true, flipI]
            rw [setEl_same he]; simp [Tree.el]
          · simp only [hv, if_false, flipI]
            have : (h a) = { h a with els := (h a).els } := rfl
            rw [this, he]; simp [Tree.el]
        · intro b hb
          split
          · exact setEl_other _ _ _ _ hb
          · rfl
      obtain ⟨h1, e0, e1, e2⟩ := hstep
      rw [e0]
      have hne : ∀ b ∈ Tree.addrsL ts, b ≠ a := fun b hb e => ha.2 (e ▸ hb)
      obtain ⟨h', r1, r2, r3⟩ := ih ts h1 (pre ++ [.int (flipI v n)]) hm (by omega) hp.2
        (holdsL_congr ts (fun b hb => by rw [e2 b (hne b hb)]; exact ⟨rfl, rfl⟩) hh.2)
        (flatL_congr ts (fun b hb => by rw [e2 b (hne b hb)]) hf.2) ha.2 (fun e u hu => hfl e u (by simp [hu])) (by rw [e1])
      refine ⟨h', by simpa using r1, ?_, ?_⟩
      · rw [r2, e1]; simp [Tree.el, flipEl]
      · intro b hb
        rw [r3 b hb, e2 b hb]; simp [Tree.addrsL, Tree.addrs]
    | lst c op us =>
      simp only [Tree.el]
      have hflat : flat = false := by
        cases flat with
        | false => rfl
        | true => obtain ⟨n, e⟩ := hfl rfl (.lst c op us) (by simp); exact absurd e (by simp)
      obtain ⟨h1, r1, r2⟩ := hrec h c op us (by omega) hp.1 hh.1 hf.1
      subst hflat
      simp only [Bool.false_eq_true, if_false, r1, bind, Except.bind]
      have h1a : h1 a = h a := by rw [r2 a, par_not_mem ha.1]; rfl
      obtain ⟨h', s1, s2, s3⟩ := ih (togTL v (fun b => par b (Tree.lst c op us).addrs) false ts) h1 (pre ++ [.ref c])
        (by rw [togTL_length]; exact hm) (by rw [togTL_depth]; omega) (togTL_plain _ _ _ _ hp.2)
        (togTL_holds false ts (fun b _ => r2 b) hh.2) (togTL_flat false (fun b => by rw [r2 b, togIf_lev]) ts hf.2)
        (by rw [togTL_addrs]; exact ha.2) (by simp) (by rw [h1a, he, togTL_el]; simp [Tree.el])
      refine ⟨h', by simpa using s1, ?_, ?_⟩
      · rw [s2, h1a, togTL_el]; simp [Tree.el, flipEl]
      · intro b hb
        rw [s3 b hb, togTL_addrs, r2 b, togIf_togIf]
        simp only [Tree.addrsL, par_append]

theorem changeSign_spec (v : Nat) : ∀ f, SignSpec v (changeSign v f) f := by
  intro f
  induction f with
  | zero => intro h a op ts hd; simp [Tree.depth] at hd
  | succ f ih =>
    intro h a op ts hd hp hh hf
    have hself := not_self hh
    simp only [Tree.depth] at hd
    simp only [Tree.Plain] at hp
    simp only [Tree.Holds] at hh
    simp only [FlatOK] at hf
    obtain ⟨h', e1, e2, e3⟩ := signLoop_spec ih a ((h a).lev == 0) ts.length ts h [] rfl (by omega) hp hh.2 hf.2 hself
      (fun e => hf.1 (by simpa using e)) (by simpa using hh.1.2)
    refine ⟨h', ?_, ?_⟩
    · simp only [changeSign, hh.1.2, List.length_map, List.range_eq_range']
      simpa using e1
    · intro b
      by_cases hb : b = a
      · subst hb
        have : par b (Tree.lst b op ts).addrs = true := by
          simp [par, Tree.addrs, List.count_eq_zero_of_not_mem hself]
        rw [this, e2]
        simp only [togIf, if_true, tog, hh.1.2, List.nil_append]
      · rw [e3 b hb]
        have : par b (Tree.lst a op ts).addrs = par b (Tree.addrsL ts) := by
          simp [par, Tree.addrs, List.count_cons, Ne.symm hb]
        rw [this]

/-! ## Meaning -/

theorem lit_flipI (v : Nat) (σ : Side) {n : Int} (hn : n ≠ 0) : lit σ (flipI v n) = lit (swapSides v σ) n := by
  simp only [lit, flipI, swapSides, Side.set]
  by_cases hv : v = n.natAbs
  · subst hv
    simp only [if_true, Int.natAbs_neg]
    by_cases h : n < 0
    · have : ¬ -n < 0 := by omega
      simp only [h, this, if_true, if_false, Bool.not_not]
    · have : -n < 0 := by omega
      simp only [h, this, if_true, if_false]
  · have hv' : ¬ n.natAbs = v := fun e => hv e.symm
    simp [hv, hv']

mutual
/-- each int on surface `v` sits in an object that is changed -/
def Okay (v : Nat) (k : Nat → Bool) (p : Bool) : Tree → Prop
  | .int n => n.natAbs = v → p = true
  | .boo _ _ _ => True
  | .lst a _ ts => OkayL v k (k a) ts
def OkayL (v : Nat) (k : Nat → Bool) (p : Bool) : List Tree → Prop
  | [] => True
  | t :: ts => Okay v k p t ∧ OkayL v k p ts
end

mutual
theorem togT_sem (v : Nat) (k : Nat → Bool) (σ : Side) : ∀ (p : Bool) (t : Tree), t.Plain → Okay v k p t → (togT v k p t).sem σ = t.sem (swapSides v σ)
  | p, .int n, hp, ho => by
    simp only [togT, Tree.sem, Tree.Plain, Okay] at hp ho ⊢
    cases p with
    | true => simp only [if_true]; exact lit_flipI v σ hp
    | false =>
      simp only [Bool.false_eq_true, if_false, imp_false] at ho ⊢
      simp [lit, swapSides, Side.set, ho]
  | p, .boo a op b, hp, _ => by simp [Tree.Plain] at hp
  | p, .lst a .and ts, hp, ho => by
    simp only [togT, Tree.sem, Tree.Plain, Okay] at hp ho ⊢
    exact togTL_semAll v k σ (k a) ts hp ho
  | p, .lst a .or ts, hp, ho => by
    simp only [togT, Tree.sem, Tree.Plain, Okay] at hp ho ⊢
    exact togTL_semAny v k σ (k a) ts hp ho
theorem togTL_semAll (v : Nat) (k : Nat → Bool) (σ : Side) : ∀ (p : Bool) (ts : List Tree), Tree.PlainL ts → OkayL v k p ts →
    Tree.semAll σ (togTL v k p ts) = Tree.semAll (swapSides v σ) ts
  | p, [], _, _ => by simp [togTL, Tree.semAll]
  | p, t :: ts, hp, ho => by
    simp only [togTL, Tree.semAll, Tree.PlainL, OkayL] at hp ho ⊢
    rw [togT_sem v k σ p t hp.1 ho.1, togTL_semAll v k σ p ts hp.2 ho.2]
theorem togTL_semAny (v : Nat) (k : Nat → Bool) (σ : Side) : ∀ (p : Bool) (ts : List Tree), Tree.PlainL ts → OkayL v k p ts →
    Tree.semAny σ (togTL v k p ts) = Tree.semAny (swapSides v σ) ts
  | p, [], _, _ => by simp [togTL, Tree.semAny]
  | p, t :: ts, hp, ho => by
    simp only [togTL, Tree.semAny, Tree.PlainL, OkayL] at hp ho ⊢
    rw [togT_sem v k σ p t hp.1 ho.1, togTL_semAny v k σ p ts hp.2 ho.2]
end

end Geouned.Alias
