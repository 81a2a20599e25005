import Verif.Misc.Cones
import Verif.Bool.Props
/-! Lemmas for the apex planes of cones -/
namespace Geouned.Cones

mutual
/-- meaning with a value for each signed number -/
def semLit (ℓ : Int → Bool) : Seq → Bool
  | .int n => ℓ n
  | .boo _ _ b => b
  | .lst .and _ es => semLitAll ℓ es
  | .lst .or _ es => semLitAny ℓ es
def semLitAll (ℓ : Int → Bool) : List Seq → Bool
  | [] => true
  | e :: es => semLit ℓ e && semLitAll ℓ es
def semLitAny (ℓ : Int → Bool) : List Seq → Bool
  | [] => false
  | e :: es => semLit ℓ e || semLitAny ℓ es
end

mutual
/-- the signed numbers of an expression -/
def lits : Seq → List Int
  | .int n => [n]
  | .boo _ _ _ => []
  | .lst _ _ es => litsL es
def litsL : List Seq → List Int
  | [] => []
  | e :: es => lits e ++ litsL es
end

mutual
theorem semLit_sem (σ : Side) : ∀ s : Seq, semLit (lit σ) s = s.sem σ
  | .int n => by simp only [semLit, Seq.sem]
  | .boo _ _ b => by simp only [semLit, Seq.sem]
  | .lst .and _ es => by simp only [semLit, Seq.sem]; exact (semLitL_sem σ es).1
  | .lst .or _ es => by simp only [semLit, Seq.sem]; exact (semLitL_sem σ es).2
theorem semLitL_sem (σ : Side) : ∀ es : List Seq, semLitAll (lit σ) es = Seq.semAll σ es ∧ semLitAny (lit σ) es = Seq.semAny σ es
  | [] => by simp only [semLitAll, semLitAny, Seq.semAll, Seq.semAny]; exact ⟨trivial, trivial⟩
  | e :: es => by
    simp only [semLitAll, semLitAny, Seq.semAll, Seq.semAny, semLit_sem σ e, (semLitL_sem σ es).1, (semLitL_sem σ es).2]
    exact ⟨trivial, trivial⟩
end

mutual
theorem semLit_congr {ℓ ℓ' : Int → Bool} : ∀ s : Seq, (∀ n ∈ lits s, ℓ n = ℓ' n) → semLit ℓ s = semLit ℓ' s
  | .int n, h => by simp only [semLit]; exact h n (by simp [lits])
  | .boo _ _ b, _ => by simp only [semLit]
  | .lst .and _ es, h => by simp only [semLit]; exact (semLitL_congr es (by simpa only [lits] using h)).1
  | .lst .or _ es, h => by simp only [semLit]; exact (semLitL_congr es (by simpa only [lits] using h)).2
theorem semLitL_congr {ℓ ℓ' : Int → Bool} : ∀ es : List Seq, (∀ n ∈ litsL es, ℓ n = ℓ' n) →
    semLitAll ℓ es = semLitAll ℓ' es ∧ semLitAny ℓ es = semLitAny ℓ' es
  | [], _ => by simp only [semLitAll, semLitAny]; exact ⟨trivial, trivial⟩
  | e :: es, h => by
    simp only [litsL, List.mem_append] at h
    have h1 := semLit_congr e fun n hn => h n (Or.inl hn)
    have h2 := semLitL_congr es fun n hn => h n (Or.inr hn)
    simp only [semLitAll, semLitAny, h1, h2.1, h2.2]
    exact ⟨trivial, trivial⟩
end

/-- the value `x` for the signed number `t` -/
def setLit (ℓ : Int → Bool) (t : Int) (x : Bool) : Int → Bool := fun n => if n = t then x else ℓ n

theorem substInt_lit {t : Int} {new : Seq} {ℓ : Int → Bool} : ∀ (f : Nat) (s s' : Seq), Seq.substInt f t new s = .ok s' →
    semLit ℓ s' = semLit (setLit ℓ t (semLit ℓ new)) s := by
  intro f
  induction f with
  | zero => intro s s' h; simp [Seq.substInt] at h
  | succ f ih =>
    have loop : ∀ (es es' : List Seq), substIntLoop (Seq.substInt f t new) t new es = .ok es' →
        semLitAll ℓ es' = semLitAll (setLit ℓ t (semLit ℓ new)) es ∧ semLitAny ℓ es' = semLitAny (setLit ℓ t (semLit ℓ new)) es := by
      intro es
      induction es with
      | nil => intro es' h; simp [substIntLoop] at h; subst h; simp only [semLitAll, semLitAny]; exact ⟨trivial, trivial⟩
      | cons e es ihl =>
        intro es' h
        cases e with
        | int n =>
          simp only [substIntLoop, bind_ok] at h
          obtain ⟨xs, hx, h⟩ := h
          simp at h; subst h
          obtain ⟨a, b⟩ := ihl xs hx
          have : semLit ℓ (if n = t then new else .int n) = setLit ℓ t (semLit ℓ new) n := by
            unfold setLit
            split
            · rfl
            · simp only [semLit]
          simp only [semLitAll, semLitAny, this, a, b, semLit]
          exact ⟨trivial, trivial⟩
        | boo o l b =>
          simp only [substIntLoop, bind_ok] at h
          obtain ⟨e', he, xs, hx, h⟩ := h
          simp at h; subst h
          obtain ⟨a, b⟩ := ihl xs hx
          simp only [semLitAll, semLitAny, ih _ _ he, a, b]
          exact ⟨trivial, trivial⟩
        | lst o l ys =>
          simp only [substIntLoop, bind_ok] at h
          obtain ⟨e', he, xs, hx, h⟩ := h
          simp at h; subst h
          obtain ⟨a, b⟩ := ihl xs hx
          simp only [semLitAll, semLitAny, ih _ _ he, a, b]
          exact ⟨trivial, trivial⟩
    intro s s' h
    cases s with
    | int n => simp [Seq.substInt] at h
    | boo op l b => simp [Seq.substInt] at h
    | lst op l es =>
      simp only [Seq.substInt, bind_ok] at h
      obtain ⟨es', he, h⟩ := h
      simp at h; subst h
      cases op
      · simp only [semLit]; exact (loop es es' he).1
      · simp only [semLit]; exact (loop es es' he).2

mutual
theorem levelUpdate_lit (ℓ : Int → Bool) : ∀ s : Seq, semLit ℓ s.levelUpdate = semLit ℓ s
  | .int n => by simp only [Seq.levelUpdate]
  | .boo _ _ b => by simp only [Seq.levelUpdate, semLit]
  | .lst .and _ es => by simp only [Seq.levelUpdate, semLit]; exact (levelUpdateL_lit ℓ es).1
  | .lst .or _ es => by simp only [Seq.levelUpdate, semLit]; exact (levelUpdateL_lit ℓ es).2
theorem levelUpdateL_lit (ℓ : Int → Bool) : ∀ es : List Seq, semLitAll ℓ (Seq.levelUpdateL es).2 = semLitAll ℓ es ∧
    semLitAny ℓ (Seq.levelUpdateL es).2 = semLitAny ℓ es
  | [] => by simp only [Seq.levelUpdateL]; exact ⟨trivial, trivial⟩
  | .int n :: es => by
    have := levelUpdateL_lit ℓ es
    simp only [Seq.levelUpdateL, semLitAll, semLitAny, this.1, this.2]
    exact ⟨trivial, trivial⟩
  | .boo o l b :: es => by
    have := levelUpdateL_lit ℓ es
    simp only [Seq.levelUpdateL, semLitAll, semLitAny, this.1, this.2, semLit]
    exact ⟨trivial, trivial⟩
  | .lst o l xs :: es => by
    have := levelUpdateL_lit ℓ es
    have h2 := levelUpdate_lit ℓ (.lst o l xs)
    simp only [Seq.levelUpdateL, semLitAll, semLitAny, this.1, this.2, h2]
    exact ⟨trivial, trivial⟩
end

theorem twoSeq_lit (ℓ : Int → Bool) (op : Op) (t n : Int) (h1 : n ≠ t) (h2 : n ≠ -t) :
    semLit ℓ (twoSeq op t n) = op.app (ℓ t) (ℓ n) := by
  unfold twoSeq
  rw [if_neg h1, if_neg h2]
  cases op <;> simp [semLit, semLitAll, semLitAny, Op.app]

theorem insert_lit {f : Nat} {s s' : Seq} {t n : Int} {op : Op} (ℓ : Int → Bool) (h1 : n ≠ t) (h2 : n ≠ -t)
    (h : insertInSequence f s t n op = .ok s') : semLit ℓ s' = semLit (setLit ℓ t (op.app (ℓ t) (ℓ n))) s := by
  simp only [insertInSequence, bind_ok] at h
  obtain ⟨r, hr, h⟩ := h
  cases h
  rw [levelUpdate_lit, substInt_lit f s r hr, twoSeq_lit ℓ op t n h1 h2]

/-- a list built of surfaces -/
def Plain (s : Seq) : Prop := (∃ o l es, s = .lst o l es) ∧ s.NoBool

theorem substInt_shape {t : Int} {new : Seq} (hn : new.NoBool) (hd : new.depth ≤ 1) : ∀ (f : Nat) (s s' : Seq), Seq.substInt f t new s = .ok s' →
    s.NoBool → Plain s' ∧ s'.depth ≤ s.depth + 1 := by
  intro f
  induction f with
  | zero => intro s s' h; simp [Seq.substInt] at h
  | succ f ih =>
    have loop : ∀ (es es' : List Seq), substIntLoop (Seq.substInt f t new) t new es = .ok es' → Seq.NoBoolL es →
        Seq.NoBoolL es' ∧ Seq.depthL es' ≤ Seq.depthL es + 1 := by
      intro es
      induction es with
      | nil => intro es' h _; simp [substIntLoop] at h; subst h; simp [Seq.NoBoolL]
      | cons e es ihl =>
        intro es' h hb
        simp only [Seq.NoBoolL] at hb
        cases e with
        | int n =>
          simp only [substIntLoop, bind_ok] at h
          obtain ⟨xs, hx, h⟩ := h
          simp at h; subst h
          obtain ⟨a, b⟩ := ihl xs hx hb.2
          have h1 : (if n = t then new else Seq.int n).NoBool := by split; exact hn; simp [Seq.NoBool]
          have h2 : (if n = t then new else Seq.int n).depth ≤ 1 := by split; exact hd; simp [Seq.depth]
          refine ⟨⟨h1, a⟩, ?_⟩
          simp only [Seq.depthL, Seq.depth]
          omega
        | boo o l b => simp [Seq.NoBool] at hb
        | lst o l ys =>
          simp only [substIntLoop, bind_ok] at h
          obtain ⟨e', he, xs, hx, h⟩ := h
          simp at h; subst h
          obtain ⟨a, b⟩ := ihl xs hx hb.2
          obtain ⟨c, d⟩ := ih _ _ he hb.1
          refine ⟨⟨c.2, a⟩, ?_⟩
          simp only [Seq.depthL]
          omega
    intro s s' h hb
    cases s with
    | int n => simp [Seq.substInt] at h
    | boo op l b => simp [Seq.substInt] at h
    | lst op l es =>
      simp only [Seq.substInt, bind_ok] at h
      obtain ⟨es', he, h⟩ := h
      simp at h; subst h
      obtain ⟨a, b⟩ := loop es es' he (by simpa only [Seq.NoBool] using hb)
      refine ⟨⟨⟨_, _, _, rfl⟩, by simpa only [Seq.NoBool] using a⟩, ?_⟩
      simp only [Seq.depth]
      omega

mutual
theorem levelUpdate_shape : ∀ s : Seq, s.NoBool → s.levelUpdate.NoBool ∧ s.levelUpdate.depth = s.depth
  | .int n, _ => by simp [Seq.levelUpdate, Seq.NoBool]
  | .boo _ _ b, h => by simp [Seq.NoBool] at h
  | .lst _ _ es, h => by
    have := levelUpdateL_shape es (by simpa only [Seq.NoBool] using h)
    simp only [Seq.levelUpdate, Seq.NoBool, Seq.depth, this.2]
    exact ⟨this.1, trivial⟩
theorem levelUpdateL_shape : ∀ es : List Seq, Seq.NoBoolL es → Seq.NoBoolL (Seq.levelUpdateL es).2 ∧
    Seq.depthL (Seq.levelUpdateL es).2 = Seq.depthL es
  | [], _ => by simp [Seq.levelUpdateL, Seq.NoBoolL]
  | .int n :: es, h => by
    have := levelUpdateL_shape es h.2
    simp only [Seq.levelUpdateL, Seq.NoBoolL, Seq.depthL, this.2]
    exact ⟨⟨by simp [Seq.NoBool], this.1⟩, trivial⟩
  | .boo o l b :: es, h => by simp [Seq.NoBoolL, Seq.NoBool] at h
  | .lst o l xs :: es, h => by
    have := levelUpdateL_shape es h.2
    have h2 := levelUpdate_shape (.lst o l xs) h.1
    simp only [Seq.levelUpdateL, Seq.NoBoolL, Seq.depthL, this.2, h2.2]
    exact ⟨⟨h2.1, this.1⟩, trivial⟩
end

theorem insert_ok {f : Nat} {s : Seq} {t n : Int} {op : Op} (h1 : n ≠ t) (h2 : n ≠ -t) (hs : Plain s) (hd : s.depth < f) :
    ∃ s', insertInSequence f s t n op = .ok s' ∧ Plain s' ∧ s'.depth ≤ s.depth + 1 := by
  obtain ⟨⟨o, l, es, rfl⟩, hb⟩ := hs
  obtain ⟨r, hr⟩ := substInt_total (t := t) (new := twoSeq op t n) f (.lst o l es) trivial hb hd
  have hn : (twoSeq op t n).NoBool ∧ (twoSeq op t n).depth ≤ 1 := by
    unfold twoSeq
    rw [if_neg h1, if_neg h2]
    simp [Seq.NoBool, Seq.NoBoolL, Seq.depth, Seq.depthL]
  obtain ⟨⟨⟨o', l', es', e'⟩, a⟩, b⟩ := substInt_shape hn.1 hn.2 f _ r hr hb
  obtain ⟨c, d⟩ := levelUpdate_shape r a
  refine ⟨r.levelUpdate, by simp only [insertInSequence, hr]; rfl, ⟨?_, c⟩, by omega⟩
  rw [e']
  simp only [Seq.levelUpdate]
  exact ⟨_, _, _, rfl⟩

/-- the planes are no cones -/
def Separate (planeOf : Nat → Option Int) : Prop := ∀ c pid, planeOf c = some pid → planeOf pid.natAbs = none ∧ pid ≠ 0

/-- the value of a signed number once the planes of `cs` are added -/
def conesLit (planeOf : Nat → Option Int) (ℓ : Int → Bool) (cs : List Int) : Int → Bool := fun n =>
  if n ∈ cs then
    match planeOf n.natAbs with
    | none => ℓ n
    | some pid => if n > 0 then ℓ n || ℓ (-pid) else ℓ n && ℓ pid
  else ℓ n

theorem addConePlane_spec (planeOf : Nat → Option Int) (hsep : Separate planeOf) (ℓ : Int → Bool) : ∀ (cs : List Int) (f : Nat) (s : Seq), cs.Nodup →
    Plain s → s.depth + cs.length < f → ∃ s', addConePlane f planeOf cs s = .ok s' ∧ semLit ℓ s' = semLit (conesLit planeOf ℓ cs) s
  | [], f, s, _, _, _ => ⟨s, rfl, by congr 1⟩
  | cid :: cs, f, s, hn, hs, hd => by
    simp only [List.nodup_cons] at hn
    simp only [List.length_cons] at hd
    rw [addConePlane]
    cases hp : planeOf cid.natAbs with
    | none =>
      obtain ⟨s', e, h⟩ := addConePlane_spec planeOf hsep ℓ cs f s hn.2 hs (by omega)
      refine ⟨s', e, ?_⟩
      rw [h]
      congr 1
      funext n
      unfold conesLit
      by_cases hc : n = cid
      · subst hc
        simp [hn.1, hp]
      · simp [hc]
    | some pid =>
      dsimp only
      obtain ⟨hpn, hp0⟩ := hsep _ _ hp
      have d1 : pid.natAbs ≠ cid.natAbs := by
        intro e; rw [e, hp] at hpn; cases hpn
      have step : ∀ (op : Op) (n : Int), (n = pid ∨ n = -pid) →
          (if cid > 0 then ℓ cid || ℓ (-pid) else ℓ cid && ℓ pid) = op.app (ℓ cid) (ℓ n) →
          ∃ s1, insertInSequence f s cid n op = .ok s1 ∧ ∃ s', addConePlane f planeOf cs s1 = .ok s' ∧
            semLit ℓ s' = semLit (conesLit planeOf ℓ (cid :: cs)) s := by
        intro op n hnp hval
        have e1 : n ≠ cid := by omega
        have e2 : n ≠ -cid := by omega
        obtain ⟨s1, h1, h2, h3⟩ := insert_ok (op := op) e1 e2 hs (by omega : s.depth < f)
        obtain ⟨s', h4, h5⟩ := addConePlane_spec planeOf hsep ℓ cs f s1 hn.2 h2 (by omega)
        refine ⟨s1, h1, s', h4, ?_⟩
        rw [h5, insert_lit _ e1 e2 h1]
        congr 1
        funext m
        have hno : ∀ k : Int, k.natAbs = pid.natAbs → conesLit planeOf ℓ cs k = ℓ k := by
          intro k hk
          unfold conesLit
          rw [hk, hpn]
          simp
        unfold setLit
        by_cases hm : m = cid
        · subst hm
          rw [if_pos rfl, hno n (by omega)]
          unfold conesLit
          simp only [hn.1, if_false, List.mem_cons, true_or, if_true, hp]
          exact hval.symm
        · rw [if_neg hm]
          unfold conesLit
          simp [hm]
      by_cases hpos : cid > 0
      · rw [if_pos hpos]
        obtain ⟨s1, h1, s', h2, h3⟩ := step .or (-pid) (Or.inr rfl) (by rw [if_pos hpos]; rfl)
        exact ⟨s', by simp only [h1, bind, Except.bind, h2], h3⟩
      · rw [if_neg hpos]
        obtain ⟨s1, h1, s', h2, h3⟩ := step .and pid (Or.inl rfl) (by rw [if_neg hpos]; rfl)
        exact ⟨s', by simp only [h1, bind, Except.bind, h2], h3⟩

end Geouned.Cones
