import Verif.RBool.Model
import Verif.RBool.Spec
import Verif.Text.Lemmas5
import Verif.Bool.Lemmas4
/-! Lemmas about `set_def` and `evaluate` of GEOReverse -/
namespace Geouned.RBool
open Geouned Geouned.Text

/-! ### the tokens of the terms -/

theorem mem_strip {x : Tok} {ts : List Tok} (h : x ∈ strip ts) : x ∈ ts := by
  unfold strip at h
  rw [List.mem_reverse] at h
  have h1 := (List.dropWhile_sublist _).subset h
  rw [List.mem_reverse] at h1
  exact (List.dropWhile_sublist _).subset h1

theorem mem_splitColon {x : Text.Item} : ∀ {w p : List Text.Item}, p ∈ splitColon w → x ∈ p → x ∈ w
  | [], p, h, hx => by simp [splitColon] at h; subst h; simp at hx
  | .tok .colon :: w, p, h, hx => by
    simp only [splitColon, List.mem_cons] at h
    rcases h with rfl | h
    · simp at hx
    · exact List.mem_cons_of_mem _ (mem_splitColon h hx)
  | .tok .lp :: w, p, h, hx => gen (.tok .lp) w p (by simp only [splitColon] at h; exact h) hx
  | .tok .rp :: w, p, h, hx => gen (.tok .rp) w p (by simp only [splitColon] at h; exact h) hx
  | .tok .blank :: w, p, h, hx => gen (.tok .blank) w p (by simp only [splitColon] at h; exact h) hx
  | .tok (.num n) :: w, p, h, hx => gen (.tok (.num n)) w p (by simp only [splitColon] at h; exact h) hx
  | .gone t :: w, p, h, hx => gen (.gone t) w p (by simp only [splitColon] at h; exact h) hx
  | .block t :: w, p, h, hx => gen (.block t) w p (by simp only [splitColon] at h; exact h) hx
where
  gen (y : Text.Item) (w p : List Text.Item) (h : p ∈ (match splitColon w with | [] => [[y]] | q :: qs => (y :: q) :: qs)) (hx : x ∈ p) : x ∈ y :: w := by
    cases e : splitColon w with
    | nil =>
      rw [e] at h
      simp at h
      subst h
      simp at hx
      simp [hx]
    | cons q qs =>
      rw [e] at h
      simp only [List.mem_cons] at h
      rcases h with rfl | h
      · rcases List.mem_cons.1 hx with rfl | hx
        · simp
        · exact List.mem_cons_of_mem _ (mem_splitColon (by rw [e]; simp) hx)
      · exact List.mem_cons_of_mem _ (mem_splitColon (by rw [e]; simp [h]) hx)

theorem mem_andTerms {t : List Tok} : ∀ {w : List Text.Item}, t ∈ andTerms w → ∃ x ∈ w, x.orig true = t
  | [], h => by simp [andTerms] at h
  | .tok (.num n) :: w, h => by
    simp only [andTerms, List.mem_cons] at h
    rcases h with rfl | h
    · exact ⟨.tok (.num n), by simp, rfl⟩
    · obtain ⟨x, h1, h2⟩ := mem_andTerms h; exact ⟨x, by simp [h1], h2⟩
  | .block ts :: w, h => by
    simp only [andTerms, List.mem_cons] at h
    rcases h with rfl | h
    · exact ⟨.block t, by simp, rfl⟩
    · obtain ⟨x, h1, h2⟩ := mem_andTerms h; exact ⟨x, by simp [h1], h2⟩
  | .tok .lp :: w, h => by
    simp only [andTerms] at h
    obtain ⟨x, h1, h2⟩ := mem_andTerms h; exact ⟨x, by simp [h1], h2⟩
  | .tok .rp :: w, h => by
    simp only [andTerms] at h
    obtain ⟨x, h1, h2⟩ := mem_andTerms h; exact ⟨x, by simp [h1], h2⟩
  | .tok .blank :: w, h => by
    simp only [andTerms] at h
    obtain ⟨x, h1, h2⟩ := mem_andTerms h; exact ⟨x, by simp [h1], h2⟩
  | .tok .colon :: w, h => by
    simp only [andTerms] at h
    obtain ⟨x, h1, h2⟩ := mem_andTerms h; exact ⟨x, by simp [h1], h2⟩
  | .gone t :: w, h => by
    simp only [andTerms] at h
    obtain ⟨x, h1, h2⟩ := mem_andTerms h; exact ⟨x, by simp [h1], h2⟩

theorem outerTerms_mem {σ ts b} (h : TopT σ ts b) {t : List Tok} (ht : t ∈ (outerTerms ts).1) {x : Tok} (hx : x ∈ t) : x ∈ ts := by
  obtain ⟨hi, -⟩ := mask_inv h
  have ho := hi.orig rfl
  have key : ∀ y ∈ mask true ts, ∀ x ∈ y.orig true, x ∈ ts := by
    intro y hy x hx
    rw [← ho]
    exact List.mem_flatMap.2 ⟨y, hy, hx⟩
  unfold outerTerms at ht
  dsimp only at ht
  split at ht
  · obtain ⟨p, hp, rfl⟩ := List.mem_map.1 ht
    obtain ⟨y, hy, hxy⟩ := List.mem_flatMap.1 (mem_strip hx)
    exact key y (mem_splitColon hp hy) x hxy
  · obtain ⟨y, hy, rfl⟩ := mem_andTerms ht
    exact key y hy x hx

theorem asInteger_mem {t : List Tok} {n : Int} (h : asInteger t = some n) : Tok.num n ∈ t := by
  unfold asInteger at h
  split at h
  · next m e =>
    cases h
    have h1 : Tok.num n ∈ strip (stripTok .rp (stripTok .lp t)) := by rw [e]; simp
    have hs : ∀ {x y : Tok} {l : List Tok}, x ∈ stripTok y l → x ∈ l := by
      intro x y l hx
      unfold stripTok at hx
      rw [List.mem_reverse] at hx
      have h1 := (List.dropWhile_sublist _).subset hx
      rw [List.mem_reverse] at h1
      exact (List.dropWhile_sublist _).subset h1
    exact hs (hs (mem_strip h1))
  · simp at h

/-! ### `set_def` -/

mutual
/-- nesting depth, where a list of stored level other than 0 counts as nested -/
def wd : Seq → Nat
  | .int _ => 0
  | .boo _ _ _ => 0
  | .lst _ l es => max (wdL es + 1) (if l = 0 then 0 else 2)
def wdL : List Seq → Nat
  | [] => 0
  | e :: es => max (wd e) (wdL es)
end

theorem wdL_le (es : List Seq) (n : Nat) : wdL es ≤ n ↔ ∀ e ∈ es, wd e ≤ n := by
  induction es with
  | nil => simp [wdL]
  | cons e es ih => rw [wdL, Nat.max_le, ih]; simp

theorem wd_lst_le (o : Op) (l : Int) (es : List Seq) (n : Nat) : wd (.lst o l es) ≤ n ↔ (∀ e ∈ es, wd e + 1 ≤ n) ∧ 1 ≤ n ∧ (l ≠ 0 → 2 ≤ n) := by
  simp only [wd, Nat.max_le]
  constructor
  · rintro ⟨h1, h2⟩
    refine ⟨fun e he => ?_, by omega, fun h => by rw [if_neg h] at h2; exact h2⟩
    have := (wdL_le es (n - 1)).1 (by omega) e he
    omega
  · rintro ⟨h1, h2, h3⟩
    refine ⟨?_, ?_⟩
    · have := (wdL_le es (n - 1)).2 (fun e he => by have := h1 e he; omega)
      omega
    · split
      · omega
      · next h => exact h3 h

/-- what is known of a sequence built from a text -/
structure Made (ts : List Tok) (q : Seq) : Prop where
  wf : q.WF
  nb : q.NoBool
  sq : ∃ op l es, q = .lst op l es
  occ : ∀ v, q.Occurs v → written ts v

theorem occursL_iff (v : Nat) (es : List Seq) : Seq.OccursL v es ↔ ∃ e ∈ es, e.Occurs v := by
  induction es with
  | nil => simp [Seq.OccursL]
  | cons e es ih => simp [Seq.OccursL, ih]

theorem occurs_lst (v : Nat) (o : Op) (l : Int) (es : List Seq) : (Seq.lst o l es).Occurs v ↔ ∃ e ∈ es, e.Occurs v := by
  simp [Seq.Occurs, occursL_iff]

theorem semL_snoc (op : Op) (σ : Side) (es : List Seq) (e : Seq) : semL op σ (es ++ [e]) = op.app (semL op σ es) (e.sem σ) := by
  simp

theorem defLoop_spec {rec : List Tok → M Seq} {σ : Side} {op : Op} {ts : List Tok} {k : Nat} : ∀ (terms : List (List Tok)) (vs : List Bool) (l : Int) (es : List Seq),
    List.Forall₂ (fun t c => (∃ n, asInteger t = some n ∧ n ≠ 0 ∧ c = lit σ n ∧ Tok.num n ∈ ts) ∨
      (asInteger t = none ∧ ∃ x, rec t = .ok x ∧ Made ts x ∧ wd x < k ∧ x.sem σ = c)) terms vs → 1 ≤ k → (∀ e ∈ es, wd e < k) → (l ≠ 0 → 2 ≤ k) →
    (Seq.lst op l es).WF → (Seq.lst op l es).NoBool → (∀ v, (Seq.lst op l es).Occurs v → written ts v) →
    ∃ r, defLoop rec terms l es = .ok r ∧ Made ts (.lst op r.1 r.2) ∧ wd (.lst op r.1 r.2) ≤ k ∧ (Seq.lst op r.1 r.2).sem σ = op.app ((Seq.lst op l es).sem σ) (val op vs)
  | _, _, l, es, .nil, hk, hk1, hk2, hw, hb, ho => ⟨(l, es), rfl, ⟨hw, hb, ⟨_, _, _, rfl⟩, ho⟩, (wd_lst_le _ _ _ _).2 ⟨fun e he => hk1 e he, hk, hk2⟩, by cases op <;> simp [val, Op.app]⟩
  | t :: terms, c :: vs, l, es, .cons h ht, hk, hk1, hk2, hw, hb, ho => by
    rcases h with ⟨n, h1, h2, rfl, h3⟩ | ⟨h1, x, h2, h3, hxk, h5⟩
    · obtain ⟨r, e, hm, hwd, hv⟩ := defLoop_spec (op := op) terms vs l (es ++ [.int n]) ht hk (by
          intro e he
          rcases List.mem_append.1 he with he | he
          · exact hk1 e he
          · rw [List.mem_singleton.1 he]; simp only [wd]; omega) hk2 (by
          rw [WF_lst] at hw ⊢
          refine ⟨⟨hw.1.1, fun h0 e he => ?_⟩, fun e he => ?_⟩
          · rcases List.mem_append.1 he with he | he
            · exact hw.1.2 h0 e he
            · exact ⟨n, List.mem_singleton.1 he⟩
          · rcases List.mem_append.1 he with he | he
            · exact hw.2 e he
            · rw [List.mem_singleton.1 he]; exact h2) (by
          rw [noBool_lst] at hb ⊢
          intro e he
          rcases List.mem_append.1 he with he | he
          · exact hb e he
          · rw [List.mem_singleton.1 he]; trivial) (by
          intro v hv
          rw [occurs_lst] at hv
          obtain ⟨e, he, hv⟩ := hv
          rcases List.mem_append.1 he with he | he
          · exact ho v ((occurs_lst _ _ _ _).2 ⟨e, he, hv⟩)
          · rw [List.mem_singleton.1 he] at hv
            exact ⟨n, h3, hv⟩)
      refine ⟨r, by simp only [defLoop, h1, e], hm, hwd, ?_⟩
      rw [hv, sem_lst, sem_lst, semL_snoc]
      cases op <;> simp [val, Op.app, Seq.sem, Bool.and_assoc, Bool.or_assoc]
    · obtain ⟨o', l', es', hx⟩ := h3.sq
      obtain ⟨r, e, hm, hwd, hv⟩ := defLoop_spec (op := op) terms vs (max (x.levOf + 1) l) (es ++ [x]) ht hk (by
          intro e he
          rcases List.mem_append.1 he with he | he
          · exact hk1 e he
          · rw [List.mem_singleton.1 he]; exact hxk) (by
          intro _
          have : 1 ≤ wd x := by rw [hx]; exact ((wd_lst_le _ _ _ _).1 (Nat.le_refl _)).2.1
          omega) (by
          have hl : 0 ≤ x.levOf := by
            have := h3.wf
            rw [hx, WF_lst] at this
            rw [hx]; exact this.1.1
          rw [WF_lst] at hw ⊢
          refine ⟨⟨by omega, fun h0 => by omega⟩, fun e he => ?_⟩
          rcases List.mem_append.1 he with he | he
          · exact hw.2 e he
          · rw [List.mem_singleton.1 he]; exact h3.wf) (by
          rw [noBool_lst] at hb ⊢
          intro e he
          rcases List.mem_append.1 he with he | he
          · exact hb e he
          · rw [List.mem_singleton.1 he]; exact h3.nb) (by
          intro v hv
          rw [occurs_lst] at hv
          obtain ⟨e, he, hv⟩ := hv
          rcases List.mem_append.1 he with he | he
          · exact ho v ((occurs_lst _ _ _ _).2 ⟨e, he, hv⟩)
          · rw [List.mem_singleton.1 he] at hv
            exact h3.occ v hv)
      refine ⟨r, by simp only [defLoop, h1, h2, bind, Except.bind, e], hm, hwd, ?_⟩
      rw [hv, sem_lst, sem_lst, semL_snoc, h5]
      cases op <;> simp [val, Op.app, Bool.and_assoc, Bool.or_assoc]

theorem group_made {ts : List Tok} {q : Seq} (h : Made ts q) : ∃ q', q.groupSingle = .ok q' ∧ Made ts q' ∧ (∀ σ, q'.sem σ = q.sem σ) ∧ wd q' ≤ wd q := by
  obtain ⟨op, l, es, rfl⟩ := h.sq
  obtain ⟨s', h1⟩ := groupSingle_total (o := op) (l := l) (noBoo0_of ((noBool_lst op l es).1 h.nb))
  obtain ⟨es', rfl, h2, h3, h4, h5⟩ := groupSingle_lst h.wf h1
  refine ⟨_, h1, ⟨h2, ?_, ⟨_, _, _, rfl⟩, fun v hv => h.occ v (groupSingle_occ h1 hv)⟩, fun σ => by simp [h3], ?_⟩
  rotate_left
  · obtain ⟨k1, k2, k3⟩ := (wd_lst_le op l es _).1 (Nat.le_refl _)
    by_cases h0 : l = 0
    · simp only [Seq.groupSingle, if_pos h0] at h1
      cases h1
      exact Nat.le_refl _
    rw [wd_lst_le]
    refine ⟨fun e he => ?_, k2, k3⟩
    rcases h5 e he with hm | ⟨g, rfl⟩
    · exact k1 e hm
    · have hwg := ((WF_lst _ _ _).1 h2).2 _ he
      have : wd (.lst op 0 g) ≤ 1 := by
        rw [wd_lst_le]
        refine ⟨fun x hx => ?_, Nat.le_refl _, fun h => absurd rfl h⟩
        obtain ⟨n, rfl⟩ := ((WF_lst _ _ _).1 hwg).1.2 rfl x hx
        simp [wd]
      have := k3 h0
      omega
  rw [noBool_lst]
  intro e he
  rcases h5 e he with hm | ⟨g, rfl⟩
  · exact (noBool_lst op l es).1 h.nb e hm
  · have hwg := ((WF_lst _ _ _).1 h2).2 _ he
    rw [noBool_lst]
    intro x hx
    obtain ⟨n, rfl⟩ := ((WF_lst _ _ _).1 hwg).1.2 rfl x hx
    trivial

theorem Made.mono {ts us : List Tok} {q : Seq} (h : Made us q) (hs : ∀ x ∈ us, x ∈ ts) : Made ts q :=
  ⟨h.wf, h.nb, h.sq, fun v hv => by obtain ⟨k, h1, h2⟩ := h.occ v hv; exact ⟨k, hs _ h1, h2⟩⟩

theorem forall₂_mem_left {α β : Type} {P Q : α → β → Prop} : ∀ {l : List α} {r : List β}, (∀ a b, a ∈ l → P a b → Q a b) → List.Forall₂ P l r → List.Forall₂ Q l r
  | [], [], _, .nil => .nil
  | _ :: _, _ :: _, h, .cons h1 h2 => .cons (h _ _ (by simp) h1) (forall₂_mem_left (fun a b ha => h a b (by simp [ha])) h2)

theorem setDef_spec : ∀ (f : Nat) (ts : List Tok) (σ : Side) (b : Bool),
    nums ts < f → TopT σ ts b → ∃ q, setDef f ts = .ok q ∧ Made ts q ∧ wd q ≤ nums ts + 1 ∧ q.sem σ = b := by
  intro f
  induction f with
  | zero => intro ts σ b h; omega
  | succ f ih =>
    intro ts σ b hf ht
    obtain ⟨vs, hb, hvs⟩ := outerTerms_spec ht
    have hterms : List.Forall₂ (fun t c => (∃ n, asInteger t = some n ∧ n ≠ 0 ∧ c = lit σ n ∧ Tok.num n ∈ ts) ∨
        (asInteger t = none ∧ ∃ x, setDef f t = .ok x ∧ Made ts x ∧ wd x < nums ts + 1 ∧ x.sem σ = c)) (outerTerms ts).1 vs := by
      refine forall₂_mem_left ?_ hvs
      rintro t c hm ⟨h1, h2⟩
      cases hi : asInteger t with
      | some n =>
        obtain ⟨a, e⟩ := h1.integer hi
        exact Or.inl ⟨n, rfl, a, e, outerTerms_mem ht hm (asInteger_mem hi)⟩
      | none =>
        obtain ⟨x, e, hx, hd, hv⟩ := ih t σ c (by have := h2 hi; omega) h1
        exact Or.inr ⟨rfl, x, e, hx.mono (fun y hy => outerTerms_mem ht hm hy), by have := h2 hi; omega, hv⟩
    obtain ⟨r, e1, g1, d1, v1⟩ := defLoop_spec (op := (outerTerms ts).2) _ _ 0 [] hterms (by omega) (by simp) (by simp)
      (by simp [Seq.WF, Seq.WFL]) (by simp [Seq.NoBool, Seq.NoBoolL]) (by intro v hv; simp [Seq.Occurs, Seq.OccursL] at hv)
    obtain ⟨q, e2, g2, v2, d2⟩ := group_made g1
    cases ts with
    | nil => exact absurd ht.nums_pos (by simp)
    | cons t ts =>
      refine ⟨q, by simp only [setDef, e1, e2, bind, Except.bind], g2, by omega, ?_⟩
      rw [v2, v1, hb]
      cases (outerTerms (t :: ts)).2 <;> simp [val, Op.app, Seq.sem, Seq.semAll, Seq.semAny]

/-! ### `evaluate` -/

theorem litVal_fits {vs : Known} {n : Int} {v : Bool} (h : litVal vs n = some v) {σ : Side} (hf : Fits σ vs) : lit σ n = v := by
  unfold litVal at h
  split at h
  · next b e =>
    cases h
    unfold lit
    rw [hf _ _ e]
  · simp at h

theorem litVal_known {vs : Known} {n : Int} (h : ∃ b, vs n.natAbs = some (some b)) : ∃ v, litVal vs n = some v := by
  obtain ⟨b, e⟩ := h
  exact ⟨_, by unfold litVal; rw [e]⟩

/-- a call of `evaluate` on `s` gives `x` -/
structure Answer (vs : Known) (s : Seq) (x : Seq × Option Bool) : Prop where
  keep : ∀ ts, Made ts s → Made ts x.1
  same : ∀ σ, x.1.sem σ = s.sem σ
  deep : wd x.1 ≤ wd s
  sound : ∀ b, x.2 = some b → ∀ σ, Fits σ vs → s.sem σ = b
  full : (∀ v, s.Occurs v → ∃ b, vs v = some (some b)) → ∃ b, x.2 = some b

/-- the elements before and after the loop of `evaluate` -/
def Step (vs : Known) (e e' : Seq) : Prop := e' = e ∨ (∀ n, e ≠ .int n) ∧ ∃ x, Answer vs e x ∧ x.1 = e'

theorem Step.refl (vs : Known) (es : List Seq) : List.Forall₂ (Step vs) es es := by
  induction es with
  | nil => exact .nil
  | cons e es ih => exact .cons (.inl rfl) ih

theorem stop_iff {op : Op} {v : Bool} : ((op == .and && !v) || (op == .or && v)) = true ↔ v = !op.neutral := by
  cases op <;> cases v <;> decide

theorem app_stop {op : Op} (b : Bool) : op.app (!op.neutral) b = !op.neutral := by
  cases op <;> cases b <;> rfl

theorem app_stop' {op : Op} (b : Bool) : op.app b (!op.neutral) = !op.neutral := by
  cases op <;> cases b <;> rfl

theorem app_go {op : Op} {v : Bool} (h : ¬ v = !op.neutral) (b : Bool) : op.app v b = b := by
  cases op <;> cases v <;> cases b <;> simp_all [Op.neutral, Op.app]

theorem evalLoop_spec {rec : Seq → M (Seq × Option Bool)} {vs : Known} {op : Op} : ∀ (es : List Seq) (nv : Bool),
    (∀ e ∈ es, (∀ n, e ≠ .int n) → ∃ x, rec e = .ok x ∧ Answer vs e x) →
    ∃ r, evalLoop rec vs op nv es = .ok r ∧ List.Forall₂ (Step vs) es r.1 ∧
      (∀ b, r.2 = some b → (nv = true → b = !op.neutral) ∧ ∀ σ, Fits σ vs → semL op σ es = b) ∧
      (nv = false → (∀ e ∈ es, ∀ v, e.Occurs v → ∃ b, vs v = some (some b)) → ∃ b, r.2 = some b)
  | [], nv, _ => by
    refine ⟨_, rfl, .nil, ?_, ?_⟩
    · intro b h
      cases nv
      · simp at h
        exact ⟨by simp, fun σ _ => by rw [← h]; cases op <;> rfl⟩
      · simp at h
    · rintro rfl _; exact ⟨_, rfl⟩
  | .int n :: es, nv, h => by
    have h' : ∀ e ∈ es, (∀ n, e ≠ .int n) → ∃ x, rec e = .ok x ∧ Answer vs e x := fun e he => h e (by simp [he])
    unfold evalLoop
    cases hl : litVal vs n with
    | none =>
      obtain ⟨r, e, h1, h2, h3⟩ := evalLoop_spec (op := op) es true h'
      refine ⟨(.int n :: r.1, r.2), by simp only [e, bind, Except.bind], .cons (.inl rfl) h1, ?_, ?_⟩
      · intro b hb
        obtain ⟨k1, k2⟩ := h2 b hb
        have hb' := k1 rfl
        refine ⟨fun _ => hb', fun σ hσ => ?_⟩
        rw [semL_cons, k2 σ hσ, hb', app_stop']
      · intro _ ho
        obtain ⟨v, hv⟩ := litVal_known (vs := vs) (n := n) (ho (.int n) (by simp) _ rfl)
        rw [hv] at hl; cases hl
    | some v =>
      dsimp only
      split
      · next hs =>
        rw [stop_iff] at hs
        refine ⟨_, rfl, .cons (.inl rfl) (Step.refl vs es), ?_, fun _ _ => ⟨_, rfl⟩⟩
        rintro b hb
        cases hb
        refine ⟨fun _ => hs, fun σ hσ => ?_⟩
        rw [semL_cons]
        show op.app (lit σ n) _ = v
        rw [litVal_fits hl hσ, hs, app_stop]
      · next hs =>
        rw [stop_iff] at hs
        obtain ⟨r, e, h1, h2, h3⟩ := evalLoop_spec (op := op) es nv h'
        refine ⟨(.int n :: r.1, r.2), by simp only [e, bind, Except.bind], .cons (.inl rfl) h1, ?_, ?_⟩
        · intro b hb
          obtain ⟨k1, k2⟩ := h2 b hb
          refine ⟨k1, fun σ hσ => ?_⟩
          rw [semL_cons, k2 σ hσ]
          show op.app (lit σ n) _ = b
          rw [litVal_fits hl hσ, app_go hs]
        · exact fun hn ho => h3 hn fun e he => ho e (by simp [he])
  | .boo o l c :: es, nv, h => other _ es nv h (by simp) (by intros; rw [evalLoop]; rfl; simp) (fun h' nv => evalLoop_spec (op := op) es nv h')
  | .lst o l xs :: es, nv, h => other _ es nv h (by simp) (by intros; rw [evalLoop]; rfl; simp) (fun h' nv => evalLoop_spec (op := op) es nv h')
where
  other {rec : Seq → M (Seq × Option Bool)} {vs : Known} {op : Op} (e : Seq) (es : List Seq) (nv : Bool)
      (h : ∀ e' ∈ e :: es, (∀ n, e' ≠ .int n) → ∃ x, rec e' = .ok x ∧ Answer vs e' x) (hn : ∀ n, e ≠ .int n)
      (hu : ∀ nv, evalLoop rec vs op nv (e :: es) = (do
        let x ← rec e
        match x.2 with
        | none => do
          let r ← evalLoop rec vs op true es
          .ok (x.1 :: r.1, r.2)
        | some v =>
          if (op == .and && !v) || (op == .or && v) then .ok (x.1 :: es, some v)
          else do
            let r ← evalLoop rec vs op nv es
            .ok (x.1 :: r.1, r.2)))
      (ih : (∀ e' ∈ es, (∀ n, e' ≠ .int n) → ∃ x, rec e' = .ok x ∧ Answer vs e' x) → ∀ nv,
        ∃ r, evalLoop rec vs op nv es = .ok r ∧ List.Forall₂ (Step vs) es r.1 ∧
          (∀ b, r.2 = some b → (nv = true → b = !op.neutral) ∧ ∀ σ, Fits σ vs → semL op σ es = b) ∧
          (nv = false → (∀ e ∈ es, ∀ v, e.Occurs v → ∃ b, vs v = some (some b)) → ∃ b, r.2 = some b)) :
      ∃ r, evalLoop rec vs op nv (e :: es) = .ok r ∧ List.Forall₂ (Step vs) (e :: es) r.1 ∧
        (∀ b, r.2 = some b → (nv = true → b = !op.neutral) ∧ ∀ σ, Fits σ vs → semL op σ (e :: es) = b) ∧
        (nv = false → (∀ e' ∈ e :: es, ∀ v, e'.Occurs v → ∃ b, vs v = some (some b)) → ∃ b, r.2 = some b) := by
    obtain ⟨x, hx, ha⟩ := h e (by simp) hn
    have h' := ih fun e he => h e (by simp [he])
    rw [hu]
    simp only [hx, bind, Except.bind]
    cases hv : x.2 with
    | none =>
      obtain ⟨r, e1, h1, h2, h3⟩ := h' true
      refine ⟨(x.1 :: r.1, r.2), by simp only [e1], .cons (.inr ⟨hn, x, ha, rfl⟩) h1, ?_, ?_⟩
      · intro b hb
        obtain ⟨k1, k2⟩ := h2 b hb
        have hb' := k1 rfl
        refine ⟨fun _ => hb', fun σ hσ => ?_⟩
        rw [semL_cons, k2 σ hσ, hb', app_stop']
      · intro _ ho
        obtain ⟨v, hv'⟩ := ha.full (ho e (by simp))
        rw [hv'] at hv; cases hv
    | some v =>
      dsimp only
      split
      · next hs =>
        rw [stop_iff] at hs
        refine ⟨_, rfl, .cons (.inr ⟨hn, x, ha, rfl⟩) (Step.refl vs es), ?_, fun _ _ => ⟨_, rfl⟩⟩
        rintro b hb
        cases hb
        refine ⟨fun _ => hs, fun σ hσ => ?_⟩
        rw [semL_cons, ha.sound v hv σ hσ, hs, app_stop]
      · next hs =>
        rw [stop_iff] at hs
        obtain ⟨r, e1, h1, h2, h3⟩ := h' nv
        refine ⟨(x.1 :: r.1, r.2), by simp only [e1], .cons (.inr ⟨hn, x, ha, rfl⟩) h1, ?_, ?_⟩
        · intro b hb
          obtain ⟨k1, k2⟩ := h2 b hb
          refine ⟨k1, fun σ hσ => ?_⟩
          rw [semL_cons, k2 σ hσ, ha.sound v hv σ hσ, app_go hs]
        · exact fun hn ho => h3 hn fun e he => ho e (by simp [he])

mutual
theorem depth_le_wd : ∀ s : Seq, s.depth ≤ wd s
  | .int _ => Nat.le_refl _
  | .boo _ _ _ => Nat.le_refl _
  | .lst _ l es => by
    have := depthL_le_wd es
    simp only [Seq.depth, wd]
    omega
theorem depthL_le_wd : ∀ es : List Seq, Seq.depthL es ≤ wdL es
  | [] => Nat.le_refl _
  | e :: es => by
    have h1 := depth_le_wd e
    have h2 := depthL_le_wd es
    simp only [Seq.depthL, wdL]
    omega
end

/-- a sequence of surfaces only, with levels that can be trusted -/
def Fine (s : Seq) : Prop := s.WF ∧ s.NoBool ∧ ∃ op l es, s = .lst op l es

theorem Fine.made {s : Seq} (h : Fine s) : ∃ ts, Made ts s :=
  ⟨(s.surfaces.map fun n : Nat => Tok.num (n : Int)), h.1, h.2.1, h.2.2, fun v hv =>
    ⟨v, List.mem_map.2 ⟨v, (mem_surfaces v s).2 hv, rfl⟩, by simp⟩⟩

theorem Made.fine {ts : List Tok} {s : Seq} (h : Made ts s) : Fine s := ⟨h.wf, h.nb, h.sq⟩

theorem Made.child {ts : List Tok} {op : Op} {l : Int} {es : List Seq} (h : Made ts (.lst op l es)) {e : Seq} (he : e ∈ es)
    (hn : ∀ n, e ≠ .int n) : Made ts e := by
  have hb := (noBool_lst op l es).1 h.nb e he
  refine ⟨((WF_lst _ _ _).1 h.wf).2 e he, hb, ?_, fun v hv => h.occ v ((occurs_lst _ _ _ _).2 ⟨e, he, hv⟩)⟩
  cases e with
  | int n => exact absurd rfl (hn n)
  | boo o l b => simp [Seq.NoBool] at hb
  | lst o l xs => exact ⟨_, _, _, rfl⟩

theorem step_made {ts : List Tok} {vs : Known} {op : Op} {l : Int} {es es' : List Seq} (h : Made ts (.lst op l es))
    (hs : List.Forall₂ (Step vs) es es') : Made ts (.lst op l es') := by
  have key : ∀ e' ∈ es', ∃ e ∈ es, Step vs e e' := by
    intro e' he'
    have := hs.flip
    have gen : ∀ (a b : List Seq), List.Forall₂ (Step vs) a b → ∀ y ∈ b, ∃ x ∈ a, Step vs x y := by
      intro a b hab
      induction hab with
      | nil => intro y hy; simp at hy
      | cons h1 _ ih =>
        intro y hy
        rcases List.mem_cons.1 hy with rfl | hy
        · exact ⟨_, by simp, h1⟩
        · obtain ⟨x, hx, h2⟩ := ih y hy; exact ⟨x, by simp [hx], h2⟩
    exact gen _ _ hs e' he'
  have made : ∀ e' ∈ es', e' ∈ es ∨ Made ts e' := by
    intro e' he'
    obtain ⟨e, he, hst⟩ := key e' he'
    rcases hst with rfl | ⟨hn, x, hx, rfl⟩
    · exact .inl he
    · exact .inr (hx.keep ts (h.child he hn))
  have hw := (WF_lst _ _ _).1 h.wf
  refine ⟨(WF_lst _ _ _).2 ⟨⟨hw.1.1, fun h0 e' he' => ?_⟩, fun e' he' => ?_⟩, (noBool_lst _ _ _).2 fun e' he' => ?_, ⟨_, _, _, rfl⟩, fun v hv => ?_⟩
  · obtain ⟨e, he, hst⟩ := key e' he'
    obtain ⟨n, rfl⟩ := hw.1.2 h0 e he
    rcases hst with rfl | ⟨hn, -⟩
    · exact ⟨n, rfl⟩
    · exact absurd rfl (hn n)
  · rcases made e' he' with h1 | h1
    · exact hw.2 e' h1
    · exact h1.wf
  · rcases made e' he' with h1 | h1
    · exact (noBool_lst _ _ _).1 h.nb e' h1
    · exact h1.nb
  · obtain ⟨e', he', hv⟩ := (occurs_lst _ _ _ _).1 hv
    rcases made e' he' with h1 | h1
    · exact h.occ v ((occurs_lst _ _ _ _).2 ⟨e', h1, hv⟩)
    · exact h1.occ v hv

theorem step_sem {vs : Known} {op : Op} {σ : Side} {es es' : List Seq} (hs : List.Forall₂ (Step vs) es es') : semL op σ es' = semL op σ es := by
  induction hs with
  | nil => rfl
  | cons h1 _ ih =>
    rw [semL_cons, semL_cons, ih]
    rcases h1 with rfl | ⟨-, x, hx, rfl⟩
    · rfl
    · rw [hx.same]

theorem step_wd {vs : Known} {es es' : List Seq} (hs : List.Forall₂ (Step vs) es es') : wdL es' ≤ wdL es := by
  induction hs with
  | nil => exact Nat.le_refl _
  | cons h1 _ ih =>
    simp only [wdL]
    rcases h1 with rfl | ⟨-, x, hx, rfl⟩
    · omega
    · have := hx.deep; omega

theorem evaluate_spec {vs : Known} : ∀ (f : Nat) (s : Seq), Fine s → wd s ≤ f → ∃ x, evaluate f vs s = .ok x ∧ Answer vs s x := by
  intro f
  induction f with
  | zero =>
    rintro s ⟨-, -, op, l, es, rfl⟩ h
    exact absurd ((wd_lst_le _ _ _ _).1 h).2.1 (by omega)
  | succ f ih =>
    intro s hs hd
    obtain ⟨ts0, hm0⟩ := hs.made
    obtain ⟨s', hg, hm, hsem, hwd⟩ := group_made hm0
    obtain ⟨op, l, es, rfl⟩ := hs.2.2
    obtain ⟨es', rfl, -⟩ := groupSingle_lst hs.1 hg
    have hd' := ((wd_lst_le _ _ _ _).1 (Nat.le_trans hwd hd)).1
    obtain ⟨r, e1, h1, h2, h3⟩ := evalLoop_spec (rec := evaluate f vs) (vs := vs) (op := op) es' false fun e he hn =>
      ih e (hm.child he hn).fine (by have := hd' e he; omega)
    refine ⟨(.lst op l r.1, r.2), by simp only [evaluate, hg, e1, bind, Except.bind], ?_, ?_, ?_, ?_, ?_⟩
    · intro ts ht
      obtain ⟨s'', hg', hm', -⟩ := group_made ht
      rw [hg] at hg'; cases hg'
      exact step_made hm' h1
    · intro σ
      rw [← hsem σ, sem_lst, sem_lst, step_sem h1]
    · have hx := step_wd h1
      have : wd (.lst op l r.1) ≤ wd (.lst op l es') := by
        simp only [wd]; omega
      exact Nat.le_trans this hwd
    · intro b hb σ hσ
      rw [← hsem σ, sem_lst]
      exact (h2 b hb).2 σ hσ
    · intro ho
      exact h3 rfl fun e he v hv => ho v (groupSingle_occ hg ((occurs_lst _ _ _ _).2 ⟨e, he, hv⟩))

end Geouned.RBool
