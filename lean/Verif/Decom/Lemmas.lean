import Verif.Decom.Model
import Mathlib.Algebra.BigOperators.Group.List.Basic
import Mathlib.Tactic.Abel
import Mathlib.Tactic.NormNum
import Mathlib.Tactic.Linarith
/-!
# Lemmas on the decomposition: what is conserved
-/
namespace Geouned.Decom

open Planes

variable {S T : Type}

/-- what `split_bop` returns is a cut of the kernel at some tolerance -/
theorem bop_ok {α : Type} {slice : ℚ → Option α} {o : Options} : ∀ {n : Nat} {tol scale : ℚ} {c : α},
    splitBop slice o n tol scale = .ok c → ∃ t, slice t = some c := by
  intro n
  induction n with
  | zero => intro tol scale c h; cases h
  | succ n ih =>
    intro tol scale c h
    rw [splitBop] at h
    split at h
    · split at h
      · next hs => cases h; exact ⟨_, hs⟩
      · cases h
    · split at h
      · split at h
        · exact ih h
        · split at h
          · next hs => cases h; exact ⟨_, hs⟩
          · cases h
      · split at h
        · next hs => cases h; exact ⟨_, hs⟩
        · exact ih h

/-- `split_bop` never reports `endless` -/
theorem bop_not_endless {α : Type} {slice : ℚ → Option α} {o : Options} : ∀ {n : Nat} {tol scale : ℚ},
    splitBop slice o n tol scale ≠ .error .endless := by
  intro n
  induction n with
  | zero => intro tol scale h; cases h
  | succ n ih =>
    intro tol scale h
    rw [splitBop] at h
    split at h
    · split at h <;> cases h
    · split at h
      · split at h
        · exact ih h
        · split at h <;> cases h
      · split at h
        · cases h
        · exact ih h

theorem cutBy_ok {k : Cad S T} {o : Options} {s : S} {ts : List T} {c : List S} (h : cutBy k o s ts = .ok c) :
    ∃ tol, k.slice s ts tol = some c := bop_ok h

section Closed

variable {k : Cad S T} {Q : S → Prop}

/-- every piece the kernel produces has `Q` -/
def Pieces (k : Cad S T) (Q : S → Prop) : Prop := ∀ s ts tol ps, k.slice s ts tol = some ps → ∀ p ∈ ps, Q p

theorem cutOrKeep_mem (hq : Pieces k Q) (o : Options) (s : S) (ts : List T) (hs : Q s) : ∀ p ∈ cutOrKeep k o s ts, Q p := by
  unfold cutOrKeep
  split
  · next c h =>
    obtain ⟨tol, h2⟩ := cutBy_ok h
    exact hq _ _ _ _ h2
  · simpa using hs

theorem cylLoop_mem (hq : Pieces k Q) (o : Options) (s : S) (hs : Q s) : ∀ {gs : List (List T)} {out : List S},
    cylLoop k o s gs = some out → ∀ p ∈ out, Q p := by
  intro gs
  induction gs with
  | nil => intro out h; cases h
  | cons g gs ih =>
    intro out h
    rw [cylLoop] at h
    split at h
    · cases h
      exact cutOrKeep_mem hq _ _ _ hs
    · exact ih h

theorem cutFullCylinder_mem (hq : Pieces k Q) (o : Options) (s : S) (hs : Q s) : ∀ p ∈ cutFullCylinder k o s, Q p := by
  unfold cutFullCylinder
  dsimp only
  split
  · simpa using hs
  · split
    · next h => exact cylLoop_mem hq o s hs h
    · split
      · exact cutOrKeep_mem hq _ _ _ hs
      · simpa using hs

/-- a cut whose pieces have `Q` if the solid has -/
def Keeps (Q : S → Prop) (cut : S → Except Exc (List S × Nat)) : Prop := ∀ b cs e, Q b → cut b = .ok (cs, e) → ∀ p ∈ cs, Q p

theorem cutRound_mem {cut : S → Except Exc (List S × Nat)} (h : Keeps Q cut) :
    ∀ {bs done new : List S} {e : Nat} {done' new' : List S} {e' : Nat}, (∀ p ∈ bs, Q p) → (∀ p ∈ done, Q p) → (∀ p ∈ new, Q p) →
      cutRound cut bs done new e = .ok (done', new', e') → (∀ p ∈ done', Q p) ∧ ∀ p ∈ new', Q p := by
  intro bs
  induction bs with
  | nil =>
    intro done new e done' new' e' _ h1 h2 hr
    cases hr
    exact ⟨h1, h2⟩
  | cons b bs ih =>
    intro done new e done' new' e' h0 h1 h2 hr
    rw [cutRound] at hr
    split at hr
    · cases hr
    · next cs e2 hb =>
      have hcs := h _ _ _ (h0 b List.mem_cons_self) hb
      have h0' : ∀ p ∈ bs, Q p := fun p hp => h0 p (List.mem_cons_of_mem _ hp)
      split at hr
      · refine ih h0' (fun p hp => ?_) h2 hr
        rcases List.mem_append.mp hp with hp | hp
        · exact h1 p hp
        · exact hcs p hp
      · refine ih h0' h1 (fun p hp => ?_) hr
        rcases List.mem_append.mp hp with hp | hp
        · exact h2 p hp
        · exact hcs p hp

theorem cutLoop_mem {cut : S → Except Exc (List S × Nat)} (h : Keeps Q cut) :
    ∀ {n : Nat} {bs done : List S} {e : Nat} {out : List S} {e' : Nat}, (∀ p ∈ bs, Q p) → (∀ p ∈ done, Q p) →
      cutLoop cut n bs done e = .ok (out, e') → ∀ p ∈ out, Q p := by
  intro n
  induction n with
  | zero => intro bs done e out e' _ _ hr; cases hr
  | succ n ih =>
    intro bs done e out e' h0 h1 hr
    rw [cutLoop] at hr
    split at hr
    · cases hr
    · next done' new err' hb =>
      obtain ⟨h2, h3⟩ := cutRound_mem h h0 h1 (by simp) hb
      split at hr
      · cases hr
        exact h2
      · exact ih h3 h2 hr

theorem splitFullCylinder_mem (hq : Pieces k Q) {o : Options} {n : Nat} {s : S} {out : List S} (hs : Q s)
    (h : splitFullCylinder k o n s = .ok out) : ∀ p ∈ out, Q p := by
  unfold splitFullCylinder at h
  split at h
  · cases h
  · next out' e hr =>
    cases h
    refine cutLoop_mem (Q := Q) ?_ (by simpa using hs) (by simp) hr
    intro b cs e hb hcut
    cases hcut
    exact cutFullCylinder_mem hq o b hb

theorem planeLoop_mem (hq : Pieces k Q) {o : Options} {s : S} (hs : Q s) : ∀ {gs : List (List T)} {out : List S},
    planeLoop k o s gs = .ok out → ∀ p ∈ out, Q p := by
  intro gs
  induction gs with
  | nil => intro out h; cases h; simpa using hs
  | cons g gs ih =>
    intro out h
    rw [planeLoop] at h
    split at h
    · cases h
    · next c hb =>
      split at h
      · cases h
        obtain ⟨tol, h2⟩ := cutBy_ok hb
        exact hq _ _ _ _ h2
      · exact ih h

theorem splitPlanes_mem (hq : Pieces k Q) {o : Options} {n : Nat} {l out : List S} {e : Nat} (hl : ∀ p ∈ l, Q p)
    (h : splitPlanes k o n l = .ok (out, e)) : ∀ p ∈ out, Q p := by
  unfold splitPlanes at h
  split at h
  · cases h
  · next out' e' hr =>
    cases h
    refine cutLoop_mem (Q := Q) ?_ hl (by simp) hr
    intro b cs e hb hcut
    unfold planeCut at hcut
    split at hcut
    · cases hcut
    · next c hp =>
      cases hcut
      unfold splitPPlanes at hp
      dsimp only at hp
      split at hp
      · cases hp; simpa using hb
      · exact planeLoop_mem hq hb hp

theorem secondTry_mem (hq : Pieces k Q) {o : Options} {s : S} : ∀ {ts : List T} {e : Nat} {ps : List S} {e' : Nat},
    secondTry k o s ts e = (some ps, e') → ∀ p ∈ ps, Q p := by
  intro ts
  induction ts with
  | nil => intro e ps e' h; cases h
  | cons t ts ih =>
    intro e ps e' h
    rw [secondTry] at h
    split at h
    · exact ih h
    · next c hb =>
      split at h
      · exact ih h
      · dsimp only at h
        split at h
        · cases h
          obtain ⟨tol, h2⟩ := cutBy_ok hb
          intro p hp
          exact hq _ _ _ _ h2 p (List.mem_filter.mp hp).1
        · exact ih h

theorem kindRound_mem (hq : Pieces k Q) {o : Options} {kd : Kind} : ∀ {ss kb cb : List S} {e : Nat} {kb' cb' : List S} {e' : Nat},
    (∀ p ∈ ss, Q p) → (∀ p ∈ kb, Q p) → (∀ p ∈ cb, Q p) →
    kindRound k o kd ss kb cb e = (kb', cb', e') → (∀ p ∈ kb', Q p) ∧ ∀ p ∈ cb', Q p := by
  intro ss
  induction ss with
  | nil =>
    intro kb cb e kb' cb' e' _ h1 h2 h
    cases h
    exact ⟨h1, h2⟩
  | cons s ss ih =>
    intro kb cb e kb' cb' e' h0 h1 h2 h
    have h0' : ∀ p ∈ ss, Q p := fun p hp => h0 p (List.mem_cons_of_mem _ hp)
    have h1' : ∀ p ∈ kb ++ [s], Q p := by
      intro p hp
      rcases List.mem_append.mp hp with hp | hp
      · exact h1 p hp
      · rw [List.mem_singleton.mp hp]; exact h0 s List.mem_cons_self
    rw [kindRound] at h
    split at h
    · exact ih h0' h1' h2 h
    · split at h
      · next ps err' hb =>
        refine ih h0' h1 (fun p hp => ?_) h
        rcases List.mem_append.mp hp with hp | hp
        · exact h2 p hp
        · exact secondTry_mem hq hb p hp
      · exact ih h0' h1' h2 h

theorem kindLoop_mem (hq : Pieces k Q) {o : Options} {kd : Kind} : ∀ {n : Nat} {base kb : List S} {e : Nat} {out : List S} {e' : Nat},
    (∀ p ∈ base, Q p) → (∀ p ∈ kb, Q p) → kindLoop k o kd n base kb e = .ok (out, e') → ∀ p ∈ out, Q p := by
  intro n
  induction n with
  | zero => intro base kb e out e' _ _ h; cases h
  | succ n ih =>
    intro base kb e out e' h0 h1 h
    rw [kindLoop] at h
    split at h
    next kb' cb err' hb =>
    obtain ⟨h2, h3⟩ := kindRound_mem hq h0 h1 (by simp) hb
    split at h
    · cases h
      exact h2
    · exact ih h3 h2 h

theorem kindsLoop_mem (hq : Pieces k Q) {o : Options} {n : Nat} : ∀ {kds : List Kind} {base : List S} {e : Nat} {out : List S} {e' : Nat},
    (∀ p ∈ base, Q p) → kindsLoop k o n kds base e = .ok (out, e') → ∀ p ∈ out, Q p := by
  intro kds
  induction kds with
  | nil => intro base e out e' h0 h; cases h; exact h0
  | cons kd kds ih =>
    intro base e out e' h0 h
    rw [kindsLoop] at h
    split at h
    · cases h
    · next base' err' hb => exact ih (kindLoop_mem hq h0 (by simp) hb) h

theorem removeSolids_sub (k : Cad S T) (l : List S) : ∀ p ∈ (removeSolids k l).1, p ∈ l := by
  induction l with
  | nil => intro p hp; cases hp
  | cons s ss ih =>
    intro p hp
    rw [removeSolids] at hp
    split at hp
    · exact List.mem_cons_of_mem _ (ih p hp)
    · rcases List.mem_cons.mp hp with rfl | hp
      · exact List.mem_cons_self
      · exact List.mem_cons_of_mem _ (ih p hp)

theorem auxLoop_mem (hq : Pieces k Q) {o : Options} {s : S} (hs : Q s) : ∀ {ps : List T} {com : List S} {e : Nat} {out : List S} {e' : Nat},
    (∀ p ∈ com, Q p) → auxLoop k o s ps com e = .ok (out, e') → ∀ p ∈ out, Q p := by
  intro ps
  induction ps with
  | nil =>
    intro com e out e' hi h
    cases h
    exact hi
  | cons p ps ih =>
    intro com e out e' _ h
    rw [auxLoop] at h
    split at h
    · cases h
    · next c hb =>
      obtain ⟨tol, h2⟩ := cutBy_ok hb
      have hr : ∀ p ∈ (removeSolids k c).1, Q p := fun p hp => hq _ _ _ _ h2 p (removeSolids_sub k c p hp)
      split at h
      · exact ih (by simpa using hs) h
      · split at h
        · split at h
          · cases hx : removeSolids k c with
            | mk a b =>
              rw [hx] at h hr
              cases h
              exact hr
          · exact ih hr h
        · exact ih (hq _ _ _ _ h2) h

theorem split2ndOPlane_keeps (hq : Pieces k Q) (o : Options) : Keeps Q (split2ndOPlane k o) := by
  intro b cs e hb h
  unfold split2ndOPlane at h
  split at h
  · cases h; simpa using hb
  · exact auxLoop_mem hq hb (by simp) h

theorem keepPieces_sub (k : Cad S T) (l : List S) : ∀ e : Nat, ∀ p ∈ (keepPieces k l e).1, p ∈ l := by
  induction l with
  | nil => intro e p hp; cases hp
  | cons s ss ih =>
    intro e p hp
    rw [keepPieces] at hp
    split at hp
    · exact List.mem_cons_of_mem _ (ih _ p hp)
    · rcases List.mem_cons.mp hp with rfl | hp
      · exact List.mem_cons_self
      · exact List.mem_cons_of_mem _ (ih _ p hp)

end Closed

section Cons

variable {M : Type} [AddCommMonoid M] (k : Cad S T) (μ : S → M)

/-- every cut of the kernel conserves `μ` -/
def Cons : Prop := ∀ s ts tol ps, k.slice s ts tol = some ps → (ps.map μ).sum = μ s

variable {k μ}

theorem cutOrKeep_sum (hc : Cons k μ) (o : Options) (s : S) (ts : List T) : ((cutOrKeep k o s ts).map μ).sum = μ s := by
  unfold cutOrKeep
  split
  · next c h =>
    obtain ⟨tol, h2⟩ := cutBy_ok h
    exact hc _ _ _ _ h2
  · simp

theorem cylLoop_sum (hc : Cons k μ) (o : Options) (s : S) : ∀ {gs : List (List T)} {out : List S},
    cylLoop k o s gs = some out → (out.map μ).sum = μ s := by
  intro gs
  induction gs with
  | nil => intro out h; cases h
  | cons g gs ih =>
    intro out h
    rw [cylLoop] at h
    split at h
    · cases h
      exact cutOrKeep_sum hc _ _ _
    · exact ih h

theorem cutFullCylinder_sum (hc : Cons k μ) (o : Options) (s : S) : ((cutFullCylinder k o s).map μ).sum = μ s := by
  unfold cutFullCylinder
  dsimp only
  split
  · simp
  · split
    · next h => exact cylLoop_sum hc o s h
    · split
      · exact cutOrKeep_sum hc _ _ _
      · simp

/-- a cut that conserves `μ` up to dropped solids with `P` -/
def Lossy (μ : S → M) (P : S → Prop) (cut : S → Except Exc (List S × Nat)) : Prop :=
  ∀ b cs e, cut b = .ok (cs, e) → ∃ d : List S, (∀ x ∈ d, P x) ∧ (cs.map μ).sum + (d.map μ).sum = μ b

theorem cutRound_sum {P : S → Prop} {cut : S → Except Exc (List S × Nat)} (h : Lossy μ P cut) :
    ∀ {bs done new : List S} {e : Nat} {done' new' : List S} {e' : Nat}, cutRound cut bs done new e = .ok (done', new', e') →
      ∃ d : List S, (∀ x ∈ d, P x) ∧
        (done'.map μ).sum + (new'.map μ).sum + (d.map μ).sum = (done.map μ).sum + (new.map μ).sum + (bs.map μ).sum := by
  intro bs
  induction bs with
  | nil =>
    intro done new e done' new' e' hr
    cases hr
    exact ⟨[], by simp, by simp⟩
  | cons b bs ih =>
    intro done new e done' new' e' hr
    rw [cutRound] at hr
    split at hr
    · cases hr
    · next cs e2 hb =>
      obtain ⟨d, hd, hs⟩ := h _ _ _ hb
      split at hr
      · obtain ⟨d2, hd2, hs2⟩ := ih hr
        refine ⟨d ++ d2, fun x hx => ?_, ?_⟩
        · rcases List.mem_append.mp hx with hx | hx
          · exact hd x hx
          · exact hd2 x hx
        · simp only [List.map_append, List.sum_append, List.map_cons, List.sum_cons] at hs2 ⊢
          rw [← hs]
          calc _ = (done'.map μ).sum + (new'.map μ).sum + (d2.map μ).sum + (d.map μ).sum := by abel
            _ = _ := by rw [hs2]; abel
      · obtain ⟨d2, hd2, hs2⟩ := ih hr
        refine ⟨d ++ d2, fun x hx => ?_, ?_⟩
        · rcases List.mem_append.mp hx with hx | hx
          · exact hd x hx
          · exact hd2 x hx
        · simp only [List.map_append, List.sum_append, List.map_cons, List.sum_cons] at hs2 ⊢
          rw [← hs]
          calc _ = (done'.map μ).sum + (new'.map μ).sum + (d2.map μ).sum + (d.map μ).sum := by abel
            _ = _ := by rw [hs2]; abel

theorem cutLoop_sum {P : S → Prop} {cut : S → Except Exc (List S × Nat)} (h : Lossy μ P cut) :
    ∀ {n : Nat} {bs done : List S} {e : Nat} {out : List S} {e' : Nat}, cutLoop cut n bs done e = .ok (out, e') →
      ∃ d : List S, (∀ x ∈ d, P x) ∧ (out.map μ).sum + (d.map μ).sum = (done.map μ).sum + (bs.map μ).sum := by
  intro n
  induction n with
  | zero => intro bs done e out e' hr; cases hr
  | succ n ih =>
    intro bs done e out e' hr
    rw [cutLoop] at hr
    split at hr
    · cases hr
    · next done' new err' hb =>
      obtain ⟨d, hd, hs⟩ := cutRound_sum h hb
      split at hr
      · next hn =>
        cases hr
        have : new = [] := List.eq_nil_of_length_eq_zero hn
        subst this
        exact ⟨d, hd, by simpa using hs⟩
      · obtain ⟨d2, hd2, hs2⟩ := ih hr
        refine ⟨d ++ d2, fun x hx => ?_, ?_⟩
        · rcases List.mem_append.mp hx with hx | hx
          · exact hd x hx
          · exact hd2 x hx
        · simp only [List.map_append, List.sum_append, List.map_nil, List.sum_nil] at hs ⊢
          calc _ = (out.map μ).sum + (d2.map μ).sum + (d.map μ).sum := by abel
            _ = _ := by rw [hs2, hs]; abel

theorem splitFullCylinder_sum (hc : Cons k μ) {o : Options} {n : Nat} {s : S} {out : List S} (h : splitFullCylinder k o n s = .ok out) :
    (out.map μ).sum = μ s := by
  unfold splitFullCylinder at h
  split at h
  · cases h
  · next out' e hr =>
    cases h
    have hl : Lossy μ (fun _ => False) (fun b => Except.ok (cutFullCylinder k o b, 0)) := by
      intro b cs e hb
      cases hb
      exact ⟨[], by simp, by simpa using cutFullCylinder_sum hc o b⟩
    obtain ⟨d, hd, hs⟩ := cutLoop_sum hl hr
    have : d = [] := List.eq_nil_iff_forall_not_mem.mpr hd
    subst this
    simpa using hs

theorem planeLoop_sum (hc : Cons k μ) {o : Options} {s : S} : ∀ {gs : List (List T)} {out : List S},
    planeLoop k o s gs = .ok out → (out.map μ).sum = μ s := by
  intro gs
  induction gs with
  | nil => intro out h; cases h; simp
  | cons g gs ih =>
    intro out h
    rw [planeLoop] at h
    split at h
    · cases h
    · next c hb =>
      split at h
      · cases h
        obtain ⟨tol, h2⟩ := cutBy_ok hb
        exact hc _ _ _ _ h2
      · exact ih h

theorem splitPPlanes_sum (hc : Cons k μ) {o : Options} {s : S} {out : List S} (h : splitPPlanes k o s = .ok out) : (out.map μ).sum = μ s := by
  unfold splitPPlanes at h
  dsimp only at h
  split at h
  · cases h; simp
  · exact planeLoop_sum hc h

theorem splitPlanes_sum (hc : Cons k μ) {o : Options} {n : Nat} {l out : List S} {e : Nat} (h : splitPlanes k o n l = .ok (out, e)) :
    (out.map μ).sum = (l.map μ).sum := by
  unfold splitPlanes at h
  split at h
  · cases h
  · next out' e' hr =>
    cases h
    have hl : Lossy μ (fun _ => False) (planeCut k o) := by
      intro b cs e hb
      unfold planeCut at hb
      split at hb
      · cases hb
      · next c hp =>
        cases hb
        exact ⟨[], by simp, by simpa using splitPPlanes_sum hc hp⟩
    obtain ⟨d, hd, hs⟩ := cutLoop_sum hl hr
    have : d = [] := List.eq_nil_iff_forall_not_mem.mpr hd
    subst this
    simpa using hs

/-- a list is what passes a test together with what does not -/
theorem filter_sum (p : S → Bool) (l : List S) :
    ((l.filter p).map μ).sum + ((l.filter (fun x => !p x)).map μ).sum = (l.map μ).sum := by
  induction l with
  | nil => simp
  | cons a l ih =>
    by_cases h : p a = true
    · simp only [List.filter_cons, h, if_true, Bool.not_true, Bool.false_eq_true, if_false, List.map_cons, List.sum_cons]
      rw [← ih]
      abel
    · have h' : p a = false := by simpa using h
      simp only [List.filter_cons, h', Bool.false_eq_true, if_false, Bool.not_false, if_true, List.map_cons, List.sum_cons]
      rw [← ih]
      abel

/-- a piece the decomposition may drop: at most 0.01 mm³, and either a piece that the kernel has produced or one of `I` -/
def Small (k : Cad S T) (I : S → Prop) (x : S) : Prop :=
  k.vol x ≤ 1 / 100 ∧ (I x ∨ ∃ s ts tol ps, k.slice s ts tol = some ps ∧ x ∈ ps)

variable {I : S → Prop}

theorem secondTry_sum (hc : Cons k μ) {o : Options} {s : S} : ∀ {ts : List T} {e : Nat} {ps : List S} {e' : Nat},
    secondTry k o s ts e = (some ps, e') → ∃ d : List S, (∀ x ∈ d, Small k I x) ∧ (ps.map μ).sum + (d.map μ).sum = μ s := by
  intro ts
  induction ts with
  | nil => intro e ps e' h; cases h
  | cons t ts ih =>
    intro e ps e' h
    rw [secondTry] at h
    split at h
    · exact ih h
    · next c hb =>
      split at h
      · exact ih h
      · dsimp only at h
        split at h
        · cases h
          obtain ⟨tol, h2⟩ := cutBy_ok hb
          refine ⟨c.filter (fun p => !decide (k.vol p > 1 / 10 ^ 9)), fun x hx => ?_, ?_⟩
          · have := (List.mem_filter.mp hx).2
            have h3 : k.vol x ≤ 1 / 10 ^ 9 := by simpa using this
            refine ⟨?_, Or.inr ⟨_, _, _, _, h2, (List.mem_filter.mp hx).1⟩⟩
            norm_num at h3 ⊢
            linarith
          · rw [filter_sum, hc _ _ _ _ h2]
        · exact ih h

theorem kindRound_sum (hc : Cons k μ) {o : Options} {kd : Kind} : ∀ {ss kb cb : List S} {e : Nat} {kb' cb' : List S} {e' : Nat},
    kindRound k o kd ss kb cb e = (kb', cb', e') → ∃ d : List S, (∀ x ∈ d, Small k I x) ∧
      (kb'.map μ).sum + (cb'.map μ).sum + (d.map μ).sum = (kb.map μ).sum + (cb.map μ).sum + (ss.map μ).sum := by
  intro ss
  induction ss with
  | nil =>
    intro kb cb e kb' cb' e' h
    cases h
    exact ⟨[], by simp, by simp⟩
  | cons s ss ih =>
    intro kb cb e kb' cb' e' h
    rw [kindRound] at h
    split at h
    · obtain ⟨d, hd, hs⟩ := ih h
      refine ⟨d, hd, ?_⟩
      simp only [List.map_append, List.sum_append, List.map_cons, List.sum_cons, List.map_nil, List.sum_nil, add_zero] at hs ⊢
      rw [hs]
      abel
    · split at h
      · next ps err' hb =>
        obtain ⟨d1, hd1, hs1⟩ := secondTry_sum hc hb
        obtain ⟨d, hd, hs⟩ := ih h
        refine ⟨d1 ++ d, fun x hx => ?_, ?_⟩
        · rcases List.mem_append.mp hx with hx | hx
          · exact hd1 x hx
          · exact hd x hx
        · simp only [List.map_append, List.sum_append, List.map_cons, List.sum_cons] at hs ⊢
          rw [← hs1]
          calc _ = (kb'.map μ).sum + (cb'.map μ).sum + (d.map μ).sum + (d1.map μ).sum := by abel
            _ = _ := by rw [hs]; abel
      · obtain ⟨d, hd, hs⟩ := ih h
        refine ⟨d, hd, ?_⟩
        simp only [List.map_append, List.sum_append, List.map_cons, List.sum_cons, List.map_nil, List.sum_nil, add_zero] at hs ⊢
        rw [hs]
        abel

theorem kindLoop_sum (hc : Cons k μ) {o : Options} {kd : Kind} : ∀ {n : Nat} {base kb : List S} {e : Nat} {out : List S} {e' : Nat},
    kindLoop k o kd n base kb e = .ok (out, e') → ∃ d : List S, (∀ x ∈ d, Small k I x) ∧
      (out.map μ).sum + (d.map μ).sum = (kb.map μ).sum + (base.map μ).sum := by
  intro n
  induction n with
  | zero => intro base kb e out e' h; cases h
  | succ n ih =>
    intro base kb e out e' h
    rw [kindLoop] at h
    split at h
    next kb' cb err' hb =>
    obtain ⟨d, hd, hs⟩ := kindRound_sum hc hb
    split at h
    · next hn =>
      cases h
      have : cb = [] := List.eq_nil_of_length_eq_zero hn
      subst this
      exact ⟨d, hd, by simpa using hs⟩
    · obtain ⟨d2, hd2, hs2⟩ := ih h
      refine ⟨d ++ d2, fun x hx => ?_, ?_⟩
      · rcases List.mem_append.mp hx with hx | hx
        · exact hd x hx
        · exact hd2 x hx
      · simp only [List.map_append, List.sum_append, List.map_nil, List.sum_nil] at hs ⊢
        calc _ = (out.map μ).sum + (d2.map μ).sum + (d.map μ).sum := by abel
          _ = _ := by rw [hs2, hs]; abel

theorem kindsLoop_sum (hc : Cons k μ) {o : Options} {n : Nat} : ∀ {kds : List Kind} {base : List S} {e : Nat} {out : List S} {e' : Nat},
    kindsLoop k o n kds base e = .ok (out, e') → ∃ d : List S, (∀ x ∈ d, Small k I x) ∧
      (out.map μ).sum + (d.map μ).sum = (base.map μ).sum := by
  intro kds
  induction kds with
  | nil => intro base e out e' h; cases h; exact ⟨[], by simp, by simp⟩
  | cons kd kds ih =>
    intro base e out e' h
    rw [kindsLoop] at h
    split at h
    · cases h
    · next base' err' hb =>
      obtain ⟨d, hd, hs⟩ := kindLoop_sum hc hb
      obtain ⟨d2, hd2, hs2⟩ := ih h
      refine ⟨d ++ d2, fun x hx => ?_, ?_⟩
      · rcases List.mem_append.mp hx with hx | hx
        · exact hd x hx
        · exact hd2 x hx
      · simp only [List.map_append, List.sum_append, List.map_nil, List.sum_nil, zero_add] at hs ⊢
        calc _ = (out.map μ).sum + (d2.map μ).sum + (d.map μ).sum := by abel
          _ = _ := by rw [hs2, hs]

theorem removeSolids_sum (l : List S) (hl : ∀ x ∈ l, I x ∨ ∃ s ts tol ps, k.slice s ts tol = some ps ∧ x ∈ ps) : ∃ d : List S, (∀ x ∈ d, Small k I x) ∧ ((removeSolids k l).1.map μ).sum + (d.map μ).sum = (l.map μ).sum := by
  induction l with
  | nil => exact ⟨[], by simp, by simp [removeSolids]⟩
  | cons s ss ih =>
    obtain ⟨d, hd, hs⟩ := ih (fun x hx => hl x (List.mem_cons_of_mem _ hx))
    rw [removeSolids]
    split
    · next h =>
      refine ⟨s :: d, fun x hx => ?_, ?_⟩
      · rcases List.mem_cons.mp hx with rfl | hx
        · exact ⟨h, hl x List.mem_cons_self⟩
        · exact hd x hx
      · simp only [List.map_cons, List.sum_cons]
        rw [← hs]
        abel
    · refine ⟨d, hd, ?_⟩
      simp only [List.map_cons, List.sum_cons]
      rw [← hs]
      abel

theorem auxLoop_sum (hc : Cons k μ) {o : Options} {s : S} : ∀ {ps : List T} {com : List S} {e : Nat} {out : List S} {e' : Nat},
    ps.length ≠ 0 ∨ (∃ d : List S, (∀ x ∈ d, Small k I x) ∧ (com.map μ).sum + (d.map μ).sum = μ s) →
    auxLoop k o s ps com e = .ok (out, e') → ∃ d : List S, (∀ x ∈ d, Small k I x) ∧ (out.map μ).sum + (d.map μ).sum = μ s := by
  intro ps
  induction ps with
  | nil =>
    intro com e out e' hi h
    cases h
    simpa using hi
  | cons p ps ih =>
    intro com e out e' _ h
    rw [auxLoop] at h
    split at h
    · cases h
    · next c hb =>
      obtain ⟨tol, h2⟩ := cutBy_ok hb
      have hsum := hc _ _ _ _ h2
      split at h
      · exact ih (Or.inr ⟨[], by simp, by simp⟩) h
      · split at h
        · obtain ⟨d, hd, hs⟩ := removeSolids_sum (k := k) (μ := μ) (I := I) c (fun x hx => Or.inr ⟨_, _, _, _, h2, hx⟩)
          split at h
          · cases hx : removeSolids k c with
            | mk a b =>
              rw [hx] at h hs
              cases h
              exact ⟨d, hd, by rw [hs, hsum]⟩
          · exact ih (Or.inr ⟨d, hd, by rw [hs, hsum]⟩) h
        · exact ih (Or.inr ⟨[], by simp, by simpa using hsum⟩) h

theorem split2ndOPlane_lossy (hc : Cons k μ) (o : Options) : Lossy μ (Small k I) (split2ndOPlane k o) := by
  intro b cs e h
  unfold split2ndOPlane at h
  split at h
  · cases h; exact ⟨[], by simp, by simp⟩
  · next hl => exact auxLoop_sum hc (Or.inl hl) h

theorem keepPieces_sum (l : List S) (e : Nat) (hl : ∀ x ∈ l, I x ∨ ∃ s ts tol ps, k.slice s ts tol = some ps ∧ x ∈ ps) : ∃ d : List S, (∀ x ∈ d, Small k I x) ∧
    ((keepPieces k l e).1.map μ).sum + (d.map μ).sum = (l.map μ).sum := by
  induction l generalizing e with
  | nil => exact ⟨[], by simp, by simp [keepPieces]⟩
  | cons s ss ih =>
    rw [keepPieces]
    split
    · next h =>
      obtain ⟨d, hd, hs⟩ := ih (e + 2) (fun x hx => hl x (List.mem_cons_of_mem _ hx))
      refine ⟨s :: d, fun x hx => ?_, ?_⟩
      · rcases List.mem_cons.mp hx with rfl | hx
        · refine ⟨?_, hl x List.mem_cons_self⟩
          norm_num at h ⊢
          linarith
        · exact hd x hx
      · simp only [List.map_cons, List.sum_cons]
        rw [← hs]
        abel
    · obtain ⟨d, hd, hs⟩ := ih e (fun x hx => hl x (List.mem_cons_of_mem _ hx))
      refine ⟨d, hd, ?_⟩
      simp only [List.map_cons, List.sum_cons]
      rw [← hs]
      abel

theorem splitComponent_sum (hc : Cons k μ) {o : Options} {n : Nat} {l out : List S} {e : Nat}
    (hl : ∀ x ∈ l, I x ∨ ∃ s ts tol ps, k.slice s ts tol = some ps ∧ x ∈ ps) (h : splitComponent k o n l = .ok (out, e)) :
    ∃ d : List S, (∀ x ∈ d, Small k I x) ∧ (out.map μ).sum + (d.map μ).sum = (l.map μ).sum := by
  unfold splitComponent at h
  split at h
  · cases h
  · next split0 err0 h0 =>
    split at h
    · cases h
    · next split1 err1 h1 =>
      split at h
      · cases h
      · next split err2 h2 =>
        dsimp only at h
        have s0 := splitPlanes_sum hc h0
        have hq : Pieces k (fun x => I x ∨ ∃ s ts tol ps, k.slice s ts tol = some ps ∧ x ∈ ps) :=
          fun s ts tol ps hs p hp => Or.inr ⟨s, ts, tol, ps, hs, hp⟩
        have m0 := splitPlanes_mem hq hl h0
        have m1 := kindsLoop_mem hq m0 h1
        have m2 := cutLoop_mem (split2ndOPlane_keeps hq o) m1 (by simp) h2
        obtain ⟨d1, hd1, s1⟩ := kindsLoop_sum (I := I) hc h1
        obtain ⟨d2, hd2, s2⟩ := cutLoop_sum (split2ndOPlane_lossy (I := I) hc o) h2
        obtain ⟨d3, hd3, s3⟩ := keepPieces_sum (k := k) (μ := μ) (I := I) split (err0 + err1 + err2) m2
        have hout : out = (keepPieces k split (err0 + err1 + err2)).1 := by
          split at h
          · cases h
          · split at h
            · cases h; rfl
            · cases hx : keepPieces k split (err0 + err1 + err2) with
              | mk a b =>
                rw [hx] at h
                cases h
                rfl
        refine ⟨d1 ++ d2 ++ d3, fun x hx => ?_, ?_⟩
        · rcases List.mem_append.mp hx with hx | hx
          · rcases List.mem_append.mp hx with hx | hx
            · exact hd1 x hx
            · exact hd2 x hx
          · exact hd3 x hx
        · rw [hout]
          simp only [List.map_append, List.sum_append, List.map_nil, List.sum_nil, zero_add] at s2 ⊢
          rw [← s0, ← s1, ← s2, ← s3]
          abel

theorem solidLoop_sum (hc : Cons k μ) {o : Options} {n : Nat} : ∀ {l parts : List S} {e : Option Nat} {out : List S} {e' : Nat},
    (∀ x ∈ l, I x) → solidLoop k o n l parts e = .ok (out, e') → ∃ d : List S, (∀ x ∈ d, Small k I x) ∧
      (out.map μ).sum + (d.map μ).sum = (parts.map μ).sum + (l.map μ).sum := by
  intro l
  induction l with
  | nil =>
    intro parts e out e' _ h
    cases e with
    | none => cases h
    | some e => cases h; exact ⟨[], by simp, by simp⟩
  | cons s ss ih =>
    intro parts e out e' hI h
    rw [solidLoop] at h
    split at h
    · cases h
    · next explode h0 =>
      split at h
      · cases h
      · next piece err h1 =>
        have s0 := splitFullCylinder_sum hc h0
        have hq : Pieces k (fun x => I x ∨ ∃ s ts tol ps, k.slice s ts tol = some ps ∧ x ∈ ps) :=
          fun s ts tol ps hs p hp => Or.inr ⟨s, ts, tol, ps, hs, hp⟩
        have m0 := splitFullCylinder_mem hq (Or.inl (hI s List.mem_cons_self)) h0
        obtain ⟨d1, hd1, s1⟩ := splitComponent_sum (I := I) hc m0 h1
        obtain ⟨d2, hd2, s2⟩ := ih (fun x hx => hI x (List.mem_cons_of_mem _ hx)) h
        refine ⟨d1 ++ d2, fun x hx => ?_, ?_⟩
        · rcases List.mem_append.mp hx with hx | hx
          · exact hd1 x hx
          · exact hd2 x hx
        · simp only [List.map_append, List.sum_append, List.map_cons, List.sum_cons] at s2 ⊢
          rw [← s0, ← s1]
          calc _ = (out.map μ).sum + (d2.map μ).sum + (d1.map μ).sum := by abel
            _ = _ := by rw [s2]; abel

end Cons

end Geouned.Decom
