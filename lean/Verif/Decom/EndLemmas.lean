import Verif.Decom.Lemmas
/-!
# Lemmas on the end of the loops of the decomposition
-/
namespace Geouned.Decom

open Planes

variable {S T α β : Type}

/-- `p` is a piece of a proper cut of `s` -/
def PieceOf (k : Cad S T) (p s : S) : Prop := ∃ ts tol ps, k.slice s ts tol = some ps ∧ 1 < ps.length ∧ p ∈ ps

/-- with enough rounds the outcome is always the same, and is not that the loop has not ended -/
def Stable (f : Nat → Except Exc α) : Prop := ∃ n₀ r, r ≠ .error .endless ∧ ∀ n ≥ n₀, f n = r

theorem Stable.const {r : Except Exc α} (h : r ≠ .error .endless) : Stable (fun _ => r) := ⟨0, r, h, fun _ _ => rfl⟩

/-- one computation after another -/
def andThen (x : Except Exc α) (g : α → Except Exc β) : Except Exc β :=
  match x with
  | .error x => .error x
  | .ok a => g a

theorem Stable.bind {f : Nat → Except Exc α} {g : Nat → α → Except Exc β} (hf : Stable f) (hg : ∀ a, (∃ n, f n = .ok a) → Stable (fun n => g n a)) :
    Stable (fun n => andThen (f n) (g n)) := by
  obtain ⟨n1, r, hr, h1⟩ := hf
  cases r with
  | error x =>
    refine ⟨n1, .error x, fun h => hr (by cases h; rfl), fun n hn => ?_⟩
    dsimp only
    rw [h1 n hn]
    rfl
  | ok a =>
    obtain ⟨n2, r2, hr2, h2⟩ := hg a ⟨n1, h1 n1 (le_refl _)⟩
    refine ⟨max n1 n2, r2, hr2, fun n hn => ?_⟩
    dsimp only
    rw [h1 n (le_trans (le_max_left _ _) hn)]
    exact h2 n (le_trans (le_max_right _ _) hn)

theorem Stable.congr {f g : Nat → Except Exc α} (hf : Stable f) (h : ∀ n, g n = f n) : Stable g := by
  have : g = f := funext h
  rw [this]
  exact hf

/-- at most `n` rounds of cuts -/
def Ends (child : S → List S) : Nat → S → Prop
  | 0, _ => False
  | n + 1, s => ∀ c ∈ child s, Ends child n c

theorem Ends.mono {child : S → List S} : ∀ {n m : Nat} {s : S}, Ends child n s → n ≤ m → Ends child m s := by
  intro n
  induction n with
  | zero => intro m s h; cases h
  | succ n ih =>
    intro m s h hm
    obtain ⟨m', rfl⟩ : ∃ m', m = m' + 1 := ⟨m - 1, by omega⟩
    intro c hc
    exact ih (h c hc) (by omega)

theorem ends_list {child : S → List S} (l : List S) (h : ∀ s ∈ l, ∃ n, Ends child n s) : ∃ n, ∀ s ∈ l, Ends child n s := by
  induction l with
  | nil => exact ⟨0, by simp⟩
  | cons a l ih =>
    obtain ⟨n1, h1⟩ := h a List.mem_cons_self
    obtain ⟨n2, h2⟩ := ih (fun s hs => h s (List.mem_cons_of_mem _ hs))
    refine ⟨max n1 n2, fun s hs => ?_⟩
    rcases List.mem_cons.mp hs with rfl | hs
    · exact h1.mono (le_max_left _ _)
    · exact (h2 s hs).mono (le_max_right _ _)

/-- a well-founded cut ends -/
theorem ends_of_wf {R : S → S → Prop} (hw : WellFounded R) {child : S → List S} (hc : ∀ s, ∀ c ∈ child s, R c s) (s : S) : ∃ n, Ends child n s := by
  induction s using hw.induction with
  | _ s ih =>
    obtain ⟨n, hn⟩ := ends_list (child s) (fun c hcs => ih c (hc s c hcs))
    exact ⟨n + 1, hn⟩

/-- what a cut passes on to the next round -/
def childOf (cut : S → Except Exc (List S × Nat)) (s : S) : List S :=
  match cut s with
  | .ok (cs, _) => if cs.length = 1 then [] else cs
  | .error _ => []

theorem cutRound_child {cut : S → Except Exc (List S × Nat)} {P : S → Prop} : ∀ {bs done new : List S} {e : Nat} {done' new' : List S} {e' : Nat},
    (∀ p ∈ new, P p) → (∀ b ∈ bs, ∀ p ∈ childOf cut b, P p) → cutRound cut bs done new e = .ok (done', new', e') → ∀ p ∈ new', P p := by
  intro bs
  induction bs with
  | nil => intro done new e done' new' e' h _ hr; cases hr; exact h
  | cons b bs ih =>
    intro done new e done' new' e' h h2 hr
    rw [cutRound] at hr
    split at hr
    · cases hr
    · next cs e2 hb =>
      have h2' : ∀ b ∈ bs, ∀ p ∈ childOf cut b, P p := fun b hb => h2 b (List.mem_cons_of_mem _ hb)
      split at hr
      · exact ih h h2' hr
      · next hl =>
        refine ih (fun p hp => ?_) h2' hr
        rcases List.mem_append.mp hp with hp | hp
        · exact h p hp
        · refine h2 b List.mem_cons_self p ?_
          unfold childOf
          rw [hb]
          dsimp only
          rw [if_neg hl]
          exact hp

theorem cutRound_not_endless {cut : S → Except Exc (List S × Nat)} (hc : ∀ s, cut s ≠ .error .endless) : ∀ {bs done new : List S} {e : Nat},
    cutRound cut bs done new e ≠ .error .endless := by
  intro bs
  induction bs with
  | nil => intro done new e h; cases h
  | cons b bs ih =>
    intro done new e h
    rw [cutRound] at h
    split at h
    · next x hb =>
      cases h
      exact hc b hb
    · split at h
      · exact ih h
      · exact ih h

theorem cutLoop_ends {cut : S → Except Exc (List S × Nat)} (hc : ∀ s, cut s ≠ .error .endless) : ∀ {n : Nat} {bs done : List S} {e : Nat},
    (∀ b ∈ bs, Ends (childOf cut) n b) → ∃ r, r ≠ .error .endless ∧ ∀ m, cutLoop cut (n + 1 + m) bs done e = r := by
  intro n
  induction n with
  | zero =>
    intro bs done e h
    have : bs = [] := List.eq_nil_iff_forall_not_mem.mpr h
    subst this
    exact ⟨.ok (done, e), (fun h => by cases h), fun m => by rw [show 0 + 1 + m = m + 1 by omega]; rfl⟩
  | succ n ih =>
    intro bs done e h
    cases hr : cutRound cut bs done [] e with
    | error x =>
      refine ⟨.error x, fun h => ?_, fun m => ?_⟩
      · cases h
        exact cutRound_not_endless hc hr
      · rw [show n + 1 + 1 + m = (n + 1 + m) + 1 by omega, cutLoop, hr]
    | ok v =>
      obtain ⟨done', new, e'⟩ := v
      have hn : ∀ p ∈ new, Ends (childOf cut) n p := cutRound_child (by simp) (fun b hb => h b hb) hr
      obtain ⟨r, hne, hr2⟩ := ih (done := done') (e := e') hn
      by_cases hl : new.length = 0
      · refine ⟨.ok (done', e'), (fun h => by cases h), fun m => ?_⟩
        rw [show n + 1 + 1 + m = (n + 1 + m) + 1 by omega, cutLoop, hr]
        dsimp only
        rw [if_pos hl]
      · refine ⟨r, hne, fun m => ?_⟩
        rw [show n + 1 + 1 + m = (n + 1 + m) + 1 by omega, cutLoop, hr]
        dsimp only
        rw [if_neg hl, hr2]

/-- the `while True` loop ends if what is cut cannot be cut for ever -/
theorem cutLoop_stable {R : S → S → Prop} (hw : WellFounded R) {cut : S → Except Exc (List S × Nat)} (hc : ∀ s, cut s ≠ .error .endless)
    (hR : ∀ s, ∀ c ∈ childOf cut s, R c s) (bs done : List S) (e : Nat) : Stable (fun n => cutLoop cut n bs done e) := by
  obtain ⟨n, hn⟩ := ends_list bs (fun s _ => ends_of_wf hw hR s)
  obtain ⟨r, hne, hr⟩ := cutLoop_ends hc (done := done) (e := e) hn
  refine ⟨n + 1, r, hne, fun m hm => ?_⟩
  obtain ⟨j, rfl⟩ : ∃ j, m = n + 1 + j := ⟨m - (n + 1), by omega⟩
  exact hr j

variable {k : Cad S T} {o : Options}

theorem cutOrKeep_piece {s : S} {ts : List T} (h : 1 < (cutOrKeep k o s ts).length) : ∀ p ∈ cutOrKeep k o s ts, PieceOf k p s := by
  unfold cutOrKeep at h ⊢
  split at h
  · next c hc =>
    intro p hp
    obtain ⟨tol, h2⟩ := cutBy_ok hc
    exact ⟨_, _, _, h2, h, hp⟩
  · simp at h

theorem cylLoop_piece {s : S} : ∀ {gs : List (List T)} {out : List S}, cylLoop k o s gs = some out → ∀ p ∈ out, PieceOf k p s := by
  intro gs
  induction gs with
  | nil => intro out h; cases h
  | cons g gs ih =>
    intro out h
    rw [cylLoop] at h
    split at h
    · next hl =>
      cases h
      exact cutOrKeep_piece hl
    · exact ih h

theorem cutFullCylinder_piece {s : S} : (cutFullCylinder k o s).length = 1 ∨ ∀ p ∈ cutFullCylinder k o s, PieceOf k p s := by
  unfold cutFullCylinder
  dsimp only
  split
  · exact Or.inl rfl
  · split
    · next h => exact Or.inr (cylLoop_piece h)
    · split
      · next hl => exact Or.inr (cutOrKeep_piece hl)
      · exact Or.inl rfl

theorem splitFullCylinder_stable (hw : WellFounded (PieceOf k)) (s : S) : Stable (fun n => splitFullCylinder k o n s) := by
  have h := cutLoop_stable hw (cut := fun b => Except.ok (cutFullCylinder k o b, 0)) (fun s h => by cases h) (by
    intro s c hc
    unfold childOf at hc
    dsimp only at hc
    split at hc
    · cases hc
    · next hl =>
      rcases cutFullCylinder_piece (k := k) (o := o) (s := s) with h | h
      · exact absurd h hl
      · exact h c hc) [s] [] 0
  refine (h.bind (g := fun _ a => Except.ok a.1) (fun a _ => Stable.const (fun h => by cases h))).congr fun n => ?_
  unfold splitFullCylinder
  split <;> next h => rw [h]; rfl

theorem planeLoop_piece {s : S} : ∀ {gs : List (List T)} {out : List S}, planeLoop k o s gs = .ok out →
    out.length = 1 ∨ ∀ p ∈ out, PieceOf k p s := by
  intro gs
  induction gs with
  | nil => intro out h; cases h; exact Or.inl rfl
  | cons g gs ih =>
    intro out h
    rw [planeLoop] at h
    split at h
    · cases h
    · next c hb =>
      split at h
      · next hl =>
        cases h
        obtain ⟨tol, h2⟩ := cutBy_ok hb
        exact Or.inr fun p hp => ⟨_, _, _, h2, hl, hp⟩
      · exact ih h

theorem planeLoop_not_endless {s : S} : ∀ {gs : List (List T)}, planeLoop k o s gs ≠ .error .endless := by
  intro gs
  induction gs with
  | nil => intro h; cases h
  | cons g gs ih =>
    intro h
    rw [planeLoop] at h
    split at h
    · next x hb =>
      cases h
      exact bop_not_endless hb
    · split at h
      · cases h
      · exact ih h

theorem splitPPlanes_not_endless {s : S} : splitPPlanes k o s ≠ .error .endless := by
  unfold splitPPlanes
  dsimp only
  split
  · intro h; cases h
  · exact planeLoop_not_endless

theorem splitPPlanes_piece {s : S} {out : List S} (h : splitPPlanes k o s = .ok out) : out.length = 1 ∨ ∀ p ∈ out, PieceOf k p s := by
  unfold splitPPlanes at h
  dsimp only at h
  split at h
  · cases h; exact Or.inl rfl
  · exact planeLoop_piece h

theorem splitPlanes_stable (hw : WellFounded (PieceOf k)) (l : List S) : Stable (fun n => splitPlanes k o n l) := by
  have h := cutLoop_stable hw (cut := planeCut k o) (by
      intro s h
      unfold planeCut at h
      split at h
      · next x hx =>
        cases h
        exact splitPPlanes_not_endless hx
      · cases h) (by
    intro s c hc
    unfold childOf at hc
    split at hc
    · next cs e hcut =>
      unfold planeCut at hcut
      split at hcut
      · cases hcut
      · next c' hp =>
        cases hcut
        split at hc
        · cases hc
        · next hl =>
          rcases splitPPlanes_piece hp with h | h
          · exact absurd h hl
          · exact h c hc
    · cases hc) l [] 0
  refine (h.bind (g := fun _ a => Except.ok (a.1, 0)) (fun a _ => Stable.const (fun h => by cases h))).congr fun n => ?_
  unfold splitPlanes
  split <;> next h => rw [h]; rfl

theorem secondTry_piece {s : S} : ∀ {ts : List T} {e : Nat} {ps : List S} {e' : Nat},
    secondTry k o s ts e = (some ps, e') → ∀ p ∈ ps, PieceOf k p s := by
  intro ts
  induction ts with
  | nil => intro e ps e' h; cases h
  | cons t ts ih =>
    intro e ps e' h
    rw [secondTry] at h
    split at h
    · exact ih h
    · next c hb =>
      split at h
      · exact ih h
      · dsimp only at h
        split at h
        · next hl =>
          cases h
          obtain ⟨tol, h2⟩ := cutBy_ok hb
          intro p hp
          exact ⟨_, _, _, h2, lt_of_lt_of_le hl.1 (List.length_filter_le _ _), (List.mem_filter.mp hp).1⟩
        · exact ih h

/-- what the loop of one kind passes on to its next round; the outcome does not depend on the error number -/
def kindChild (k : Cad S T) (o : Options) (kd : Kind) (s : S) : List S :=
  if (k.second kd s).length = 0 then [] else
    match (secondTry k o s (k.second kd s) 0).1 with
    | some ps => ps
    | none => []

theorem secondTry_fst {s : S} : ∀ {ts : List T} {e e2 : Nat}, (secondTry k o s ts e).1 = (secondTry k o s ts e2).1 := by
  intro ts
  induction ts with
  | nil => intro e e2; rfl
  | cons t ts ih =>
    intro e e2
    rw [secondTry, secondTry]
    split
    · exact ih
    · split
      · exact ih
      · dsimp only
        split
        · rfl
        · exact ih

theorem kindRound_child {kd : Kind} {P : S → Prop} : ∀ {ss kb cb : List S} {e : Nat} {kb' cb' : List S} {e' : Nat},
    (∀ p ∈ cb, P p) → (∀ b ∈ ss, ∀ p ∈ kindChild k o kd b, P p) → kindRound k o kd ss kb cb e = (kb', cb', e') → ∀ p ∈ cb', P p := by
  intro ss
  induction ss with
  | nil => intro kb cb e kb' cb' e' h _ hr; cases hr; exact h
  | cons s ss ih =>
    intro kb cb e kb' cb' e' h h2 hr
    have h2' : ∀ b ∈ ss, ∀ p ∈ kindChild k o kd b, P p := fun b hb => h2 b (List.mem_cons_of_mem _ hb)
    rw [kindRound] at hr
    split at hr
    · exact ih h h2' hr
    · next hz =>
      split at hr
      · next ps err' hb =>
        refine ih (fun p hp => ?_) h2' hr
        rcases List.mem_append.mp hp with hp | hp
        · exact h p hp
        · refine h2 s List.mem_cons_self p ?_
          unfold kindChild
          rw [if_neg hz, secondTry_fst (e2 := e), hb]
          exact hp
      · exact ih h h2' hr

theorem kindLoop_ends {kd : Kind} : ∀ {n : Nat} {bs kb : List S} {e : Nat},
    (∀ b ∈ bs, Ends (kindChild k o kd) n b) → ∃ r, r ≠ .error .endless ∧ ∀ m, kindLoop k o kd (n + 1 + m) bs kb e = r := by
  intro n
  induction n with
  | zero =>
    intro bs kb e h
    have : bs = [] := List.eq_nil_iff_forall_not_mem.mpr h
    subst this
    exact ⟨.ok (kb, e), (fun h => by cases h), fun m => by rw [show 0 + 1 + m = m + 1 by omega]; rfl⟩
  | succ n ih =>
    intro bs kb e h
    cases hr : kindRound k o kd bs kb [] e with
    | mk kb' v =>
      obtain ⟨cb, e'⟩ := v
      have hn : ∀ p ∈ cb, Ends (kindChild k o kd) n p := kindRound_child (by simp) (fun b hb => h b hb) hr
      obtain ⟨r, hne, hr2⟩ := ih (kb := kb') (e := e') hn
      by_cases hl : cb.length = 0
      · refine ⟨.ok (kb', e'), (fun h => by cases h), fun m => ?_⟩
        rw [show n + 1 + 1 + m = (n + 1 + m) + 1 by omega, kindLoop, hr]
        dsimp only
        rw [if_pos hl]
      · refine ⟨r, hne, fun m => ?_⟩
        rw [show n + 1 + 1 + m = (n + 1 + m) + 1 by omega, kindLoop, hr]
        dsimp only
        rw [if_neg hl, hr2]

theorem kindLoop_stable (hw : WellFounded (PieceOf k)) (kd : Kind) (bs kb : List S) (e : Nat) : Stable (fun n => kindLoop k o kd n bs kb e) := by
  have hR : ∀ s, ∀ c ∈ kindChild k o kd s, PieceOf k c s := by
    intro s c hc
    unfold kindChild at hc
    split at hc
    · cases hc
    · split at hc
      · next ps hp =>
        exact secondTry_piece (e := 0) (e' := (secondTry k o s (k.second kd s) 0).2) (Prod.ext hp rfl) c hc
      · cases hc
  obtain ⟨n, hn⟩ := ends_list bs (fun s _ => ends_of_wf hw hR s)
  obtain ⟨r, hne, hr⟩ := kindLoop_ends (kb := kb) (e := e) hn
  refine ⟨n + 1, r, hne, fun m hm => ?_⟩
  obtain ⟨j, rfl⟩ : ∃ j, m = n + 1 + j := ⟨m - (n + 1), by omega⟩
  exact hr j

theorem kindsLoop_stable (hw : WellFounded (PieceOf k)) : ∀ (kds : List Kind) (bs : List S) (e : Nat), Stable (fun n => kindsLoop k o n kds bs e) := by
  intro kds
  induction kds with
  | nil => intro bs e; exact Stable.const (fun h => by cases h)
  | cons kd kds ih =>
    intro bs e
    refine ((kindLoop_stable (o := o) hw kd bs [] e).bind (g := fun n a => kindsLoop k o n kds a.1 a.2) (fun a _ => ih a.1 a.2)).congr fun n => ?_
    rw [kindsLoop]
    split <;> next h => rw [h]; rfl

theorem auxLoop_piece {s : S} : ∀ {ps : List T} {com : List S} {e : Nat} {out : List S} {e' : Nat},
    (com.length = 1 ∨ ∀ p ∈ com, PieceOf k p s) → auxLoop k o s ps com e = .ok (out, e') → out.length = 1 ∨ ∀ p ∈ out, PieceOf k p s := by
  intro ps
  induction ps with
  | nil => intro com e out e' hi h; cases h; exact hi
  | cons p ps ih =>
    intro com e out e' _ h
    rw [auxLoop] at h
    split at h
    · cases h
    · next c hb =>
      obtain ⟨tol, h2⟩ := cutBy_ok hb
      split at h
      · exact ih (Or.inl rfl) h
      · next h0 =>
        split at h
        · next h1 =>
          have hr : ∀ p ∈ (removeSolids k c).1, PieceOf k p s := fun p hp => ⟨_, _, _, h2, h1, removeSolids_sub k c p hp⟩
          split at h
          · cases hx : removeSolids k c with
            | mk a b =>
              rw [hx] at h hr
              cases h
              exact Or.inr hr
          · exact ih (Or.inr hr) h
        · exact ih (Or.inl (by omega)) h

theorem auxLoop_not_endless {s : S} : ∀ {ps : List T} {com : List S} {e : Nat}, auxLoop k o s ps com e ≠ .error .endless := by
  intro ps
  induction ps with
  | nil => intro com e h; cases h
  | cons p ps ih =>
    intro com e h
    rw [auxLoop] at h
    split at h
    · next x hb =>
      cases h
      exact bop_not_endless hb
    · split at h
      · exact ih h
      · split at h
        · split at h
          · cases h
          · exact ih h
        · exact ih h

theorem split2ndOrderPlanes_stable (hw : WellFounded (PieceOf k)) (l : List S) : Stable (fun n => split2ndOrderPlanes k o n l) := by
  refine cutLoop_stable hw ?_ ?_ l [] 0
  · intro s h
    unfold split2ndOPlane at h
    split at h
    · cases h
    · exact auxLoop_not_endless h
  · intro s c hc
    unfold childOf at hc
    split at hc
    · next cs e hcut =>
      split at hc
      · cases hc
      · next hl =>
        unfold split2ndOPlane at hcut
        split at hcut
        · cases hcut
          exact absurd rfl hl
        · rcases auxLoop_piece (Or.inr (by simp)) hcut with h | h
          · exact absurd h hl
          · exact h c hc
    · cases hc

/-- the end of `split_component` (decom_one.py 919-938) -/
def finish (k : Cad S T) (l : List S) (kept : List S × Nat) : Except Exc (List S × Nat) :=
  if volume k l = 0 then .error .zerodiv
  else if |(volume k l - volume k kept.1) / volume k l| > 1 / 100 then .ok (kept.1, kept.2 + 4)
  else .ok kept

theorem splitComponent_stable (hw : WellFounded (PieceOf k)) (l : List S) : Stable (fun n => splitComponent k o n l) := by
  refine ((splitPlanes_stable (o := o) hw l).bind (g := fun n a => andThen (split2ndOrder k o n a.1) (fun b =>
    andThen (split2ndOrderPlanes k o n b.1) (fun c => finish k l (keepPieces k c.1 (a.2 + b.2 + c.2))))) (fun a _ => ?_)).congr fun n => ?_
  · refine Stable.bind (f := fun n => split2ndOrder k o n a.1) (g := fun n b =>
      andThen (split2ndOrderPlanes k o n b.1) (fun c => finish k l (keepPieces k c.1 (a.2 + b.2 + c.2))))
      (kindsLoop_stable (o := o) hw [.cyl, .cone, .sph, .tor] a.1 0) (fun b _ => ?_)
    refine Stable.bind (f := fun n => split2ndOrderPlanes k o n b.1) (g := fun _ c => finish k l (keepPieces k c.1 (a.2 + b.2 + c.2)))
      (split2ndOrderPlanes_stable (o := o) hw b.1) (fun c _ => Stable.const ?_)
    unfold finish
    split
    · intro h; cases h
    · split <;> intro h <;> cases h
  · unfold splitComponent finish
    split
    · next h => rw [h]; rfl
    · next h =>
      rw [h]
      split
      · next h => simp only [andThen, h]
      · next h =>
        split
        · next h2 => simp only [andThen, h, h2]
        · next h2 => simp only [andThen, h, h2]

theorem solidLoop_stable (hw : WellFounded (PieceOf k)) : ∀ (l parts : List S) (e : Option Nat), Stable (fun n => solidLoop k o n l parts e) := by
  intro l
  induction l with
  | nil =>
    intro parts e
    cases e with
    | none => exact Stable.const (r := .error .unbound) (fun h => by cases h)
    | some e => exact Stable.const (r := .ok (parts, e)) (fun h => by cases h)
  | cons s ss ih =>
    intro parts e
    refine ((splitFullCylinder_stable (o := o) hw s).bind (g := fun n a => andThen (splitComponent k o n a)
      (fun b => solidLoop k o n ss (parts ++ b.1) (some b.2))) (fun a _ => ?_)).congr fun n => ?_
    · exact Stable.bind (f := fun n => splitComponent k o n a) (g := fun n b => solidLoop k o n ss (parts ++ b.1) (some b.2))
        (splitComponent_stable (o := o) hw a) (fun b _ => ih _ _)
    · rw [solidLoop]
      split
      · next h => simp only [andThen, h]
      · next h =>
        split
        · next h2 => simp only [andThen, h, h2]
        · next h2 => simp only [andThen, h, h2]

end Geouned.Decom
