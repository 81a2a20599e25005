import Verif.Poly.Lemmas2
/-! Lemmas about `change_surf` -/
namespace Geouned.Poly
open Geouned Geouned.Text

/-- value of what is put in place of a surface -/
def New.sem (σ : Side) : New → Bool
  | .bool b => b
  | .seq s => s.sem σ

/-- surfaces written in what is put in place -/
def New.Has (n : Int) : New → Prop
  | .bool _ => False
  | .seq s => Poly.Has n s

/-- a sequence without booleans, or a boolean -/
def New.Fine : New → Prop
  | .bool _ => True
  | .seq s => s.NoBool ∧ ∀ n, s ≠ .int n

def semR (op : Op) (σ : Side) : Bool ⊕ Part → Bool
  | .inl b => b
  | .inr p => semX op σ p.1

theorem orTest (op : Op) (b : Bool) : (b = (op == .or)) ↔ b = !op.neutral := by cases op <;> cases b <;> decide

theorem semR_cons (op : Op) (σ : Side) (x : Bool ⊕ Seq) (c : Bool) (r : Bool ⊕ Part) (h : ∀ b, r = .inl b → b = !op.neutral) :
    semR op σ (Part.cons x c r) = op.app (xsem σ x) (semR op σ r) := by
  cases r with
  | inl b =>
    rw [h b rfl]
    simp only [Part.cons, semR]
    rw [RBool.app_stop']
  | inr p => simp only [Part.cons, semR, semX_cons]

theorem app_mono {op : Op} {a b a' b' : Bool} (h1 : a = true → a' = true) (h2 : b = true → b' = true) (h : op.app a b = true) :
    op.app a' b' = true := by
  cases op <;> cases a <;> cases b <;> simp_all [Op.app]

/-- facts about the result of the loop -/
structure LoopFacts (σ : Side) (old : Int) (new : New) (op : Op) (es : List Seq) (r : Bool ⊕ Part) : Prop where
  up : (new = .bool false → ¬ HasL old es) → (HasL old es → lit σ old = true → new.sem σ = true) → semL op σ es = true → semR op σ r = true
  down : (new = .bool true → ¬ HasL old es) → (HasL old es → new.sem σ = true → lit σ old = true) → semR op σ r = true → semL op σ es = true
  stop : ∀ b, r = .inl b → b = !op.neutral
  raw : ∀ p, r = .inr p → ∀ b, .inl b ∈ p.1 → new = .bool b ∧ HasL old es
  flag : ∀ p, r = .inr p → p.2 = false → ∀ x ∈ p.1, ∃ e, x = .inr e ∧ e.NoBool
  has : ∀ p, r = .inr p → ∀ e, .inr e ∈ p.1 → ∀ n, Has n e → (HasL n es ∧ n ≠ old) ∨ new.Has n
  keep : ∀ s, new = .seq s → ∃ xs, r = .inr (xs, false)

/-- facts about the result of `change_surf` -/
structure Facts (σ : Side) (old : Int) (new : New) (s s' : Seq) : Prop where
  up : (new = .bool false → ¬ Has old s) → (Has old s → lit σ old = true → new.sem σ = true) → s.sem σ = true → s'.sem σ = true
  down : (new = .bool true → ¬ Has old s) → (Has old s → new.sem σ = true → lit σ old = true) → s'.sem σ = true → s.sem σ = true
  clean : Clean s'
  has : ∀ n, Has n s' → (Has n s ∧ n ≠ old) ∨ new.Has n
  seq : ∀ n, s' ≠ .int n
  keep : ∀ q, new = .seq q → s'.NoBool

theorem seqs_sem (op : Op) (σ : Side) : ∀ xs : List (Bool ⊕ Seq), (∀ x ∈ xs, ∃ e, x = .inr e ∧ e.NoBool) → semL op σ (seqs xs) = semX op σ xs
  | [], _ => by simp [seqs, semL]
  | x :: xs, h => by
    obtain ⟨e, rfl, -⟩ := h x (by simp)
    rw [semX_cons]
    simp only [seqs, semL_cons]
    rw [seqs_sem op σ xs fun y hy => h y (by simp [hy])]
    rfl

theorem mem_seqs {e : Seq} : ∀ {xs : List (Bool ⊕ Seq)}, e ∈ seqs xs → .inr e ∈ xs
  | [], h => by simp [seqs] at h
  | .inl b :: xs, h => by simp only [seqs] at h; exact List.mem_cons_of_mem _ (mem_seqs h)
  | .inr y :: xs, h => by
    simp only [seqs] at h
    rcases List.mem_cons.1 h with h | h
    · subst h; simp
    · exact List.mem_cons_of_mem _ (mem_seqs h)

theorem chgEnd_facts {σ : Side} {old : Int} {new : New} {op : Op} {l : Int} {es : List Seq} {r : Bool ⊕ Part} (h : LoopFacts σ old new op es r) :
    Facts σ old new (.lst op l es) (chgEnd op l r) := by
  have hs : (Seq.lst op l es).sem σ = semL op σ es := by simp
  have hh : ∀ n, Has n (.lst op l es) ↔ HasL n es := fun n => by simp [Has]
  cases r with
  | inl b =>
    exact ⟨fun h1 h2 h3 => h.up (fun e g => h1 e ((hh _).2 g)) (fun g => h2 ((hh _).2 g)) (hs ▸ h3), fun h1 h2 h3 => hs ▸ h.down (fun e g => h1 e ((hh _).2 g)) (fun g => h2 ((hh _).2 g)) h3,
      .inl ⟨_, _, _, rfl⟩, fun n hn => by simp [chgEnd, Has] at hn, fun n => by simp [chgEnd],
      fun q hq => by obtain ⟨xs, h1⟩ := h.keep q hq; cases h1⟩
  | inr p =>
    obtain ⟨xs, c⟩ := p
    cases c with
    | true =>
      have hraw := h.raw _ rfl
      obtain ⟨k1, k2, k3⟩ := cleanTop_shape (op := op) (l := l) (xs := xs) (h.has _ rfl)
      refine ⟨fun h1 h2 h3 => ?_, fun h1 h2 h3 => ?_, k1, fun n hn => ?_, k3, fun q hq => by obtain ⟨xs, h1⟩ := h.keep q hq; cases h1⟩
      · refine cleanTop_up (fun b hb => ?_) (h.up (fun e g => h1 e ((hh _).2 g)) (fun g => h2 ((hh _).2 g)) (hs ▸ h3))
        have := hraw b hb
        cases b with
        | true => rfl
        | false => exact absurd ((hh _).2 this.2) (h1 this.1)
      · rw [hs]; refine h.down (fun e g => h1 e ((hh _).2 g)) (fun g => h2 ((hh _).2 g)) (cleanTop_down (l := l) (fun b hb => ?_) h3)
        have := hraw b hb
        cases b with
        | false => rfl
        | true => exact absurd ((hh _).2 this.2) (h1 this.1)
      · rw [hh]; exact k2 n hn
    | false =>
      have hf := h.flag _ rfl rfl
      have e1 : (chgEnd op l (.inr (xs, false))).sem σ = semX op σ xs := by rw [← seqs_sem op σ xs hf]; simp [chgEnd]
      have hnb : (chgEnd op l (.inr (xs, false))).NoBool := by
        refine (noBool_lst _ _ _).2 fun e he => ?_
        obtain ⟨e', h1, h2⟩ := hf _ (mem_seqs he)
        cases h1; exact h2
      refine ⟨fun h1 h2 h3 => ?_, fun h1 h2 h3 => ?_, .inr hnb, fun n hn => ?_, fun n => by simp [chgEnd], fun _ _ => hnb⟩
      · rw [e1]; exact h.up (fun e g => h1 e ((hh _).2 g)) (fun g => h2 ((hh _).2 g)) (hs ▸ h3)
      · rw [e1] at h3; rw [hs]; exact h.down (fun e g => h1 e ((hh _).2 g)) (fun g => h2 ((hh _).2 g)) h3
      · obtain ⟨e, he, h1⟩ := (has_lst _ _ _ _).1 hn
        rw [hh]; exact h.has _ rfl e (mem_seqs he) n h1

/-- one step of the loop that keeps going -/
theorem step_facts {σ : Side} {old : Int} {new : New} {op : Op} {e : Seq} {es : List Seq} {r : Bool ⊕ Part} (h : LoopFacts σ old new op es r)
    (x : Bool ⊕ Seq) (c : Bool)
    (hup : (new = .bool false → ¬ Has old e) → (Has old e → lit σ old = true → new.sem σ = true) → e.sem σ = true → xsem σ x = true)
    (hdown : (new = .bool true → ¬ Has old e) → (Has old e → new.sem σ = true → lit σ old = true) → xsem σ x = true → e.sem σ = true)
    (hraw : ∀ b, x = .inl b → new = .bool b ∧ Has old e) (hflag : c = false → ∃ y, x = .inr y ∧ y.NoBool)
    (hhas : ∀ y, x = .inr y → ∀ n, Has n y → (Has n e ∧ n ≠ old) ∨ new.Has n) (hkeep : ∀ s, new = .seq s → c = false) :
    LoopFacts σ old new op (e :: es) (Part.cons x c r) := by
  refine ⟨fun h1 h2 h3 => ?_, fun h1 h2 h3 => ?_, fun b hb => ?_, fun p hp b hb => ?_, fun p hp hc y hy => ?_, fun p hp y hy n hn => ?_,
    fun s hs => by obtain ⟨xs, h1⟩ := h.keep s hs; rw [h1, hkeep s hs]; exact ⟨_, rfl⟩⟩
  · rw [semR_cons _ _ _ _ _ h.stop]
    exact app_mono (hup (fun e g => h1 e (.inl g)) fun g => h2 (.inl g)) (h.up (fun e g => h1 e (.inr g)) fun g => h2 (.inr g)) h3
  · rw [semR_cons _ _ _ _ _ h.stop] at h3
    exact app_mono (hdown (fun e g => h1 e (.inl g)) fun g => h2 (.inl g)) (h.down (fun e g => h1 e (.inr g)) fun g => h2 (.inr g)) h3
  · cases r with
    | inl b' => simp only [Part.cons] at hb; cases hb; exact h.stop b rfl
    | inr p => simp [Part.cons] at hb
  · cases r with
    | inl b' => simp [Part.cons] at hp
    | inr q =>
      simp only [Part.cons] at hp
      cases hp
      rcases List.mem_cons.1 hb with hb | hb
      · exact ⟨(hraw b hb.symm).1, .inl (hraw b hb.symm).2⟩
      · exact ⟨(h.raw q rfl b hb).1, .inr (h.raw q rfl b hb).2⟩
  · cases r with
    | inl b' => simp [Part.cons] at hp
    | inr q =>
      simp only [Part.cons] at hp
      cases hp
      simp only [Bool.or_eq_false_iff] at hc
      rcases List.mem_cons.1 hy with hy | hy
      · subst hy; exact hflag hc.1
      · exact h.flag q rfl hc.2 y hy
  · cases r with
    | inl b' => simp [Part.cons] at hp
    | inr q =>
      simp only [Part.cons] at hp
      cases hp
      simp only [HasL]
      rcases List.mem_cons.1 hy with hy | hy
      · rcases hhas y hy.symm n hn with g | g
        · exact .inl ⟨.inl g.1, g.2⟩
        · exact .inr g
      · rcases h.has q rfl y hy n hn with g | g
        · exact .inl ⟨.inr g.1, g.2⟩
        · exact .inr g

/-- one step that decides the whole sequence -/
theorem stop_facts {σ : Side} {old : Int} {new : New} {op : Op} {e : Seq} {es : List Seq} (b : Bool) (hb : b = !op.neutral)
    (hup : (new = .bool false → ¬ Has old e) → (Has old e → lit σ old = true → new.sem σ = true) → e.sem σ = true → b = true)
    (hdown : (new = .bool true → ¬ Has old e) → (Has old e → new.sem σ = true → lit σ old = true) → b = true → e.sem σ = true) (hkeep : ∀ s, new ≠ .seq s) :
    LoopFacts σ old new op (e :: es) (.inl b) := by
  refine ⟨fun h1 h2 h3 => ?_, fun h1 h2 h3 => ?_, fun c hc => by cases hc; exact hb, fun p hp => (nomatch hp), fun p hp => (nomatch hp), fun p hp => (nomatch hp),
    fun s hs => absurd hs (hkeep s)⟩
  · have : op.app b (semL op σ es) = true := app_mono (hup (fun e g => h1 e (.inl g)) fun g => h2 (.inl g)) id h3
    rw [hb, RBool.app_stop] at this
    rw [← hb] at this
    exact this
  · have h4 : op.app b (semL op σ es) = true := by rw [hb, RBool.app_stop, ← hb]; exact h3
    exact app_mono (hdown (fun e g => h1 e (.inl g)) fun g => h2 (.inl g)) id h4

mutual
theorem chg_facts (σ : Side) (old : Int) (new : New) (hnew : new.Fine) : ∀ (s : Seq), s.NoBool → (∀ n, s ≠ .int n) → Facts σ old new s (chg old new s)
  | .int n, _, h => absurd rfl (h n)
  | .boo _ _ _, h, _ => by simp [Seq.NoBool] at h
  | .lst op l es, h, _ => by
    rw [chg]
    exact chgEnd_facts (chgL_facts σ old new hnew op es ((noBool_lst op l es).1 h))
theorem chgL_facts (σ : Side) (old : Int) (new : New) (hnew : new.Fine) (op : Op) : ∀ (es : List Seq), (∀ e ∈ es, e.NoBool) →
    LoopFacts σ old new op es (chgL old new op es)
  | [], _ => by
    rw [chgL]
    exact ⟨fun _ _ h => by simpa [semR] using h, fun _ _ h => by simpa [semR] using h, fun b hb => (nomatch hb), fun p hp b hb => by cases hp; simp at hb,
      fun p hp _ x hx => by cases hp; simp at hx, fun p hp e he => by cases hp; simp at he, fun _ _ => ⟨[], rfl⟩⟩
  | .int n :: es, h => by
    have ih := chgL_facts σ old new hnew op es fun e he => h e (by simp [he])
    by_cases hn : n = old
    · subst hn
      cases new with
      | bool b =>
        simp only [chgL, if_true]
        split
        · next hb =>
          exact stop_facts b ((orTest op b).1 hb) (fun h1 _ _ => by cases b with | true => rfl | false => exact absurd rfl (h1 rfl))
            (fun h1 _ hb => by subst hb; exact absurd rfl (h1 rfl)) (fun _ => by simp)
        · exact step_facts ih (.inl b) true (fun h1 _ _ => by cases b with | true => rfl | false => exact absurd rfl (h1 rfl))
            (fun h1 _ hb => by cases b with | true => exact absurd rfl (h1 rfl) | false => simp [xsem] at hb)
            (fun c hc => by cases hc; exact ⟨rfl, rfl⟩) (by simp) (fun y hy => (nomatch hy)) (fun _ h => (nomatch h))
      | seq s =>
        simp only [chgL, if_true]
        exact step_facts ih (.inr s) false (fun _ h2 h3 => h2 rfl h3) (fun _ h2 h3 => h2 rfl h3) (fun c hc => (nomatch hc)) (fun _ => ⟨s, rfl, hnew.1⟩)
          (fun y hy m hm => by cases hy; exact .inr hm) (fun _ _ => rfl)
    · have e : chgL old new op (.int n :: es) = Part.cons (.inr (.int n)) false (chgL old new op es) := by
        cases new <;> simp only [chgL, if_neg hn]
      rw [e]
      refine step_facts ih (.inr (.int n)) false (fun _ _ h3 => h3) (fun _ _ h3 => h3) (fun c hc => (nomatch hc)) (fun _ => ⟨_, rfl, by simp [Seq.NoBool]⟩)
        (fun y hy m hm => ?_) (fun _ _ => rfl)
      cases hy
      exact .inl ⟨hm, by simp only [Has] at hm; omega⟩
  | .boo o l b :: es, h => by
    have := h (.boo o l b) (by simp)
    simp [Seq.NoBool] at this
  | .lst o l xs :: es, h => by
    have ih := chgL_facts σ old new hnew op es fun e he => h e (by simp [he])
    have hx : (Seq.lst o l xs).NoBool := h _ (by simp)
    have ihx := chgEnd_facts (l := l) (chgL_facts σ old new hnew o xs ((noBool_lst o l xs).1 hx))
    rw [← chg] at ihx
    rw [chgL]
    · split
      · cases hc : chg old new (.lst o l xs) with
        | int n => exact absurd hc (ihx.seq n)
        | boo o' l' b =>
          rw [hc] at ihx
          dsimp only
          split
          · next hb =>
            exact stop_facts b ((orTest op b).1 hb) (fun h1 h2 h3 => ihx.up h1 h2 h3) (fun h1 h2 h3 => ihx.down h1 h2 h3)
              (fun s hs => by have := ihx.keep s hs; simp [Seq.NoBool] at this)
          · exact step_facts ih (.inr (.boo o' l' b)) true (fun h1 h2 h3 => ihx.up h1 h2 h3) (fun h1 h2 h3 => ihx.down h1 h2 h3)
              (fun c hc => (nomatch hc)) (by simp) (fun y hy m hm => by cases hy; exact ihx.has m hm)
              (fun s hs => by have := ihx.keep s hs; simp [Seq.NoBool] at this)
        | lst o' l' ys =>
          rw [hc] at ihx
          dsimp only
          refine step_facts ih (.inr (.lst o' l' ys)) false (fun h1 h2 h3 => ihx.up h1 h2 h3) (fun h1 h2 h3 => ihx.down h1 h2 h3)
              (fun c hc => (nomatch hc)) (fun _ => ⟨_, rfl, ?_⟩) (fun y hy m hm => by cases hy; exact ihx.has m hm) (fun _ _ => rfl)
          rcases ihx.clean with ⟨_, _, _, h1⟩ | h1
          · cases h1
          · exact h1
      · next hs =>
        refine step_facts ih (.inr (.lst o l xs)) false (fun _ _ h3 => h3) (fun _ _ h3 => h3) (fun c hc => (nomatch hc)) (fun _ => ⟨_, rfl, hx⟩)
          (fun y hy m hm => ?_) (fun _ _ => rfl)
        cases hy
        refine .inl ⟨hm, ?_⟩
        rintro rfl
        exact hs ((mem_surfaces _ _).2 (has_occurs hm))
    · intro n; simp
end

end Geouned.Poly
