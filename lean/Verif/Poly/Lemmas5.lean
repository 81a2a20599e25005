import Verif.Poly.Lemmas4
/-! Lemmas about the sequences made of planes -/
namespace Geouned.Poly
open Geouned Geouned.Text

/-! ### texts of planes -/

theorem solid_num (n : Int) (ts : List Tok) : solid (.num n :: ts) = .num n :: solid ts := by simp [solid]

theorem text_and (σ : Side) : ∀ (ns : List Int), ns ≠ [] → (∀ n ∈ ns, n ≠ 0) → Reads σ .inter (solid (text .blank ns)) (ns.all fun n => lit σ n)
  | [], h, _ => absurd rfl h
  | [n], _, h => by
    have : solid (text .blank [n]) = [.num n] := by simp [text, join, solid]
    rw [this]
    simpa using Reads.one (Reads.num (σ := σ) n (h n (by simp)))
  | n :: m :: ns, _, h => by
    have e : solid (text .blank (n :: m :: ns)) = [.num n] ++ solid (text .blank (m :: ns)) := by
      simp [text, join, solid]
    rw [e]
    have := Reads.and (Reads.num (σ := σ) n (h n (by simp))) (text_and σ (m :: ns) (by simp) fun k hk => h k (by simp [hk]))
    simpa using this

theorem text_or (σ : Side) : ∀ (ns : List Int), ns ≠ [] → (∀ n ∈ ns, n ≠ 0) → Reads σ .union (solid (text .colon ns)) (ns.any fun n => lit σ n)
  | [], h, _ => absurd rfl h
  | [n], _, h => by
    have : solid (text .colon [n]) = [.num n] := by simp [text, join, solid]
    rw [this]
    simpa using Reads.single (Reads.one (Reads.num (σ := σ) n (h n (by simp))))
  | n :: m :: ns, _, h => by
    have e : solid (text .colon (n :: m :: ns)) = [.num n] ++ .colon :: solid (text .colon (m :: ns)) := by
      simp [text, join, solid]
    rw [e]
    have := Reads.or (Reads.one (Reads.num (σ := σ) n (h n (by simp)))) (text_or σ (m :: ns) (by simp) fun k hk => h k (by simp [hk]))
    simpa using this

theorem text_written {sep : Tok} (hsep : ∀ k, sep ≠ .num k) : ∀ {ns : List Int} {k : Int}, Tok.num k ∈ text sep ns → k ∈ ns
  | [], k, h => by simp [text, join] at h
  | [n], k, h => by simpa [text, join] using h
  | n :: m :: ns, k, h => by
    have e : text sep (n :: m :: ns) = .num n :: sep :: text sep (m :: ns) := by simp [text, join]
    rw [e] at h
    rcases List.mem_cons.1 h with h | h
    · cases h; simp
    · rcases List.mem_cons.1 h with h | h
      · exact absurd h.symm (hsep k)
      · exact List.mem_cons_of_mem _ (text_written hsep h)

/-- a sequence made of planes -/
structure Made (P : Nat → Prop) (V : Side → Prop) (q : Seq) : Prop where
  wf : q.WF
  nb : q.NoBool
  lst : IsLst q
  occ : ∀ v, q.Occurs v → P v
  sem : ∀ σ, q.sem σ = true ↔ V σ

theorem parse_and {ns : List Int} (h : ns ≠ []) (h0 : ∀ n ∈ ns, n ≠ 0) :
    ∃ q, parse (text .blank ns) = .ok q ∧ Made (fun v => ∃ n ∈ ns, n.natAbs = v) (fun σ => ∀ n ∈ ns, lit σ n = true) q := by
  have hm : ∀ σ, Means σ (text .blank ns) (ns.all fun n => lit σ n) := fun σ => .single (text_and σ ns h h0)
  obtain ⟨q, h1, h2⟩ := RBool.C113_parse (text .blank ns) ⟨_, _, hm fun _ => true⟩ _ (Nat.lt_succ_self _)
  obtain ⟨q', h1', h3, -⟩ := RBool.setDef_spec ((text .blank ns).length + 1) (text .blank ns) _ _
    (Nat.lt_of_le_of_lt (nums_le _) (Nat.lt_succ_self _)) (reads_top (hm fun _ => true))
  rw [h1] at h1'; cases h1'
  refine ⟨q, h1, h3.wf, h3.nb, h3.sq, fun v hv => ?_, fun σ => ?_⟩
  · obtain ⟨k, hk, hkv⟩ := h3.occ v hv
    exact ⟨k, text_written (by simp) hk, hkv⟩
  · rw [← (h2 σ _).1 (hm σ)]
    simp

theorem parse_or {ns : List Int} (h : ns ≠ []) (h0 : ∀ n ∈ ns, n ≠ 0) :
    ∃ q, parse (text .colon ns) = .ok q ∧ Made (fun v => ∃ n ∈ ns, n.natAbs = v) (fun σ => ∃ n ∈ ns, lit σ n = true) q := by
  have hm : ∀ σ, Means σ (text .colon ns) (ns.any fun n => lit σ n) := fun σ => text_or σ ns h h0
  obtain ⟨q, h1, h2⟩ := RBool.C113_parse (text .colon ns) ⟨_, _, hm fun _ => true⟩ _ (Nat.lt_succ_self _)
  obtain ⟨q', h1', h3, -⟩ := RBool.setDef_spec ((text .colon ns).length + 1) (text .colon ns) _ _
    (Nat.lt_of_le_of_lt (nums_le _) (Nat.lt_succ_self _)) (reads_top (hm fun _ => true))
  rw [h1] at h1'; cases h1'
  refine ⟨q, h1, h3.wf, h3.nb, h3.sq, fun v hv => ?_, fun σ => ?_⟩
  · obtain ⟨k, hk, hkv⟩ := h3.occ v hv
    exact ⟨k, text_written (by simp) hk, hkv⟩
  · rw [← (h2 σ _).1 (hm σ)]
    simp

theorem append_made {P : Nat → Prop} {V W : Side → Prop} {a b : Seq} (op : Op) (ha : Made P V a) (hb : Made P W b) :
    Made P (fun σ => match op with | .and => V σ ∧ W σ | .or => V σ ∨ W σ) (append op 0 [] [a, b]) := by
  obtain ⟨o1, l1, e1, rfl⟩ := ha.lst
  obtain ⟨o2, l2, e2, rfl⟩ := hb.lst
  have e : append op 0 [] [.lst o1 l1 e1, .lst o2 l2 e2] = .lst op (max (max 0 (l1 + 1)) (l2 + 1)) [.lst o1 l1 e1, .lst o2 l2 e2] := by
    simp [append]
  rw [e]
  have w1 := ha.wf
  have n1 : 0 ≤ l1 := by have := w1; simp only [Seq.WF] at this; exact this.1.1
  refine ⟨?_, ?_, ⟨_, _, _, rfl⟩, fun v hv => ?_, fun σ => ?_⟩
  · rw [Seq.WF]
    exact ⟨⟨by omega, fun h => by omega⟩, by simp only [Seq.WFL]; exact ⟨ha.wf, hb.wf, trivial⟩⟩
  · rw [noBool_lst]
    intro x hx
    simp at hx
    rcases hx with rfl | rfl
    · exact ha.nb
    · exact hb.nb
  · rw [RBool.occurs_lst] at hv
    obtain ⟨x, hx, hv⟩ := hv
    simp at hx
    rcases hx with rfl | rfl
    · exact ha.occ v hv
    · exact hb.occ v hv
  · have s1 := ha.sem σ
    have s2 := hb.sem σ
    rw [sem_lst, semL_cons, semL_cons]
    generalize (Seq.lst o1 l1 e1).sem σ = x at *
    generalize (Seq.lst o2 l2 e2).sem σ = y at *
    cases op <;> simp [semL, Op.app, Op.neutral] <;> rw [s1, s2]

theorem Made.mono {P Q : Nat → Prop} {V W : Side → Prop} {q : Seq} (h : Made P V q) (h1 : ∀ v, P v → Q v) (h2 : ∀ σ, V σ ↔ W σ) : Made Q W q :=
  ⟨h.wf, h.nb, h.lst, fun v hv => h1 v (h.occ v hv), fun σ => (h.sem σ).trans (h2 σ)⟩

/-- the plane numbers of a group -/
def Group.nums : Group Nat → List Nat
  | .flat ps => ps
  | .cone ps => ps
  | .dbl ps => ps
  | .torus ext inn => ext ++ inn

theorem lit_ofNat (σ : Side) (p : Nat) : lit σ (p : Int) = σ p := by simp [lit]

theorem lit_neg (σ : Side) {p : Nat} (h : p ≠ 0) : lit σ (-(p : Int)) = !σ p := by
  unfold lit
  rw [if_pos (by omega)]
  simp

theorem ints_ne {ps : List Nat} (h : ps ≠ []) : ints ps ≠ [] := by simpa [ints] using h

theorem ints_nz {ps : List Nat} (h : ∀ p ∈ ps, p ≠ 0) : ∀ n ∈ ints ps, n ≠ 0 := by
  intro n hn
  simp [ints] at hn
  obtain ⟨p, hp, rfl⟩ := hn
  have := h p hp
  omega

theorem inside_made {g : Group Nat} (hok : g.Ok) (hne : g ≠ .flat []) (hnz : ∀ p ∈ g.nums, p ≠ 0) :
    ∃ q, inside g = .ok q ∧ Made (· ∈ g.nums) (fun σ => g.Inside fun p => σ p = true) q := by
  have conv : ∀ {ps : List Nat} {R : List Nat} {q : Seq}, (∀ p ∈ ps, p ∈ R) → Made (fun v => ∃ n ∈ ints ps, n.natAbs = v) (fun σ => ∀ n ∈ ints ps, lit σ n = true) q →
      Made (· ∈ R) (fun σ => ∀ p ∈ ps, σ p = true) q := by
    intro ps R q hsub hq
    refine hq.mono ?_ fun σ => ?_
    · rintro v ⟨n, hn, rfl⟩
      simp [ints] at hn
      obtain ⟨p, hp, rfl⟩ := hn
      simpa using hsub p hp
    · simp [ints, lit_ofNat]
  cases g with
  | flat ps =>
    have hp : ps ≠ [] := by rintro rfl; exact hne rfl
    obtain ⟨q, h1, h2⟩ := parse_and (ints_ne hp) (ints_nz hnz)
    exact ⟨q, h1, conv (fun _ h => h) h2⟩
  | cone ps =>
    obtain ⟨q, h1, h2⟩ := parse_and (ints_ne hok) (ints_nz hnz)
    exact ⟨q, h1, conv (fun _ h => h) h2⟩
  | dbl ps =>
    obtain ⟨q1, h1, h2⟩ := parse_and (ints_ne hok) (ints_nz hnz)
    obtain ⟨q2, h3, h4⟩ := parse_and (ns := (ints ps).map fun p => -p) (by simpa using ints_ne hok) (by
      intro n hn
      simp at hn
      obtain ⟨m, hm, rfl⟩ := hn
      have := ints_nz hnz m hm
      omega)
    have h5 : Made (· ∈ ps) (fun σ => ∀ p ∈ ps, ¬ σ p = true) q2 := by
      refine h4.mono ?_ fun σ => ?_
      · rintro v ⟨n, hn, rfl⟩
        simp [ints] at hn
        obtain ⟨p, hp, rfl⟩ := hn
        simpa using hp
      · simp only [ints, List.map_map, List.mem_map, Function.comp, forall_exists_index, and_imp]
        constructor
        · intro h p hp
          have := h _ p hp rfl
          have hz := hnz p hp
          rw [show -(Int.ofNat p) = -(p : Int) from rfl, lit_neg σ hz] at this
          simpa using this
        · rintro h n p hp rfl
          have hz := hnz p hp
          rw [show -(Int.ofNat p) = -(p : Int) from rfl, lit_neg σ hz]
          simpa using h p hp
    exact ⟨append .or 0 [] [q1, q2], by simp [inside, h1, h3, bind, Except.bind], append_made .or (conv (fun _ h => h) h2) h5⟩
  | torus ext inn =>
    have hz : ∀ p ∈ ext, p ≠ 0 := fun p hp => hnz p (by simp [Group.nums, hp])
    have hz' : ∀ p ∈ inn, p ≠ 0 := fun p hp => hnz p (by simp [Group.nums, hp])
    obtain ⟨q1, h1, h2⟩ := parse_and (ints_ne hok) (ints_nz hz)
    by_cases hi : inn = []
    · refine ⟨q1, by simp [inside, h1, hi, bind, Except.bind], (conv (R := Group.nums (.torus ext inn)) (fun p hp => by simp [Group.nums, hp]) h2).mono (fun _ h => h) fun σ => ?_⟩
      simp [Group.Inside, hi]
    · obtain ⟨q2, h3, h4⟩ := parse_or (ints_ne hi) (ints_nz hz')
      have h5 : Made (· ∈ Group.nums (.torus ext inn)) (fun σ => ∃ p ∈ inn, σ p = true) q2 := by
        refine h4.mono ?_ fun σ => ?_
        · rintro v ⟨n, hn, rfl⟩
          simp [ints] at hn
          obtain ⟨p, hp, rfl⟩ := hn
          simp [Group.nums, hp]
        · simp [ints, lit_ofNat]
      refine ⟨append .and 0 [] [q1, q2], by simp [inside, h1, h3, hi, bind, Except.bind],
        (append_made .and (conv (R := Group.nums (.torus ext inn)) (fun p hp => by simp [Group.nums, hp]) h2) h5).mono (fun _ h => h) fun σ => ?_⟩
      simp [Group.Inside, hi]

/-! ### the complement -/

theorem negInts_keeps : ∀ {es cs : List Seq}, negInts es = .ok cs → (∀ e ∈ cs, e.NoBool) ∧ ∀ v, Seq.OccursL v cs → Seq.OccursL v es
  | [], cs, h => by simp [negInts] at h; subst h; simp [Seq.OccursL]
  | .int n :: es, cs, h => by
    simp only [negInts, bind, Except.bind] at h
    cases h1 : negInts es with
    | error e => rw [h1] at h; cases h
    | ok r =>
      rw [h1] at h; cases h
      obtain ⟨g1, g2⟩ := negInts_keeps h1
      refine ⟨fun e he => ?_, fun v hv => ?_⟩
      · rcases List.mem_cons.1 he with rfl | he
        · simp [Seq.NoBool]
        · exact g1 e he
      · simp only [Seq.OccursL, Seq.Occurs, Int.natAbs_neg] at hv ⊢
        rcases hv with hv | hv
        · exact .inl hv
        · exact .inr (g2 v hv)
  | .boo _ _ _ :: es, cs, h => by simp [negInts] at h
  | .lst _ _ _ :: es, cs, h => by simp [negInts] at h

/-- what the two sequences keep -/
def Keeps (s : Seq) (r : Seq × Seq) : Prop :=
  (IsLst r.1 ∧ r.1.NoBool ∧ ∀ v, r.1.Occurs v → s.Occurs v) ∧ (IsLst r.2 ∧ r.2.NoBool ∧ ∀ v, r.2.Occurs v → s.Occurs v)

theorem compLoop_keeps {rec : Seq → M (Seq × Seq)} (hrec : ∀ s r, s.NoBool → rec s = .ok r → Keeps s r) : ∀ {es : List Seq} {r : List Seq × List Seq},
    (∀ e ∈ es, e.NoBool) → compLoop rec es = .ok r →
    ((∀ e ∈ r.1, e.NoBool) ∧ ∀ v, Seq.OccursL v r.1 → Seq.OccursL v es) ∧ ((∀ e ∈ r.2, e.NoBool) ∧ ∀ v, Seq.OccursL v r.2 → Seq.OccursL v es)
  | [], r, _, h => by simp [compLoop] at h; subst h; simp [Seq.OccursL]
  | e :: es, r, hnb, h => by
    simp only [compLoop, bind, Except.bind] at h
    cases h1 : rec e with
    | error x => rw [h1] at h; cases h
    | ok p =>
      rw [h1] at h
      dsimp only at h
      cases h2 : compLoop rec es with
      | error x => rw [h2] at h; cases h
      | ok q =>
        rw [h2] at h; cases h
        obtain ⟨⟨-, k1, k2⟩, -, k3, k4⟩ := hrec e p (hnb e (by simp)) h1
        obtain ⟨⟨g1, g2⟩, g3, g4⟩ := compLoop_keeps hrec (fun x hx => hnb x (by simp [hx])) h2
        refine ⟨⟨fun x hx => ?_, fun v hv => ?_⟩, fun x hx => ?_, fun v hv => ?_⟩
        · rcases List.mem_cons.1 hx with rfl | hx
          · exact k1
          · exact g1 x hx
        · simp only [Seq.OccursL] at hv ⊢
          exact hv.imp (k2 v) (g2 v)
        · rcases List.mem_cons.1 hx with rfl | hx
          · exact k3
          · exact g3 x hx
        · simp only [Seq.OccursL] at hv ⊢
          exact hv.imp (k4 v) (g4 v)

theorem groupSingle_keeps {op : Op} {l : Int} {es : List Seq} {s : Seq} (hnb : ∀ e ∈ es, e.NoBool) (h : Seq.groupSingle (.lst op l es) = .ok s) :
    ∃ es', s = .lst op l es' ∧ (∀ e ∈ es', e.NoBool) ∧ ∀ v, Seq.OccursL v es' → Seq.OccursL v es := by
  unfold Seq.groupSingle at h
  dsimp only at h
  split at h
  · cases h; exact ⟨es, rfl, hnb, fun _ h => h⟩
  · have hrev : ∀ e ∈ es.reverse, e.NoBool := fun e he => hnb e (by simpa using he)
    obtain ⟨K, G, h1, -, h3, h4⟩ := groupLoop_kept (op := op) (σ := fun _ => true) es.length es.reverse [] [] (by simp) hrev
    rw [h1] at h
    simp only [bind, Except.bind] at h
    have hK : ∀ e ∈ K, e ∈ es := fun e he => by
      rcases h3 e he with h | ⟨h, -⟩
      · simp at h
      · simpa using h
    have hG : ∀ e ∈ G, e.NoBool ∧ ∀ v, e.Occurs v → Seq.OccursL v es := fun e he => by
      rcases h4 e he with h | ⟨h, m, rfl⟩ | ⟨o, h⟩
      · simp at h
      · exact ⟨by simp [Seq.NoBool], fun v hv => (RBool.occursL_iff _ _).2 ⟨_, by simpa using h, hv⟩⟩
      · have hm : Seq.lst o 0 [e] ∈ es := by simpa using h
        exact ⟨(noBool_lst _ _ _).1 (hnb _ hm) e (by simp), fun v hv => (RBool.occursL_iff _ _).2 ⟨_, hm, (RBool.occurs_lst _ _ _ _).2 ⟨e, by simp, hv⟩⟩⟩
    cases G with
    | nil =>
      cases h
      exact ⟨K, rfl, fun e he => hnb e (hK e he), fun v hv => by
        obtain ⟨e, he, h5⟩ := (RBool.occursL_iff _ _).1 hv
        exact (RBool.occursL_iff _ _).2 ⟨e, hK e he, h5⟩⟩
    | cons g gs =>
      cases h
      refine ⟨_, rfl, fun e he => ?_, fun v hv => ?_⟩
      · rcases List.mem_cons.1 he with rfl | he
        · exact (noBool_lst _ _ _).2 fun x hx => (hG x hx).1
        · exact hnb e (hK e he)
      · obtain ⟨e, he, h5⟩ := (RBool.occursL_iff _ _).1 hv
        rcases List.mem_cons.1 he with rfl | he
        · obtain ⟨x, hx, h6⟩ := (RBool.occurs_lst _ _ _ _).1 h5
          exact (hG x hx).2 v h6
        · exact (RBool.occursL_iff _ _).2 ⟨e, hK e he, h5⟩

theorem comp_keeps : ∀ (f : Nat) (s : Seq) (r : Seq × Seq), s.NoBool → Seq.comp f s = .ok r → Keeps s r := by
  intro f
  induction f with
  | zero => intro s r _ h; simp [Seq.comp] at h
  | succ f ih =>
    intro s r hnb h
    cases s with
    | int n => simp [Seq.comp] at h
    | boo _ _ _ => simp [Seq.comp] at h
    | lst op l es =>
      have hn := (noBool_lst _ _ _).1 hnb
      rw [Seq.comp] at h
      split at h
      · simp only [bind, Except.bind] at h
        cases h1 : negInts es with
        | error x => rw [h1] at h; cases h
        | ok c =>
          rw [h1] at h; cases h
          obtain ⟨g1, g2⟩ := negInts_keeps h1
          exact ⟨⟨⟨_, _, _, rfl⟩, hnb, fun _ h => h⟩, ⟨_, _, _, rfl⟩, (noBool_lst _ _ _).2 g1, fun v hv => by
            simp only [Seq.Occurs] at hv ⊢; exact g2 v hv⟩
      · simp only [bind, Except.bind] at h
        cases h1 : Seq.groupSingle (.lst op l es) with
        | error x => rw [h1] at h; cases h
        | ok s1 =>
          obtain ⟨es', rfl, k1, k2⟩ := groupSingle_keeps hn h1
          rw [h1] at h
          dsimp only at h
          cases h2 : compLoop (Seq.comp f) es' with
          | error x => rw [h2] at h; cases h
          | ok q =>
            rw [h2] at h; cases h
            obtain ⟨⟨g1, g2⟩, g3, g4⟩ := compLoop_keeps ih k1 h2
            refine ⟨⟨⟨_, _, _, rfl⟩, (noBool_lst _ _ _).2 g1, fun v hv => ?_⟩, ⟨_, _, _, rfl⟩, (noBool_lst _ _ _).2 g3, fun v hv => ?_⟩
            · simp only [Seq.Occurs] at hv ⊢; exact k2 v (g2 v hv)
            · simp only [Seq.Occurs] at hv ⊢; exact k2 v (g4 v hv)

/-- what stands for a surface: `pm` for its inside, `pp` for its outside -/
structure Pair (P : Nat → Prop) (V : Side → Prop) (c : Seq × Seq) : Prop where
  nb1 : c.1.NoBool
  nb2 : c.2.NoBool
  lst1 : IsLst c.1
  lst2 : IsLst c.2
  occ1 : ∀ v, c.1.Occurs v → P v
  occ2 : ∀ v, c.2.Occurs v → P v
  sem1 : ∀ σ, c.1.sem σ = true ↔ V σ
  sem2 : ∀ σ, c.2.sem σ = true ↔ ¬ V σ

theorem complement_pair {P : Nat → Prop} {V : Side → Prop} {q : Seq} (h : Made P V q) : ∃ c, complement q = .ok c ∧ Pair P V c := by
  obtain ⟨op, l, es, rfl⟩ := h.lst
  obtain ⟨s', c, h1, -, -, h2, h3⟩ := C09_get_complementary _ op l es h.wf h.nb (Nat.lt_succ_self _)
  obtain ⟨⟨k1, k2, k3⟩, k4, k5, k6⟩ := comp_keeps _ _ _ h.nb h1
  refine ⟨(s', c), h1, k2, k5, k1, k4, fun v hv => h.occ v (k3 v hv), fun v hv => h.occ v (k6 v hv), fun σ => ?_, fun σ => ?_⟩
  · show s'.sem σ = true ↔ _
    rw [h2]; exact h.sem σ
  · show c.sem σ = true ↔ _
    rw [h3, ← h.sem σ]; simp

end Geouned.Poly
