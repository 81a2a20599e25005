import Verif.Rev.HashLemmas3
/-! Lemmas: `remove_hash` -/
namespace Geouned.Rev
open Geouned.Text

theorem spacedH_iff (ts : List HTok) : Spaced ts ↔ NoAdj (ts.map isNumH) := by
  induction ts with
  | nil => simp [Spaced, NoAdj]
  | cons t ts ih =>
    cases ts with
    | nil => cases t <;> simp [Spaced, NoAdj, isNumH]
    | cons u ts =>
      rw [Spaced, ih]
      cases t <;> cases u <;> simp [isNumH, NoAdj]

theorem noAdj_left {a b : List Bool} (h : NoAdj (a ++ b)) : NoAdj a := by
  induction a with
  | nil => trivial
  | cons x a ih =>
    have := ih (noAdj_cons h)
    cases a with
    | nil => cases x <;> simp [NoAdj]
    | cons y a => cases x <;> cases y <;> simp_all [NoAdj]

theorem noAdj_right {a b : List Bool} (h : NoAdj (a ++ b)) : NoAdj b := by
  induction a with
  | nil => exact h
  | cons x a ih => exact ih (noAdj_cons h)

theorem noAdj_mid {a b : List Bool} (h : NoAdj (a ++ b)) (h1 : a.getLast? = some true) (h2 : b.head? = some true) : False := by
  induction a with
  | nil => simp at h1
  | cons x a ih =>
    cases a with
    | nil =>
      cases b with
      | nil => simp at h2
      | cons y b =>
        simp at h1 h2
        subst h1 h2
        simp [NoAdj] at h
    | cons y a =>
      rw [List.getLast?_cons_cons] at h1
      exact ih (noAdj_cons h) h1

theorem hsolid_cons (t : HTok) (ts : List HTok) : hsolid (t :: ts) = (if t = .blank then [] else [t]) ++ hsolid ts := by
  unfold hsolid
  by_cases h : t = .blank <;> simp [h]

theorem hsolid_append (a b : List HTok) : hsolid (a ++ b) = hsolid a ++ hsolid b := by simp [hsolid]

theorem hsolid_eq_append {ts a b : List HTok} (h : hsolid ts = a ++ b) : ∃ x y, ts = x ++ y ∧ hsolid x = a ∧ hsolid y = b := by
  obtain ⟨x, y, h1, h2, h3⟩ := List.filter_eq_append_iff.1 h
  exact ⟨x, y, h1, h2, h3⟩

theorem hsolid_eq_cons {ts a : List HTok} {t : HTok} (h : hsolid ts = t :: a) :
    ∃ k y, ts = List.replicate k .blank ++ t :: y ∧ hsolid y = a := by
  obtain ⟨x, y, h1, h2, h3, h4⟩ := List.filter_eq_cons_iff.1 h
  refine ⟨x.length, y, ?_, h4⟩
  rw [h1, (List.eq_replicate_iff (a := HTok.blank) (n := x.length)).2 ⟨rfl, fun z hz => by simpa using h2 z hz⟩]
  simp

theorem hsolid_eq_nil {ts : List HTok} (h : hsolid ts = []) : ∃ k, ts = List.replicate k .blank :=
  ⟨ts.length, List.eq_replicate_iff.2 ⟨rfl, fun z hz => by simpa using List.filter_eq_nil_iff.1 h z hz⟩⟩

theorem blanks_emb (k : Nat) : List.replicate k HTok.blank = (List.replicate k Tok.blank).map emb := by simp [emb]

theorem solid_blanks (k : Nat) : solid (List.replicate k .blank) = [] := by
  induction k with
  | zero => rfl
  | succ k ih => rw [List.replicate_succ, solid_cons, ih]; rfl

/-- blanks at the front do not bother `removeText` -/
theorem removeText_blanks (ct : Nat → M (List HTok)) (k : Nat) {v v' : List HTok} (h : removeText ct v = .ok v') :
    removeText ct (List.replicate k .blank ++ v) = .ok (List.replicate k .blank ++ v') := by
  induction k with
  | zero => exact h
  | succ k ih => simp only [List.replicate_succ, List.cons_append, removeText, ih, bind, Except.bind]

theorem removeText_tok (ct : Nat → M (List HTok)) {t : HTok} (ht : t ≠ .hash) {v v' : List HTok} (h : removeText ct v = .ok v') :
    removeText ct (t :: v) = .ok (t :: v') := by
  cases t with
  | hash => exact (ht rfl).elim
  | _ => simp only [removeText, h, bind, Except.bind]

theorem dropBlanks_blanks (k : Nat) (v : List HTok) : dropBlanks (List.replicate k .blank ++ v) = dropBlanks v := by
  induction k with
  | zero => rfl
  | succ k ih => simp only [List.replicate_succ, List.cons_append, dropBlanks, ih]

/-! ### matching parenthesis -/

theorem getHashCell_blanks (d k : Nat) (s : List HTok) :
    getHashCell d (List.replicate k .blank ++ s) = (getHashCell d s).map fun p => (List.replicate k .blank ++ p.1, p.2) := by
  induction k with
  | zero => simp
  | succ k ih =>
    simp only [List.replicate_succ, List.cons_append, getHashCell, ih, Option.map_map]
    rfl

theorem solid_eq_cons' {ts a : List Tok} {t : Tok} (h : solid ts = t :: a) :
    ∃ k y, ts = List.replicate k .blank ++ t :: y ∧ solid y = a := by
  obtain ⟨x, y, h1, h2, h3⟩ := solid_eq_cons h
  refine ⟨x.length, y, ?_, h3⟩
  rw [h1, (List.eq_replicate_iff (a := Tok.blank) (n := x.length)).2 ⟨rfl, h2⟩]
  simp

theorem solid_eq_nil' {ts : List Tok} (h : solid ts = []) : ∃ k, ts = List.replicate k .blank :=
  ⟨ts.length, List.eq_replicate_iff.2 ⟨rfl, solid_eq_nil h⟩⟩

theorem getHashCell_reads {σ r t b} (h : Reads σ r t b) : ∀ us, solid us = t → ∀ d, 0 < d → ∀ s,
    getHashCell d (us.map emb ++ s) = (getHashCell d s).map fun p => (us.map emb ++ p.1, p.2) := by
  induction h with
  | num n _ =>
    intro us hu d hd s
    obtain ⟨k, y, rfl, hy⟩ := solid_eq_cons' hu
    obtain ⟨j, rfl⟩ := solid_eq_nil' hy
    simp only [List.map_append, ← blanks_emb, List.map_cons, emb, List.append_assoc, List.cons_append, getHashCell_blanks, getHashCell, Option.map_map]
    rfl
  | @paren t b _ ih =>
    intro us hu d hd s
    obtain ⟨k, y, rfl, hy⟩ := solid_eq_cons' hu
    obtain ⟨z, u, rfl, hz, h2⟩ := solid_eq_append hy
    obtain ⟨j, w, rfl, hw⟩ := solid_eq_cons' h2
    obtain ⟨i, rfl⟩ := solid_eq_nil' hw
    have hd2 : ¬ (d + 1 = 1) := by omega
    simp only [List.map_append, ← blanks_emb, List.map_cons, emb, List.append_assoc, List.cons_append, getHashCell_blanks, getHashCell,
      ih z hz (d + 1) (by omega), if_neg hd2, Nat.add_sub_cancel, Option.map_map]
    rfl
  | one _ ih => exact ih
  | and _ _ ih1 ih2 =>
    intro us hu d hd s
    obtain ⟨x, y, rfl, hx, hy⟩ := solid_eq_append hu
    simp only [List.map_append, List.append_assoc, ih1 x hx d hd, ih2 y hy d hd, Option.map_map]
    rfl
  | single _ ih => exact ih
  | or _ _ ih1 ih2 =>
    intro us hu d hd s
    obtain ⟨x, y, rfl, hx, hy⟩ := solid_eq_append hu
    obtain ⟨k, w, rfl, hw⟩ := solid_eq_cons' hy
    simp only [List.map_append, List.map_cons, ← blanks_emb, emb, List.append_assoc, List.cons_append, ih1 x hx d hd, getHashCell_blanks, getHashCell,
      ih2 w hw d hd, Option.map_map]
    rfl

/-! ### removal -/

/-- what the removal gives for a cell -/
def Good (σ : Side) (ct : Nat → M (List HTok)) (cell : Nat → Bool) (n : Nat) : Prop :=
  ∃ ds, ct n = .ok (ds.map emb) ∧ Means σ ds (cell n) ∧ NoAdj (ds.map isNum)

theorem head_blanks {k : Nat} {w : List Bool} (h : (List.replicate k false ++ w).head? = some true) : k = 0 ∧ w.head? = some true := by
  cases k with
  | zero => exact ⟨rfl, h⟩
  | succ k => simp [List.replicate_succ] at h

theorem last_blanks {k : Nat} {w : List Bool} (h : (w ++ List.replicate k false).getLast? = some true) : k = 0 ∧ w.getLast? = some true := by
  cases k with
  | zero => simpa using h
  | succ k => simp [List.replicate_succ'] at h

theorem noAdj_blanks (k : Nat) : NoAdj (List.replicate k false) := by
  induction k with
  | zero => trivial
  | succ k ih => exact noAdj_false_cons ih

theorem noAdj_blanks_append {k : Nat} {w : List Bool} (h : NoAdj w) : NoAdj (List.replicate k false ++ w) := by
  induction k with
  | zero => exact h
  | succ k ih => exact noAdj_false_cons ih

theorem noAdj_append_blanks {k : Nat} {w : List Bool} (h : NoAdj w) : NoAdj (w ++ List.replicate k false) := by
  apply noAdj_append h (noAdj_blanks k)
  intro _ h2
  cases k with
  | zero => simp at h2
  | succ k => simp [List.replicate_succ] at h2

@[simp] theorem isNum_blanks (k : Nat) : (List.replicate k Tok.blank).map isNum = List.replicate k false := by simp [isNum]
@[simp] theorem isNumH_blanks (k : Nat) : (List.replicate k HTok.blank).map isNumH = List.replicate k false := by simp [isNumH]

/-- the result of the removal on a stretch `ts`, before `v` -/
structure Removed (σ : Side) (ct : Nat → M (List HTok)) (r : Rank) (ts : List HTok) (b : Bool) (us : List Tok) : Prop where
  run : ∀ v v', removeText ct v = .ok v' → removeText ct (ts ++ v) = .ok (us.map emb ++ v')
  reads : Reads σ r (solid us) b
  spaced : NoAdj (us.map isNum)
  head : (us.map isNum).head? = some true → (ts.map isNumH).head? = some true
  last : (us.map isNum).getLast? = some true → (ts.map isNumH).getLast? = some true

theorem removed_wrap {σ ct} {ts : List HTok} {b : Bool} {us c : List Tok} (hus : us = c) (h : Removed σ ct .factor ts b us) :
    Removed σ ct .factor ts b c := hus ▸ h

theorem HReads.removed {σ cell r t b} {ct : Nat → M (List HTok)} (h : HReads σ cell r t b) :
    (∀ n, (∃ x y, t = x ++ .hash :: .num n :: y) → Good σ ct cell n) →
    ∀ ts, hsolid ts = t → NoAdj (ts.map isNumH) → ∃ us, Removed σ ct r ts b us := by
  induction h with
  | num n hn =>
    intro _ ts hs _
    obtain ⟨k, y, rfl, hy⟩ := hsolid_eq_cons hs
    obtain ⟨j, rfl⟩ := hsolid_eq_nil hy
    refine ⟨List.replicate k .blank ++ .num n :: List.replicate j .blank, ?_, ?_, ?_, ?_, ?_⟩
    · intro v v' hv
      simp only [List.map_append, ← blanks_emb, List.map_cons, emb, List.append_assoc, List.cons_append]
      exact removeText_blanks ct k (removeText_tok ct (by simp) (removeText_blanks ct j hv))
    · simp only [solid_append, solid_cons, solid_blanks]
      simpa using Reads.num n hn
    · simp only [List.map_append, List.map_cons, isNum_blanks, isNum]
      apply noAdj_blanks_append
      have : NoAdj ([true] ++ List.replicate j false) := noAdj_append_blanks (by simp [NoAdj])
      simpa using this
    · simp only [List.map_append, List.map_cons, isNum_blanks, isNumH_blanks, isNum, isNumH]
      exact id
    · simp only [List.map_append, List.map_cons, isNum_blanks, isNumH_blanks, isNum, isNumH]
      exact id
  | @paren t b _ ih =>
    intro hg ts hs hsp
    obtain ⟨k, y, rfl, hy⟩ := hsolid_eq_cons hs
    obtain ⟨z, u, rfl, hz, h2⟩ := hsolid_eq_append hy
    obtain ⟨j, w, rfl, hw⟩ := hsolid_eq_cons h2
    obtain ⟨i, rfl⟩ := hsolid_eq_nil hw
    have hg' : ∀ n, (∃ x y, t = x ++ .hash :: .num n :: y) → Good σ ct cell n := by
      rintro n ⟨x, y, rfl⟩
      exact hg n ⟨.lp :: x, y ++ [.rp], by simp⟩
    have hz2 : NoAdj (z.map isNumH) := by
      simp only [List.map_append, List.map_cons] at hsp
      exact noAdj_left (noAdj_cons (noAdj_right hsp))
    obtain ⟨us, hr⟩ := ih hg' z hz hz2
    refine ⟨List.replicate k .blank ++ .lp :: (us ++ (List.replicate j .blank ++ .rp :: List.replicate i .blank)), ?_, ?_, ?_, ?_, ?_⟩
    · intro v v' hv
      have h3 := removeText_blanks ct j (removeText_tok ct (t := .rp) (by simp) (removeText_blanks ct i hv))
      have h4 := removeText_blanks ct k (removeText_tok ct (t := .lp) (by simp) (hr.run _ _ h3))
      simp only [List.map_append, ← blanks_emb, List.map_cons, emb, List.append_assoc, List.cons_append] at h4 ⊢
      exact h4
    · simp only [solid_append, solid_cons, solid_blanks]
      simpa using Reads.paren hr.reads
    · simp only [List.map_append, List.map_cons, isNum_blanks, isNum]
      apply noAdj_blanks_append
      apply noAdj_false_cons
      apply noAdj_append hr.spaced
      · exact noAdj_blanks_append (noAdj_false_cons (noAdj_blanks i))
      · intro _ h5
        cases j with
        | zero => simp at h5
        | succ j => simp [List.replicate_succ] at h5
    · simp only [List.map_append, List.map_cons, isNum_blanks, isNum]
      intro h5
      have := (head_blanks h5).2
      simp at this
    · simp only [List.map_append, List.map_cons, isNum_blanks, isNum]
      intro h5
      have h6 : ((List.replicate k false ++ false :: (us.map isNum ++ (List.replicate j false ++ [false]))) ++ List.replicate i false).getLast? = some true := by
        simpa using h5
      have := (last_blanks h6).2
      rw [List.getLast?_append_of_ne_nil _ (by simp), List.getLast?_cons] at this
      simp at this
  | @hashCell n =>
    intro hg ts hs _
    obtain ⟨k, q, rfl, hq⟩ := hsolid_eq_cons hs
    obtain ⟨j, w, rfl, hw⟩ := hsolid_eq_cons hq
    obtain ⟨i, rfl⟩ := hsolid_eq_nil hw
    obtain ⟨ds, h1, h2, h3⟩ := hg n ⟨[], [], rfl⟩
    obtain ⟨c, h4, h5, h6, h7, h8⟩ := complementary_spec h2 h3
    refine ⟨List.replicate (k + 6) .blank ++ (c ++ List.replicate (i + 1) .blank), ?_, ?_, ?_, ?_, ?_⟩
    · intro v v' hv
      have h9 := removeText_blanks ct j (removeText_tok ct (t := .num n) (by simp) (removeText_blanks ct i hv))
      have h10 : removeText ct (.hash :: (List.replicate j .blank ++ .num n :: (List.replicate i .blank ++ v))) =
          .ok (List.replicate 6 .blank ++ (c.map emb ++ .blank :: (List.replicate i .blank ++ v'))) := by
        rw [removeText, h9]
        simp only [bind, Except.bind, dropBlanks_blanks, dropBlanks, List.tail_cons]
        have hn : ¬ ((n : Int) < 0) := by omega
        rw [if_neg hn, Int.toNat_natCast, h1]
        dsimp only
        rw [h4]
        rfl
      have h11 := removeText_blanks ct k h10
      simp only [List.map_append, ← blanks_emb, List.map_cons, emb, List.append_assoc, List.cons_append] at h11 ⊢
      rw [h11, ← List.append_assoc, List.replicate_append_replicate]
      simp only [List.replicate_succ, List.cons_append]
    · simp only [solid_append, solid_blanks]
      simpa using h5
    · simp only [List.map_append, isNum_blanks]
      exact noAdj_blanks_append (noAdj_append_blanks h6)
    · simp only [List.map_append, isNum_blanks]
      intro h
      have := (head_blanks h).1
      omega
    · simp only [List.map_append, isNum_blanks]
      intro h
      have h' : ((List.replicate (k + 6) false ++ c.map isNum) ++ List.replicate (i + 1) false).getLast? = some true := by simpa using h
      have := (last_blanks h').1
      omega
  | @hashParen t b _ ih =>
    intro hg ts hs hsp
    obtain ⟨k, q, rfl, hq⟩ := hsolid_eq_cons hs
    obtain ⟨l, y, rfl, hy⟩ := hsolid_eq_cons hq
    obtain ⟨z, u, rfl, hz, h2⟩ := hsolid_eq_append hy
    obtain ⟨j, w, rfl, hw⟩ := hsolid_eq_cons h2
    obtain ⟨i, rfl⟩ := hsolid_eq_nil hw
    have hg' : ∀ n, (∃ x y, t = x ++ .hash :: .num n :: y) → Good σ ct cell n := by
      rintro n ⟨x, y, rfl⟩
      exact hg n ⟨.hash :: .lp :: x, y ++ [.rp], by simp⟩
    have hz2 : NoAdj (z.map isNumH) := by
      simp only [List.map_append, List.map_cons] at hsp
      exact noAdj_left (noAdj_cons (noAdj_right (noAdj_cons (noAdj_right hsp))))
    obtain ⟨us, hr⟩ := ih hg' z hz hz2
    -- the text in the parenthesis
    have hin : Means σ (List.replicate l .blank ++ .lp :: (us ++ (List.replicate j .blank ++ [.rp]))) b := by
      unfold Means
      simp only [solid_append, solid_cons, solid_blanks]
      simpa using Reads.single (Reads.one (Reads.paren hr.reads))
    have hinsp : NoAdj ((List.replicate l Tok.blank ++ Tok.lp :: (us ++ (List.replicate j Tok.blank ++ [Tok.rp]))).map isNum) := by
      simp only [List.map_append, List.map_cons, isNum_blanks, isNum, List.map_nil]
      apply noAdj_blanks_append
      apply noAdj_false_cons
      apply noAdj_append hr.spaced
      · exact noAdj_blanks_append (by simp [NoAdj])
      · intro _ h5
        cases j with
        | zero => simp at h5
        | succ j => simp [List.replicate_succ] at h5
    obtain ⟨c, h4, h5, h6, h7, h8⟩ := complementary_spec hin hinsp
    refine ⟨List.replicate k .blank ++ (c ++ List.replicate i .blank), ?_, ?_, ?_, ?_, ?_⟩
    · intro v v' hv
      have h9 := removeText_blanks ct j (removeText_tok ct (t := .rp) (by simp) (removeText_blanks ct i hv))
      have h10 := removeText_blanks ct l (removeText_tok ct (t := .lp) (by simp) (hr.run _ _ h9))
      have h11 : getHashCell 0 (List.replicate l .blank ++ .lp :: (us.map emb ++ (List.replicate j .blank ++ .rp :: (List.replicate i .blank ++ v')))) =
          some ((List.replicate l Tok.blank ++ Tok.lp :: (us ++ (List.replicate j Tok.blank ++ [Tok.rp]))).map emb, List.replicate i .blank ++ v') := by
        simp only [getHashCell_blanks, getHashCell, getHashCell_reads hr.reads us rfl 1 (by omega), Nat.zero_add, if_true, Option.map_some]
        simp [emb]
      have h12 : removeText ct (.hash :: (List.replicate l .blank ++ .lp :: (z ++ (List.replicate j .blank ++ .rp :: (List.replicate i .blank ++ v))))) =
          .ok (c.map emb ++ (List.replicate i .blank ++ v')) := by
        rw [removeText, h10]
        simp only [bind, Except.bind, dropBlanks_blanks, dropBlanks]
        rw [h11]
        dsimp only
        rw [h4]
      have h13 := removeText_blanks ct k h12
      simp only [List.map_append, ← blanks_emb, List.map_cons, emb, List.append_assoc, List.cons_append] at h13 ⊢
      exact h13
    · simp only [solid_append, solid_blanks]
      simpa using h5
    · simp only [List.map_append, isNum_blanks]
      exact noAdj_blanks_append (noAdj_append_blanks h6)
    · simp only [List.map_append, isNum_blanks]
      intro h
      have h9 := (head_blanks h).2
      have hc : c.map isNum ≠ [] := by
        intro hc
        have : c = [] := by simpa using hc
        subst this
        exact (Reads.ends h5).1 rfl
      rw [List.head?_append_of_ne_nil _ hc] at h9
      exact (h7 h9).elim
    · simp only [List.map_append, isNum_blanks]
      intro h
      have h' : ((List.replicate k false ++ c.map isNum) ++ List.replicate i false).getLast? = some true := by simpa using h
      have h9 := (last_blanks h').2
      have hc : c.map isNum ≠ [] := by
        intro hc
        have : c = [] := by simpa using hc
        subst this
        exact (Reads.ends h5).1 rfl
      rw [List.getLast?_append_of_ne_nil _ hc] at h9
      exact (h8 h9).elim
  | one _ ih =>
    intro hg ts hs hsp
    obtain ⟨us, h⟩ := ih hg ts hs hsp
    exact ⟨us, h.run, .one h.reads, h.spaced, h.head, h.last⟩
  | @and t u b c _ _ ih1 ih2 =>
    intro hg ts hs hsp
    obtain ⟨p, q, rfl, hp, hq⟩ := hsolid_eq_append hs
    rw [List.map_append] at hsp
    obtain ⟨us, h1⟩ := ih1 (fun n ⟨x, y, e⟩ => hg n ⟨x, y ++ u, by simp [e]⟩) p hp (noAdj_left hsp)
    obtain ⟨ws, h2⟩ := ih2 (fun n ⟨x, y, e⟩ => hg n ⟨t ++ x, y, by simp [e]⟩) q hq (noAdj_right hsp)
    have hu : us.map isNum ≠ [] := by
      intro hc
      have : us = [] := by simpa using hc
      subst this
      exact (Reads.ends h1.reads).1 rfl
    have hw : ws.map isNum ≠ [] := by
      intro hc
      have : ws = [] := by simpa using hc
      subst this
      exact (Reads.ends h2.reads).1 rfl
    have hp' : p.map isNumH ≠ [] := by
      intro hc
      have : p = [] := by simpa using hc
      subst this
      have h3 := h1.run [] [] rfl
      simp only [List.append_nil, removeText, Except.ok.injEq] at h3
      exact hu (by simpa using h3.symm)
    have hq' : q.map isNumH ≠ [] := by
      intro hc
      have : q = [] := by simpa using hc
      subst this
      have h3 := h2.run [] [] rfl
      simp only [List.append_nil, removeText, Except.ok.injEq] at h3
      exact hw (by simpa using h3.symm)
    refine ⟨us ++ ws, ?_, ?_, ?_, ?_, ?_⟩
    · intro v v' hv
      have := h1.run _ _ (h2.run v v' hv)
      simpa using this
    · rw [solid_append]; exact .and h1.reads h2.reads
    · rw [List.map_append]
      exact noAdj_append h1.spaced h2.spaced fun h3 h4 => noAdj_mid hsp (h1.last h3) (h2.head h4)
    · rw [List.map_append, List.map_append, List.head?_append_of_ne_nil _ hu, List.head?_append_of_ne_nil _ hp']
      exact h1.head
    · rw [List.map_append, List.map_append, List.getLast?_append_of_ne_nil _ hw, List.getLast?_append_of_ne_nil _ hq']
      exact h2.last
  | single _ ih =>
    intro hg ts hs hsp
    obtain ⟨us, h⟩ := ih hg ts hs hsp
    exact ⟨us, h.run, .single h.reads, h.spaced, h.head, h.last⟩
  | @or t u b c _ _ ih1 ih2 =>
    intro hg ts hs hsp
    obtain ⟨p, q, rfl, hp, hq⟩ := hsolid_eq_append hs
    obtain ⟨k, w, rfl, hw⟩ := hsolid_eq_cons hq
    have hsp' := hsp
    simp only [List.map_append, List.map_cons] at hsp
    obtain ⟨us, h1⟩ := ih1 (fun n ⟨x, y, e⟩ => hg n ⟨x, y ++ .colon :: u, by simp [e]⟩) p hp (noAdj_left hsp)
    obtain ⟨ws, h2⟩ := ih2 (fun n ⟨x, y, e⟩ => hg n ⟨t ++ .colon :: x, y, by simp [e]⟩) w hw (noAdj_cons (noAdj_right (noAdj_right hsp)))
    have hu : us.map isNum ≠ [] := by
      intro hc
      have : us = [] := by simpa using hc
      subst this
      exact (Reads.ends h1.reads).1 rfl
    have hws : ws.map isNum ≠ [] := by
      intro hc
      have : ws = [] := by simpa using hc
      subst this
      exact (Reads.ends h2.reads).1 rfl
    have hp' : p.map isNumH ≠ [] := by
      intro hc
      have : p = [] := by simpa using hc
      subst this
      have h3 := h1.run [] [] rfl
      simp only [List.append_nil, removeText, Except.ok.injEq] at h3
      exact hu (by simpa using h3.symm)
    have hw' : w.map isNumH ≠ [] := by
      intro hc
      have : w = [] := by simpa using hc
      subst this
      have h3 := h2.run [] [] rfl
      simp only [List.append_nil, removeText, Except.ok.injEq] at h3
      exact hws (by simpa using h3.symm)
    refine ⟨us ++ (List.replicate k .blank ++ .colon :: ws), ?_, ?_, ?_, ?_, ?_⟩
    · intro v v' hv
      have h3 := removeText_blanks ct k (removeText_tok ct (t := .colon) (by simp) (h2.run v v' hv))
      have := h1.run _ _ h3
      simp only [List.map_append, ← blanks_emb, List.map_cons, emb, List.append_assoc, List.cons_append] at this ⊢
      exact this
    · simp only [solid_append, solid_cons, solid_blanks]
      simpa using Reads.or h1.reads h2.reads
    · simp only [List.map_append, List.map_cons, isNum_blanks, isNum]
      apply noAdj_append h1.spaced
      · exact noAdj_blanks_append (noAdj_false_cons h2.spaced)
      · intro _ h5
        have := (head_blanks h5).2
        simp at this
    · rw [List.map_append, List.head?_append_of_ne_nil _ hu, List.map_append (f := isNumH), List.head?_append_of_ne_nil _ hp']
      exact h1.head
    · simp only [List.map_append, List.map_cons, isNum_blanks, isNumH_blanks, isNum, isNumH]
      have e1 : (us.map isNum ++ (List.replicate k false ++ false :: ws.map isNum)).getLast? = (ws.map isNum).getLast? := by
        rw [show us.map isNum ++ (List.replicate k false ++ false :: ws.map isNum) = (us.map isNum ++ (List.replicate k false ++ [false])) ++ ws.map isNum by simp]
        exact List.getLast?_append_of_ne_nil _ hws
      have e2 : (p.map isNumH ++ (List.replicate k false ++ false :: w.map isNumH)).getLast? = (w.map isNumH).getLast? := by
        rw [show p.map isNumH ++ (List.replicate k false ++ false :: w.map isNumH) = (p.map isNumH ++ (List.replicate k false ++ [false])) ++ w.map isNumH by simp]
        exact List.getLast?_append_of_ne_nil _ hw'
      rw [e1, e2]
      exact h2.last

/-- a text without `#` -/
theorem unemb {ts : List HTok} (h : ∀ t ∈ ts, t ≠ .hash ∧ t ≠ .amp) : ∃ us : List Tok, ts = us.map emb := by
  induction ts with
  | nil => exact ⟨[], rfl⟩
  | cons t ts ih =>
    obtain ⟨us, e⟩ := ih fun u hu => h u (List.mem_cons_of_mem _ hu)
    have ht := h t (by simp)
    cases t with
    | lp => exact ⟨.lp :: us, by simp [e, emb]⟩
    | rp => exact ⟨.rp :: us, by simp [e, emb]⟩
    | colon => exact ⟨.colon :: us, by simp [e, emb]⟩
    | blank => exact ⟨.blank :: us, by simp [e, emb]⟩
    | num n => exact ⟨.num n :: us, by simp [e, emb]⟩
    | hash => exact (ht.1 rfl).elim
    | amp => exact (ht.2 rfl).elim

end Geouned.Rev
