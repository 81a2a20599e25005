import Verif.Rev.HashLemmas2
/-! Lemmas: `complementary` gives the complement -/
namespace Geouned.Rev
open Geouned.Text

theorem spaced_iff (ts : List Tok) : Spaced (ts.map emb) ↔ NoAdj (ts.map isNum) := by
  induction ts with
  | nil => simp [Spaced, NoAdj]
  | cons t ts ih =>
    cases ts with
    | nil => cases t <;> simp [Spaced, NoAdj, isNum]
    | cons u ts =>
      simp only [List.map_cons] at ih ⊢
      rw [Spaced, ih]
      cases t <;> cases u <;> simp [isNumH, emb, isNum, NoAdj]

/-! ### outer parentheses -/

def putLeftT : List Tok → List Tok
  | [] => []
  | t :: ts => if opensT t then .lp :: t :: ts else t :: putLeftT ts

def putRightT : List Tok → List Tok
  | [] => [.rp]
  | t :: ts => if (t :: ts).all (· = .blank) then .rp :: t :: ts else t :: putRightT ts

theorem putLeft_emb (ts : List Tok) : putLeft (ts.map emb) = (putLeftT ts).map emb := by
  induction ts with
  | nil => rfl
  | cons t ts ih => cases t <;> simp [putLeft, putLeftT, emb, opensT, ih]

theorem allBlank_emb (ts : List Tok) : (ts.map emb).all (· = .blank) = ts.all (· = .blank) := by
  induction ts with
  | nil => rfl
  | cons t ts ih =>
    simp only [List.map_cons, List.all_cons, ih]
    cases t <;> simp [emb]

theorem putRight_emb (ts : List Tok) : putRight (ts.map emb) = (putRightT ts).map emb := by
  induction ts with
  | nil => rfl
  | cons t ts ih =>
    have h := allBlank_emb (t :: ts)
    simp only [List.map_cons] at h ⊢
    unfold putRight putRightT
    rw [h, ih]
    split <;> simp [emb]

theorem solid_putLeft {ts : List Tok} (h : headT ts = true) : solid (putLeftT ts) = .lp :: solid ts := by
  induction ts with
  | nil => simp [headT] at h
  | cons t ts ih =>
    cases t with
    | blank => simp only [headT] at h; simp [putLeftT, opensT, solid_cons, ih h]
    | num n => simp [putLeftT, opensT, solid_cons]
    | lp => simp [putLeftT, opensT, solid_cons]
    | rp => simp [headT, opensT] at h
    | colon => simp [headT, opensT] at h

theorem solid_putRight (ts : List Tok) : solid (putRightT ts) = solid ts ++ [.rp] := by
  induction ts with
  | nil => rfl
  | cons t ts ih =>
    unfold putRightT
    split
    · next h =>
      have : solid (t :: ts) = [] := by
        unfold solid
        rw [List.filter_eq_nil_iff]
        intro x hx
        simpa using List.all_eq_true.1 h x hx
      rw [solid_cons .rp, this]
      simp
    · rw [solid_cons, ih, solid_cons t ts]
      simp

/-- the first token is not a number -/
def HeadFree (ts : List Tok) : Prop := (ts.map isNum).head? ≠ some true
/-- the last token is not a number -/
def LastFree (ts : List Tok) : Prop := (ts.map isNum).getLast? ≠ some true

theorem noAdj_putLeft {ts : List Tok} (h : NoAdj (ts.map isNum)) : NoAdj ((putLeftT ts).map isNum) := by
  induction ts with
  | nil => exact h
  | cons t ts ih =>
    have ih := ih (noAdj_cons h)
    unfold putLeftT
    split
    · exact noAdj_false_cons h
    · next ho =>
      have : isNum t = false := by cases t <;> simp_all [opensT, isNum]
      simp only [List.map_cons, this]
      exact noAdj_false_cons ih

theorem headFree_putLeft (ts : List Tok) : HeadFree (putLeftT ts) := by
  cases ts with
  | nil => simp [HeadFree, putLeftT]
  | cons t ts =>
    unfold putLeftT HeadFree
    split
    · simp [isNum]
    · next ho => cases t <;> simp_all [opensT, isNum]

theorem noAdj_putRight {ts : List Tok} (h : NoAdj (ts.map isNum)) : NoAdj ((putRightT ts).map isNum) := by
  induction ts with
  | nil => simp [putRightT, NoAdj]
  | cons t ts ih =>
    have ih := ih (noAdj_cons h)
    unfold putRightT
    split
    · exact noAdj_false_cons h
    · cases ts with
      | nil =>
        cases t <;> simp [putRightT, isNum, NoAdj]
      | cons u ts =>
        have h2 : ((putRightT (u :: ts)).map isNum).head? = some true → isNum u = true := by
          unfold putRightT
          split <;> simp [isNum]
        simp only [List.map_cons] at h ⊢
        cases hp : (putRightT (u :: ts)).map isNum with
        | nil => cases isNum t <;> simp [NoAdj]
        | cons v w =>
          rw [hp] at ih h2
          cases ht : isNum t
          · exact noAdj_false_cons ih
          · cases v
            · simpa [NoAdj] using ih
            · have := h2 rfl
              rw [ht, this] at h
              simp [NoAdj] at h

theorem lastFree_putRight (ts : List Tok) : LastFree (putRightT ts) := by
  induction ts with
  | nil => simp [LastFree, putRightT, isNum]
  | cons t ts ih =>
    unfold putRightT
    split
    · next h =>
      unfold LastFree
      have hx : ∀ x ∈ t :: ts, isNum x = false := by
        intro x hx
        have := List.all_eq_true.1 h x hx
        simp only [decide_eq_true_eq] at this
        rw [this]; rfl
      intro hl
      have hm := List.mem_of_getLast? hl
      rw [List.map_cons, List.mem_cons] at hm
      rcases hm with hm | hm
      · simp [isNum] at hm
      · obtain ⟨x, h1, h2⟩ := List.mem_map.1 hm
        rw [hx x h1] at h2
        simp at h2
    · unfold LastFree at ih ⊢
      cases hp : putRightT ts with
      | nil =>
        cases ts with
        | nil => simp [putRightT] at hp
        | cons u ts => unfold putRightT at hp; split at hp <;> simp at hp
      | cons u us =>
        rw [hp] at ih
        simpa using ih

theorem headFree_putRight {ts : List Tok} (h : HeadFree ts) : HeadFree (putRightT ts) := by
  cases ts with
  | nil => simp [HeadFree, putRightT, isNum]
  | cons t ts =>
    unfold putRightT HeadFree
    unfold HeadFree at h
    split
    · simp [isNum]
    · simpa using h

/-! ### `startgeom`, `endgeom` -/

def startParenT : List Tok → List Tok
  | .blank :: ts => .blank :: startParenT ts
  | .num n :: ts => .lp :: .num n :: ts
  | ts => ts

def endParenT : List Tok → List Tok
  | [] => []
  | .num n :: ts => if ts.all (· = .blank) then .num n :: .rp :: ts else .num n :: endParenT ts
  | t :: ts => t :: endParenT ts

theorem startParen_emb (ts : List Tok) : startParen (ts.map emb) = (startParenT ts).map emb := by
  induction ts with
  | nil => rfl
  | cons t ts ih => cases t <;> simp [startParen, startParenT, emb, ih]

theorem endParen_emb (ts : List Tok) : endParen (ts.map emb) = (endParenT ts).map emb := by
  induction ts with
  | nil => rfl
  | cons t ts ih =>
    cases t with
    | num n =>
      simp only [List.map_cons, emb, endParen, endParenT, allBlank_emb, ih]
      split <;> simp [emb]
    | _ => simp [endParen, endParenT, emb, ih]

theorem solid_startParen {ts : List Tok} (h : headT ts = true) (hl : Tok.lp ∉ ts) : solid (startParenT ts) = .lp :: solid ts := by
  induction ts with
  | nil => simp [headT] at h
  | cons t ts ih =>
    cases t with
    | blank =>
      simp only [headT] at h
      simp only [List.mem_cons, reduceCtorEq, false_or] at hl
      simp [startParenT, solid_cons, ih h hl]
    | num n => simp [startParenT, solid_cons]
    | lp => simp at hl
    | rp => simp [headT, opensT] at h
    | colon => simp [headT, opensT] at h

theorem solid_endParen {ts : List Tok} (h : lastT (solid ts) = true) (hr : Tok.rp ∉ ts) : solid (endParenT ts) = solid ts ++ [.rp] := by
  induction ts with
  | nil => simp [solid, lastT] at h
  | cons t ts ih =>
    simp only [List.mem_cons, not_or] at hr
    by_cases hb : solid ts = []
    · rw [solid_cons, hb] at h
      have hall : ts.all (· = .blank) = true := by
        rw [List.all_eq_true]
        intro x hx
        simpa using solid_eq_nil hb x hx
      cases t with
      | num n => simp [endParenT, hall, solid_cons, hb]
      | blank => simp [lastT] at h
      | lp => simp [lastT, closesT] at h
      | rp => simp at hr
      | colon => simp [lastT, closesT] at h
    · have h' : lastT (solid ts) = true := by
        rw [solid_cons, lastT_append _ hb] at h
        exact h
      have ih := ih h' hr.2
      have hall : ts.all (· = .blank) = false := by
        apply Bool.eq_false_iff.2
        intro hh
        apply hb
        unfold solid
        rw [List.filter_eq_nil_iff]
        intro x hx
        simpa using List.all_eq_true.1 hh x hx
      cases t with
      | num n => simp [endParenT, hall, solid_cons, ih]
      | _ => simp [endParenT, solid_cons, ih]

theorem noAdj_startParen {ts : List Tok} (h : NoAdj (ts.map isNum)) : NoAdj ((startParenT ts).map isNum) := by
  induction ts with
  | nil => exact h
  | cons t ts ih =>
    have ih := ih (noAdj_cons h)
    cases t with
    | blank => simp only [startParenT, List.map_cons, isNum]; exact noAdj_false_cons ih
    | num n => simp only [startParenT]; exact noAdj_false_cons h
    | _ => exact h

theorem noAdj_endParen {ts : List Tok} (h : NoAdj (ts.map isNum)) : NoAdj ((endParenT ts).map isNum) := by
  induction ts with
  | nil => exact h
  | cons t ts ih =>
    have ih := ih (noAdj_cons h)
    have key : NoAdj (isNum t :: (endParenT ts).map isNum) := by
      cases ht : isNum t
      · exact noAdj_false_cons ih
      · cases ts with
        | nil => simp [endParenT, NoAdj]
        | cons u ts =>
          cases u with
          | num m =>
            rw [List.map_cons, List.map_cons, ht] at h
            simp [isNum, NoAdj] at h
          | _ => simp only [endParenT, List.map_cons, isNum, NoAdj] at ih ⊢; exact ih
    cases t with
    | num n =>
      simp only [endParenT]
      split
      · simp only [List.map_cons, isNum, NoAdj]
        exact noAdj_cons h
      · exact key
    | _ => exact key

/-! ### `complementary` -/

theorem noAdj_dualB {ts : List Tok} (h : NoAdj (ts.map isNum)) : NoAdj ((dualB ts).map isNum) := by
  induction ts with
  | nil => exact h
  | cons t ts ih =>
    have ih := ih (noAdj_cons h)
    have hd : ((dualB ts).map isNum).head? = some true → (ts.map isNum).head? = some true := by
      cases ts with
      | nil => simp [dualB]
      | cons u ts =>
        rw [dualB_cons]
        split
        · simp [isNum]
        · split <;> simp
    rw [dualB_cons]
    split
    · simpa [isNum, NoAdj] using ih
    · split
      · simp only [List.cons_append, List.nil_append, List.map_cons]
        cases isNum t <;> simpa [isNum, NoAdj] using ih
      · simp only [List.cons_append, List.nil_append, List.map_cons]
        cases ht : isNum t
        · exact noAdj_false_cons ih
        · cases hp : (dualB ts).map isNum with
          | nil => simp [NoAdj]
          | cons v w =>
            rw [hp] at ih hd
            cases v
            · simpa [NoAdj] using ih
            · have := hd rfl
              cases ts with
              | nil => simp at this
              | cons u ts =>
                simp only [List.map_cons, List.head?_cons, Option.some.injEq] at this
                rw [List.map_cons, List.map_cons, ht, this] at h
                simp [NoAdj] at h

theorem isNum_neg (ts : List Tok) : (ts.map negT).map isNum = ts.map isNum := by
  induction ts with
  | nil => rfl
  | cons t ts ih =>
    simp only [List.map_cons, ih]
    cases t <;> rfl

theorem mem_emb {t : Tok} {ts : List Tok} : emb t ∈ ts.map emb ↔ t ∈ ts := by
  constructor
  · intro h
    obtain ⟨u, hu, he⟩ := List.mem_map.1 h
    rw [← emb_inj he]; exact hu
  · exact fun h => List.mem_map.2 ⟨t, h, rfl⟩

/-- the clean text: what it means, spacing -/
theorem hclean_means {σ : Side} {ts : List Tok} {b : Bool} (h : Means σ ts b) (hs : NoAdj (ts.map isNum)) (hrp : Tok.rp ∈ ts) :
    ∃ us, hremoveRedundant (ts.map emb) = us.map emb ∧ Means σ us b ∧ NoAdj (us.map isNum) := by
  have hm := removeRedundant_means h
  have hn : NoAdj ((removeRedundant ts).map isNum) := by rw [removeRedundant_isNum]; exact hs
  have hrp' : HTok.rp ∈ ts.map emb := (mem_emb (t := .rp)).2 hrp
  have hh : HTok.hash ∉ (removeRedundant ts).map emb := by
    intro hc
    obtain ⟨t, -, ht⟩ := List.mem_map.1 hc
    exact emb_ne_hash t ht
  unfold hremoveRedundant
  rw [if_neg (by simpa using hrp'), hclean_emb]
  by_cases hc : Tok.colon ∈ removeRedundant ts
  · refine ⟨removeRedundant ts, ?_, hm, hn⟩
    have : HTok.colon ∈ (removeRedundant ts).map emb := (mem_emb (t := .colon)).2 hc
    simp only [this, not_true, false_and, if_false]
  · have hc' : HTok.colon ∉ (removeRedundant ts).map emb := fun h => hc ((mem_emb (t := .colon)).1 h)
    obtain ⟨h1, h2⟩ := clean_noParen h hc
    have he := Reads.ends hm
    refine ⟨endParenT (startParenT (removeRedundant ts)), ?_, ?_, noAdj_endParen (noAdj_startParen hn)⟩
    · simp only [hc', hh, not_false_eq_true, and_self, if_true]
      rw [startParen_emb, endParen_emb]
    · have e1 : solid (startParenT (removeRedundant ts)) = .lp :: solid (removeRedundant ts) :=
        solid_startParen (by rw [← headT_solid]; exact he.2.1) h1
      have e2 : Tok.rp ∉ startParenT (removeRedundant ts) := by
        intro hr
        have : Tok.rp ∈ solid (startParenT (removeRedundant ts)) := by simp [solid, hr]
        rw [e1] at this
        simp [solid] at this
        exact h2 this
      unfold Means at hm ⊢
      rw [solid_endParen _ e2, e1]
      · have := Reads.single (Reads.one (Reads.paren hm))
        simpa using this
      · rw [e1]
        have := lastT_append [Tok.lp] he.1
        rw [List.singleton_append] at this
        rw [this]; exact he.2.2

theorem means_ne_nil {σ : Side} {ts : List Tok} {b : Bool} (h : Means σ ts b) : ts ≠ [] := by
  rintro rfl
  exact (Reads.ends h).1 rfl

theorem complementary_spec {σ : Side} {ts : List Tok} {b : Bool} (h : Means σ ts b) (hs : NoAdj (ts.map isNum)) :
    ∃ us, complementary (ts.map emb) = .ok (us.map emb) ∧ Reads σ .factor (solid us) (!b) ∧ NoAdj (us.map isNum) ∧
      HeadFree us ∧ LastFree us := by
  have hne : ts.map emb ≠ [] := by simpa using means_ne_nil h
  have he := Reads.ends h
  -- outer parentheses
  have hh : headT ts = true := by rw [← headT_solid]; exact he.2.1
  have e1 : solid (putRightT (putLeftT ts)) = .lp :: (solid ts ++ [.rp]) := by
    rw [solid_putRight, solid_putLeft hh]; rfl
  have n1 : NoAdj ((putRightT (putLeftT ts)).map isNum) := noAdj_putRight (noAdj_putLeft hs)
  -- exchange of the operators
  have e2 : Means (opp σ) (dualB (putRightT (putLeftT ts))) (!b) := by
    unfold Means
    rw [solid_dualB, e1]
    have := dual_reads (Reads.paren h)
    exact .single this
  have n2 : NoAdj ((dualB (putRightT (putLeftT ts))).map isNum) := noAdj_dualB n1
  have hrp : Tok.rp ∈ dualB (putRightT (putLeftT ts)) := by
    have : Tok.rp ∈ solid (dualB (putRightT (putLeftT ts))) := by
      rw [solid_dualB, e1]
      have e : dualB (.lp :: (solid ts ++ [.rp])) = .lp :: (dualB (solid ts) ++ [.rp]) := by
        have h1 : dualB (solid ts ++ [.rp]) = dualB (solid ts) ++ [.rp] := by
          rw [dualB_append h.solid_eq he.1]
          simp [headT, opensT, dualB, closesT]
        simp only [dualB, closesT, Bool.false_and, Bool.false_eq_true, if_false, h1]
      rw [e]; simp
    exact (List.mem_filter.1 this).1
  obtain ⟨us, h3, h4, n3⟩ := hclean_means e2 n2 hrp
  -- signs
  have h5 : Means σ (us.map negT) (!b) := by
    unfold Means
    rw [solid_neg]
    exact reads_neg h4
  have n5 : NoAdj ((us.map negT).map isNum) := by rw [isNum_neg]; exact n3
  have hh5 : headT (us.map negT) = true := by rw [← headT_solid]; exact (Reads.ends h5).2.1
  have e6 : solid (putRightT (putLeftT (us.map negT))) = .lp :: (solid (us.map negT) ++ [.rp]) := by
    rw [solid_putRight, solid_putLeft hh5]; rfl
  refine ⟨putRightT (putLeftT (us.map negT)), ?_, ?_, noAdj_putRight (noAdj_putLeft n5),
    headFree_putRight (headFree_putLeft _), lastFree_putRight _⟩
  · unfold complementary
    rw [if_neg hne]
    dsimp only
    rw [putLeft_emb, putRight_emb, putAmp_eq _ ((spaced_iff _).2 n1), swap_emb, h3, chgSign_emb, putLeft_emb, putRight_emb]
    intro t ht
    obtain ⟨u, -, rfl⟩ := List.mem_map.1 ht
    exact emb_ne_amp u
  · rw [e6]
    exact .paren h5

end Geouned.Rev
