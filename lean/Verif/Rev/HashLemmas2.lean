import Verif.Rev.HashLemmas
/-! Lemmas for `complementary`: the `&`, the exchange of the operators, the signs -/
namespace Geouned.Rev
open Geouned.Text

/-! ### the `&` -/

/-- `&` after every number followed by blanks and a number -/
def ampN : List HTok → List HTok
  | [] => []
  | .num n :: ts => if numNext true ts then .num n :: .amp :: ampN ts else .num n :: ampN ts
  | t :: ts => t :: ampN ts

theorem numNext_ampBlank : ∀ (ts : List HTok) (b f : Bool), numNext b (ampBlank f ts) = numNext b ts
  | [], b, f => by cases b <;> cases f <;> rfl
  | t :: ts, b, f => by
    have ih := numNext_ampBlank ts
    cases t with
    | num n =>
      unfold ampBlank
      split <;> cases b <;> simp [numNext]
    | blank => cases b <;> simp [ampBlank, numNext, ih]
    | _ => cases b <;> simp [ampBlank, numNext]

/-- two passes put all the `&` between numbers -/
theorem ampBlank_twice : ∀ (ts : List HTok) (f g : Bool), (f || g) = true → ampBlank g (ampBlank f ts) = ampN ts
  | [], f, g, _ => by cases f <;> cases g <;> rfl
  | t :: ts, f, g, hfg => by
    have ih := ampBlank_twice ts
    cases t with
    | num n =>
      cases hn : numNext true ts with
      | false => simp [ampBlank, ampN, hn, numNext_ampBlank, ih]
      | true =>
        by_cases hd : (f || decide (10 ≤ n.natAbs)) = true
        · have h1 : numNext true (HTok.amp :: ampBlank false ts) = false := rfl
          simp only [ampBlank, ampN, hn, hd, Bool.and_true, if_true, h1, Bool.and_false, if_false, Bool.false_eq_true]
          simp [ih false true]
        · have hd' : (f || decide (10 ≤ n.natAbs)) = false := by simpa using hd
          have hg : g = true := by
            simp only [Bool.or_eq_false_iff] at hd'
            simpa [hd'.1] using hfg
          subst hg
          simp only [ampBlank, ampN, hn, hd', Bool.and_true, if_true, Bool.false_eq_true, if_false, numNext_ampBlank, Bool.true_or]
          simp [ih true false]
    | blank => simp [ampBlank, ampN, ih f g hfg]
    | _ => simp [ampBlank, ampN, ih true true]

/-- the next token that is not a blank -/
def headS (p : HTok → Bool) : List HTok → Bool
  | .blank :: ts => headS p ts
  | t :: _ => p t
  | [] => false

def opens : HTok → Bool
  | .num _ => true
  | .lp => true
  | _ => false

def closes : HTok → Bool
  | .num _ => true
  | .rp => true
  | _ => false

/-- `&` wherever an intersection is meant -/
def ampAll : List HTok → List HTok
  | [] => []
  | t :: ts => if closes t && headS opens ts then t :: .amp :: ampAll ts else t :: ampAll ts

theorem numNext_false (ts : List HTok) : numNext false ts = headS isNumH ts := by
  induction ts with
  | nil => rfl
  | cons t ts ih => cases t <;> simp [numNext, headS, isNumH, ih]

theorem lpNext_eq (ts : List HTok) : lpNext ts = headS (fun t => t = .lp) ts := by
  induction ts with
  | nil => rfl
  | cons t ts ih => cases t <;> simp [lpNext, headS, ih]

theorem opens_eq (ts : List HTok) : headS opens ts = (headS isNumH ts || headS (fun t => t = .lp) ts) := by
  induction ts with
  | nil => rfl
  | cons t ts ih => cases t <;> simp [headS, opens, isNumH, ih]

theorem headS_ampN (p : HTok → Bool) (ts : List HTok) : headS p (ampN ts) = headS p ts := by
  induction ts with
  | nil => rfl
  | cons t ts ih =>
    cases t with
    | num n => unfold ampN; split <;> simp [headS]
    | blank => simp [ampN, headS, ih]
    | _ => simp [ampN, headS]

theorem headS_ampCls (p : HTok → Bool) (ts : List HTok) : headS p (ampCls ts) = headS p ts := by
  induction ts with
  | nil => rfl
  | cons t ts ih =>
    cases t with
    | rp => unfold ampCls; split <;> simp [headS]
    | blank => simp [ampCls, headS, ih]
    | _ => simp [ampCls, headS]

theorem headS_ampOpn (p : HTok → Bool) (ts : List HTok) : headS p (ampOpn ts) = headS p ts := by
  induction ts with
  | nil => rfl
  | cons t ts ih =>
    cases t with
    | num n => unfold ampOpn; split <;> simp [headS]
    | blank => simp [ampOpn, headS, ih]
    | _ => simp [ampOpn, headS]

theorem spaced_tail {t : HTok} {ts : List HTok} (h : Spaced (t :: ts)) : Spaced ts := by
  cases ts with
  | nil => trivial
  | cons u ts => exact h.2

theorem numNext_spaced {n : Int} {ts : List HTok} (h : Spaced (.num n :: ts)) : numNext true ts = headS isNumH ts := by
  cases ts with
  | nil => rfl
  | cons t ts =>
    cases t with
    | num m => exact (h.1 ⟨rfl, rfl⟩).elim
    | blank => simp [numNext, headS, numNext_false]
    | _ => simp [numNext, headS, isNumH]

theorem putAmp_eq (ts : List HTok) (hs : Spaced ts) (ha : ∀ t ∈ ts, t ≠ .amp) : putAmp ts = ampAll ts := by
  unfold putAmp
  rw [ampBlank_twice ts true true rfl]
  induction ts with
  | nil => rfl
  | cons t ts ih =>
    have ih := ih (spaced_tail hs) fun u hu => ha u (List.mem_cons_of_mem _ hu)
    cases t with
    | num n =>
      have h1 := numNext_spaced hs
      have h2 : lpNext (ampCls (ampN ts)) = headS (fun t => t = .lp) ts := by rw [lpNext_eq, headS_ampCls, headS_ampN]
      simp only [ampN, ampAll, closes, Bool.true_and, opens_eq, h1]
      cases hn : headS isNumH ts with
      | true =>
        simp [ampCls, ampOpn, lpNext, ampCop, ih]
      | false =>
        simp only [Bool.false_eq_true, if_false, ampCls, ampOpn, h2, Bool.false_or]
        split <;> simp [ampCop, ih]
    | rp =>
      have h1 : numNext false (ampN ts) = headS isNumH ts := by rw [numNext_false, headS_ampN]
      have h2 : lpNext (ampOpn (ampCls (ampN ts))) = headS (fun t => t = .lp) ts := by
        rw [lpNext_eq, headS_ampOpn, headS_ampCls, headS_ampN]
      simp only [ampN, ampAll, closes, Bool.true_and, opens_eq, ampCls, h1]
      cases hn : headS isNumH ts with
      | true =>
        simp only [if_true, ampOpn, ampCop, lpNext, ih, Bool.true_or]
        simp
      | false =>
        simp only [Bool.false_eq_true, if_false, ampOpn, ampCop, h2, Bool.false_or]
        split <;> simp [ih]
    | lp => simp [ampN, ampAll, closes, ampCls, ampOpn, ampCop, ih]
    | colon => simp [ampN, ampAll, closes, ampCls, ampOpn, ampCop, ih]
    | blank => simp [ampN, ampAll, closes, ampCls, ampOpn, ampCop, ih]
    | hash => simp [ampN, ampAll, closes, ampCls, ampOpn, ampCop, ih]
    | amp => exact (ha _ (by simp) rfl).elim

/-! ### the exchange of the operators -/

def opensT : Tok → Bool
  | .num _ => true
  | .lp => true
  | _ => false

def closesT : Tok → Bool
  | .num _ => true
  | .rp => true
  | _ => false

def headT : List Tok → Bool
  | .blank :: ts => headT ts
  | t :: _ => opensT t
  | [] => false

/-- exchange of `:` and the intersection, in one step -/
def dualB : List Tok → List Tok
  | [] => []
  | .colon :: ts => .rp :: .lp :: dualB ts
  | t :: ts => if closesT t && headT ts then t :: .colon :: dualB ts else t :: dualB ts

theorem headS_emb (ts : List Tok) : headS opens (ts.map emb) = headT ts := by
  induction ts with
  | nil => rfl
  | cons t ts ih => cases t <;> simp [headS, headT, opens, opensT, emb, ih]

theorem swap_emb (ts : List Tok) : swapOps (ampAll (ts.map emb)) = (dualB ts).map emb := by
  induction ts with
  | nil => rfl
  | cons t ts ih =>
    have hh := headS_emb ts
    cases t with
    | colon => simp [ampAll, closes, emb, swapOps, dualB, ih]
    | num n =>
      simp only [List.map_cons, emb, ampAll, closes, dualB, closesT, hh]
      cases headT ts <;> simp [swapOps, ih, emb]
    | rp =>
      simp only [List.map_cons, emb, ampAll, closes, dualB, closesT, hh]
      cases headT ts <;> simp [swapOps, ih, emb]
    | lp => simp [ampAll, closes, emb, swapOps, dualB, closesT, ih]
    | blank => simp [ampAll, closes, emb, swapOps, dualB, closesT, ih]

theorem headT_solid (ts : List Tok) : headT (solid ts) = headT ts := by
  induction ts with
  | nil => rfl
  | cons t ts ih =>
    rw [solid_cons]
    cases t <;> simp [headT, ih]

theorem solid_dualB (ts : List Tok) : solid (dualB ts) = dualB (solid ts) := by
  induction ts with
  | nil => rfl
  | cons t ts ih =>
    cases t with
    | blank => simp [dualB, closesT, solid_cons, ih]
    | colon => simp [dualB, solid_cons, ih]
    | num n =>
      rw [solid_cons]
      simp only [dualB, closesT, reduceCtorEq, if_false, List.singleton_append, headT_solid]
      cases headT ts <;> simp [solid_cons, ih]
    | rp =>
      rw [solid_cons]
      simp only [dualB, closesT, reduceCtorEq, if_false, List.singleton_append, headT_solid]
      cases headT ts <;> simp [solid_cons, ih]
    | lp =>
      rw [solid_cons]
      simp [dualB, closesT, solid_cons, ih]

/-- the last token -/
def lastT : List Tok → Bool
  | [] => false
  | [t] => closesT t
  | _ :: u :: ts => lastT (u :: ts)

theorem headT_append {t u : List Tok} (ht : solid t = t) (hne : t ≠ []) : headT (t ++ u) = headT t := by
  cases t with
  | nil => exact (hne rfl).elim
  | cons x t =>
    cases x with
    | blank =>
      have : Tok.blank ∈ solid (Tok.blank :: t) := by rw [ht]; simp
      simp [solid] at this
    | _ => rfl

theorem dualB_cons (x : Tok) (z : List Tok) :
    dualB (x :: z) = (if x = .colon then [.rp, .lp] else if closesT x && headT z then [x, .colon] else [x]) ++ dualB z := by
  cases x with
  | colon => simp [dualB]
  | _ => simp only [dualB, reduceCtorEq, if_false]; split <;> simp_all

theorem dualB_append {u : List Tok} : ∀ {t : List Tok}, solid t = t → t ≠ [] →
    dualB (t ++ u) = dualB t ++ (if lastT t && headT u then .colon :: dualB u else dualB u)
  | [], _, h => (h rfl).elim
  | [x], _, _ => by cases x <;> simp [dualB, lastT, closesT, headT] <;> split <;> simp
  | x :: y :: t, hs, _ => by
    have hx : x ≠ .blank := by
      intro e
      have : Tok.blank ∈ solid (x :: y :: t) := by rw [hs]; simp [e]
      simp [solid] at this
    have hs' : solid (y :: t) = y :: t := by
      rw [solid_cons, if_neg hx] at hs
      simpa using hs
    have ih := dualB_append (u := u) hs' (by simp)
    have hh : headT (y :: (t ++ u)) = headT (y :: t) := headT_append (u := u) hs' (by simp)
    have hl : lastT (x :: y :: t) = lastT (y :: t) := rfl
    rw [hl, List.cons_append, dualB_cons, ih, dualB_cons x (y :: t), List.cons_append, hh]
    simp only [List.append_assoc]

theorem lastT_append : ∀ {u : List Tok} (t : List Tok), u ≠ [] → lastT (t ++ u) = lastT u
  | _, [], _ => rfl
  | u, [x], h => by
    cases u with
    | nil => exact (h rfl).elim
    | cons y u => rfl
  | u, x :: y :: t, h => by
    simp only [List.cons_append, lastT]
    exact lastT_append (y :: t) h

theorem Reads.ends {σ r t b} (h : Reads σ r t b) : t ≠ [] ∧ headT t = true ∧ lastT t = true := by
  induction h with
  | num n _ => simp [headT, opensT, lastT, closesT]
  | @paren t b _ ih =>
    refine ⟨by simp, rfl, ?_⟩
    rw [← List.cons_append]
    rw [lastT_append (.lp :: t) (u := [Tok.rp]) (by simp)]
    rfl
  | one _ ih => exact ih
  | @and t u b c h1 _ ih1 ih2 =>
    refine ⟨by simp [ih1.1], ?_, ?_⟩
    · rw [headT_append h1.solid_eq ih1.1]; exact ih1.2.1
    · rw [lastT_append t ih2.1]; exact ih2.2.2
  | single _ ih => exact ih
  | @or t u b c h1 _ ih1 ih2 =>
    refine ⟨by simp, ?_, ?_⟩
    · rw [headT_append h1.solid_eq ih1.1]; exact ih1.2.1
    · rw [lastT_append t (by simp)]
      cases u with
      | nil => exact (ih2.1 rfl).elim
      | cons y u => exact ih2.2.2

/-- all the sides exchanged -/
def opp (σ : Side) : Side := fun k => !(σ k)

theorem lit_opp (σ : Side) (n : Int) : lit (opp σ) n = !(lit σ n) := by
  unfold lit opp
  split <;> simp

theorem lit_neg (σ : Side) {n : Int} (h : n ≠ 0) : lit σ (-n) = lit (opp σ) n := by
  rw [lit_opp]
  unfold lit
  by_cases h1 : n < 0
  · have h2 : ¬ (-n < 0) := by omega
    rw [if_neg h2, if_pos h1, Int.natAbs_neg]
    simp
  · have h2 : -n < 0 := by omega
    rw [if_pos h2, if_neg h1, Int.natAbs_neg]

/-- what the exchange of the operators makes of a text of each category -/
def DualReads (σ : Side) : Rank → List Tok → Bool → Prop
  | .factor, t, b => Reads (opp σ) .inter (dualB t) (!b)
  | .inter, t, b => Reads (opp σ) .union (dualB t) (!b)
  | .union, t, b => Reads (opp σ) .inter (.lp :: (dualB t ++ [.rp])) (!b)

theorem dual_reads {σ r t b} (h : Reads σ r t b) : DualReads σ r t b := by
  induction h with
  | num n hn =>
    have e : (!(lit σ n)) = lit (opp σ) n := (lit_opp σ n).symm
    simp only [DualReads, dualB, closesT, headT, Bool.and_false, Bool.false_eq_true, if_false]
    rw [e]
    exact .one (.num n hn)
  | @paren t b ht ih =>
    have he := Reads.ends ht
    have e : dualB (.lp :: (t ++ [.rp])) = .lp :: (dualB t ++ [.rp]) := by
      have h1 : dualB (t ++ [.rp]) = dualB t ++ [.rp] := by
        rw [dualB_append ht.solid_eq he.1]
        simp [headT, opensT, dualB, closesT]
      simp only [dualB, closesT, Bool.false_and, Bool.false_eq_true, if_false, h1]
    simp only [DualReads, e]
    exact ih
  | one _ ih => exact .single ih
  | @and t u b c h1 h2 ih1 ih2 =>
    have e1 := Reads.ends h1
    have e2 := Reads.ends h2
    simp only [DualReads] at ih1 ih2 ⊢
    rw [dualB_append h1.solid_eq e1.1, e1.2.2, e2.2.1]
    simp only [Bool.and_true, if_true, Bool.not_and]
    exact .or ih1 ih2
  | single _ ih => exact .one (.paren ih)
  | @or t u b c h1 h2 ih1 ih2 =>
    have e1 := Reads.ends h1
    simp only [DualReads] at ih1 ih2 ⊢
    rw [dualB_append h1.solid_eq e1.1]
    simp only [headT, opensT, Bool.and_false, Bool.false_eq_true, if_false, dualB, Bool.not_or]
    have := Reads.and (Reads.paren ih1) ih2
    simpa using this

/-- change of all the signs -/
def negT : Tok → Tok
  | .num n => .num (-n)
  | t => t

theorem reads_neg {σ r t b} (h : Reads (opp σ) r t b) : Reads σ r (t.map negT) b := by
  induction h with
  | num n hn =>
    rw [← lit_neg σ hn]
    exact .num (-n) (by omega)
  | paren _ ih => simpa [negT] using Reads.paren ih
  | one _ ih => exact .one ih
  | and _ _ ih1 ih2 => simpa using Reads.and ih1 ih2
  | single _ ih => exact .single ih
  | or _ _ ih1 ih2 => simpa [negT] using Reads.or ih1 ih2

theorem chgSign_emb (ts : List Tok) : (ts.map emb).map chgSign = (ts.map negT).map emb := by
  induction ts with
  | nil => rfl
  | cons t ts ih =>
    simp only [List.map_cons, ih]
    cases t <;> rfl

theorem solid_neg (ts : List Tok) : solid (ts.map negT) = (solid ts).map negT := by
  induction ts with
  | nil => rfl
  | cons t ts ih =>
    simp only [List.map_cons, solid_cons, ih]
    cases t <;> simp [negT]

end Geouned.Rev
