import Verif.Rev.Cards
import Verif.Rev.HashProps
import Verif.Text.Lemmas4
/-!
# C68: lemmas on lists of cells, numbers of a text
-/
namespace Geouned.Rev
open Geouned.Text

section
variable {P : Type}

/-! ## lists of cells -/

theorem cellAt_mem {cs : List (DCard P)} {n : Nat} {c : DCard P} (h : cellAt cs n = some c) : c ∈ cs ∧ c.name = n := by
  unfold cellAt at h
  have h1 := List.mem_of_find?_eq_some h
  have h2 := List.find?_some h
  exact ⟨h1, by simpa using h2⟩

theorem cellAt_of_mem {cs : List (DCard P)} (hn : (cs.map (·.name)).Nodup) {c : DCard P} (h : c ∈ cs) : cellAt cs c.name = some c := by
  induction cs with
  | nil => cases h
  | cons x cs ih =>
    rw [List.map_cons, List.nodup_cons] at hn
    unfold cellAt
    rw [List.find?_cons]
    rcases List.mem_cons.1 h with rfl | h
    · simp
    · have : ¬ x.name = c.name := fun e => hn.1 (List.mem_map.2 ⟨c, h, e.symm⟩)
      simp only [this, decide_false]
      exact ih hn.2 h

theorem cellAt_some {cs : List (DCard P)} {n : Nat} (h : n ∈ cs.map (·.name)) : ∃ c, cellAt cs n = some c := by
  obtain ⟨c, h1, h2⟩ := List.mem_map.1 h
  cases e : cellAt cs n with
  | some d => exact ⟨d, rfl⟩
  | none =>
    unfold cellAt at e
    rw [List.find?_eq_none] at e
    exact absurd h2 (by simpa using e c h1)

theorem setCell_names (cs : List (DCard P)) (c : DCard P) : (setCell cs c).map (·.name) = cs.map (·.name) := by
  unfold setCell
  rw [List.map_map]
  apply List.map_congr_left
  intro x _
  simp only [Function.comp]
  split <;> simp_all

theorem cellAt_set (cs : List (DCard P)) (c : DCard P) (n : Nat) :
    cellAt (setCell cs c) n = if n = c.name then (cellAt cs n).map (fun _ => c) else cellAt cs n := by
  induction cs with
  | nil => simp [setCell, cellAt]
  | cons x cs ih =>
    unfold setCell cellAt at *
    rw [List.map_cons, List.find?_cons, List.find?_cons]
    by_cases h1 : x.name = c.name
    · simp only [h1, if_true]
      by_cases h2 : c.name = n
      · subst h2; simp
      · simp only [h2, decide_false]
        rw [ih]
    · simp only [h1, if_false]
      by_cases h2 : x.name = n
      · subst h2; simp [h1]
      · simp only [h2, decide_false]
        rw [ih]

theorem mem_names {cs : List (DCard P)} {n : Nat} {c : DCard P} (h : cellAt cs n = some c) : n ∈ cs.map (·.name) := by
  obtain ⟨h1, rfl⟩ := cellAt_mem h
  exact List.mem_map.2 ⟨c, h1, rfl⟩

/-! ## numbers of a text -/

/-- surface numbers of a text, as `renameLoop` finds them -/
def surfNums : Bool → List HTok → List Nat
  | _, [] => []
  | h, .num n :: ts => if h ∧ 0 ≤ n then surfNums false ts else n.natAbs :: surfNums false ts
  | h, t :: ts => surfNums (t = .hash || (h && t = .blank)) ts

/-- all numbers are in `A` -/
def NumsIn (A : Nat → Prop) (ts : List HTok) : Prop := ∀ n, HTok.num n ∈ ts → A n.natAbs

variable {A : Nat → Prop}

theorem NumsIn.append {a b : List HTok} (h1 : NumsIn A a) (h2 : NumsIn A b) : NumsIn A (a ++ b) := by
  intro n hn
  rcases List.mem_append.1 hn with h | h
  · exact h1 n h
  · exact h2 n h

theorem NumsIn.left {a b : List HTok} (h : NumsIn A (a ++ b)) : NumsIn A a := fun n hn => h n (List.mem_append_left _ hn)
theorem NumsIn.right {a b : List HTok} (h : NumsIn A (a ++ b)) : NumsIn A b := fun n hn => h n (List.mem_append_right _ hn)
theorem NumsIn.tail {t : HTok} {b : List HTok} (h : NumsIn A (t :: b)) : NumsIn A b := fun n hn => h n (List.mem_cons_of_mem _ hn)
theorem NumsIn.nil : NumsIn A [] := fun _ h => by cases h
theorem NumsIn.cons {t : HTok} {b : List HTok} (h1 : ∀ n, t = .num n → A n.natAbs) (h : NumsIn A b) : NumsIn A (t :: b) := by
  intro n hn
  rcases List.mem_cons.1 hn with h' | h'
  · exact h1 n h'.symm
  · exact h n h'
theorem NumsIn.head {t : HTok} {b : List HTok} (h : NumsIn A (t :: b)) : ∀ n, t = .num n → A n.natAbs := fun n e => h n (by simp [e])

theorem nums_putLeft {ts : List HTok} (h : NumsIn A ts) : NumsIn A (putLeft ts) := by
  induction ts with
  | nil => exact h
  | cons t ts ih =>
    unfold putLeft
    split
    · exact .cons (by simp) h
    · exact .cons (by simp) h
    · exact .cons (by simp) h
    · exact .cons h.head (ih h.tail)

theorem nums_putRight {ts : List HTok} (h : NumsIn A ts) : NumsIn A (putRight ts) := by
  induction ts with
  | nil => exact .cons (by simp) .nil
  | cons t ts ih =>
    unfold putRight
    split
    · exact .cons (by simp) h
    · exact .cons h.head (ih h.tail)

theorem nums_ampBlank {ts : List HTok} : ∀ f, NumsIn A ts → NumsIn A (ampBlank f ts) := by
  induction ts with
  | nil => intro f _; exact .nil
  | cons t ts ih =>
    intro f h
    cases t with
    | num n =>
      unfold ampBlank
      split
      · exact .cons h.head (.cons (by simp) (ih _ h.tail))
      · exact .cons h.head (ih _ h.tail)
    | _ => exact .cons (by simp) (ih _ h.tail)

theorem nums_ampCls {ts : List HTok} (h : NumsIn A ts) : NumsIn A (ampCls ts) := by
  induction ts with
  | nil => exact .nil
  | cons t ts ih =>
    cases t with
    | rp =>
      unfold ampCls
      split
      · exact .cons (by simp) (.cons (by simp) (ih h.tail))
      · exact .cons (by simp) (ih h.tail)
    | _ => exact .cons h.head (ih h.tail)

theorem nums_ampOpn {ts : List HTok} (h : NumsIn A ts) : NumsIn A (ampOpn ts) := by
  induction ts with
  | nil => exact .nil
  | cons t ts ih =>
    cases t with
    | num n =>
      unfold ampOpn
      split
      · exact .cons h.head (.cons (by simp) (ih h.tail))
      · exact .cons h.head (ih h.tail)
    | _ => exact .cons h.head (ih h.tail)

theorem nums_ampCop {ts : List HTok} (h : NumsIn A ts) : NumsIn A (ampCop ts) := by
  induction ts with
  | nil => exact .nil
  | cons t ts ih =>
    cases t with
    | rp =>
      unfold ampCop
      split
      · exact .cons (by simp) (.cons (by simp) (ih h.tail))
      · exact .cons (by simp) (ih h.tail)
    | _ => exact .cons h.head (ih h.tail)

theorem nums_swapOps {ts : List HTok} (h : NumsIn A ts) : NumsIn A (swapOps ts) := by
  induction ts with
  | nil => exact .nil
  | cons t ts ih =>
    cases t with
    | colon => exact .cons (by simp) (.cons (by simp) (ih h.tail))
    | amp => exact .cons (by simp) (ih h.tail)
    | _ => exact .cons h.head (ih h.tail)

theorem nums_chgSign {ts : List HTok} (h : NumsIn A ts) : NumsIn A (ts.map chgSign) := by
  intro n hn
  obtain ⟨t, h1, h2⟩ := List.mem_map.1 hn
  cases t with
  | num m =>
    simp only [chgSign, HTok.num.injEq] at h2
    subst h2
    rw [Int.natAbs_neg]
    exact h m h1
  | _ => cases h2

theorem nums_startParen {ts : List HTok} (h : NumsIn A ts) : NumsIn A (startParen ts) := by
  induction ts with
  | nil => exact .nil
  | cons t ts ih =>
    cases t with
    | blank => exact .cons (by simp) (ih h.tail)
    | num n => exact .cons (by simp) h
    | _ => exact h

theorem nums_endParen {ts : List HTok} (h : NumsIn A ts) : NumsIn A (endParen ts) := by
  induction ts with
  | nil => exact .nil
  | cons t ts ih =>
    cases t with
    | num n =>
      unfold endParen
      split
      · exact .cons h.head (.cons (by simp) h.tail)
      · exact .cons h.head (ih h.tail)
    | _ => exact .cons h.head (ih h.tail)

theorem hspan_eq : ∀ {w i p : List HItem}, hspan w = some (i, p) → w = i ++ .tok .rp :: p
  | [], i, p, h => by simp [hspan] at h
  | x :: r, i, p, h => by
    by_cases h1 : x = .tok .rp
    · subst h1
      simp only [hspan, Option.some.injEq, Prod.mk.injEq] at h
      obtain ⟨rfl, rfl⟩ := h
      rfl
    · by_cases h2 : x = .tok .lp
      · subst h2; simp [hspan] at h
      · rw [hspan.eq_def] at h
        split at h
        · rename_i heq; cases heq
        · rename_i heq; cases heq; exact absurd rfl h1
        · rename_i heq; cases heq; exact absurd rfl h2
        · rename_i heq
          cases heq
          cases e : hspan r with
          | none => simp [e] at h
          | some q =>
            simp only [e, Option.map_some, Option.some.injEq, Prod.mk.injEq] at h
            obtain ⟨rfl, rfl⟩ := h
            rw [hspan_eq e]
            rfl

theorem hfind_eq : ∀ {w a i p : List HItem}, hfind w = some (a, i, p) → w = a ++ .tok .lp :: (i ++ .tok .rp :: p)
  | [], a, i, p, h => by simp [hfind] at h
  | x :: r, a, i, p, h => by
    rw [hfind.eq_def] at h
    split at h
    · rename_i heq; cases heq
    · rename_i heq
      cases heq
      split at h
      · rename_i e
        simp only [Option.some.injEq, Prod.mk.injEq] at h
        obtain ⟨rfl, rfl, rfl⟩ := h
        rw [hspan_eq e]
        rfl
      · cases e : hfind r with
        | none => simp [e] at h
        | some q =>
          simp only [e, Option.map_some, Option.some.injEq, Prod.mk.injEq] at h
          obtain ⟨rfl, rfl, rfl⟩ := h
          rw [hfind_eq e]
          rfl
    · rename_i heq
      cases heq
      cases e : hfind r with
      | none => simp [e] at h
      | some q =>
        simp only [e, Option.map_some, Option.some.injEq, Prod.mk.injEq] at h
        obtain ⟨rfl, rfl, rfl⟩ := h
        rw [hfind_eq e]
        rfl

theorem horigs_append (a b : List HItem) : horigs (a ++ b) = horigs a ++ horigs b := by simp [horigs]
theorem horigs_cons (x : HItem) (b : List HItem) : horigs (x :: b) = x.orig ++ horigs b := by simp [horigs]

theorem nums_hmasked {l i r : List HItem} (h : NumsIn A (horigs i)) : NumsIn A (horigs (hmasked l i r)) := by
  unfold hmasked
  split
  · rw [horigs_cons, horigs_append]
    exact .append (.cons (by simp) .nil) (.append h (.cons (by simp) .nil))
  · simp only [horigs, List.flatMap_cons, List.flatMap_nil, HItem.orig, List.append_nil]
    exact .cons (by simp) (.append h (.cons (by simp) .nil))

theorem nums_hpass : ∀ (k : Nat) (d r : List HItem), NumsIn A (horigs (d ++ r)) → NumsIn A (horigs (hpass k d r))
  | 0, d, r, h => h
  | k + 1, d, r, h => by
    unfold hpass
    split
    · exact h
    · rename_i a i p e
      apply nums_hpass
      rw [hfind_eq e] at h
      simp only [horigs_append, horigs_cons] at h ⊢
      have h1 := h.left
      have h2 := h.right.left
      have h3 := h.right.right.right.left
      have h4 := h.right.right.right.right.right
      exact .append (.append (.append h1 h2) (nums_hmasked h3)) h4

theorem nums_hpasses : ∀ (k : Nat) (w : List HItem), NumsIn A (horigs w) → NumsIn A (horigs (hpasses k w))
  | 0, w, h => h
  | k + 1, w, h => by
    unfold hpasses
    split
    · exact h
    · exact nums_hpasses k _ (nums_hpass _ _ _ h)

theorem horigs_tok (ts : List HTok) : horigs (ts.map .tok) = ts := by
  induction ts with
  | nil => rfl
  | cons t ts ih => rw [List.map_cons, horigs_cons, ih]; rfl

theorem nums_hremoveRedundant {ts : List HTok} (h : NumsIn A ts) : NumsIn A (hremoveRedundant ts) := by
  unfold hremoveRedundant
  split
  · exact h
  · have := nums_hpasses (ts.length + 1) (ts.map .tok) (by rw [horigs_tok]; exact h)
    dsimp only
    split
    · exact nums_endParen (nums_startParen this)
    · exact this

theorem nums_complementary {ts us : List HTok} (h : NumsIn A ts) (e : complementary ts = .ok us) : NumsIn A us := by
  unfold complementary at e
  split at e
  · cases e
  · cases e
    exact nums_putRight (nums_putLeft (nums_chgSign (nums_hremoveRedundant (nums_swapOps
      (nums_ampCop (nums_ampOpn (nums_ampCls (nums_ampBlank _ (nums_ampBlank _ (nums_putRight (nums_putLeft h)))))))))))

/-- cells mentioned -/
def hashNums : List HTok → List Nat
  | [] => []
  | .hash :: ts => (match dropBlanks ts with
    | .num n :: _ => if n < 0 then [] else [n.toNat]
    | _ => []) ++ hashNums ts
  | _ :: ts => hashNums ts

theorem hsolid_dropBlanks (ts : List HTok) : hsolid (dropBlanks ts) = hsolid ts := by
  induction ts with
  | nil => rfl
  | cons t ts ih => cases t <;> simp_all [dropBlanks, hsolid]

theorem hashNums_mentions {ts : List HTok} {n : Nat} (h : n ∈ hashNums ts) : mentions ts n := by
  induction ts with
  | nil => cases h
  | cons t ts ih =>
    have lift : n ∈ hashNums ts → mentions (t :: ts) n := by
      intro h
      obtain ⟨a, b, e⟩ := ih h
      refine ⟨(if t = .blank then [] else [t]) ++ a, b, ?_⟩
      rw [hsolid_cons, e, List.append_assoc]
    cases t with
    | hash =>
      unfold hashNums at h
      rcases List.mem_append.1 h with h | h
      · split at h
        · rename_i m r e
          split at h
          · cases h
          · rename_i hm
            have hn : n = m.toNat := by simpa using h
            refine ⟨[], hsolid r, ?_⟩
            have e2 := hsolid_dropBlanks ts
            rw [e, hsolid_cons] at e2
            rw [hsolid_cons, ← e2, hn]
            simp
            omega
        · cases h
      · exact lift h
    | _ => exact lift h

theorem removeText_drop {ct : Nat → M (List HTok)} : ∀ {ts us : List HTok}, removeText ct ts = .ok us → ∀ {n : Int} {ts'}, dropBlanks ts = .num n :: ts' →
    ∃ us', dropBlanks us = .num n :: us' ∧ removeText ct ts' = .ok us'
  | [], us, h, n, ts', e => by simp [dropBlanks] at e
  | .blank :: ts, us, h, n, ts', e => by
    simp only [dropBlanks] at e
    cases h1 : removeText ct ts with
    | error x => simp [removeText, h1, bind, Except.bind] at h
    | ok r =>
      simp [removeText, h1, bind, Except.bind] at h
      subst h
      exact removeText_drop h1 e
  | .num m :: ts, us, h, n, ts', e => by
    simp only [dropBlanks, List.cons.injEq, HTok.num.injEq] at e
    obtain ⟨rfl, rfl⟩ := e
    cases h1 : removeText ct ts with
    | error x => simp [removeText, h1, bind, Except.bind] at h
    | ok r =>
      simp [removeText, h1, bind, Except.bind] at h
      subst h
      exact ⟨r, rfl, rfl⟩
  | .lp :: ts, us, h, n, ts', e => by simp [dropBlanks] at e
  | .rp :: ts, us, h, n, ts', e => by simp [dropBlanks] at e
  | .colon :: ts, us, h, n, ts', e => by simp [dropBlanks] at e
  | .hash :: ts, us, h, n, ts', e => by simp [dropBlanks] at e
  | .amp :: ts, us, h, n, ts', e => by simp [dropBlanks] at e

theorem dropBlanks_length (ts : List HTok) : (dropBlanks ts).length ≤ ts.length := by
  induction ts with
  | nil => simp [dropBlanks]
  | cons t ts ih => cases t <;> simp [dropBlanks]; omega

theorem surfNums_drop {ts : List HTok} {n : Int} {ts' : List HTok} (e : dropBlanks ts = .num n :: ts') (hn : 0 ≤ n) : surfNums true ts = surfNums false ts' := by
  induction ts with
  | nil => simp [dropBlanks] at e
  | cons t ts ih =>
    cases t with
    | blank => simp only [dropBlanks] at e; simpa [surfNums] using ih e
    | num m =>
      simp only [dropBlanks, List.cons.injEq, HTok.num.injEq] at e
      obtain ⟨rfl, rfl⟩ := e
      simp [surfNums, hn]
    | _ => simp [dropBlanks] at e

theorem surfNums_same {ts : List HTok} (e : ∀ n ts', dropBlanks ts = .num n :: ts' → n < 0) : surfNums true ts = surfNums false ts := by
  induction ts with
  | nil => rfl
  | cons t ts ih =>
    cases t with
    | blank => simp only [dropBlanks] at e; simpa [surfNums] using ih e
    | num m =>
      have := e m ts rfl
      have h2 : ¬ (0 ≤ m) := by omega
      simp [surfNums, h2]
    | _ => simp [surfNums]

theorem hashNums_drop {ts : List HTok} : hashNums (dropBlanks ts) = hashNums ts := by
  induction ts with
  | nil => rfl
  | cons t ts ih => cases t <;> simp_all [dropBlanks, hashNums]

theorem getHashCell_eq : ∀ (d : Nat) (s : List HTok) {h r : List HTok}, getHashCell d s = some (h, r) → s = h ++ r
  | d, [], h, r, e => by simp [getHashCell] at e
  | d, t :: s, h, r, e => by
    have go : ∀ d', (getHashCell d' s).map (fun p => (t :: p.1, p.2)) = some (h, r) → t :: s = h ++ r := by
      intro d' e
      cases e1 : getHashCell d' s with
      | none => simp [e1] at e
      | some q =>
        simp only [e1, Option.map_some, Option.some.injEq, Prod.mk.injEq] at e
        obtain ⟨rfl, rfl⟩ := e
        rw [getHashCell_eq d' s e1]
        rfl
    cases t with
    | lp => exact go _ e
    | rp =>
      unfold getHashCell at e
      split at e
      · simp only [Option.some.injEq, Prod.mk.injEq] at e
        obtain ⟨rfl, rfl⟩ := e
        rfl
      · exact go _ e
    | _ => exact go _ e

/-- the numbers of the text without `#` are surface numbers of the texts -/
theorem removeText_nums {ct : Nat → M (List HTok)} : ∀ (k : Nat) (ts us : List HTok), ts.length ≤ k → removeText ct ts = .ok us →
    (∀ n ∈ hashNums ts, ∀ d, ct n = .ok d → NumsIn A d) → (∀ m ∈ surfNums false ts, A m) → NumsIn A us
  | _, [], us, _, h, _, _ => by
    simp only [removeText, Except.ok.injEq] at h
    subst h
    exact .nil
  | 0, _ :: _, _, hk, _, _, _ => by simp at hk
  | k + 1, t :: ts, us, hk, h, hc, hs => by
    have hk' : ts.length ≤ k := by simpa using hk
    by_cases ht : t = .hash
    · subst ht
      cases h1 : removeText ct ts with
      | error x => simp [removeText, h1, bind, Except.bind] at h
      | ok r =>
        have hc' : ∀ n ∈ hashNums ts, ∀ d, ct n = .ok d → NumsIn A d := fun n hn => hc n (by unfold hashNums; exact List.mem_append_right _ hn)
        have hs1 : ∀ m ∈ surfNums true ts, A m := by simpa [surfNums] using hs
        simp only [removeText, h1, bind, Except.bind] at h
        have other : (∀ n ts', dropBlanks ts = .num n :: ts' → n < 0) → NumsIn A r := fun e =>
          removeText_nums k ts r hk' h1 hc' (by rw [← surfNums_same e]; exact hs1)
        split at h
        · rename_i q e
          have hr := other (by intro n ts' e'; rw [e] at e'; cases e')
          split at h
          · cases h
          · rename_i x rest e2
            have e3 := getHashCell_eq _ _ e2
            rw [e3] at hr
            cases e4 : complementary x with
            | error y => simp [e4] at h
            | ok c =>
              simp only [e4, Except.ok.injEq] at h
              subst h
              exact .append (nums_complementary hr.left e4) hr.right
        · rename_i n ts' e
          split at h
          · rename_i hn
            cases h
            exact .cons (by simp) (other (by intro n' ts'' e'; rw [e] at e'; cases e'; exact hn))
          · rename_i hn
            obtain ⟨us', g1, g2⟩ := removeText_drop h1 e
            have hl : ts'.length ≤ k := by
              have := dropBlanks_length ts
              rw [e] at this
              simp at this
              omega
            have hn' : 0 ≤ n := by omega
            have hr : NumsIn A us' := removeText_nums k ts' us' hl g2 (fun m hm d hd => hc' m (by
              rw [← hashNums_drop, e]; exact hm) d hd) (by rw [← surfNums_drop e hn']; exact hs1)
            cases e5 : ct n.toNat with
            | error y => simp [e5] at h
            | ok d =>
              cases e4 : complementary d with
              | error y => simp [e5, e4] at h
              | ok c =>
                simp only [e5, e4, g1, List.tail_cons, Except.ok.injEq] at h
                subst h
                have hd : NumsIn A d := hc n.toNat (by
                  unfold hashNums
                  rw [e]
                  simp [hn]) d e5
                have hc2 := nums_complementary hd e4
                refine .cons (by simp) (.cons (by simp) (.cons (by simp) (.cons (by simp) (.cons (by simp) (.cons (by simp) (.append hc2 (.cons (by simp) hr)))))))
        · rename_i h1' h2'
          cases h
          exact .cons (by simp) (other (by intro n ts' e'; exact absurd e' (h2' n ts')))
    · have h' : (removeText ct ts).bind (fun r => .ok (t :: r)) = .ok us := by
        cases t <;> first | exact absurd rfl ht | exact h
      cases h1 : removeText ct ts with
      | error x => simp [h1, Except.bind] at h'
      | ok r =>
        simp only [h1, Except.bind, Except.ok.injEq] at h'
        subst h'
        have hc' : ∀ n ∈ hashNums ts, ∀ d, ct n = .ok d → NumsIn A d := by
          intro n hn
          refine hc n ?_
          cases t <;> first | exact absurd rfl ht | exact hn
        have hs' : (∀ m ∈ surfNums false ts, A m) ∧ ∀ n, t = .num n → A n.natAbs := by
          cases t with
          | hash => exact absurd rfl ht
          | num n =>
            simp only [surfNums, Bool.false_eq_true, false_and, if_false, List.mem_cons, forall_eq_or_imp] at hs
            exact ⟨hs.2, fun m e => by cases e; exact hs.1⟩
          | _ => exact ⟨by simpa [surfNums] using hs, by simp⟩
        exact .cons hs'.2 (removeText_nums k ts r hk' h1 hc' hs'.1)

/-! ## texts with `#` are unambiguous -/

theorem HMeans.unique {σ : Side} {cell : Nat → Bool} {ts : List HTok} {a b : Bool} (hs : Spaced ts) (h1 : HMeans σ cell ts a) (h2 : HMeans σ cell ts b) : a = b := by
  have hg : ∀ n, Good σ (fun n => .ok ((if cell n = lit σ 1 then [Tok.num 1] else [Tok.num (-1)]).map emb)) cell n := by
    intro n
    refine ⟨_, rfl, ?_, ?_⟩
    · split
      · rename_i h
        rw [h]
        exact .single (.one (.num 1 (by decide)))
      · rename_i h
        have : cell n = lit σ (-1) := by
          simp only [lit] at h ⊢
          simp at h ⊢
          cases hc : cell n <;> cases hσ : σ 1 <;> simp_all
        rw [this]
        exact .single (.one (.num (-1) (by decide)))
    · split <;> simp [NoAdj]
  obtain ⟨us, g1⟩ := HReads.removed h1 (fun n _ => hg n) ts rfl ((spacedH_iff _).1 hs)
  obtain ⟨ws, g2⟩ := HReads.removed h2 (fun n _ => hg n) ts rfl ((spacedH_iff _).1 hs)
  have e1 := g1.run [] [] rfl
  have e2 := g2.run [] [] rfl
  rw [e1] at e2
  simp only [List.append_nil, Except.ok.injEq] at e2
  cases map_emb_inj e2
  exact C16_unambiguous _ _ _ _ g1.reads g2.reads

theorem hmeans_emb {σ : Side} {cell : Nat → Bool} {r : Rank} {ts : List Tok} {b : Bool} (h : Reads σ r ts b) : HReads σ cell r (ts.map emb) b := by
  induction h with
  | num n h => exact .num n h
  | paren _ ih => simpa [emb] using HReads.paren ih
  | one _ ih => exact .one ih
  | and _ _ ih1 ih2 => simpa using HReads.and ih1 ih2
  | single _ ih => exact .single ih
  | or _ _ ih1 ih2 => simpa [emb] using HReads.or ih1 ih2

theorem hsolid_emb (ts : List Tok) : hsolid (ts.map emb) = (solid ts).map emb := by
  induction ts with
  | nil => rfl
  | cons t ts ih => cases t <;> simp_all [hsolid, solid, emb]

theorem HMeans.of_means {σ : Side} {cell : Nat → Bool} {ts : List Tok} {b : Bool} (h : Means σ ts b) : HMeans σ cell (ts.map emb) b := by
  unfold HMeans
  rw [hsolid_emb]
  exact hmeans_emb h

end
end Geouned.Rev
