import Verif.Rev.Hash
import Verif.Text.CharLemmas2
/-! Lemmas for the removal of `#`: texts without `#` are treated as by `Text.removeRedundant` -/
namespace Geouned.Rev
open Geouned.Text

def embI : Text.Item → HItem
  | .tok t => .tok (emb t)
  | .gone _ => .gone
  | .block ts => .block (ts.map emb)

theorem emb_inj {a b : Tok} (h : emb a = emb b) : a = b := by
  cases a <;> cases b <;> simp_all [emb]

theorem emb_ne_hash (t : Tok) : emb t ≠ .hash := by cases t <;> simp [emb]
theorem emb_ne_amp (t : Tok) : emb t ≠ .amp := by cases t <;> simp [emb]

theorem map_emb_inj {a b : List Tok} (h : a.map emb = b.map emb) : a = b := by
  induction a generalizing b with
  | nil => cases b <;> simp_all
  | cons x a ih =>
    cases b with
    | nil => simp at h
    | cons y b =>
      simp only [List.map_cons, List.cons.injEq] at h
      rw [emb_inj h.1, ih h.2]

theorem horigs_emb (w : List Text.Item) : horigs (w.map embI) = (origs false w).map emb := by
  induction w with
  | nil => rfl
  | cons x w ih =>
    simp only [horigs, origs, List.map_cons, List.flatMap_cons, List.map_append] at ih ⊢
    rw [ih]
    cases x <;> simp [embI, HItem.orig, Text.Item.orig, emb]

theorem hspan_emb : ∀ w : List Text.Item, hspan (w.map embI) = (spanInner w).map fun p => (p.1.map embI, p.2.map embI)
  | [] => rfl
  | x :: w => by
    have ih := hspan_emb w
    cases x with
    | tok t => cases t <;> simp [hspan, spanInner, embI, emb, ih, Function.comp_def]
    | gone t => simp [hspan, spanInner, embI, ih, Function.comp_def]
    | block ts => simp [hspan, spanInner, embI, ih, Function.comp_def]

theorem hfind_emb : ∀ w : List Text.Item, hfind (w.map embI) = (findInner w).map fun q => (q.1.map embI, q.2.1.map embI, q.2.2.map embI)
  | [] => rfl
  | x :: w => by
    have ih := hfind_emb w
    cases x with
    | tok t =>
      cases t with
      | lp =>
        simp only [List.map_cons, embI, emb, hfind, findInner, hspan_emb w]
        cases spanInner w with
        | none => simp [ih, Function.comp_def, embI, emb]
        | some p => simp
      | _ => simp [hfind, findInner, embI, emb, ih, Function.comp_def]
    | gone t => simp [hfind, findInner, embI, ih, Function.comp_def]
    | block ts => simp [hfind, findInner, embI, ih, Function.comp_def]

theorem hleftOK_emb : ∀ w : List Text.Item, hleftOK (w.map embI) = leftOK w
  | [] => rfl
  | x :: w => by
    have ih := hleftOK_emb w
    cases x with
    | tok t => cases t <;> simp [hleftOK, leftOK, embI, emb, ih]
    | gone t => simp [hleftOK, leftOK, embI, ih]
    | block ts => simp [hleftOK, leftOK, embI]

theorem hrightOK_emb : ∀ w : List Text.Item, hrightOK (w.map embI) = rightOK w
  | [] => rfl
  | x :: w => by
    have ih := hrightOK_emb w
    cases x with
    | tok t => cases t <;> simp [hrightOK, rightOK, embI, emb, ih]
    | gone t => simp [hrightOK, rightOK, embI, ih]
    | block ts => simp [hrightOK, rightOK, embI]

theorem hashLeft_emb : ∀ w : List Text.Item, hashLeft (w.map embI) = false
  | [] => rfl
  | x :: w => by
    have ih := hashLeft_emb w
    cases x with
    | tok t => cases t <;> simp [hashLeft, embI, emb, ih]
    | gone t => simp [hashLeft, embI, ih]
    | block ts => simp [hashLeft, embI]

theorem colon_emb (w : List Text.Item) : HItem.tok .colon ∈ w.map embI ↔ Text.Item.tok .colon ∈ w := by
  simp only [List.mem_map]
  constructor
  · rintro ⟨x, hx, he⟩
    cases x with
    | tok t => cases t <;> simp_all [embI, emb]
    | gone t => simp [embI] at he
    | block ts => simp [embI] at he
  · exact fun h => ⟨_, h, rfl⟩

theorem hredundant_emb (l i r : List Text.Item) : hredundant (l.map embI) (i.map embI) (r.map embI) = redundant l i r := by
  unfold hredundant redundant
  rw [← List.map_reverse, hashLeft_emb, hleftOK_emb, hrightOK_emb]
  simp only [colon_emb, Bool.false_eq_true, if_false]

theorem hmasked_emb (l i r : List Text.Item) : hmasked (l.map embI) (i.map embI) (r.map embI) = (masked false l i r).map embI := by
  unfold hmasked masked
  rw [hredundant_emb, horigs_emb]
  split <;> simp [embI, emb]

theorem hpass_emb : ∀ (k : Nat) (d r : List Text.Item), hpass k (d.map embI) (r.map embI) = (pass false k d r).map embI
  | 0, d, r => by simp [hpass, pass]
  | k + 1, d, r => by
    unfold hpass pass
    rw [hfind_emb]
    cases findInner r with
    | none => simp
    | some q =>
      simp only [Option.map_some]
      rw [← hpass_emb k, ← List.map_append, hmasked_emb, ← List.map_append]

theorem hpasses_emb : ∀ (k : Nat) (w : List Text.Item), hpasses k (w.map embI) = (passes false k w).map embI
  | 0, w => rfl
  | k + 1, w => by
    unfold hpasses passes
    rw [hfind_emb]
    cases h : findInner w with
    | none => simp
    | some q =>
      simp only [Option.map_some, Option.isNone_some, Bool.false_eq_true, if_false, List.length_map]
      rw [← hpasses_emb k, ← hpass_emb]
      rfl

theorem hclean_emb (ts : List Tok) :
    horigs (hpasses ((ts.map emb).length + 1) ((ts.map emb).map .tok)) = (removeRedundant ts).map emb := by
  have e : (ts.map emb).map HItem.tok = (ts.map Text.Item.tok).map embI := by simp [embI, Function.comp_def]
  rw [e, hpasses_emb, horigs_emb, List.length_map]
  rfl

/-! ### blocks hold a colon -/

def BlkC (w : List Text.Item) : Prop := ∀ ts, Text.Item.block ts ∈ w → Tok.colon ∈ ts

theorem blkC_masked {l i r : List Text.Item} (h : BlkC i) : BlkC (masked false l i r) := by
  unfold masked
  split
  · intro ts hts
    simp only [List.mem_cons, List.mem_append, reduceCtorEq, false_or, List.not_mem_nil, or_false] at hts
    exact h ts hts
  · next hr =>
    intro ts hts
    simp only [List.mem_singleton, Text.Item.block.injEq] at hts
    subst hts
    have hc : Text.Item.tok .colon ∈ i := by
      apply Classical.byContradiction
      intro hc
      simp [redundant, hc] at hr
    have : Tok.colon ∈ origs false i := by
      unfold origs
      rw [List.mem_flatMap]
      exact ⟨_, hc, by simp [Text.Item.orig]⟩
    simp [this]

theorem blkC_append {a b : List Text.Item} (ha : BlkC a) (hb : BlkC b) : BlkC (a ++ b) := fun ts h =>
  (List.mem_append.1 h).elim (ha ts) (hb ts)

theorem blkC_pass : ∀ (k : Nat) (d r : List Text.Item), BlkC d → BlkC r → BlkC (pass false k d r)
  | 0, d, r, hd, hr => blkC_append hd hr
  | k + 1, d, r, hd, hr => by
    unfold pass
    split
    · exact blkC_append hd hr
    · next pre inner post hf =>
      obtain ⟨rfl, -⟩ := findInner_some hf
      have h1 : BlkC pre := fun ts h => hr ts (by simp [h])
      have h2 : BlkC inner := fun ts h => hr ts (by simp [h])
      have h3 : BlkC post := fun ts h => hr ts (by simp [h])
      exact blkC_pass k _ _ (blkC_append (blkC_append hd h1) (blkC_masked h2)) h3

theorem blkC_passes : ∀ (k : Nat) (w : List Text.Item), BlkC w → BlkC (passes false k w)
  | 0, w, h => h
  | k + 1, w, h => by
    unfold passes
    split
    · exact h
    · exact blkC_passes k _ (blkC_pass _ _ _ (by simp [BlkC]) h)

/-- a clean text without colon has no parentheses -/
theorem clean_noParen {σ ts b} (h : Means σ ts b) (hc : Tok.colon ∉ removeRedundant ts) :
    Tok.lp ∉ removeRedundant ts ∧ Tok.rp ∉ removeRedundant ts := by
  have hG := passes_G (keep := false) (ts.length + 1) (ts.map .tok) (h.toG ts rfl)
  have hn := passes_none (keep := false) (ts.length + 1) (ts.map .tok) (by
    have := lpc_le (ts.map Text.Item.tok)
    simp at this
    omega)
  have hb := blkC_passes (ts.length + 1) (ts.map .tok) (by intro us hu; simp at hu)
  unfold removeRedundant mask at hc ⊢
  generalize hw : passes false (ts.length + 1) (ts.map Text.Item.tok) = w at *
  have hnp : NoPar w := by
    rcases hG.hasInner with h | ⟨pre, i, p, rfl, hi⟩
    · exact h
    · have := findInner_none (pre := pre) (p := p) hi
      rw [Option.isNone_iff_eq_none] at hn
      exact (this hn).elim
  have key : ∀ t, (t = Tok.lp ∨ t = Tok.rp) → t ∉ origs false w := by
    intro t ht hm
    unfold origs at hm hc
    rw [List.mem_flatMap] at hm
    obtain ⟨x, hx, htx⟩ := hm
    cases x with
    | tok u =>
      simp only [Text.Item.orig, List.mem_singleton] at htx
      subst htx
      rcases ht with rfl | rfl
      · exact hnp.1 hx
      · exact hnp.2 hx
    | gone u => rcases ht with rfl | rfl <;> simp [Text.Item.orig] at htx
    | block us =>
      exact hc (List.mem_flatMap.2 ⟨_, hx, by simpa [Text.Item.orig] using hb us hx⟩)
  exact ⟨key _ (Or.inl rfl), key _ (Or.inr rfl)⟩

end Geouned.Rev
