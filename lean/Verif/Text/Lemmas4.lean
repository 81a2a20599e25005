import Verif.Text.Lemmas3
import Verif.Bool.Lemmas4
/-! Lemmas for `set_def` -/
namespace Geouned.Text

/-! ### numbers of slices -/

theorem nums_solid (ts : List Tok) : nums (solid ts) = nums ts := by
  unfold nums solid
  rw [List.filter_filter]
  congr 1
  apply List.filter_congr
  intro t _
  cases t <;> simp

theorem nums_dropWhile {x : Tok} (hx : nums [x] = 0) (ts : List Tok) : nums (ts.dropWhile (· = x)) = nums ts := by
  induction ts with
  | nil => rfl
  | cons t ts ih =>
    by_cases h : t = x
    · subst h
      rw [nums_cons, hx, Nat.zero_add, ← ih]
      simp
    · simp [List.dropWhile_cons, h]

theorem nums_reverse (ts : List Tok) : nums ts.reverse = nums ts := by simp [nums]

theorem nums_stripTok {x : Tok} (hx : nums [x] = 0) (ts : List Tok) : nums (stripTok x ts) = nums ts := by
  unfold stripTok
  rw [nums_reverse, nums_dropWhile hx, nums_reverse, nums_dropWhile hx]

theorem nums_strip (ts : List Tok) : nums (strip ts) = nums ts := nums_stripTok rfl ts

theorem mem_stripTok {x y : Tok} {ts : List Tok} (h : y ∈ stripTok x ts) : y ∈ ts := by
  unfold stripTok at h
  have h1 := (List.dropWhile_sublist _).subset (List.mem_reverse.1 h)
  exact (List.dropWhile_sublist _).subset (List.mem_reverse.1 h1)

theorem mem_strip {y : Tok} {ts : List Tok} (h : y ∈ strip ts) : y ∈ ts := mem_stripTok h

theorem Reads.nums_pos {σ r t b} (h : Reads σ r t b) : 0 < nums t := by
  induction h with
  | num n _ => exact Nat.one_pos
  | paren _ ih => rw [nums_cons, nums_append]; omega
  | one _ ih => exact ih
  | and _ _ ih1 ih2 => rw [nums_append]; omega
  | single _ ih => exact ih
  | or _ _ ih1 ih2 => rw [nums_append, nums_cons]; omega

theorem Reads.lone {σ r t b} (h : Reads σ r t b) : nums t = 1 → ∀ n, .num n ∈ t → n ≠ 0 ∧ b = lit σ n := by
  induction h with
  | num m hm => intro _ n hn; simp at hn; subst hn; exact ⟨hm, rfl⟩
  | paren _ ih =>
    intro h1 n hn
    rw [nums_cons, nums_append] at h1
    refine ih ?_ n (by simpa using hn)
    have : nums [Tok.lp] = 0 := rfl
    have : nums [Tok.rp] = 0 := rfl
    omega
  | one _ ih => exact ih
  | and ha hb _ _ =>
    intro h1
    rw [nums_append] at h1
    have := ha.nums_pos
    have := hb.nums_pos
    omega
  | single _ ih => exact ih
  | or ha hb _ _ =>
    intro h1
    rw [nums_append, nums_cons] at h1
    have := ha.nums_pos
    have := hb.nums_pos
    omega

theorem nums_zero {t : Tok} (ht : nums [t] = 0) : ∀ {ts : List Tok}, (∀ x ∈ ts, x = t) → nums ts = 0
  | [], _ => rfl
  | x :: ts, h => by
    rw [nums_cons, h x (by simp), ht, nums_zero ht fun y hy => h y (by simp [hy])]

theorem TopT.nums_pos {σ ts b} (h : TopT σ ts b) : 0 < nums ts := by
  obtain ⟨L, m, R, h1, h2, h3, h4⟩ := h
  rw [← nums_solid, h1, nums_append, nums_append]
  have := h4.nums_pos
  omega

theorem TopT.integer {σ ts b n} (h : TopT σ ts b) (hi : asInteger ts = some n) : n ≠ 0 ∧ b = lit σ n := by
  obtain ⟨L, m, R, h1, h2, h3, h4⟩ := h
  unfold asInteger at hi
  split at hi
  · next k hk =>
    cases hi
    have e1 : nums ts = 1 := by
      rw [← nums_stripTok (x := .lp) rfl ts, ← nums_stripTok (x := .rp) rfl, ← nums_strip, hk]; rfl
    have e2 : Tok.num n ∈ ts := mem_stripTok (mem_stripTok (mem_strip (ts := stripTok .rp (stripTok .lp ts)) (by rw [hk]; simp)))
    rw [← nums_solid, h1, nums_append, nums_append, nums_zero rfl h2, nums_zero rfl h3] at e1
    have e3 : Tok.num n ∈ solid ts := List.mem_filter.2 ⟨e2, by simp⟩
    rw [h1] at e3
    simp only [List.mem_append] at e3
    rcases e3 with e3 | e3 | e3
    · cases h2 _ e3
    · exact h4.lone (by omega) n e3
    · cases h3 _ e3
  · cases hi

theorem splitColon_nums : ∀ w : List Item, ((splitColon w).map numsI).sum = numsI w
  | [] => rfl
  | x :: w => by
    have ih := splitColon_nums w
    by_cases hx : x = .tok .colon
    · subst hx
      rw [numsI_cons]
      simp only [splitColon, List.map_cons, List.sum_cons, ih]
      rfl
    · obtain ⟨p, ps, h1, h2⟩ := splitColon_cons hx w
      rw [h1] at ih
      rw [h2, numsI_cons, ← ih]
      simp only [List.map_cons, List.sum_cons]
      rw [numsI_cons]
      omega

theorem le_sum_of_mem : ∀ {l : List Nat} {a : Nat}, a ∈ l → a ≤ l.sum
  | b :: l, a, h => by
    rcases List.mem_cons.1 h with rfl | h
    · simp
    · have := le_sum_of_mem h; simp; omega

theorem lt_sum_of_mem {l : List Nat} {a : Nat} (hp : ∀ b ∈ l, 0 < b) (h2 : 2 ≤ l.length) (h : a ∈ l) : a < l.sum := by
  obtain ⟨x, y, rfl⟩ := List.append_of_mem h
  simp only [List.sum_append, List.sum_cons, List.length_append, List.length_cons] at h2 ⊢
  cases x with
  | nil =>
    cases y with
    | nil => simp at h2
    | cons c y =>
      have := hp c (by simp)
      simp
      omega
  | cons c x =>
    have := hp c (by simp)
    simp
    omega

theorem splitColon_two : ∀ {w : List Item}, .tok .colon ∈ w → 2 ≤ (splitColon w).length
  | [], h => by simp at h
  | x :: w, h => by
    by_cases hx : x = .tok .colon
    · subst hx
      have := List.length_pos_iff.2 (splitColon_ne w)
      simp only [splitColon, List.length_cons]
      omega
    · obtain ⟨p, ps, h1, h2⟩ := splitColon_cons hx w
      have := splitColon_two (w := w) (by
        rcases List.mem_cons.1 h with h | h
        · exact absurd h.symm hx
        · exact h)
      rw [h1] at this
      rw [h2]
      simpa using this

/-! ### the terms found by `outer_terms` -/

def val : Op → List Bool → Bool
  | .and, l => l.all id
  | .or, l => l.any id

theorem forall₂_left {α β : Type} {P : α → β → Prop} : ∀ {l : List α} {m : List β}, List.Forall₂ P l m → ∀ a ∈ l, ∃ b, P a b
  | _, _, .nil, a, h => by cases h
  | _, _, .cons h t, a, ha => by
    rcases List.mem_cons.1 ha with rfl | ha
    · exact ⟨_, h⟩
    · exact forall₂_left t a ha

theorem forall₂_map {α β γ : Type} {P : α → β → Prop} {Q : γ → β → Prop} {f : α → γ} {l : List α} (h : ∀ a b, a ∈ l → P a b → Q (f a) b) :
    ∀ {m : List β}, List.Forall₂ P l m → List.Forall₂ Q (l.map f) m := by
  induction l with
  | nil => intro m h; cases h; exact .nil
  | cons a l ih =>
    intro m hm
    cases hm with
    | cons h1 h2 => exact .cons (h _ _ (by simp) h1) (ih (fun a b ha => h a b (by simp [ha])) h2)

theorem outerTerms_spec {σ ts b} (h : TopT σ ts b) : ∃ vs, b = val (outerTerms ts).2 vs ∧
    List.Forall₂ (fun t c => TopT σ t c ∧ (asInteger t = none → nums t < nums ts)) (outerTerms ts).1 vs := by
  obtain ⟨hi, hf⟩ := mask_inv h
  obtain ⟨L, m, R, e, hL, hR, hm⟩ := hi.top
  have hp : NoPar m := by
    rcases hm.hasInner with h | ⟨pre, i, p, h1, h2⟩
    · exact h
    · exfalso
      apply findInner_none (pre := L ++ pre) (i := i) (p := p ++ R) h2
      rw [← hf, e, h1]
      simp
  have ho := hi.orig rfl
  unfold outerTerms
  dsimp only
  split
  · next hc =>
    obtain ⟨vs, h1, h2⟩ := hm.flatOr hp
    refine ⟨vs, h2, ?_⟩
    have hw : List.Forall₂ (Piece σ) (splitColon (mask true ts)) vs := by
      have addR : ∀ (R m : List Item), (∀ x ∈ R, x = Item.tok .rp ∨ x = .tok .blank) → List.Forall₂ (Piece σ) (splitColon m) vs →
          List.Forall₂ (Piece σ) (splitColon (m ++ R)) vs := by
        intro R
        induction R with
        | nil => intro m _ h; simpa using h
        | cons x R ih =>
          intro m hR h
          have := ih (m ++ [x]) (fun y hy => hR y (by simp [hy])) (pieces_snoc (by rcases hR x (by simp) with rfl | rfl <;> simp) h)
          simpa using this
      have addL : ∀ (L m : List Item), (∀ x ∈ L, x = Item.tok .lp ∨ x = .tok .blank) → List.Forall₂ (Piece σ) (splitColon m) vs →
          List.Forall₂ (Piece σ) (splitColon (L ++ m)) vs := by
        intro L
        induction L with
        | nil => intro m _ h; exact h
        | cons x L ih =>
          intro m hL h
          exact pieces_cons (by rcases hL x (by simp) with rfl | rfl <;> simp) (ih m (fun y hy => hL y (by simp [hy])) h)
      rw [e]
      exact addL L _ hL (addR R m hR h1)
    have pos : ∀ k ∈ (splitColon (mask true ts)).map numsI, 0 < k := by
      intro k hk
      obtain ⟨p, hp, rfl⟩ := List.mem_map.1 hk
      obtain ⟨c, hc⟩ := forall₂_left hw p hp
      have := hc.topT.nums_pos
      rwa [nums_strip] at this
    refine forall₂_map (fun p c hpm hpc => ⟨hpc.topT, fun _ => ?_⟩) hw
    rw [nums_strip]
    have := lt_sum_of_mem pos (by simpa using splitColon_two hc) (List.mem_map.2 ⟨p, hpm, rfl⟩)
    rw [splitColon_nums] at this
    unfold numsI at this
    rwa [ho] at this
  · next hc =>
    obtain ⟨vs, h1, h2⟩ := hm.flatAnd hp (fun h => hc (by rw [e]; simp [h]))
    refine ⟨vs, h2, ?_⟩
    have : andTerms (mask true ts) = andTerms m := by
      have nilL : ∀ L : List Item, (∀ x ∈ L, x = Item.tok .lp ∨ x = .tok .blank) → andTerms L = [] := by
        intro L
        induction L with
        | nil => intro _; rfl
        | cons x L ih =>
          intro h
          have := ih fun y hy => h y (by simp [hy])
          rcases h x (by simp) with rfl | rfl <;> simpa [andTerms] using this
      have nilR : ∀ L : List Item, (∀ x ∈ L, x = Item.tok .rp ∨ x = .tok .blank) → andTerms L = [] := by
        intro L
        induction L with
        | nil => intro _; rfl
        | cons x L ih =>
          intro h
          have := ih fun y hy => h y (by simp [hy])
          rcases h x (by simp) with rfl | rfl <;> simpa [andTerms] using this
      rw [e, andTerms_append, andTerms_append, nilL L hL, nilR R hR]
      simp
    rw [this]
    refine Forall₂.mono ?_ h1
    rintro t c (⟨n, hn, rfl, rfl⟩ | ⟨hb, ht⟩)
    · exact ⟨reads_top (Reads.num n hn), fun h => by simp [asInteger, stripTok, strip] at h⟩
    · exact ⟨ht, fun _ => hi.blk rfl t (by rw [e]; simp [hb])⟩

/-! ### building the sequence -/

/-- the sequence under construction -/
def Good (op : Op) (s : Seq) : Prop :=
  (∃ l es, s = .lst op l es ∧ s.WF ∧ ∀ e ∈ es, ∀ o l b, e ≠ .boo o l b) ∨ ∃ l, s = .boo op l (!op.neutral)

theorem setLevel_good {op : Op} {s : Seq} {l : Int} (h : Good op s) (hl : s.levOf ≤ l) : Good op (setLevel l s) ∧
    ∀ σ, (setLevel l s).sem σ = s.sem σ := by
  rcases h with ⟨l0, es, rfl, hw, hb⟩ | ⟨l0, rfl⟩
  · refine ⟨Or.inl ⟨l, es, rfl, ?_, hb⟩, fun σ => by simp [setLevel]⟩
    simp only [Seq.levOf] at hl
    simp only [Seq.WF] at hw ⊢
    exact ⟨⟨by omega, fun h => hw.1.2 (by omega)⟩, hw.2⟩
  · exact ⟨Or.inr ⟨l, rfl⟩, fun σ => by simp [setLevel, Seq.sem]⟩

theorem append_good {op : Op} {s x : Seq} (h : Good op s) (hx : x.WF) (hn : ∀ n, x ≠ .int n) :
    ∃ s', s.append [.seq x] = .ok s' ∧ Good op s' ∧ ∀ σ, s'.sem σ = op.app (s.sem σ) (x.sem σ) := by
  rcases h with ⟨l, es, rfl, hw, hb⟩ | ⟨l, rfl⟩
  · cases x with
    | int n => exact absurd rfl (hn n)
    | boo o l' b =>
      by_cases h : b = op.neutral
      · refine ⟨.lst op l es, by simp [Seq.append, appendLoop, h], Or.inl ⟨l, es, rfl, hw, hb⟩, fun σ => ?_⟩
        show (Seq.lst op l es).sem σ = op.app ((Seq.lst op l es).sem σ) b
        rw [h, app_neutral_right]
      · have := ne_neutral h
        subst this
        refine ⟨.boo op (-1) (!op.neutral), by simp [Seq.append, appendLoop], Or.inr ⟨_, rfl⟩, fun σ => ?_⟩
        show (!op.neutral) = op.app ((Seq.lst op l es).sem σ) (!op.neutral)
        rw [app_absorb_right]
    | lst o l' es' =>
      have e : (Seq.lst op l es).append [.seq (.lst o l' es')] = .ok (.lst op (max l (l' + 1)) (es ++ [.lst o l' es'])) := by
        simp [Seq.append, appendLoop]
      obtain ⟨h1, h2⟩ := appendLoop_spec op [.seq (.lst o l' es')] l es _ hw (by simpa [Item.WF] using hx) (by simpa [Seq.append] using e)
      refine ⟨_, e, Or.inl ⟨_, _, rfl, h1, ?_⟩, fun σ => ?_⟩
      · intro e' he o' l'' b
        rcases List.mem_append.1 he with he | he
        · exact hb e' he o' l'' b
        · rw [List.mem_singleton.1 he]; simp
      · rw [h2 σ]
        simp [itemsSem, Geouned.Item.sem]
  · refine ⟨.boo op l (!op.neutral), by cases op <;> rfl, Or.inr ⟨_, rfl⟩, fun σ => ?_⟩
    simp [Seq.sem]

theorem appendInts_good {op : Op} : ∀ (ns : List Int) (l : Int) (es : List Seq), (∀ e ∈ es, ∀ o l b, e ≠ Seq.boo o l b) →
    ∃ s', appendLoop op l es (ns.map .int) = .ok s' ∧ ((∃ l' es', s' = .lst op l' es' ∧ ∀ e ∈ es', ∀ o l b, e ≠ Seq.boo o l b) ∨
      ∃ l', s' = .boo op l' (!op.neutral))
  | [], l, es, h => ⟨_, rfl, Or.inl ⟨l, es, rfl, h⟩⟩
  | n :: ns, l, es, h => by
    simp only [List.map_cons, appendLoop]
    split
    · exact appendInts_good ns l es h
    · split
      · exact ⟨_, rfl, Or.inr ⟨_, rfl⟩⟩
      · refine appendInts_good ns _ _ fun e he o l b => ?_
        rcases List.mem_append.1 he with he | he
        · exact h e he o l b
        · rw [List.mem_singleton.1 he]; simp

theorem val_append (op : Op) (a b : List Bool) : val op (a ++ b) = op.app (val op a) (val op b) := by
  cases op <;> simp [val, Op.app]

theorem val_mem {op : Op} {σ : Side} {a b : List Int} (h : ∀ n, n ∈ a ↔ n ∈ b) : val op (a.map (lit σ)) = val op (b.map (lit σ)) := by
  cases op
  · simp only [val]
    rw [Bool.eq_iff_iff]
    simp [h]
  · simp only [val]
    rw [Bool.eq_iff_iff]
    simp [h]

theorem itemsSem_ints (op : Op) (σ : Side) : ∀ ns : List Int, itemsSem op σ (ns.map .int) = val op (ns.map (lit σ))
  | [] => by cases op <;> rfl
  | n :: ns => by
    rw [List.map_cons, itemsSem, itemsSem_ints op σ ns]
    cases op <;> simp [val, Op.app, Geouned.Item.sem]

theorem mem_dedup' {α : Type} [DecidableEq α] : ∀ {l : List α} {a : α}, a ∈ dedup l ↔ a ∈ l
  | [], a => by simp [dedup]
  | b :: l, a => by
    unfold dedup
    split
    · next h =>
      rw [mem_dedup', List.mem_cons]
      constructor
      · exact Or.inr
      · rintro (rfl | h') <;> assumption
    · rw [List.mem_cons, mem_dedup', List.mem_cons]

theorem endDef_good {op : Op} {s : Seq} {ns : List Int} {order : List Int → List Int} (hord : ∀ l n, n ∈ order l ↔ n ∈ l)
    (h : Good op s) (hn : ∀ n ∈ ns, n ≠ 0) :
    ∃ s', endDef order op s ns = .ok s' ∧ Good op s' ∧ ∀ σ, s'.sem σ = op.app (s.sem σ) (val op (ns.map (lit σ))) := by
  unfold endDef
  split
  · next hd =>
    refine ⟨_, rfl, Or.inr ⟨_, rfl⟩, fun σ => ?_⟩
    have : ∃ a ∈ ns, -a ∈ ns := by
      refine Classical.byContradiction fun hc => hd ?_
      symm
      apply dedup_map_length
      intro a ha b hb e
      rcases Int.natAbs_eq_natAbs_iff.1 e with e | e
      · exact e
      · exact absurd ⟨b, hb, by rwa [← e]⟩ hc
    obtain ⟨a, ha, hb⟩ := this
    have : val op (ns.map (lit σ)) = !op.neutral := by
      have hl : lit σ (-a) = !(lit σ a) := by
        have := hn a ha
        unfold lit
        rw [Int.natAbs_neg]
        by_cases h : a < 0
        · rw [if_pos h, if_neg (by omega), Bool.not_not]
        · rw [if_neg h, if_pos (by omega)]
      cases op
      · show (List.map (lit σ) ns).all id = false
        rw [Bool.eq_false_iff]
        intro hall
        simp at hall
        have h1 := hall a ha
        have h2 := hall (-a) hb
        rw [hl, h1] at h2
        cases h2
      · simp only [val, Op.neutral]
        cases h1 : lit σ a
        · simp; exact ⟨-a, hb, by rw [hl, h1]; rfl⟩
        · simp; exact ⟨a, ha, h1⟩
    rw [this]
    simp [Seq.sem]
  · rcases h with ⟨l, es, rfl, hw, hb⟩ | ⟨l, rfl⟩
    · obtain ⟨s', h1, h2⟩ := appendInts_good (op := op) (order (dedup ns)) l es hb
      obtain ⟨h3, h4⟩ := appendLoop_spec op _ l es s' hw (by
        intro i hi
        obtain ⟨n, hn', rfl⟩ := List.mem_map.1 hi
        exact hn n (mem_dedup'.1 ((hord _ _).1 hn'))) h1
      refine ⟨s', h1, ?_, fun σ => ?_⟩
      · rcases h2 with ⟨l', es', rfl, h⟩ | h
        · exact Or.inl ⟨l', es', rfl, h3, h⟩
        · exact Or.inr h
      · rw [h4 σ, itemsSem_ints]
        rw [val_mem (b := ns) fun n => by rw [hord, mem_dedup']]
        simp
    · refine ⟨.boo op l (!op.neutral), by cases op <;> rfl, Or.inr ⟨_, rfl⟩, fun σ => ?_⟩
      simp [Seq.sem]

theorem group_good {op : Op} {s : Seq} (h : Good op s) : ∃ s', s.groupSingle = .ok s' ∧ s'.WF ∧ (∀ n, s' ≠ .int n) ∧ ∀ σ, s'.sem σ = s.sem σ := by
  rcases h with ⟨l, es, rfl, hw, hb⟩ | ⟨l, rfl⟩
  · obtain ⟨s', h1⟩ := groupSingle_total (o := op) (l := l) (es := es) fun e he o b => hb e he o 0 b
    obtain ⟨es', rfl, h2, h3, -⟩ := groupSingle_lst hw h1
    exact ⟨_, h1, h2, by simp, fun σ => by simp [h3]⟩
  · exact ⟨_, rfl, trivial, by simp, fun _ => rfl⟩

theorem termLoop_good {rec : List Tok → M Seq} {σ : Side} {op : Op} : ∀ (terms : List (List Tok)) (vs : List Bool) (s : Seq) (ns : List Int),
    List.Forall₂ (fun t c => (∃ n, asInteger t = some n ∧ n ≠ 0 ∧ c = lit σ n) ∨
      (asInteger t = none ∧ ∃ x, rec t = .ok x ∧ x.WF ∧ (∀ n, x ≠ .int n) ∧ x.sem σ = c)) terms vs →
    Good op s → (∀ n ∈ ns, n ≠ 0) →
    ∃ r, termLoop rec terms s ns = .ok r ∧ Good op r.1 ∧ (∀ n ∈ r.2, n ≠ 0) ∧
      op.app (r.1.sem σ) (val op (r.2.map (lit σ))) = op.app (op.app (s.sem σ) (val op (ns.map (lit σ)))) (val op vs)
  | _, _, s, ns, .nil, hs, hn => ⟨(s, ns), rfl, hs, hn, by cases op <;> simp [val, Op.app]⟩
  | t :: terms, c :: vs, s, ns, .cons h ht, hs, hn => by
    rcases h with ⟨n, h1, h2, rfl⟩ | ⟨h1, x, h2, h3, h4, h5⟩
    · obtain ⟨r, e, hg, hn', hv⟩ := termLoop_good terms vs s (ns ++ [n]) ht hs (by
        intro m hm
        rcases List.mem_append.1 hm with hm | hm
        · exact hn m hm
        · rw [List.mem_singleton.1 hm]; exact h2)
      refine ⟨r, by simp only [termLoop, h1, e], hg, hn', ?_⟩
      rw [hv, List.map_append, val_append]
      cases op <;> simp [val, Op.app, Bool.and_assoc, Bool.or_assoc]
    · obtain ⟨g1, g2⟩ := setLevel_good hs (l := max (x.levOf + 1) s.levOf) (by omega)
      obtain ⟨s', e1, g3, g4⟩ := append_good g1 h3 h4
      obtain ⟨r, e, hg, hn', hv⟩ := termLoop_good terms vs s' ns ht g3 hn
      refine ⟨r, by simp only [termLoop, h1, h2, e1, e, bind, Except.bind], hg, hn', ?_⟩
      rw [hv, g4, g2, h5]
      cases op <;> simp [val, Op.app, Bool.and_assoc, Bool.or_assoc, Bool.and_comm, Bool.or_comm, Bool.and_left_comm, Bool.or_left_comm]

theorem setDef_spec {order : List Int → List Int} (hord : ∀ l n, n ∈ order l ↔ n ∈ l) : ∀ (f : Nat) (ts : List Tok) (σ : Side) (b : Bool),
    nums ts < f → TopT σ ts b → ∃ q, setDef order f ts = .ok q ∧ q.WF ∧ (∀ n, q ≠ .int n) ∧ q.sem σ = b := by
  intro f
  induction f with
  | zero => intro ts σ b h; omega
  | succ f ih =>
    intro ts σ b hf ht
    obtain ⟨vs, hb, hvs⟩ := outerTerms_spec ht
    have hterms : List.Forall₂ (fun t c => (∃ n, asInteger t = some n ∧ n ≠ 0 ∧ c = lit σ n) ∨
        (asInteger t = none ∧ ∃ x, setDef order f t = .ok x ∧ x.WF ∧ (∀ n, x ≠ .int n) ∧ x.sem σ = c)) (outerTerms ts).1 vs := by
      refine Forall₂.mono ?_ hvs
      rintro t c ⟨h1, h2⟩
      cases hi : asInteger t with
      | some n =>
        obtain ⟨a, e⟩ := h1.integer hi
        exact Or.inl ⟨n, rfl, a, e⟩
      | none => exact Or.inr ⟨rfl, ih t σ c (by have := h2 hi; omega) h1⟩
    obtain ⟨r, e1, g1, n1, v1⟩ := termLoop_good (op := (outerTerms ts).2) _ _ (.lst (outerTerms ts).2 0 []) [] hterms
      (Or.inl ⟨0, [], rfl, by simp [Seq.WF, Seq.WFL], by simp⟩) (by simp)
    obtain ⟨s, e2, g2, v2⟩ := endDef_good hord g1 n1
    obtain ⟨q, e3, g3, g4, v3⟩ := group_good g2
    cases ts with
    | nil => exact absurd ht.nums_pos (by simp)
    | cons t ts =>
      refine ⟨q, by simp only [setDef, e1, e2, e3, bind, Except.bind], g3, g4, ?_⟩
      rw [v3, v2, v1, hb]
      cases (outerTerms (t :: ts)).2 <;> simp [val, Op.app, Op.neutral]

end Geouned.Text
