import Verif.RBool.Filled
import Verif.Rev.SolidProps
import Verif.Rev.HashProps
import Verif.Whole.BackModel
/-!
# Lemmas for C127
-/
namespace Geouned.Back
open Geouned Geouned.Text Geouned.Rev Geouned.RBool

/-! ### the numbers written are in the definition -/

theorem gones_masked {keep : Bool} {left inner post : List Text.Item} (h : ∀ x ∈ inner, ∀ t, x = .gone t → t = .lp ∨ t = .rp) :
    ∀ x ∈ masked keep left inner post, ∀ t, x = .gone t → t = .lp ∨ t = .rp := by
  intro x hx t ht
  unfold masked at hx
  split at hx
  · simp only [List.mem_cons, List.mem_append, List.not_mem_nil, or_false] at hx
    rcases hx with rfl | hx | rfl
    · cases ht; simp
    · exact h x hx t ht
    · cases ht; simp
  · simp only [List.mem_singleton] at hx
    subst hx
    cases ht

theorem gones_pass {keep : Bool} : ∀ (k : Nat) (done rest : List Text.Item), (∀ x ∈ done ++ rest, ∀ t, x = .gone t → t = .lp ∨ t = .rp) →
    ∀ x ∈ pass keep k done rest, ∀ t, x = .gone t → t = .lp ∨ t = .rp
  | 0, done, rest, h => h
  | k + 1, done, rest, h => by
    unfold pass
    split
    · exact h
    · next pre inner post hf =>
      obtain ⟨rfl, -⟩ := findInner_some hf
      apply gones_pass
      intro x hx
      simp only [List.mem_append] at hx
      rcases hx with ((hx | hx) | hx) | hx
      · exact h x (by simp [hx])
      · exact h x (by simp [hx])
      · exact gones_masked (fun y hy => h y (by simp [hy])) x hx
      · exact h x (by simp [hx])

theorem gones_passes {keep : Bool} : ∀ (k : Nat) (w : List Text.Item), (∀ x ∈ w, ∀ t, x = .gone t → t = .lp ∨ t = .rp) →
    ∀ x ∈ passes keep k w, ∀ t, x = .gone t → t = .lp ∨ t = .rp
  | 0, w, h => h
  | k + 1, w, h => by
    unfold passes
    split
    · exact h
    · exact gones_passes k _ (gones_pass _ [] w (by simpa using h))

theorem mem_andTerms_num {n : Int} : ∀ {w : List Text.Item}, (∀ x ∈ w, ∀ t, x = .gone t → t = .lp ∨ t = .rp) → Tok.num n ∈ origs true w →
    ∃ t ∈ andTerms w, Tok.num n ∈ t
  | [], _, h => by simp at h
  | x :: w, hg, h => by
    have ih := mem_andTerms_num (n := n) (w := w) (fun y hy => hg y (by simp [hy]))
    rw [origs_cons, List.mem_append] at h
    match x with
    | .tok (.num k) =>
      rcases h with h | h
      · exact ⟨[.num k], by simp [andTerms], by simpa [Text.Item.orig] using h⟩
      · obtain ⟨t, h1, h2⟩ := ih h
        exact ⟨t, by simp [andTerms, h1], h2⟩
    | .block ts =>
      rcases h with h | h
      · exact ⟨ts, by simp [andTerms], by simpa [Text.Item.orig] using h⟩
      · obtain ⟨t, h1, h2⟩ := ih h
        exact ⟨t, by simp [andTerms, h1], h2⟩
    | .tok .lp | .tok .rp | .tok .colon | .tok .blank =>
      rcases h with h | h
      · simp [Text.Item.orig] at h
      · obtain ⟨t, h1, h2⟩ := ih h
        exact ⟨t, by simpa [andTerms] using h1, h2⟩
    | .gone t =>
      rcases h with h | h
      · rcases hg (.gone t) (by simp) t rfl with rfl | rfl <;> simp [Text.Item.orig] at h
      · obtain ⟨t, h1, h2⟩ := ih h
        exact ⟨t, by simpa [andTerms] using h1, h2⟩

theorem mem_splitColon_num {n : Int} : ∀ {w : List Text.Item}, Tok.num n ∈ origs true w → ∃ p ∈ splitColon w, Tok.num n ∈ origs true p
  | [], h => by simp at h
  | x :: w, h => by
    have ih := mem_splitColon_num (n := n) (w := w)
    rw [origs_cons, List.mem_append] at h
    by_cases hx : x = .tok .colon
    · subst hx
      rcases h with h | h
      · simp [Text.Item.orig] at h
      · obtain ⟨p, h1, h2⟩ := ih h
        exact ⟨p, by simp [splitColon, h1], h2⟩
    · obtain ⟨p, ps, h1, h2⟩ := splitColon_cons hx w
      rw [h2]
      rcases h with h | h
      · exact ⟨x :: p, by simp, by rw [origs_cons]; simp [h]⟩
      · obtain ⟨q, hq, hn⟩ := ih h
        rw [h1] at hq
        rcases List.mem_cons.1 hq with rfl | hq
        · exact ⟨x :: q, by simp, by rw [origs_cons]; simp [hn]⟩
        · exact ⟨q, by simp [hq], hn⟩

theorem num_dropWhile {n : Int} {y : Tok} (hy : y ≠ .num n) : ∀ {ts : List Tok}, Tok.num n ∈ ts → Tok.num n ∈ ts.dropWhile (· = y)
  | t :: ts, h => by
    by_cases ht : t = y
    · subst ht
      have : Tok.num n ∈ ts := by
        rcases List.mem_cons.1 h with h | h
        · exact absurd h.symm hy
        · exact h
      simpa using num_dropWhile hy this
    · simpa [List.dropWhile_cons, ht] using h

theorem num_stripTok {n : Int} {y : Tok} (hy : y ≠ .num n) {ts : List Tok} (h : Tok.num n ∈ ts) : Tok.num n ∈ stripTok y ts := by
  unfold stripTok
  rw [List.mem_reverse]
  exact num_dropWhile hy (by rw [List.mem_reverse]; exact num_dropWhile hy h)

theorem num_strip {n : Int} {ts : List Tok} (h : Tok.num n ∈ ts) : Tok.num n ∈ strip ts := num_stripTok (y := .blank) (by simp) h

theorem outerTerms_num {σ ts b} (h : TopT σ ts b) {n : Int} (hn : Tok.num n ∈ ts) : ∃ t ∈ (outerTerms ts).1, Tok.num n ∈ t := by
  have ho := (mask_inv h).1.orig rfl
  rw [← ho] at hn
  unfold outerTerms
  dsimp only
  split
  · obtain ⟨p, h1, h2⟩ := mem_splitColon_num hn
    exact ⟨_, List.mem_map.2 ⟨p, h1, rfl⟩, num_strip h2⟩
  · refine mem_andTerms_num ?_ hn
    apply gones_passes
    intro x hx t ht
    obtain ⟨y, -, rfl⟩ := List.mem_map.1 hx
    cases ht

theorem asInteger_num {ts : List Tok} {n k : Int} (h : asInteger ts = some n) (hk : Tok.num k ∈ ts) : k = n := by
  have hm := num_strip (num_stripTok (y := .rp) (by simp) (num_stripTok (y := .lp) (by simp) hk))
  unfold asInteger at h
  split at h
  · next m e =>
    rw [e] at hm
    simp at hm h
    omega
  · cases h

theorem groupLoop_keeps {v : Nat} : ∀ (k : Nat) (es kept group : List Seq) (r : List Seq × List Seq), groupLoop k es kept group = .ok r → es.length ≤ k →
    (∃ e ∈ es ++ kept ++ group, e.Occurs v) → ∃ e ∈ r.1 ++ r.2, e.Occurs v
  | 0, es, kept, group, r, h, hk, ho => by
    have : es = [] := List.length_eq_zero_iff.1 (by omega)
    subst this
    simp only [groupLoop, Except.ok.injEq] at h
    subst h
    simpa using ho
  | k + 1, [], kept, group, r, h, hk, ho => by
    simp only [groupLoop, Except.ok.injEq] at h
    subst h
    simpa using ho
  | k + 1, .int n :: rest, kept, group, r, h, hk, ho => by
    simp only [groupLoop] at h
    refine groupLoop_keeps k _ _ _ r h (by rw [removeInt_length]; simp at hk; omega) ?_
    obtain ⟨e, he, ho⟩ := ho
    have hm : ∀ y ∈ Seq.int n :: rest, y ∈ Seq.int n :: removeInt n rest := fun y hy => (removeInt_perm n rest).mem_iff.2 hy
    have h1 := hm e
    refine ⟨e, ?_, ho⟩
    simp only [List.mem_append, List.mem_cons, List.not_mem_nil, or_false] at he h1 ⊢
    tauto
  | k + 1, .boo op l b :: rest, kept, group, r, h, hk, ho => by
    simp only [groupLoop] at h
    split at h
    · cases h
    · refine groupLoop_keeps k _ _ _ r h (by simp at hk; omega) ?_
      obtain ⟨e, he, ho⟩ := ho
      refine ⟨e, ?_, ho⟩
      simp only [List.mem_append, List.mem_cons] at he ⊢
      tauto
  | k + 1, .lst op l es :: rest, kept, group, r, h, hk, ho => by
    simp only [groupLoop] at h
    split at h
    · next x =>
      refine groupLoop_keeps k _ _ _ r h (by simp at hk; omega) ?_
      obtain ⟨e, he, ho⟩ := ho
      simp only [List.mem_append, List.mem_cons] at he
      rcases he with ((rfl | he) | he) | he
      · exact ⟨x, by simp, by simpa [Seq.Occurs, Seq.OccursL] using ho⟩
      · exact ⟨e, by simp [he], ho⟩
      · exact ⟨e, by simp [he], ho⟩
      · exact ⟨e, by simp [he], ho⟩
    · refine groupLoop_keeps k _ _ _ r h (by simp at hk; omega) ?_
      obtain ⟨e, he, ho⟩ := ho
      refine ⟨e, ?_, ho⟩
      simp only [List.mem_append, List.mem_cons] at he ⊢
      tauto

theorem groupSingle_keeps {v : Nat} {s s' : Seq} (h : s.groupSingle = .ok s') (ho : s.Occurs v) : s'.Occurs v := by
  cases s with
  | int n => simp [Seq.groupSingle] at h
  | boo op l b => simp [Seq.groupSingle] at h; subst h; exact ho
  | lst op l es =>
    simp only [Seq.groupSingle] at h
    split at h
    · cases h; exact ho
    · simp only [bind_ok] at h
      obtain ⟨⟨kept, group⟩, hg, h⟩ := h
      rw [occurs_lst] at ho
      obtain ⟨e, he, ho⟩ := ho
      obtain ⟨e, he, ho⟩ := groupLoop_keeps es.length es.reverse [] [] (kept, group) hg (by simp) ⟨e, by simpa using he, ho⟩
      cases group with
      | nil =>
        simp at h
        subst h
        rw [occurs_lst]
        exact ⟨e, by simpa using he, ho⟩
      | cons g gs =>
        simp at h
        subst h
        rw [occurs_lst]
        rcases List.mem_append.1 he with he | he
        · exact ⟨e, by simp at he ⊢; exact .inr he, ho⟩
        · exact ⟨.lst op 0 (g :: gs), by simp, (occurs_lst _ _ _ _).2 ⟨e, he, ho⟩⟩

theorem defLoop_occ {rec : List Tok → M Seq} {v : Nat} : ∀ (terms : List (List Tok)) (l : Int) (es : List Seq) (r : Int × List Seq),
    (∀ t ∈ terms, asInteger t = none → ∀ x, rec t = .ok x → ∀ n : Int, Tok.num n ∈ t → n.natAbs = v → x.Occurs v) →
    defLoop rec terms l es = .ok r → ((∃ t ∈ terms, ∃ n : Int, Tok.num n ∈ t ∧ n.natAbs = v) ∨ ∃ e ∈ es, e.Occurs v) → ∃ e ∈ r.2, e.Occurs v
  | [], l, es, r, _, h, ho => by
    simp only [defLoop, Except.ok.injEq] at h
    subst h
    simpa using ho
  | t :: ts, l, es, r, hr, h, ho => by
    simp only [defLoop] at h
    split at h
    · next n hi =>
      refine defLoop_occ ts _ _ r (fun u hu => hr u (by simp [hu])) h ?_
      rcases ho with ⟨u, hu, k, hk, hv⟩ | ⟨e, he, ho⟩
      · rcases List.mem_cons.1 hu with rfl | hu
        · exact .inr ⟨.int n, by simp, by rw [asInteger_num hi hk] at hv; exact hv⟩
        · exact .inl ⟨u, hu, k, hk, hv⟩
      · exact .inr ⟨e, by simp [he], ho⟩
    · next hi =>
      simp only [bind_ok] at h
      obtain ⟨x, hx, h⟩ := h
      refine defLoop_occ ts _ _ r (fun u hu => hr u (by simp [hu])) h ?_
      rcases ho with ⟨u, hu, k, hk, hv⟩ | ⟨e, he, ho⟩
      · rcases List.mem_cons.1 hu with rfl | hu
        · exact .inr ⟨x, by simp, hr u (by simp) hi x hx k hk hv⟩
        · exact .inl ⟨u, hu, k, hk, hv⟩
      · exact .inr ⟨e, by simp [he], ho⟩

theorem setDef_occ : ∀ (f : Nat) (ts : List Tok) (σ : Side) (b : Bool) (q : Seq), TopT σ ts b → setDef f ts = .ok q → ∀ n : Int, Tok.num n ∈ ts → q.Occurs n.natAbs := by
  intro f
  induction f with
  | zero => intro ts σ b q _ h; simp [RBool.setDef] at h
  | succ f ih =>
    intro ts σ b q ht h n hn
    cases ts with
    | nil => simp [RBool.setDef] at h
    | cons t ts =>
      simp only [RBool.setDef, bind_ok] at h
      obtain ⟨r, h1, h2⟩ := h
      obtain ⟨vs, -, hvs⟩ := outerTerms_spec ht
      refine groupSingle_keeps h2 ((occurs_lst _ _ _ _).2 ?_)
      obtain ⟨u, hu, hnu⟩ := outerTerms_num ht hn
      refine defLoop_occ _ _ _ r ?_ h1 (.inl ⟨u, hu, n, hnu, rfl⟩)
      intro w hw _ x hx k hk hv
      obtain ⟨c, hc, -⟩ := forall₂_left hvs w hw
      rw [← hv]
      exact ih w σ c x hc hx k hk

/-! ### cleaning the text -/

theorem tw_imp {p : Tok → Bool} {x : Tok} : ∀ {l : List Tok}, x ∈ l.takeWhile p → p x = true
  | t :: l, h => by
    by_cases ht : p t = true
    · rw [List.takeWhile_cons_of_pos ht] at h
      rcases List.mem_cons.1 h with rfl | h
      · exact ht
      · exact tw_imp h
    · rw [List.takeWhile_cons_of_neg ht] at h
      cases h

theorem solid_blanks (l : List Tok) : solid (l.takeWhile (· = .blank)) = [] := by
  induction l with
  | nil => rfl
  | cons t l ih =>
    by_cases h : t = .blank
    · subst h; simpa [solid] using ih
    · simp [h, solid]

theorem clean_means {σ : Side} {ts : List Tok} {b : Bool} (h : Means σ ts b) : Means σ (cleanText ts) b := by
  unfold cleanText
  split
  · exact h
  · dsimp only
    have h' := C18_remove_redundant σ ts b h
    split
    · exact h'
    · unfold Means at h' ⊢
      rw [show solid ((removeRedundant ts).takeWhile (· = .blank) ++ Tok.lp :: (strip (removeRedundant ts) ++ Tok.rp :: (removeRedundant ts).reverse.takeWhile (· = .blank)))
        = .lp :: (solid (removeRedundant ts) ++ [.rp]) by
          have e : ∀ a b : List Tok, solid (a ++ b) = solid a ++ solid b := fun a b => by simp [solid]
          rw [e, solid_blanks]
          have e2 : ∀ (t : Tok) (l : List Tok), t ≠ .blank → solid (t :: l) = t :: solid l := fun t l ht => by simp [solid, ht]
          rw [e2 _ _ (by simp), e, e2 _ _ (by simp), solid_blanks, solid_strip]
          rfl]
      exact .single (.one (.paren h'))

theorem clean_iff {ts : List Tok} (hr : Readable ts) (σ : Side) (b : Bool) : Means σ (cleanText ts) b ↔ Means σ ts b := by
  refine ⟨fun h => ?_, clean_means⟩
  obtain ⟨c, hc⟩ := hr.means σ
  rw [C16_unambiguous σ _ b c h (clean_means hc)]
  exact hc

theorem clean_num (ts : List Tok) (n : Int) : Tok.num n ∈ cleanText ts ↔ Tok.num n ∈ ts := by
  have key : Tok.num n ∈ removeRedundant ts ↔ Tok.num n ∈ ts := by
    have h := C18_symbols ts
    constructor
    · intro hm
      have : Tok.num n ∈ (removeRedundant ts).filter (fun t => t ≠ .lp ∧ t ≠ .rp ∧ t ≠ .blank) := List.mem_filter.2 ⟨hm, by simp⟩
      rw [h] at this
      exact (List.mem_filter.1 this).1
    · intro hm
      have : Tok.num n ∈ ts.filter (fun t => t ≠ .lp ∧ t ≠ .rp ∧ t ≠ .blank) := List.mem_filter.2 ⟨hm, by simp⟩
      rw [← h] at this
      exact (List.mem_filter.1 this).1
  unfold cleanText
  split
  · rfl
  · dsimp only
    split
    · exact key
    · rw [← key]
      have hb : ∀ l : List Tok, Tok.num n ∉ l.takeWhile (· = .blank) := fun l h => by
        have := tw_imp h
        simp at this
      simp only [List.mem_append, List.mem_cons, hb, false_or, or_false, reduceCtorEq]
      exact ⟨Text.mem_strip, num_strip⟩

theorem clean_written (ts : List Tok) (v : Nat) : written (cleanText ts) v ↔ written ts v := by
  unfold written
  simp only [clean_num]

theorem origs_length {keep : Bool} {k : Nat} : ∀ {done rest : List Text.Item}, (origs keep (pass keep k done rest)).length = (origs keep (done ++ rest)).length := by
  induction k with
  | zero => intro done rest; rfl
  | succ k ih =>
    intro done rest
    unfold pass
    split
    · rfl
    · next pre inner post hf =>
      obtain ⟨rfl, -⟩ := findInner_some hf
      rw [ih]
      simp only [origs_append, origs_cons, List.length_append]
      unfold masked
      split
      · cases keep <;> simp [Text.Item.orig] <;> omega
      · simp [Text.Item.orig]; omega

theorem origs_passes {keep : Bool} : ∀ (k : Nat) (w : List Text.Item), (origs keep (passes keep k w)).length = (origs keep w).length
  | 0, w => rfl
  | k + 1, w => by
    unfold passes
    split
    · rfl
    · rw [origs_passes k, origs_length]; rfl

theorem removeRedundant_length (ts : List Tok) : (removeRedundant ts).length = ts.length := by
  unfold removeRedundant mask
  rw [origs_passes]
  simp

theorem dropTake_length (p : Tok → Bool) (l : List Tok) : (l.dropWhile p).length + (l.takeWhile p).length = l.length := by
  conv => rhs; rw [← List.takeWhile_append_dropWhile (p := p) (l := l)]
  rw [List.length_append]
  omega

theorem clean_length {ts : List Tok} (hr : Readable ts) : (cleanText ts).length ≤ ts.length + 2 := by
  unfold cleanText
  split
  · omega
  · dsimp only
    split
    · rw [removeRedundant_length]; omega
    · rw [← removeRedundant_length ts]
      generalize he : removeRedundant ts = t
      have hr' : Readable t := by
        obtain ⟨σ, b, h⟩ := hr
        exact ⟨σ, b, he ▸ C18_remove_redundant σ ts b h⟩
      obtain ⟨σ, b, h⟩ := hr'
      -- there is a token that is no blank
      have hx : ∃ x ∈ t, x ≠ .blank := by
        have := (reads_top h).nums_pos
        unfold nums at this
        obtain ⟨x, hx⟩ := List.exists_mem_of_length_pos this
        obtain ⟨h1, h2⟩ := List.mem_filter.1 hx
        exact ⟨x, h1, fun e => by subst e; simp at h2⟩
      have h1 := dropTake_length (· = .blank) t
      have h2 := dropTake_length (· = .blank) (t.dropWhile (· = .blank)).reverse
      have h3 : ((t.dropWhile (· = .blank)).reverse.takeWhile (· = .blank)).length = (t.reverse.takeWhile (· = .blank)).length := by
        obtain ⟨x, hx, hb⟩ := hx
        have hd : ∃ y ∈ (t.dropWhile (· = .blank)).reverse, y ≠ .blank := by
          refine ⟨x, ?_, hb⟩
          rw [List.mem_reverse]
          rw [← List.takeWhile_append_dropWhile (p := (· = Tok.blank)) (l := t)] at hx
          rcases List.mem_append.1 hx with hx | hx
          · have := tw_imp hx
            simp at this
            exact absurd this hb
          · exact hx
        conv => rhs; rw [← List.takeWhile_append_dropWhile (p := (· = Tok.blank)) (l := t), List.reverse_append]
        rw [List.takeWhile_append]
        split
        · next hall =>
          obtain ⟨y, hy, hb'⟩ := hd
          have e := List.takeWhile_append_dropWhile (p := (· = Tok.blank)) (l := (t.dropWhile (· = .blank)).reverse)
          have hd0 : (t.dropWhile (· = .blank)).reverse.dropWhile (· = .blank) = [] := by
            apply List.length_eq_zero_iff.1
            omega
          rw [hd0, List.append_nil] at e
          rw [← e] at hy
          have := tw_imp hy
          simp at this
          exact absurd this hb'
        · rfl
      simp only [List.length_append, List.length_cons, strip, List.length_reverse] at h1 h2 ⊢
      omega

theorem reads_rp {σ r t b} (h : Reads σ r t b) : Tok.rp ∈ t → Tok.lp ∈ t := by
  induction h with
  | num n h => simp
  | paren _ ih => simp
  | one _ ih => exact ih
  | and _ _ ih1 ih2 => simp only [List.mem_append]; tauto
  | single _ ih => exact ih
  | or _ _ ih1 ih2 => simp only [List.mem_append, List.mem_cons, reduceCtorEq, false_or]; tauto

theorem clean_plain {ts : List Tok} (hr : Readable ts) (h : Tok.lp ∉ ts) : cleanText ts = ts := by
  unfold cleanText
  rw [if_pos]
  intro hm
  obtain ⟨σ, b, hr⟩ := hr
  exact h (List.mem_filter.1 (reads_rp hr (List.mem_filter.2 ⟨hm, by simp⟩))).1

/-! ### the definition of a text -/

theorem clean_readable {ts : List Tok} (hr : Readable ts) : Readable (cleanText ts) := by
  obtain ⟨σ, b, h⟩ := hr
  exact ⟨σ, b, clean_means h⟩

/-- everything used of the definition read from a text -/
theorem def_spec {ts : List Tok} (hr : Readable ts) {f : Nat} (hf : ts.length + 3 ≤ f) :
    ∃ d, defOfText f ts = .ok d ∧ Solid.Plain d ∧ (∀ v, d.Occurs v ↔ written ts v) ∧ d.depth + 1 ≤ f + 1 ∧ (∀ σ b, Means σ ts b ↔ b = d.sem σ) := by
  have hl := clean_length hr
  have hc := clean_readable hr
  obtain ⟨q, h1, h2⟩ := C113_parse (cleanText ts) hc f (by omega)
  obtain ⟨h3, h4, h5⟩ := setDef_made hc (by omega) h1
  refine ⟨q, h1, ⟨h3.sq, h3.wf, h3.nb, h5⟩, fun v => ⟨fun hv => (clean_written ts v).1 (h3.occ v hv), fun hv => ?_⟩, ?_, fun σ b => ?_⟩
  · obtain ⟨k, hk, rfl⟩ := (clean_written ts v).2 hv
    obtain ⟨σ, b, h⟩ := hc
    exact setDef_occ f _ σ b q (reads_top h) h1 k hk
  · have := depth_le_wd q
    omega
  · rw [← h2, clean_iff hr]

end Geouned.Back
