import Verif.RBool.Props
import Verif.Rev.SolidSpec
/-!
# Lemmas for C127: what the definition read from a text looks like
-/
namespace Geouned.RBool
open Geouned Geouned.Text Geouned.Rev.Solid

theorem filledL_iff (es : List Seq) : FilledL es ↔ ∀ e ∈ es, Filled e := by
  induction es with
  | nil => simp [FilledL]
  | cons e es ih => simp [FilledL, ih]

theorem filled_lst (op : Op) (l : Int) (es : List Seq) : Filled (.lst op l es) ↔ es ≠ [] ∧ ∀ e ∈ es, Filled e := by
  rw [Filled, filledL_iff]

/-! ### no list of the definition is empty -/

theorem andTerms_ne {σ r m b} (h : G σ r m b) : Text.NoPar m → Text.Item.tok .colon ∉ m → andTerms m ≠ [] := by
  induction h with
  | num n h => intro _ _; simp [andTerms]
  | block _ _ => intro _ _; simp [andTerms]
  | paren _ _ => intro h; simp [Text.NoPar] at h
  | one _ ih => exact ih
  | single _ ih => exact ih
  | and _ _ ih1 ih2 =>
    intro hp hc
    simp only [Text.NoPar, List.mem_append, not_or] at hp hc
    rw [andTerms_append]
    simp [ih1 ⟨hp.1.1, hp.2.1⟩ hc.1]
  | or _ _ _ _ => intro _ h; simp at h
  | blankL _ ih =>
    intro hp hc
    simpa [andTerms] using ih ⟨by simpa using hp.1, by simpa using hp.2⟩ (by simpa using hc)
  | blankR _ ih =>
    intro hp hc
    rw [andTerms_append]
    simpa [andTerms] using ih ⟨by simpa using hp.1, by simpa using hp.2⟩ (by simpa using hc)
  | goneI _ ih =>
    intro hp hc
    simp only [andTerms, andTerms_append]
    simpa [andTerms] using ih ⟨by simpa using hp.1, by simpa using hp.2⟩ (by simpa using hc)
  | goneU _ ih =>
    intro hp hc
    simp only [andTerms, andTerms_append]
    simpa [andTerms] using ih ⟨by simpa using hp.1, by simpa using hp.2⟩ (by simpa using hc)

theorem outerTerms_ne {σ ts b} (h : TopT σ ts b) : (outerTerms ts).1 ≠ [] := by
  obtain ⟨hi, hf⟩ := mask_inv h
  obtain ⟨L, m, R, e, hL, hR, hm⟩ := hi.top
  have hp : Text.NoPar m := by
    rcases hm.hasInner with h | ⟨pre, i, p, h1, h2⟩
    · exact h
    · exfalso
      apply findInner_none (pre := L ++ pre) (i := i) (p := p ++ R) h2
      rw [← hf, e, h1]
      simp
  unfold outerTerms
  dsimp only
  split
  · simp [splitColon_ne]
  · next hc =>
    have := andTerms_ne hm hp (fun h => hc (by rw [e]; simp [h]))
    rw [e, andTerms_append, andTerms_append]
    simp [this]

theorem groupLoop_ne : ∀ (k : Nat) (es kept group : List Seq) (r : List Seq × List Seq), es.length ≤ k → (es ≠ [] ∨ kept ≠ [] ∨ group ≠ []) →
    (∀ e ∈ es ++ kept ++ group, Filled e) → groupLoop k es kept group = .ok r → (r.1 ≠ [] ∨ r.2 ≠ []) ∧ ∀ e ∈ r.1 ++ r.2, Filled e
  | 0, es, kept, group, r, hk, hn, hf, h => by
    have : es = [] := List.length_eq_zero_iff.1 (by omega)
    subst this
    simp only [groupLoop, Except.ok.injEq] at h
    subst h
    exact ⟨by simpa using hn, by simpa using hf⟩
  | k + 1, [], kept, group, r, hk, hn, hf, h => by
    simp only [groupLoop, Except.ok.injEq] at h
    subst h
    exact ⟨by simpa using hn, by simpa using hf⟩
  | k + 1, .int n :: rest, kept, group, r, hk, hn, hf, h => by
    simp only [groupLoop] at h
    refine groupLoop_ne k _ _ _ r ?_ (.inr (.inr (by simp))) ?_ h
    · rw [removeInt_length]
      simp at hk; omega
    · intro e he
      simp only [List.mem_append, List.mem_singleton] at he
      rcases he with (he | he) | he | he
      · have hm : e ∈ Seq.int n :: rest := (removeInt_perm n rest).subset (List.mem_cons_of_mem _ he)
        exact hf e (by simp at hm ⊢; tauto)
      · exact hf e (by simp [he])
      · exact hf e (by simp [he])
      · exact hf e (by simp [he])
  | k + 1, .boo op l b :: rest, kept, group, r, hk, hn, hf, h => by
    simp only [groupLoop] at h
    split at h
    · cases h
    · refine groupLoop_ne k _ _ _ r (by simp at hk; omega) (.inr (.inl (by simp))) ?_ h
      intro e he
      exact hf e (by simp at he ⊢; tauto)
  | k + 1, .lst op l es :: rest, kept, group, r, hk, hn, hf, h => by
    simp only [groupLoop] at h
    split at h
    · next x =>
      have hx := (filled_lst _ _ _).1 (hf (.lst op 0 [x]) (by simp))
      refine groupLoop_ne k _ _ _ r (by simp at hk; omega) (.inr (.inr (by simp))) ?_ h
      intro e he
      simp only [List.mem_append, List.mem_singleton] at he
      rcases he with (he | he) | he | rfl
      · exact hf e (by simp [he])
      · exact hf e (by simp [he])
      · exact hf e (by simp [he])
      · exact hx.2 _ (by simp)
    · refine groupLoop_ne k _ _ _ r (by simp at hk; omega) (.inr (.inl (by simp))) ?_ h
      intro e he
      exact hf e (by simp at he ⊢; tauto)

theorem groupSingle_filled {s s' : Seq} (hf : Filled s) (h : s.groupSingle = .ok s') : Filled s' := by
  cases s with
  | int n => simp [Seq.groupSingle] at h
  | boo op l b => simp [Seq.groupSingle] at h; subst h; exact hf
  | lst op l es =>
    simp only [Seq.groupSingle] at h
    split at h
    · cases h; exact hf
    · simp only [bind_ok] at h
      obtain ⟨⟨kept, group⟩, hg, h⟩ := h
      obtain ⟨h1, h2⟩ := (filled_lst _ _ _).1 hf
      obtain ⟨g1, g2⟩ := groupLoop_ne es.length es.reverse [] [] (kept, group) (by simp) (.inl (by simpa using h1)) (by simpa using h2) hg
      cases group with
      | nil =>
        simp at h
        subst h
        rw [filled_lst]
        exact ⟨by simpa using g1, fun e he => g2 e (by simp [he])⟩
      | cons g gs =>
        simp at h
        subst h
        rw [filled_lst]
        refine ⟨by simp, fun e he => ?_⟩
        rcases List.mem_cons.1 he with rfl | he
        · rw [filled_lst]
          exact ⟨by simp, fun x hx => g2 x (by simp at hx ⊢; tauto)⟩
        · exact g2 e (by simp [he])

theorem defLoop_filled {rec : List Tok → M Seq} : ∀ (terms : List (List Tok)) (l : Int) (es : List Seq) (r : Int × List Seq),
    (terms ≠ [] ∨ es ≠ []) → (∀ t ∈ terms, asInteger t = none → ∀ x, rec t = .ok x → Filled x) → (∀ e ∈ es, Filled e) → defLoop rec terms l es = .ok r →
    r.2 ≠ [] ∧ ∀ e ∈ r.2, Filled e
  | [], l, es, r, hn, _, he, h => by
    simp only [defLoop, Except.ok.injEq] at h
    subst h
    exact ⟨by simpa using hn, he⟩
  | t :: ts, l, es, r, _, hr, he, h => by
    simp only [defLoop] at h
    split at h
    · refine defLoop_filled ts _ _ r (.inr (by simp)) (fun u hu => hr u (by simp [hu])) ?_ h
      intro e hm
      rcases List.mem_append.1 hm with hm | hm
      · exact he e hm
      · rw [List.mem_singleton.1 hm]; trivial
    · next hi =>
      simp only [bind_ok] at h
      obtain ⟨x, hx, h⟩ := h
      refine defLoop_filled ts _ _ r (.inr (by simp)) (fun u hu => hr u (by simp [hu])) ?_ h
      intro e hm
      rcases List.mem_append.1 hm with hm | hm
      · exact he e hm
      · rw [List.mem_singleton.1 hm]; exact hr t (by simp) hi x hx

theorem setDef_filled : ∀ (f : Nat) (ts : List Tok) (σ : Side) (b : Bool) (q : Seq), TopT σ ts b → setDef f ts = .ok q → Filled q := by
  intro f
  induction f with
  | zero => intro ts σ b q _ h; simp [setDef] at h
  | succ f ih =>
    intro ts σ b q ht h
    cases ts with
    | nil => simp [setDef] at h
    | cons t ts =>
      simp only [setDef, bind_ok] at h
      obtain ⟨r, h1, h2⟩ := h
      obtain ⟨vs, -, hvs⟩ := outerTerms_spec ht
      refine groupSingle_filled ?_ h2
      rw [filled_lst]
      refine defLoop_filled _ _ _ r (.inl (outerTerms_ne ht)) ?_ (by simp) h1
      intro u hu _ x hx
      obtain ⟨c, hc, -⟩ := forall₂_left hvs u hu
      exact ih u σ c x hc hx

/-! ### the surfaces of the definition are those written -/

theorem setDef_made {f : Nat} {ts : List Tok} (h : Readable ts) (hf : ts.length < f) {q : Seq} (hq : setDef f ts = .ok q) : Made ts q ∧ wd q ≤ ts.length + 1 ∧ Filled q := by
  obtain ⟨σ, b, h⟩ := h
  have := nums_le ts
  obtain ⟨q', h1, h2, h3, -⟩ := setDef_spec f ts σ b (by omega) (reads_top h)
  rw [hq] at h1; cases h1
  exact ⟨h2, by omega, setDef_filled f ts σ b q (reads_top h) hq⟩

/-! ### texts without parentheses -/

theorem findInner_map {ts : List Tok} (h : Tok.lp ∉ ts) : findInner (ts.map .tok) = none := by
  induction ts with
  | nil => rfl
  | cons t ts ih =>
    have ih := ih (by simp at h; exact h.2)
    cases t <;> simp [findInner, ih] at h ⊢

theorem mask_map {ts : List Tok} (h : Tok.lp ∉ ts) : mask true ts = ts.map .tok := by
  simp [mask, passes, findInner_map h]

theorem andTerms_map : ∀ ts : List Tok, ∀ t ∈ andTerms (ts.map .tok), ∃ n, t = [.num n]
  | [], t, h => by simp [andTerms] at h
  | .num n :: ts, t, h => by
    simp only [List.map_cons, andTerms, List.mem_cons] at h
    rcases h with rfl | h
    · exact ⟨n, rfl⟩
    · exact andTerms_map ts t h
  | .lp :: ts, t, h => andTerms_map ts t h
  | .rp :: ts, t, h => andTerms_map ts t h
  | .colon :: ts, t, h => andTerms_map ts t h
  | .blank :: ts, t, h => andTerms_map ts t h

theorem defLoop_ints {rec : List Tok → M Seq} : ∀ (terms : List (List Tok)) (es : List Seq), (∀ t ∈ terms, ∃ n, t = [.num n]) → 
    ∃ es', defLoop rec terms 0 es = .ok (0, es')
  | [], es, _ => ⟨es, rfl⟩
  | t :: ts, es, h => by
    obtain ⟨n, rfl⟩ := h t (by simp)
    obtain ⟨es', he⟩ := defLoop_ints (rec := rec) ts (es ++ [.int n]) (fun u hu => h u (by simp [hu]))
    exact ⟨es', by simp [defLoop, asInteger, stripTok, strip, he]⟩

/-- an intersection without parentheses -/
theorem setDef_clause {f : Nat} {ts : List Tok} (h : Tok.lp ∉ ts) (hc : Tok.colon ∉ ts) {q : Seq} (hq : setDef f ts = .ok q) : ∃ es, q = .lst .and 0 es := by
  cases f with
  | zero => simp [setDef] at hq
  | succ f =>
    cases ts with
    | nil => simp [setDef] at hq
    | cons t ts =>
      have e : outerTerms (t :: ts) = (andTerms ((t :: ts).map .tok), .and) := by
        unfold outerTerms
        rw [mask_map h]
        have : ¬ Text.Item.tok .colon ∈ (t :: ts).map Text.Item.tok := by
          intro hm
          obtain ⟨x, hx, he⟩ := List.mem_map.1 hm
          cases he
          exact hc hx
        simp only [if_neg this]
      obtain ⟨es, he⟩ := defLoop_ints (rec := setDef f) _ [] (andTerms_map (t :: ts))
      simp only [setDef, e, he, bind, Except.bind, Seq.groupSingle, if_pos] at hq
      cases hq
      exact ⟨es, rfl⟩

theorem defLoop_flat {rec : List Tok → M Seq} : ∀ (terms : List (List Tok)) (l : Int) (es : List Seq) (r : Int × List Seq),
    (∀ t ∈ terms, ∀ x, rec t = .ok x → ∃ es, x = .lst .and 0 es) → (∀ e ∈ es, (∃ n, e = .int n) ∨ ∃ o xs, e = .lst o 0 xs) →
    defLoop rec terms l es = .ok r → ∀ e ∈ r.2, (∃ n, e = .int n) ∨ ∃ o xs, e = .lst o 0 xs
  | [], l, es, r, _, he, h => by
    simp only [defLoop, Except.ok.injEq] at h
    subst h
    exact he
  | t :: ts, l, es, r, hr, he, h => by
    simp only [defLoop] at h
    split at h
    · next n _ =>
      refine defLoop_flat ts _ _ r (fun u hu => hr u (by simp [hu])) ?_ h
      intro e hm
      rcases List.mem_append.1 hm with hm | hm
      · exact he e hm
      · exact .inl ⟨n, List.mem_singleton.1 hm⟩
    · simp only [bind_ok] at h
      obtain ⟨x, hx, h⟩ := h
      refine defLoop_flat ts _ _ r (fun u hu => hr u (by simp [hu])) ?_ h
      intro e hm
      rcases List.mem_append.1 hm with hm | hm
      · exact he e hm
      · obtain ⟨es, hxe⟩ := hr t (by simp) x hx
        exact .inr ⟨_, _, (List.mem_singleton.1 hm).trans hxe⟩

theorem groupLoop_mem : ∀ (k : Nat) (es kept group : List Seq) (r : List Seq × List Seq), groupLoop k es kept group = .ok r → es.length ≤ k → ∀ e ∈ r.1, e ∈ es ∨ e ∈ kept
  | 0, es, kept, group, r, h, _, e, he => by
    simp only [groupLoop, Except.ok.injEq] at h
    subst h
    exact .inr he
  | k + 1, [], kept, group, r, h, _, e, he => by
    simp only [groupLoop, Except.ok.injEq] at h
    subst h
    exact .inr he
  | k + 1, .int n :: rest, kept, group, r, h, hk, e, he => by
    simp only [groupLoop] at h
    rcases groupLoop_mem k _ _ _ r h (by rw [removeInt_length]; simp at hk; omega) e he with h1 | h1
    · exact .inl ((removeInt_perm n rest).subset (List.mem_cons_of_mem _ h1))
    · exact .inr h1
  | k + 1, .boo op l b :: rest, kept, group, r, h, hk, e, he => by
    simp only [groupLoop] at h
    split at h
    · cases h
    · rcases groupLoop_mem k _ _ _ r h (by simp at hk; omega) e he with h1 | h1 <;> simp at h1 ⊢ <;> tauto
  | k + 1, .lst op l es :: rest, kept, group, r, h, hk, e, he => by
    simp only [groupLoop] at h
    split at h
    · rcases groupLoop_mem k _ _ _ r h (by simp at hk; omega) e he with h1 | h1 <;> simp at h1 ⊢ <;> tauto
    · rcases groupLoop_mem k _ _ _ r h (by simp at hk; omega) e he with h1 | h1 <;> simp at h1 ⊢ <;> tauto

theorem groupSingle_mem {op : Op} {l : Int} {es : List Seq} {q : Seq} (h : (Seq.lst op l es).groupSingle = .ok q) :
    ∃ es', q = .lst op l es' ∧ ∀ e ∈ es', e ∈ es ∨ ∃ g, e = .lst op 0 g := by
  simp only [Seq.groupSingle] at h
  split at h
  · cases h; exact ⟨es, rfl, fun e he => .inl he⟩
  · simp only [bind_ok] at h
    obtain ⟨⟨kept, group⟩, hg, h⟩ := h
    have hm := groupLoop_mem es.length es.reverse [] [] (kept, group) hg (by simp)
    simp at hm
    cases group with
    | nil =>
      simp at h
      exact ⟨kept, h.symm, fun e he => .inl (hm e he)⟩
    | cons g gs =>
      simp at h
      refine ⟨_, h.symm, fun e he => ?_⟩
      rcases List.mem_cons.1 he with rfl | he
      · exact .inr ⟨_, rfl⟩
      · exact .inl (hm e he)

theorem splitColon_no : ∀ (w : List Text.Item), ∀ p ∈ splitColon w, Text.Item.tok .colon ∉ p
  | [], p, h => by simp [splitColon] at h; subst h; simp
  | x :: w, p, h => by
    by_cases hx : x = .tok .colon
    · subst hx
      simp only [splitColon, List.mem_cons] at h
      rcases h with rfl | h
      · simp
      · exact splitColon_no w p h
    · obtain ⟨q, qs, h1, h2⟩ := splitColon_cons hx w
      rw [h2] at h
      rcases List.mem_cons.1 h with rfl | h
      · have := splitColon_no w q (by rw [h1]; simp)
        simp [this, Ne.symm hx]
      · exact splitColon_no w p (by rw [h1]; simp [h])

/-- a text without parentheses gives a flat definition -/
theorem setDef_flat {f : Nat} {ts : List Tok} (h : Tok.lp ∉ ts) {q : Seq} (hq : setDef f ts = .ok q) : Flat q := by
  by_cases hc : Tok.colon ∈ ts
  · cases f with
    | zero => simp [setDef] at hq
    | succ f =>
      cases ts with
      | nil => simp [setDef] at hq
      | cons t ts =>
        have e : outerTerms (t :: ts) = ((splitColon ((t :: ts).map .tok)).map fun p => strip (origs true p), .or) := by
          unfold outerTerms
          rw [mask_map h]
          have : Text.Item.tok .colon ∈ (t :: ts).map Text.Item.tok := List.mem_map.2 ⟨_, hc, rfl⟩
          simp only [if_pos this]
        simp only [setDef, bind_ok, e] at hq
        obtain ⟨r, h1, h2⟩ := hq
        have key : ∀ e ∈ r.2, (∃ n, e = .int n) ∨ ∃ o xs, e = .lst o 0 xs := by
          refine defLoop_flat _ _ _ r ?_ (by simp) h1
          intro u hu x hx
          obtain ⟨p, hp, rfl⟩ := List.mem_map.1 hu
          have hsub : ∀ z ∈ p, z ∈ (t :: ts).map Text.Item.tok := fun z hz => mem_splitColon hp hz
          have hz : ∀ z ∈ strip (origs true p), Text.Item.tok z ∈ p := by
            intro z hz
            obtain ⟨y, hy, hz⟩ := List.mem_flatMap.1 (mem_strip hz)
            obtain ⟨w, -, rfl⟩ := List.mem_map.1 (hsub y hy)
            simp [Text.Item.orig] at hz
            exact hz ▸ hy
          refine setDef_clause ?_ ?_ hx
          · intro hl
            obtain ⟨w, hw, e⟩ := List.mem_map.1 (hsub _ (hz _ hl))
            cases e
            exact h hw
          · intro hl
            exact splitColon_no _ p hp (hz _ hl)
        cases hq' : r.1 == 0 with
        | true =>
          have h0 : r.1 = 0 := by simpa using hq'
          simp only [Seq.groupSingle, if_pos h0] at h2
          cases h2
          exact ⟨_, _, _, rfl, .inl h0⟩
        | false =>
          have h0 : r.1 ≠ 0 := by simpa using hq'
          have hm : ∀ es', q = .lst .or r.1 es' → (∀ e ∈ es', e ∈ r.2 ∨ ∃ g, e = .lst .or 0 g) → Flat q := by
            intro es' he hes
            refine ⟨_, _, _, he, .inr ⟨rfl, fun e hm => ?_⟩⟩
            rcases hes e hm with h | ⟨g, rfl⟩
            · exact key e h
            · exact .inr ⟨_, _, rfl⟩
          have hgr : ∃ es', q = .lst .or r.1 es' ∧ (∀ e ∈ es', e ∈ r.2 ∨ ∃ g, e = .lst .or 0 g) := by
            exact groupSingle_mem h2
          obtain ⟨es', g1, g2⟩ := hgr
          exact hm es' g1 g2
  · obtain ⟨es, rfl⟩ := setDef_clause h hc hq
    exact ⟨_, _, _, rfl, .inl rfl⟩

end Geouned.RBool
