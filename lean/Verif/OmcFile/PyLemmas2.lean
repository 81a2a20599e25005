import Verif.OmcFile.PyLemmas
/-! # Lemmas for C107: statements -/
namespace Geouned.OmcFile

open Geouned.Text

/-- what the characters of a region come from -/
theorem writeSeq_mem {α : Type} {st : Style α} {x : α} : ∀ (f : Nat) (s : Seq) (ts : List α), writeSeq st f s = .ok ts → x ∈ ts →
    (∃ n : Int, s.Occurs n.natAbs ∧ x ∈ st.num n) ∨ (∃ op, x ∈ st.sep op) ∨ x = st.lp ∨ x = st.rp := by
  have hjoin : ∀ (sep : List α) (l : List (List α)), x ∈ join sep l → x ∈ sep ∨ ∃ t ∈ l, x ∈ t := by
    intro sep l
    induction l with
    | nil => intro h; simp [join] at h
    | cons t l ih =>
      cases l with
      | nil => intro h; exact Or.inr ⟨t, by simp, h⟩
      | cons t' ts =>
        intro h
        simp only [join, List.mem_append] at h
        rcases h with h | h | h
        · exact Or.inr ⟨t, by simp, h⟩
        · exact Or.inl h
        · rcases ih h with h | ⟨u, hu, h⟩
          · exact Or.inl h
          · exact Or.inr ⟨u, List.mem_cons_of_mem _ hu, h⟩
  intro f
  induction f with
  | zero => intro s ts h; simp [writeSeq] at h
  | succ f ih =>
    intro s ts h hx
    cases s with
    | int n => simp [writeSeq] at h
    | boo o l b => simp [writeSeq] at h
    | lst op l es =>
      have lev : ∀ (es : List Seq) (tl : List (List α)), level0Terms st es = .ok tl → ∀ t ∈ tl, ∃ n : Int, Seq.OccursL n.natAbs es ∧ t = st.num n := by
        intro es
        induction es with
        | nil => intro tl h t ht; simp [level0Terms] at h; subst h; simp at ht
        | cons e es ihe =>
          intro tl h t ht
          cases e with
          | int n =>
            simp only [level0Terms, bind, Except.bind] at h
            cases hr : level0Terms st es with
            | error e => rw [hr] at h; cases h
            | ok r =>
              rw [hr] at h
              obtain rfl : st.num n :: r = tl := by injection h
              rcases List.mem_cons.mp ht with rfl | ht
              · exact ⟨n, by simp [Seq.OccursL, Seq.Occurs], rfl⟩
              · obtain ⟨m, h1, h2⟩ := ihe r hr t ht
                exact ⟨m, by simp [Seq.OccursL, h1], h2⟩
          | boo o l b => simp [level0Terms] at h
          | lst o l xs => simp [level0Terms] at h
      have loop : ∀ (es : List Seq) (tl : List (List α)), termsLoop st (writeSeq st f) es = .ok tl → ∀ t ∈ tl,
          (∃ n : Int, Seq.OccursL n.natAbs es ∧ t = st.num n) ∨ (∃ e ∈ es, writeSeq st f e = .ok t) := by
        intro es
        induction es with
        | nil => intro tl h t ht; simp [termsLoop] at h; subst h; simp at ht
        | cons e es ihe =>
          intro tl h t ht
          have next : ∀ r, termsLoop st (writeSeq st f) es = .ok r → t ∈ r →
              (∃ n : Int, Seq.OccursL n.natAbs (e :: es) ∧ t = st.num n) ∨ (∃ e' ∈ e :: es, writeSeq st f e' = .ok t) := by
            intro r hr ht
            rcases ihe r hr t ht with ⟨m, h1, h2⟩ | ⟨e', h1, h2⟩
            · exact Or.inl ⟨m, by simp [Seq.OccursL, h1], h2⟩
            · exact Or.inr ⟨e', List.mem_cons_of_mem _ h1, h2⟩
          cases e with
          | int n =>
            simp only [termsLoop, bind, Except.bind] at h
            cases hr : termsLoop st (writeSeq st f) es with
            | error e => rw [hr] at h; cases h
            | ok r =>
              rw [hr] at h
              obtain rfl : st.num n :: r = tl := by injection h
              rcases List.mem_cons.mp ht with rfl | ht
              · exact Or.inl ⟨n, by simp [Seq.OccursL, Seq.Occurs], rfl⟩
              · exact next r hr ht
          | boo o l b =>
            simp only [termsLoop, bind, Except.bind] at h
            cases hw : writeSeq st f (.boo o l b) with
            | error e => rw [hw] at h; cases h
            | ok w =>
              rw [hw] at h
              dsimp only at h
              cases hr : termsLoop st (writeSeq st f) es with
              | error e => rw [hr] at h; cases h
              | ok r =>
                rw [hr] at h
                obtain rfl : w :: r = tl := by injection h
                rcases List.mem_cons.mp ht with rfl | ht
                · exact Or.inr ⟨_, List.mem_cons_self, hw⟩
                · exact next r hr ht
          | lst o l xs =>
            simp only [termsLoop, bind, Except.bind] at h
            cases hw : writeSeq st f (.lst o l xs) with
            | error e => rw [hw] at h; cases h
            | ok w =>
              rw [hw] at h
              dsimp only at h
              cases hr : termsLoop st (writeSeq st f) es with
              | error e => rw [hr] at h; cases h
              | ok r =>
                rw [hr] at h
                obtain rfl : w :: r = tl := by injection h
                rcases List.mem_cons.mp ht with rfl | ht
                · exact Or.inr ⟨_, List.mem_cons_self, hw⟩
                · exact next r hr ht
      have occ : ∀ (v : Nat) (es : List Seq) (e : Seq), e ∈ es → e.Occurs v → Seq.OccursL v es := by
        intro v es
        induction es with
        | nil => intro e he; cases he
        | cons a es ihe =>
          intro e he ho
          rcases List.mem_cons.mp he with rfl | he
          · simp [Seq.OccursL, ho]
          · simp [Seq.OccursL, ihe e he ho]
      unfold writeSeq at h
      split at h
      · simp only [bind, Except.bind] at h
        cases hr : level0Terms st es with
        | error e => rw [hr] at h; cases h
        | ok tl =>
          rw [hr] at h
          dsimp only at h
          have hts : x ∈ join (st.sep op) tl ∨ x = st.lp ∨ x = st.rp := by
            simp only [Except.ok.injEq] at h
            subst h
            simp only [List.mem_cons, List.mem_append, List.not_mem_nil, or_false] at hx
            tauto
          rcases hts with hx | hx
          · rcases hjoin _ _ hx with hx | ⟨t, ht, hx⟩
            · exact Or.inr (Or.inl ⟨op, hx⟩)
            · obtain ⟨n, h1, rfl⟩ := lev es tl hr t ht
              exact Or.inl ⟨n, by simpa [Seq.Occurs] using h1, hx⟩
          · exact Or.inr (Or.inr hx)
      · simp only [bind, Except.bind] at h
        cases hr : termsLoop st (writeSeq st f) es with
        | error e => rw [hr] at h; cases h
        | ok tl =>
          rw [hr] at h
          dsimp only at h
          have hts : x ∈ join (st.sep op) tl ∨ x = st.lp ∨ x = st.rp := by
            simp only [Except.ok.injEq] at h
            subst h
            simp only [List.mem_cons, List.mem_append, List.not_mem_nil, or_false] at hx
            tauto
          rcases hts with hx | hx
          · rcases hjoin _ _ hx with hx | ⟨t, ht, hx⟩
            · exact Or.inr (Or.inl ⟨op, hx⟩)
            · rcases loop es tl hr t ht with ⟨n, h1, rfl⟩ | ⟨e, h1, h2⟩
              · exact Or.inl ⟨n, by simpa [Seq.Occurs] using h1, hx⟩
              · rcases ih e t h2 hx with ⟨n, h3, h4⟩ | h3
                · exact Or.inl ⟨n, by simpa [Seq.Occurs] using occ _ _ _ h1 h3, h4⟩
                · exact Or.inr h3
          · exact Or.inr (Or.inr hx)

/-- the region of a cell -/
theorem py_region {r : Nat} {s : Seq} (h : GoodDef r s) : ∃ ps : List PTok, writeSeq pyChars r s = .ok (ps.flatMap pyText)
    ∧ (∀ σ b, PyRegion σ (ps.flatMap pyToks) b ↔ b = s.sem σ) ∧ ∀ neg k, .surf neg k ∈ ps → s.Occurs k := by
  obtain ⟨op, l, es, rfl, hw, hb, hf, hd⟩ := h
  obtain ⟨ps, h1, h2⟩ := C17_write_py op l es hw hb hf r hd
  refine ⟨ps, ?_, ?_, ?_⟩
  · rw [writeSeq_flat py_finer, h1]
    rfl
  · intro σ b
    rw [← h2 σ b]
    unfold PyRegion
    rw [region_decode]
    simp
  · intro neg k hk
    rcases writeSeq_mem _ _ _ h1 hk with ⟨n, h3, h4⟩ | ⟨o, h3⟩ | h3 | h3
    · simp only [pyStyle, List.mem_singleton, PTok.surf.injEq] at h4
      rw [h4.2]
      exact h3
    · cases o <;> simp [pyStyle] at h3
    · simp [pyStyle] at h3
    · simp [pyStyle] at h3

end Geouned.OmcFile
