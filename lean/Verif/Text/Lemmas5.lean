import Verif.Text.Lemmas4
/-! Lemmas for `remove_redundant` and the writers -/
namespace Geouned.Text

/-! ### `remove_redundant` -/

theorem G.step {keep : Bool} {σ : Side} {b : Bool} {left inner post : List Item}
    (h : G σ .union (left ++ .tok .lp :: (inner ++ .tok .rp :: post)) b) (hn : NoPar inner) :
    G σ .union (left ++ (masked keep left inner post ++ post)) b := by
  obtain ⟨c, h1, h2, h3⟩ := h.ctx left inner post rfl hn
  unfold masked
  split
  · next hr =>
    unfold redundant at hr
    split at hr
    · next hc => exact h2 _ (.goneI (h1.noColon hc))
    · simp only [Bool.and_eq_true] at hr
      exact (h3 hr.1 hr.2 _ (.goneU h1)).1
  · exact h2 _ (.one (.block (h1.origs keep)))

theorem pass_G {keep σ b} : ∀ (k : Nat) (done rest : List Item), G σ .union (done ++ rest) b → G σ .union (pass keep k done rest) b
  | 0, done, rest, h => h
  | k + 1, done, rest, h => by
    unfold pass
    split
    · exact h
    · next pre inner post hf =>
      obtain ⟨rfl, hn⟩ := findInner_some hf
      apply pass_G
      have h' : G σ .union (done ++ pre ++ .tok .lp :: (inner ++ .tok .rp :: post)) b := by simpa using h
      have := h'.step (keep := keep) hn
      simpa using this

theorem passes_G {keep σ b} : ∀ (k : Nat) (w : List Item), G σ .union w b → G σ .union (passes keep k w) b
  | 0, w, h => h
  | k + 1, w, h => by
    unfold passes
    split
    · exact h
    · exact passes_G k _ (pass_G _ [] w (by simpa using h))

theorem removeRedundant_means {σ ts b} (h : Means σ ts b) : Means σ (removeRedundant ts) b := by
  have h1 := passes_G (keep := false) (ts.length + 1) (ts.map .tok) (h.toG ts rfl)
  exact h1.reads false

/-! ### readability does not depend on the point -/

theorem Reads.other {σ r t b} (h : Reads σ r t b) (σ' : Side) : ∃ b', Reads σ' r t b' := by
  induction h with
  | num n h => exact ⟨_, .num n h⟩
  | paren _ ih => exact ih.elim fun b h => ⟨b, .paren h⟩
  | one _ ih => exact ih.elim fun b h => ⟨b, .one h⟩
  | and _ _ ih1 ih2 => exact ih1.elim fun b h => ih2.elim fun c h' => ⟨_, .and h h'⟩
  | single _ ih => exact ih.elim fun b h => ⟨b, .single h⟩
  | or _ _ ih1 ih2 => exact ih1.elim fun b h => ih2.elim fun c h' => ⟨_, .or h h'⟩

theorem Readable.means {ts} (h : Readable ts) (σ : Side) : ∃ b, Means σ ts b := by
  obtain ⟨σ', b, h⟩ := h
  exact h.other σ

/-! ### the writers -/

/-- a style whose text can be read by a grammar `P` -/
structure StyleOK {α : Type} (st : Style α) (σ : Side) (P : Rank → List α → Bool → Prop) : Prop where
  num : ∀ n, n ≠ 0 → P .factor (st.num n) (lit σ n)
  one : ∀ {t b}, P .factor t b → P .inter t b
  single : ∀ {t b}, P .inter t b → P .union t b
  paren : ∀ {t b}, P .union t b → P .factor (st.lp :: (t ++ [st.rp])) b
  and : ∀ {t u b c}, P .factor t b → P .inter u c → P .inter (t ++ (st.sep .and ++ u)) (b && c)
  or : ∀ {t u b c}, P .inter t b → P .union u c → P .union (t ++ (st.sep .or ++ u)) (b || c)

theorem join_reads {α : Type} {st : Style α} {σ : Side} {P : Rank → List α → Bool → Prop} (hst : StyleOK st σ P) (op : Op) :
    ∀ (ts : List (List α)) (vs : List Bool), List.Forall₂ (P .factor) ts vs → ts ≠ [] → P .union (join (st.sep op) ts) (val op vs) := by
  have and' : ∀ (ts : List (List α)) (vs : List Bool), List.Forall₂ (P .factor) ts vs → ts ≠ [] → P .inter (join (st.sep .and) ts) (val .and vs) := by
    intro ts
    induction ts with
    | nil => intro vs _ h; exact absurd rfl h
    | cons t ts ih =>
      intro vs h _
      cases h with
      | cons h1 h2 =>
        cases ts with
        | nil =>
          cases h2
          simpa [join, val] using hst.one h1
        | cons t' ts =>
          have := hst.and h1 (ih _ h2 (by simp))
          simpa [join, val] using this
  cases op
  · exact fun ts vs h hne => hst.single (and' ts vs h hne)
  · intro ts
    induction ts with
    | nil => intro vs _ h; exact absurd rfl h
    | cons t ts ih =>
      intro vs h _
      cases h with
      | cons h1 h2 =>
        cases ts with
        | nil =>
          cases h2
          simpa [join, val] using hst.single (hst.one h1)
        | cons t' ts =>
          have := hst.or (hst.one h1) (ih _ h2 (by simp))
          simpa [join, val] using this

theorem val_semL (op : Op) (σ : Side) (es : List Seq) : val op (es.map (Seq.sem σ)) = semL op σ es := by
  induction es with
  | nil => cases op <;> rfl
  | cons e es ih => cases op <;> simp_all [val, Op.app]

theorem level0_reads {α : Type} {st : Style α} {σ : Side} {P : Rank → List α → Bool → Prop} (hst : StyleOK st σ P) :
    ∀ es : List Seq, (∀ e ∈ es, ∃ n, e = .int n) → Seq.WFL es →
    ∃ ts, level0Terms st es = .ok ts ∧ List.Forall₂ (P .factor) ts (es.map (Seq.sem σ)) ∧ (es ≠ [] → ts ≠ [])
  | [], _, _ => ⟨[], rfl, .nil, fun h => absurd rfl h⟩
  | e :: es, h, hw => by
    obtain ⟨n, rfl⟩ := h e (by simp)
    simp only [Seq.WFL, Seq.WF] at hw
    obtain ⟨ts, h1, h2, -⟩ := level0_reads hst es (fun e he => h e (by simp [he])) hw.2
    refine ⟨st.num n :: ts, by simp only [level0Terms, h1, bind, Except.bind], ?_, by simp⟩
    rw [List.map_cons]
    exact .cons (hst.num n hw.1) h2

theorem writeSeq_reads {α : Type} {st : Style α} {σ : Side} {P : Rank → List α → Bool → Prop} (hst : StyleOK st σ P) :
    ∀ (f : Nat) (op : Op) (l : Int) (es : List Seq), (Seq.lst op l es).WF → (Seq.lst op l es).NoBool → Full (.lst op l es) → (Seq.lst op l es).depth ≤ f →
    ∃ ts, writeSeq st f (.lst op l es) = .ok ts ∧ P .factor ts ((Seq.lst op l es).sem σ) := by
  intro f
  induction f with
  | zero => intro op l es _ _ _ h; simp [Seq.depth] at h
  | succ f ih =>
    have loop : ∀ es : List Seq, Seq.WFL es → Seq.NoBoolL es → FullL es → Seq.depthL es ≤ f →
        ∃ ts, termsLoop st (writeSeq st f) es = .ok ts ∧ List.Forall₂ (P .factor) ts (es.map (Seq.sem σ)) ∧ (es ≠ [] → ts ≠ []) := by
      intro es
      induction es with
      | nil => intro _ _ _ _; exact ⟨[], rfl, .nil, fun h => absurd rfl h⟩
      | cons e es ihl =>
        intro hw hb hf hd
        simp only [Seq.WFL] at hw
        simp only [Seq.NoBoolL] at hb
        simp only [FullL] at hf
        simp only [Seq.depthL] at hd
        obtain ⟨ts, h1, h2, -⟩ := ihl hw.2 hb.2 hf.2 (by omega)
        cases e with
        | int n =>
          simp only [Seq.WF] at hw
          refine ⟨st.num n :: ts, by simp only [termsLoop, h1, bind, Except.bind], ?_, by simp⟩
          rw [List.map_cons]
          exact .cons (hst.num n hw.1) h2
        | boo o l b => simp [Seq.NoBool] at hb
        | lst o l xs =>
          obtain ⟨t, h3, h4⟩ := ih o l xs hw.1 hb.1 hf.1 (by omega)
          refine ⟨t :: ts, by simp only [termsLoop, h3, h1, bind, Except.bind], ?_, by simp⟩
          rw [List.map_cons]
          exact .cons h4 h2
    intro op l es hw hb hf hd
    have hw' := hw
    simp only [Seq.WF] at hw
    simp only [Seq.NoBool] at hb
    simp only [Full] at hf
    simp only [Seq.depth] at hd
    unfold writeSeq
    split
    · next h0 =>
      obtain ⟨ts, h1, h2, h3⟩ := level0_reads hst es (hw.1.2 h0) hw.2
      refine ⟨st.lp :: (join (st.sep op) ts ++ [st.rp]), by rw [h1]; rfl, ?_⟩
      have := hst.paren (join_reads hst op _ _ h2 (h3 hf.1))
      rwa [val_semL, ← sem_lst op l es σ] at this
    · obtain ⟨ts, h1, h2, h3⟩ := loop es hw.2 hb hf.2 (by omega)
      refine ⟨st.lp :: (join (st.sep op) ts ++ [st.rp]), by rw [h1]; rfl, ?_⟩
      have := hst.paren (join_reads hst op _ _ h2 (h3 hf.1))
      rwa [val_semL, ← sem_lst op l es σ] at this

theorem mcnp_ok (σ : Side) : StyleOK mcnpStyle σ (fun r t b => Reads σ r (solid t) b) where
  num n h := .num n h
  one h := .one h
  single h := .single h
  paren {t b} h := by
    have := Reads.paren h
    simpa [mcnpStyle, solid_cons] using this
  and {t u b c} h1 h2 := by
    have := Reads.and h1 h2
    simpa [mcnpStyle, solid_cons] using this
  or {t u b c} h1 h2 := by
    have := Reads.or h1 h2
    simpa [mcnpStyle, solid_cons] using this

theorem xml_ok (σ : Side) : StyleOK xmlStyle σ (fun r t b => Reads σ r (solid t) b) where
  num n h := .num n h
  one h := .one h
  single h := .single h
  paren {t b} h := by
    have := Reads.paren h
    simpa [xmlStyle, solid_cons] using this
  and {t u b c} h1 h2 := by
    have := Reads.and h1 h2
    simpa [xmlStyle, solid_cons] using this
  or {t u b c} h1 h2 := by
    have := Reads.or h1 h2
    simpa [xmlStyle, solid_cons] using this

theorem py_ok (σ : Side) : StyleOK pyStyle σ (PReads σ) where
  num n h := by
    have := PReads.surf (σ := σ) (n < 0) n.natAbs
    simp only [pyStyle, lit]
    simpa using this
  one h := .one h
  single h := .single h
  paren h := .paren h
  and h1 h2 := .and h1 h2
  or h1 h2 := .or h1 h2


/-! ### the Python grammar is the other grammar in disguise -/

/-- a token of the Python text as a token of the MCNP text; the surface numbers are shifted by one, so that none is 0 -/
def ptok : PTok → List Tok
  | .lp => [.lp]
  | .rp => [.rp]
  | .amp => []
  | .bar => [.colon]
  | .surf neg k => [.num (if neg then -((k : Int) + 1) else (k : Int) + 1)]

theorem PReads.toReads {σ r t b} (h : PReads σ r t b) : Reads (fun k => σ (k - 1)) r (t.flatMap ptok) b := by
  induction h with
  | surf neg k =>
    have := Reads.num (σ := fun k => σ (k - 1)) (if neg then -((k : Int) + 1) else (k : Int) + 1) (by split <;> omega)
    cases neg
    · have e : lit (fun k => σ (k - 1)) ((k : Int) + 1) = σ k := by
        have h1 : ¬ ((k : Int) + 1 < 0) := by omega
        have h2 : ((k : Int) + 1).natAbs - 1 = k := by omega
        simp only [lit, h1, if_false, h2]
      simpa [ptok, e] using this
    · have e : lit (fun k => σ (k - 1)) (-((k : Int) + 1)) = !(σ k) := by
        have h1 : (-((k : Int) + 1) < 0) := by omega
        have h2 : (-((k : Int) + 1)).natAbs - 1 = k := by omega
        simp only [lit, h1, if_true, h2]
      simpa [ptok, e] using this
  | paren _ ih => simpa [ptok] using Reads.paren ih
  | one _ ih => exact .one ih
  | and _ _ ih1 ih2 => simpa [ptok] using Reads.and ih1 ih2
  | single _ ih => exact .single ih
  | or _ _ ih1 ih2 => simpa [ptok] using Reads.or ih1 ih2

theorem solid_ptok (t : List PTok) : solid (t.flatMap ptok) = t.flatMap ptok := by
  unfold solid
  rw [List.filter_eq_self]
  intro a ha
  obtain ⟨x, -, hx⟩ := List.mem_flatMap.1 ha
  cases x <;> simp [ptok] at hx <;> simp [hx]

/-! ### counting -/

theorem nums_le (ts : List Tok) : nums ts ≤ ts.length := List.length_filter_le _ _

/-- neither blank nor parenthesis -/
def sym (t : Tok) : Bool := decide (t ≠ .lp ∧ t ≠ .rp ∧ t ≠ .blank)

theorem masked_sym (left inner right : List Item) :
    (origs false (masked false left inner right)).filter sym = (origs false (.tok .lp :: (inner ++ [.tok .rp]))).filter sym := by
  unfold masked
  split <;> simp [origs, Item.orig, sym]

theorem pass_sym : ∀ (k : Nat) (done rest : List Item),
    (origs false (pass false k done rest)).filter sym = (origs false (done ++ rest)).filter sym
  | 0, done, rest => rfl
  | k + 1, done, rest => by
    unfold pass
    split
    · rfl
    · next pre inner post hf =>
      obtain ⟨rfl, -⟩ := findInner_some hf
      rw [pass_sym]
      have := masked_sym (done ++ pre) inner post
      simp only [origs_append, origs_cons, List.filter_append] at this ⊢
      rw [this]
      simp [origs, Item.orig, sym]

theorem passes_sym : ∀ (k : Nat) (w : List Item), (origs false (passes false k w)).filter sym = (origs false w).filter sym
  | 0, w => rfl
  | k + 1, w => by
    unfold passes
    split
    · rfl
    · rw [passes_sym, pass_sym]; rfl

theorem removeRedundant_symbols (ts : List Tok) : (removeRedundant ts).filter sym = ts.filter sym := by
  unfold removeRedundant mask
  rw [passes_sym]
  congr 1
  induction ts with
  | nil => rfl
  | cons t ts ih => simp only [List.map_cons, origs_cons, ih]; rfl

/-! ### boolean constants cannot be written -/

theorem level0_boo {α : Type} (st : Style α) : ∀ es, ¬ Seq.NoBoolL es → ∃ e, level0Terms st es = .error e
  | [], h => absurd (by simp [Seq.NoBoolL]) h
  | .int n :: es, h => by
    obtain ⟨e, he⟩ := level0_boo st es (by simpa [Seq.NoBoolL, Seq.NoBool] using h)
    exact ⟨e, by simp only [level0Terms, he, bind, Except.bind]⟩
  | .boo _ _ _ :: es, _ => ⟨_, rfl⟩
  | .lst _ _ _ :: es, _ => ⟨_, rfl⟩

theorem writeSeq_boo {α : Type} (st : Style α) : ∀ (f : Nat) (s : Seq), ¬ s.NoBool → ∃ e, writeSeq st f s = .error e
  | 0, _, _ => ⟨_, rfl⟩
  | f + 1, .int _, _ => ⟨_, rfl⟩
  | f + 1, .boo _ _ _, _ => ⟨_, rfl⟩
  | f + 1, .lst op l es, h => by
    have loop : ∀ es, ¬ Seq.NoBoolL es → ∃ e, termsLoop st (writeSeq st f) es = .error e := by
      intro es
      induction es with
      | nil => intro h; exact absurd (by simp [Seq.NoBoolL]) h
      | cons e es ih =>
        intro h
        cases e with
        | int n =>
          obtain ⟨e, he⟩ := ih (by simpa [Seq.NoBoolL, Seq.NoBool] using h)
          exact ⟨e, by simp only [termsLoop, he, bind, Except.bind]⟩
        | boo o l b =>
          obtain ⟨e, he⟩ := writeSeq_boo st f (.boo o l b) (by simp [Seq.NoBool])
          exact ⟨e, by simp only [termsLoop, he, bind, Except.bind]⟩
        | lst o l xs =>
          by_cases hx : (Seq.lst o l xs).NoBool
          · obtain ⟨e, he⟩ := ih (fun h' => h (by simp only [Seq.NoBoolL]; exact ⟨hx, h'⟩))
            cases hc : writeSeq st f (.lst o l xs) with
            | error e' => exact ⟨e', by simp only [termsLoop, hc, bind, Except.bind]⟩
            | ok t => exact ⟨e, by simp only [termsLoop, hc, he, bind, Except.bind]⟩
          · obtain ⟨e, he⟩ := writeSeq_boo st f _ hx
            exact ⟨e, by simp only [termsLoop, he, bind, Except.bind]⟩
    have h' : ¬ Seq.NoBoolL es := by simpa [Seq.NoBool] using h
    unfold writeSeq
    split
    · obtain ⟨e, he⟩ := level0_boo st es h'
      exact ⟨e, by simp only [he, bind, Except.bind]⟩
    · obtain ⟨e, he⟩ := loop es h'
      exact ⟨e, by simp only [he, bind, Except.bind]⟩

end Geouned.Text
