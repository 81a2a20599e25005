import Verif.Write.SignsSpec
/-! Lemmas for the orientation of planes at export -/
namespace Geouned.Signs
open Geouned.Geom

/-- change the sides of the surfaces in `V` -/
def xorSide (V : Nat → Bool) (σ : Side) : Side := fun i => xor (σ i) (V i)

/-- one surface -/
def only (v : Nat) : Nat → Bool := fun i => decide (i = v)

mutual
/-- all occurrences of `v` negated -/
def negSeq (v : Nat) : Seq → Seq
  | .int n => .int (if v = n.natAbs then -n else n)
  | .boo o l b => .boo o l b
  | .lst o l es => .lst o l (negList v es)
def negList (v : Nat) : List Seq → List Seq
  | [] => []
  | e :: es => negSeq v e :: negList v es
end

theorem changeFlat_eq (v : Nat) : ∀ es : List Seq, (∀ e ∈ es, ∃ n, e = .int n) → changeFlat v es = .ok (negList v es)
  | [], _ => by simp [changeFlat, negList]
  | e :: es, h => by
    obtain ⟨n, rfl⟩ := h e (by simp)
    rw [changeFlat, changeFlat_eq v es (fun e he => h e (by simp [he]))]
    simp [bind, Except.bind, negList, negSeq]

mutual
theorem changeSign_eq (v : Nat) : ∀ (o : Op) (l : Int) (es : List Seq), (Seq.lst o l es).WF → Seq.NoBoolL es →
    changeSign v (.lst o l es) = .ok (negSeq v (.lst o l es))
  | o, l, es, hw, hb => by
    simp only [Seq.WF] at hw
    rw [changeSign]
    by_cases hl : l = 0
    · rw [if_pos hl, changeFlat_eq v es (hw.1.2 hl)]
      simp [bind, Except.bind, negSeq]
    · rw [if_neg hl, changeList_eq v es hw.2 hb]
      simp [bind, Except.bind, negSeq]
theorem changeList_eq (v : Nat) : ∀ es : List Seq, Seq.WFL es → Seq.NoBoolL es → changeList v es = .ok (negList v es)
  | [], _, _ => by simp [changeList, negList]
  | .int n :: es, hw, hb => by
    rw [changeList, changeList_eq v es hw.2 hb.2]
    simp [bind, Except.bind, negList, negSeq]
  | .boo _ _ _ :: es, _, hb => absurd hb.1 (by simp [Seq.NoBool])
  | .lst o l sub :: es, hw, hb => by
    rw [changeList, changeSign_eq v o l sub hw.1 (by simpa [Seq.NoBool] using hb.1), changeList_eq v es hw.2 hb.2]
    simp [bind, Except.bind, negList]
end

theorem lit_neg (σ : Side) (n : Int) (hn : n ≠ 0) (v : Nat) :
    lit σ (if v = n.natAbs then -n else n) = lit (xorSide (only v) σ) n := by
  unfold lit xorSide only
  by_cases h : v = n.natAbs
  · subst h
    simp only [if_true, Int.natAbs_neg, decide_true, Bool.xor_true]
    by_cases h0 : n < 0
    · rw [if_neg (by omega), if_pos h0, Bool.not_not]
    · rw [if_pos (by omega), if_neg h0]
  · have h' : ¬ n.natAbs = v := fun e => h e.symm
    simp [h, h']

mutual
theorem negSeq_sem (σ : Side) (v : Nat) : ∀ s : Seq, s.WF → (negSeq v s).sem σ = s.sem (xorSide (only v) σ)
  | .int n, h => by
    simp only [Seq.WF] at h
    simp only [negSeq, Seq.sem]; exact lit_neg σ n h v
  | .boo o l b, _ => by simp only [negSeq, Seq.sem]
  | .lst o l es, h => by
    simp only [Seq.WF] at h
    cases o
    · simp only [negSeq, Seq.sem]; exact (negList_sem σ v es h.2).1
    · simp only [negSeq, Seq.sem]; exact (negList_sem σ v es h.2).2
theorem negList_sem (σ : Side) (v : Nat) : ∀ es : List Seq, Seq.WFL es →
    Seq.semAll σ (negList v es) = Seq.semAll (xorSide (only v) σ) es ∧
    Seq.semAny σ (negList v es) = Seq.semAny (xorSide (only v) σ) es
  | [], _ => by simp only [negList, Seq.semAll, Seq.semAny]; exact ⟨trivial, trivial⟩
  | e :: es, h => by
    have := negList_sem σ v es h.2
    simp only [negList, Seq.semAll, Seq.semAny, negSeq_sem σ v e h.1, this.1, this.2]
    exact ⟨trivial, trivial⟩
end

mutual
theorem negSeq_surfaces (v : Nat) : ∀ s : Seq, (negSeq v s).surfaces = s.surfaces
  | .int n => by
    simp only [negSeq, Seq.surfaces]; split <;> simp
  | .boo o l b => by simp only [negSeq]
  | .lst o l es => by simp only [negSeq, Seq.surfaces]; exact negList_surfaces v es
theorem negList_surfaces (v : Nat) : ∀ es : List Seq, Seq.surfacesL (negList v es) = Seq.surfacesL es
  | [] => by simp only [negList]
  | e :: es => by simp only [negList, Seq.surfacesL, negSeq_surfaces v e, negList_surfaces v es]
end

theorem negList_ints (v : Nat) : ∀ es : List Seq, (∀ e ∈ es, ∃ n, e = .int n) → ∀ e ∈ negList v es, ∃ n, e = .int n
  | [], _, e, he => by simp [negList] at he
  | a :: es, h, e, he => by
    simp only [negList, List.mem_cons] at he
    rcases he with rfl | he
    · obtain ⟨n, rfl⟩ := h a (by simp)
      exact ⟨_, by rw [negSeq]⟩
    · exact negList_ints v es (fun e he => h e (by simp [he])) e he

mutual
theorem negSeq_wf (v : Nat) : ∀ s : Seq, s.WF → (negSeq v s).WF
  | .int n, h => by
    simp only [Seq.WF] at h
    simp only [negSeq, Seq.WF]; split <;> omega
  | .boo o l b, h => by simpa only [negSeq] using h
  | .lst o l es, h => by
    simp only [Seq.WF] at h
    simp only [negSeq, Seq.WF]
    exact ⟨⟨h.1.1, fun hl => negList_ints v es (h.1.2 hl)⟩, negList_wf v es h.2⟩
theorem negList_wf (v : Nat) : ∀ es : List Seq, Seq.WFL es → Seq.WFL (negList v es)
  | [], h => by simpa only [negList] using h
  | e :: es, h => by
    simp only [negList]
    exact ⟨negSeq_wf v e h.1, negList_wf v es h.2⟩
end

mutual
theorem negSeq_noBool (v : Nat) : ∀ s : Seq, s.NoBool → (negSeq v s).NoBool
  | .int n, h => by simp only [negSeq, Seq.NoBool]
  | .boo o l b, h => by simpa only [negSeq] using h
  | .lst o l es, h => by
    simp only [Seq.NoBool] at h
    simp only [negSeq, Seq.NoBool]
    exact negList_noBool v es h
theorem negList_noBool (v : Nat) : ∀ es : List Seq, Seq.NoBoolL es → Seq.NoBoolL (negList v es)
  | [], h => by simpa only [negList] using h
  | e :: es, h => by
    simp only [negList]
    exact ⟨negSeq_noBool v e h.1, negList_noBool v es h.2⟩
end

mutual
/-- only the surfaces of an expression matter -/
theorem sem_congr_surfaces (σ τ : Side) : ∀ s : Seq, (∀ v ∈ s.surfaces, σ v = τ v) → s.sem σ = s.sem τ
  | .int n, h => by
    simp only [Seq.surfaces, List.mem_singleton, forall_eq] at h
    simp only [Seq.sem, lit, h]
  | .boo o l b, _ => by simp only [Seq.sem]
  | .lst o l es, h => by
    have := semL_congr_surfaces σ τ es (by simpa only [Seq.surfaces] using h)
    cases o
    · simp only [Seq.sem]; exact this.1
    · simp only [Seq.sem]; exact this.2
theorem semL_congr_surfaces (σ τ : Side) : ∀ es : List Seq, (∀ v ∈ Seq.surfacesL es, σ v = τ v) →
    Seq.semAll σ es = Seq.semAll τ es ∧ Seq.semAny σ es = Seq.semAny τ es
  | [], _ => by simp only [Seq.semAll, Seq.semAny]; exact ⟨trivial, trivial⟩
  | e :: es, h => by
    simp only [Seq.surfacesL, List.mem_append] at h
    have h1 := sem_congr_surfaces σ τ e (fun v hv => h v (Or.inl hv))
    have h2 := semL_congr_surfaces σ τ es (fun v hv => h v (Or.inr hv))
    simp only [Seq.semAll, Seq.semAny, h1, h2.1, h2.2]
    exact ⟨trivial, trivial⟩
end

/-- `cells'` are `cells` with the sides of the surfaces in `V` exchanged -/
def Flips (V : Nat → Bool) (cells cells' : List Cell) : Prop :=
  List.Forall₂ (fun c c' => c'.real = c.real ∧ c'.defn.surfaces = c.defn.surfaces ∧ (c.real = true → Fine c.defn → Fine c'.defn ∧
    ∀ σ, c'.defn.sem σ = c.defn.sem (xorSide V σ))) cells cells'

theorem Flips.refl (cells : List Cell) : Flips (fun _ => false) cells cells := by
  induction cells with
  | nil => exact .nil
  | cons c cs ih =>
    refine .cons ⟨rfl, rfl, fun _ h => ⟨h, fun σ => ?_⟩⟩ ih
    congr 1
    funext i
    simp [xorSide]

theorem Flips.trans {V W : Nat → Bool} {a b c : List Cell} (h1 : Flips V a b) (h2 : Flips W b c) :
    Flips (fun i => xor (V i) (W i)) a c := by
  unfold Flips at h1 h2
  induction h1 generalizing c with
  | nil => cases h2; exact .nil
  | @cons x y xs ys hx _ ih =>
    cases h2 with
    | cons hy hys =>
      refine .cons ?_ (ih hys)
      obtain ⟨r1, s1, f1⟩ := hx
      obtain ⟨r2, s2, f2⟩ := hy
      refine ⟨r2.trans r1, s2.trans s1, fun hr hf => ?_⟩
      obtain ⟨g1, e1⟩ := f1 hr hf
      obtain ⟨g2, e2⟩ := f2 (r1.trans hr) g1
      refine ⟨g2, fun σ => ?_⟩
      rw [e2, e1]
      congr 1
      funext i
      simp only [xorSide]
      cases σ i <;> cases V i <;> cases W i <;> rfl

theorem Flips.congr {V W : Nat → Bool} {a b : List Cell} (h : Flips V a b) (e : ∀ i, V i = W i) : Flips W a b := by
  have : V = W := funext e
  rwa [← this]

/-- the table says which real cells use a surface -/
def TableOk (table : Nat → Nat → Bool) (k : Nat) (cells : List Cell) : Prop :=
  ∀ v i, (h : i < cells.length) → table v (k + i) = ((cells[i]).real && decide (v ∈ (cells[i]).defn.surfaces))

theorem tableOk_init (cells : List Cell) : TableOk (inTable cells) 0 cells := by
  intro v i h
  simp only [inTable, Nat.zero_add, List.getElem?_eq_getElem h]

theorem TableOk.tail {table : Nat → Nat → Bool} {k : Nat} {c : Cell} {cs : List Cell} (h : TableOk table k (c :: cs)) :
    TableOk table (k + 1) cs := by
  intro v i hi
  have := h v (i + 1) (by simpa using hi)
  simp only [List.getElem_cons_succ] at this
  rw [← this]
  congr 1
  omega

theorem TableOk.flips {table : Nat → Nat → Bool} {V : Nat → Bool} {k : Nat} {cells cells' : List Cell} (h : TableOk table k cells)
    (hf : Flips V cells cells') : TableOk table k cells' := by
  intro v i hi
  have hl := List.Forall₂.length_eq hf
  have := h v i (by omega)
  rw [this]
  have hg := List.Forall₂.get hf (i := i) (by omega) hi
  simp only [List.get_eq_getElem] at hg
  rw [hg.1, hg.2.1]

theorem changeCells_spec (table : Nat → Nat → Bool) (v : Nat) : ∀ (cells : List Cell) (k : Nat), TableOk table k cells →
    (∀ c ∈ cells, c.real = true → Fine c.defn) → ∃ cells', changeCells table v k cells = .ok cells' ∧ Flips (only v) cells cells'
  | [], k, _, _ => ⟨[], rfl, .nil⟩
  | c :: cs, k, ht, hc => by
    obtain ⟨cs', h1, h2⟩ := changeCells_spec table v cs (k + 1) ht.tail (fun c h => hc c (by simp [h]))
    have htab := ht v 0 (by simp)
    simp only [Nat.add_zero, List.getElem_cons_zero] at htab
    rw [changeCells]
    by_cases hcond : (table v k && decide (v ∈ c.defn.surfaces)) = true
    · rw [if_pos hcond]
      simp only [Bool.and_eq_true] at hcond
      rw [htab] at hcond
      simp only [Bool.and_eq_true, decide_eq_true_eq] at hcond
      obtain ⟨hw, hk⟩ := hc c (by simp) hcond.1.1
      rcases hk with ⟨o, l, es, e, hb⟩ | ⟨o, l, b, e⟩
      · have hcs : changeSign v c.defn = .ok (negSeq v c.defn) := by
          rw [e] at hw ⊢
          exact changeSign_eq v o l es hw hb
        refine ⟨⟨c.real, negSeq v c.defn⟩ :: cs', ?_, .cons ⟨rfl, negSeq_surfaces v _, fun _ _ => ⟨⟨negSeq_wf v _ hw, Or.inl ?_⟩, ?_⟩⟩ h2⟩
        · simp only [hcs, bind, Except.bind, h1]
        · exact ⟨o, l, negList v es, by dsimp only; rw [e, negSeq], negList_noBool v es hb⟩
        · intro σ
          exact negSeq_sem σ v _ hw
      · rw [e] at hcond
        simp [Seq.surfaces] at hcond
    · rw [if_neg hcond]
      refine ⟨c :: cs', by simp only [h1, bind, Except.bind], .cons ⟨rfl, rfl, fun hr hf => ⟨hf, fun σ => ?_⟩⟩ h2⟩
      apply sem_congr_surfaces
      intro w hw
      simp only [xorSide, only]
      have : ¬ w = v := by
        rintro rfl
        apply hcond
        rw [htab, hr]
        simp [hw]
      simp [this]

theorem Flips.fine {V : Nat → Bool} {a b : List Cell} (h : Flips V a b) (hf : ∀ c ∈ a, c.real = true → Fine c.defn) :
    ∀ c ∈ b, c.real = true → Fine c.defn := by
  unfold Flips at h
  induction h with
  | nil => simp
  | @cons x y xs ys hx _ ih =>
    intro c hc hr
    rcases List.mem_cons.1 hc with rfl | hc
    · exact (hx.2.2 (hx.1 ▸ hr) (hf x (by simp) (hx.1 ▸ hr))).1
    · exact ih (fun c hc => hf c (by simp [hc])) c hc hr

open Classical in
/-- the surfaces of the planes that satisfy `P` -/
noncomputable def setOf (P : Pl → Prop) (planes : List Pl) : Nat → Bool := fun i => decide (∃ p ∈ planes, p.index = i ∧ P p)

theorem setOf_cons_pos {P : Pl → Prop} {p : Pl} {ps : List Pl} (h : P p) (hn : p.index ∉ ps.map Pl.index) (i : Nat) :
    xor (only p.index i) (setOf P ps i) = setOf P (p :: ps) i := by
  unfold only setOf
  by_cases hi : i = p.index
  · subst hi
    have h1 : ¬ ∃ q ∈ ps, q.index = p.index ∧ P q := by
      rintro ⟨q, hq, e, _⟩
      exact hn (List.mem_map.2 ⟨q, hq, e⟩)
    have h2 : ∃ q ∈ p :: ps, q.index = p.index ∧ P q := ⟨p, by simp, rfl, h⟩
    simp only [h1, h2, decide_true, decide_false, Bool.xor_false]
  · have : (∃ q ∈ p :: ps, q.index = i ∧ P q) ↔ ∃ q ∈ ps, q.index = i ∧ P q := by
      constructor
      · rintro ⟨q, hq, e, hp⟩
        rcases List.mem_cons.1 hq with rfl | hq
        · exact absurd e.symm hi
        · exact ⟨q, hq, e, hp⟩
      · rintro ⟨q, hq, r⟩
        exact ⟨q, by simp [hq], r⟩
    simp only [hi, decide_false, Bool.false_xor]
    exact (decide_eq_decide.2 this).symm

theorem setOf_cons_neg {P : Pl → Prop} {p : Pl} {ps : List Pl} (h : ¬ P p) (i : Nat) : setOf P ps i = setOf P (p :: ps) i := by
  unfold setOf
  congr 1
  apply propext
  constructor
  · rintro ⟨q, hq, r⟩
    exact ⟨q, by simp [hq], r⟩
  · rintro ⟨q, hq, e, hp⟩
    rcases List.mem_cons.1 hq with rfl | hq
    · exact absurd hp h
    · exact ⟨q, hq, e, hp⟩

open Classical in
/-- what one of the three loops does to a plane -/
noncomputable def turn (k : Kind) (coord : Vec → ℝ) (e : Vec) (p : Pl) : Pl :=
  if p.kind = k ∧ coord p.surf.axis < 0 then { p with surf := { p.surf with axis := e } } else p

theorem alignLoop_spec (table : Nat → Nat → Bool) (k : Kind) (coord : Vec → ℝ) (e : Vec) : ∀ (planes : List Pl) (cells : List Cell),
    (planes.map Pl.index).Nodup → TableOk table 0 cells → (∀ c ∈ cells, c.real = true → Fine c.defn) →
    ∃ cells', alignLoop table k coord e planes cells = .ok (planes.map (turn k coord e), cells') ∧
      Flips (setOf (fun p => p.kind = k ∧ coord p.surf.axis < 0) planes) cells cells'
  | [], cells, _, _, _ => ⟨cells, rfl, (Flips.refl cells).congr (fun i => by simp [setOf])⟩
  | p :: ps, cells, hn, ht, hf => by
    simp only [List.map_cons, List.nodup_cons] at hn
    rw [alignLoop]
    by_cases h : p.kind = k ∧ coord p.surf.axis < 0
    · rw [if_pos h]
      obtain ⟨c1, e1, f1⟩ := changeCells_spec table p.index cells 0 ht hf
      obtain ⟨c2, e2, f2⟩ := alignLoop_spec table k coord e ps c1 hn.2 (ht.flips f1) (f1.fine hf)
      refine ⟨c2, ?_, (f1.trans f2).congr (setOf_cons_pos h hn.1)⟩
      simp only [e1, e2, bind, Except.bind, List.map_cons, turn, if_pos h]
    · rw [if_neg h]
      obtain ⟨c2, e2, f2⟩ := alignLoop_spec table k coord e ps cells hn.2 ht hf
      refine ⟨c2, ?_, f2.congr (setOf_cons_neg h)⟩
      simp only [e2, bind, Except.bind, List.map_cons, turn, if_neg h]

/-- the planes that `pointLoop` treats as opposite -/
def PointFlip (p : Pl) : Prop := p.kind = .p ∧ ∃ q, pointsOpposite p.surf = some q ∧ q

theorem pointLoop_spec (table : Nat → Nat → Bool) : ∀ (planes : List Pl) (cells : List Cell),
    (planes.map Pl.index).Nodup → TableOk table 0 cells → (∀ c ∈ cells, c.real = true → Fine c.defn) →
    (∀ p ∈ planes, p.kind = .p → pointsOpposite p.surf ≠ none) →
    ∃ cells', pointLoop table planes cells = .ok cells' ∧ Flips (setOf PointFlip planes) cells cells'
  | [], cells, _, _, _, _ => ⟨cells, rfl, (Flips.refl cells).congr (fun i => by simp [setOf])⟩
  | p :: ps, cells, hn, ht, hf, hp => by
    simp only [List.map_cons, List.nodup_cons] at hn
    have hp' : ∀ q ∈ ps, q.kind = .p → pointsOpposite q.surf ≠ none := fun q hq => hp q (by simp [hq])
    rw [pointLoop]
    by_cases h : p.kind = .p
    · rw [if_pos h]
      cases hq : pointsOpposite p.surf with
      | none => exact absurd hq (hp p (by simp) h)
      | some q =>
        dsimp only
        by_cases hqq : q
        · rw [if_pos hqq]
          obtain ⟨c1, e1, f1⟩ := changeCells_spec table p.index cells 0 ht hf
          obtain ⟨c2, e2, f2⟩ := pointLoop_spec table ps c1 hn.2 (ht.flips f1) (f1.fine hf) hp'
          refine ⟨c2, ?_, (f1.trans f2).congr (setOf_cons_pos (P := PointFlip) ⟨h, q, hq, hqq⟩ hn.1)⟩
          simp only [e1, e2, bind, Except.bind]
        · rw [if_neg hqq]
          obtain ⟨c2, e2, f2⟩ := pointLoop_spec table ps cells hn.2 ht hf hp'
          refine ⟨c2, e2, f2.congr (setOf_cons_neg ?_)⟩
          rintro ⟨_, q', e', h'⟩
          rw [hq] at e'
          cases e'
          exact hqq h'
    · rw [if_neg h]
      obtain ⟨c2, e2, f2⟩ := pointLoop_spec table ps cells hn.2 ht hf hp'
      exact ⟨c2, e2, f2.congr (setOf_cons_neg fun hh => h hh.1)⟩

end Geouned.Signs
