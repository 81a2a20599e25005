import Verif.Void.Model
import Verif.CTable.Lemmas2
/-!
# Lemmas for the void generation
-/
namespace Geouned

/-- a sequence built by `append` from an empty sequence with operator `op` -/
def Shape (op : Op) (s : Seq) : Prop :=
  (∃ l es, s = .lst op l es) ∨ ∃ l, s = .boo op l (!op.neutral)

theorem appendLoop_shape (op : Op) : ∀ (items : List Item) (l : Int) (es : List Seq) (s' : Seq),
    appendLoop op l es items = .ok s' → Shape op s' := by
  intro items
  induction items with
  | nil => intro l es s' h; simp [appendLoop] at h; subst h; exact .inl ⟨_, _, rfl⟩
  | cons i r ih =>
    intro l es s' h
    have fin : ∀ b : Bool, (if b == op.neutral then appendLoop op l es r else .ok (.boo op (-1) b)) = .ok s' →
        Shape op s' := by
      intro b h
      split at h
      · exact ih _ _ _ h
      · next hb =>
        simp at h; subst h
        refine .inr ⟨-1, ?_⟩
        cases b <;> cases op <;> simp_all [Op.neutral]
    have fin2 : ∀ n : Int, (if es.any (isInt n) then appendLoop op l es r
        else if es.any (isInt (-n)) then .ok (.boo op (-1) (!op.neutral))
        else appendLoop op (max l 0) (es ++ [.int n]) r) = .ok s' → Shape op s' := by
      intro n h
      split at h
      · exact ih _ _ _ h
      · split at h
        · simp at h; subst h; exact .inr ⟨-1, rfl⟩
        · exact ih _ _ _ h
    cases i with
    | int n => simp only [appendLoop] at h; exact fin2 n h
    | bool b => simp only [appendLoop] at h; exact fin b h
    | seq s =>
      cases s with
      | int n => simp only [appendLoop] at h; exact fin2 n h
      | boo o l' b => simp only [appendLoop] at h; exact fin b h
      | lst o l' xs => simp only [appendLoop] at h; exact ih _ _ _ h

theorem append_shape {op : Op} {s x s' : Seq} (hs : Shape op s) (hw : s.WF) (hx : x.WF)
    (h : s.append [.seq x] = .ok s') :
    Shape op s' ∧ s'.WF ∧ ∀ σ, s'.sem σ = op.app (s.sem σ) (x.sem σ) := by
  rcases hs with ⟨l, es, rfl⟩ | ⟨l, rfl⟩
  · obtain ⟨h1, h2⟩ := append_spec hw (items := [.seq x]) (by simpa [Item.WF] using hx) h
    simp only [Seq.append] at h
    refine ⟨appendLoop_shape op _ _ _ _ h, h1, fun σ => ?_⟩
    rw [h2 σ, sem_lst]
    cases op <;> simp [itemsSem, Item.sem, Op.app, Op.neutral]
  · have : s' = .boo op l (!op.neutral) := by
      cases op <;> simpa [Seq.append, Op.neutral, eq_comm] using h
    subst this
    exact ⟨.inr ⟨l, rfl⟩, trivial, fun σ => by cases op <;> simp [Seq.sem, Op.app, Op.neutral]⟩

/-- append of one item to any sequence -/
theorem append_one {s x s' : Seq} (hw : s.WF) (hx : x.WF) (h : s.append [.seq x] = .ok s') :
    ∃ op, s.opOf = .ok op ∧ s'.WF ∧ ∀ σ, s'.sem σ = op.app (s.sem σ) (x.sem σ) := by
  cases s with
  | int n => simp [Seq.append] at h
  | lst op l es => exact ⟨op, rfl, (append_shape (.inl ⟨l, es, rfl⟩) hw hx h).2⟩
  | boo op l b =>
    refine ⟨op, rfl, ?_⟩
    simp only [Seq.append] at h
    split at h
    · next hb =>
      have hb' : b = op.neutral := by simpa using hb
      have : s' = x := by
        cases x <;> simp [assignTuple] at h <;> exact h.symm
      subst this; subst hb'
      exact ⟨hx, fun σ => by cases op <;> simp [Seq.sem, Op.app, Op.neutral]⟩
    · next hb =>
      simp at h; subst h
      refine ⟨trivial, fun σ => ?_⟩
      cases op <;> cases b <;> simp_all [Seq.sem, Op.app, Op.neutral]

theorem voidUnion_spec : ∀ (ds : List Seq) (s u : Seq), Shape .or s → s.WF → (∀ d ∈ ds, d.WF) →
    voidUnion ds s = .ok u → Shape .or u ∧ u.WF ∧ ∀ σ, u.sem σ = (s.sem σ || ds.any (·.sem σ)) := by
  intro ds
  induction ds with
  | nil => intro s u hs hw _ h; simp [voidUnion] at h; subst h; exact ⟨hs, hw, fun σ => by simp⟩
  | cons d ds ih =>
    intro s u hs hw hd h
    simp only [voidUnion, bind_ok] at h
    obtain ⟨s1, h1, h⟩ := h
    obtain ⟨a1, a2, a3⟩ := append_shape hs hw (hd d (by simp)) h1
    obtain ⟨b1, b2, b3⟩ := ih s1 u a1 a2 (fun x hx => hd x (by simp [hx])) h
    refine ⟨b1, b2, fun σ => ?_⟩
    rw [b3 σ, a3 σ]; simp [Op.app, Bool.or_assoc]

theorem noElements_sem {s : Seq} (hs : Shape .or s) (h : s.noElements = true) (σ : Side) : s.sem σ = false := by
  rcases hs with ⟨l, es, rfl⟩ | ⟨l, rfl⟩
  · cases es with
    | nil => rfl
    | cons e es => simp [Seq.noElements] at h
  · simp [Seq.noElements, Op.neutral] at h

theorem set_lit {σ : Side} {n : Int} (hn : n ≠ 0) (h : lit σ n = true) : σ.set n.natAbs (decide (n > 0)) = σ := by
  apply Side.set_self
  unfold lit at h
  split at h
  · next h0 => have : ¬ n > 0 := by omega
               simpa [this] using h
  · next h0 => have : n > 0 := by omega
               simpa [this] using h

theorem substBox_spec {f : Nat} : ∀ (ns : List Int) (s u : Seq), (∀ n ∈ ns, n ≠ 0) → s.WF →
    substBox f (ns.map .int) s = .ok u → u.WF ∧ ∀ σ, (∀ n ∈ ns, lit σ n = true) → u.sem σ = s.sem σ := by
  intro ns
  induction ns with
  | nil => intro s u _ hw h; simp [substBox] at h; subst h; exact ⟨hw, fun _ _ => rfl⟩
  | cons n ns ih =>
    intro s u hn hw h
    simp only [List.map_cons, substBox, bind_ok] at h
    obtain ⟨s1, h1, h⟩ := h
    obtain ⟨a1, a2⟩ := subst_spec (var := (n.natAbs : Int)) (val := .b (decide (n > 0))) trivial f _ s1 hw h1
    obtain ⟨b1, b2⟩ := ih s1 u (fun m hm => hn m (by simp [hm])) a1 h
    refine ⟨b1, fun σ hσ => ?_⟩
    rw [b2 σ (fun m hm => hσ m (by simp [hm])), a2 σ]
    have := set_lit (hn n (by simp)) (hσ n (by simp))
    simp only [Side.subst]
    simpa using congrArg s.sem this

theorem wrapLevel0_spec {s u : Seq} (hw : s.WF) (h : wrapLevel0 s = .ok u) :
    u.WF ∧ (∀ σ, u.sem σ = s.sem σ) ∧ (Shape .or s → Shape .or u) := by
  cases s with
  | int n => simp [wrapLevel0] at h
  | boo op l b =>
    simp only [wrapLevel0] at h
    split at h
    · simp at h
    · simp at h; subst h; exact ⟨trivial, fun _ => rfl, id⟩
  | lst op l es =>
    simp only [wrapLevel0] at h
    split at h
    · next h0 =>
      have hw' : (Seq.lst (if es.length = 1 then .and else op) l es).WF := by
        rw [WF_lst] at hw ⊢; exact hw
      obtain ⟨a1, a2, a3⟩ := append_shape (.inl ⟨0, [], rfl⟩) (empty_WF .or) hw' h
      refine ⟨a2, fun σ => ?_, fun _ => a1⟩
      rw [a3 σ]
      simp only [sem_lst, semL, Op.neutral, Op.app, Bool.false_or]
      split
      · next h1 =>
        obtain ⟨e, rfl⟩ := List.length_eq_one_iff.1 h1
        cases op <;> simp [semL, Op.app, Op.neutral]
      · rfl
    · simp at h; subst h; exact ⟨hw, fun _ => rfl, id⟩

theorem removeExtra_WF {t : CTable} {enum : Seq → List Nat} {f : Nat} {op : Op} {l : Int} {es : List Seq} {r : Seq}
    (hw : (Seq.lst op l es).WF) (hq : t.NoEquivalence) (h : removeExtra false t enum f (.lst op l es) = .ok r) :
    r.WF := by
  simp only [removeExtra, bind_ok] at h
  obtain ⟨out, ho, h⟩ := h
  split at h
  · simp at h; subst h; exact hw
  · simp only [bind_ok] at h
    obtain ⟨subs, hs, r1, hl, h⟩ := h
    have hsubs : ∀ s ∈ subs, s.WF := by
      cases op with
      | or =>
        simp [loopCells] at hs; subst hs
        rw [WF_lst] at hw
        exact hw.2
      | and =>
        simp only [loopCells, bind_ok] at hs
        obtain ⟨x, hx, hs⟩ := hs
        simp [Seq.append, appendLoop] at hx
        subst hx
        simp [Seq.elemsOf] at hs
        subst hs
        simpa using hw
    have := extraLoop_spec hq (outSurfaces_spec _ _ ho) subs 0 [] r1 hsubs (empty_WF .or) hl
    cases r1 with
    | inl b => simp at h; subst h; trivial
    | inr new => simp at h; subst h; exact clean_WF _ this.1

theorem removeExtraG_code {t : CTable} {enum : Seq → List Nat} {f : Nat} {s r : Seq}
    (h : removeExtraG true t enum f s = .ok r) : removeExtraG false t enum f s = .ok r := by
  unfold removeExtraG at h ⊢
  split at h
  · simp at h
  · simpa using h

theorem removeExtraG_spec {t : CTable} {enum : Seq → List Nat} {f : Nat} {s r : Seq} (hw : s.WF)
    (hq : t.NoEquivalence) (h : removeExtraG true t enum f s = .ok r) :
    r.WF ∧ ∀ σ, t.Sound σ → r.sem σ = s.sem σ := by
  unfold removeExtraG at h
  split at h
  · simp at h
  · next hg =>
    cases s with
    | int n =>
      simp only [removeExtra, bind_ok] at h
      obtain ⟨out, ho, h⟩ := h
      simp at h
    | boo op l b =>
      exact absurd (by simp [checkDecides]) hg
    | lst op l es =>
      have hc : ∀ x ∈ subCells (.lst op l es), ∀ x', x.check f = .ok x' → x'.boolOf = none := by
        intro x hx x' hx'
        cases hb : x'.boolOf with
        | none => rfl
        | some b =>
          exfalso; apply hg
          have h1 : ((x.check f).toOption.bind Seq.boolOf).isSome = true := by
            rw [hx']; simp [Except.toOption, hb]
          cases op with
          | or =>
            simp only [subCells] at hx
            simp only [checkDecides, Bool.true_and, List.any_eq_true]
            exact ⟨x, hx, h1⟩
          | and =>
            simp only [subCells, List.mem_singleton] at hx
            subst hx
            simpa [checkDecides] using h1
      rw [removeExtra_same hc] at h
      exact ⟨removeExtra_WF hw hq h, removeExtra_spec hw hq h⟩

theorem reduceLoop_spec {t : CTable} {enum : Seq → List Nat} {f : Nat} (hq : t.NoEquivalence) :
    ∀ (ds : List Seq) (new : Seq) (r : Unit ⊕ Seq), (∀ d ∈ ds, d.WF) → Shape .or new → new.WF →
    reduceLoop true t enum f ds new = .ok r →
    match (generalizing := false) r with
    | .inl () => ∀ σ, t.Sound σ → (new.sem σ || Seq.semAny σ ds) = true
    | .inr u => Shape .or u ∧ u.WF ∧ ∀ σ, t.Sound σ → u.sem σ = (new.sem σ || Seq.semAny σ ds) := by
  intro ds
  induction ds with
  | nil =>
    intro new r _ hs hw h
    simp [reduceLoop] at h; subst h
    exact ⟨hs, hw, fun σ _ => by simp [Seq.semAny]⟩
  | cons d ds ih =>
    intro new r hd hs hw h
    have hd' : ∀ x ∈ ds, x.WF := fun x hx => hd x (by simp [hx])
    simp only [reduceLoop, bind_ok] at h
    obtain ⟨x, hx, h⟩ := h
    obtain ⟨x1, x2⟩ := removeExtraG_spec (hd d (by simp)) hq hx
    have other : ∀ x : Seq, x.WF → (∀ σ, t.Sound σ → x.sem σ = d.sem σ) →
        (new.append [.seq x] >>= fun new => reduceLoop true t enum f ds new) = .ok r →
        match (generalizing := false) r with
        | .inl () => ∀ σ, t.Sound σ → (new.sem σ || Seq.semAny σ (d :: ds)) = true
        | .inr u => Shape .or u ∧ u.WF ∧ ∀ σ, t.Sound σ → u.sem σ = (new.sem σ || Seq.semAny σ (d :: ds)) := by
      intro x x1 x2 h
      simp only [bind_ok] at h
      obtain ⟨n1, hn, h⟩ := h
      obtain ⟨a1, a2, a3⟩ := append_shape hs hw x1 hn
      have := ih n1 r hd' a1 a2 h
      cases r with
      | inl u =>
        intro σ hσ
        have h9 := this σ hσ
        rw [a3 σ, x2 σ hσ] at h9
        rw [semAny_cons, ← Bool.or_assoc]; exact h9
      | inr u =>
        refine ⟨this.1, this.2.1, fun σ hσ => ?_⟩
        rw [this.2.2 σ hσ, a3 σ, x2 σ hσ, semAny_cons, ← Bool.or_assoc]; rfl
    cases x with
    | int n => exact other _ x1 x2 h
    | lst o l es => exact other _ x1 x2 h
    | boo o l b =>
      cases b with
      | true =>
        simp at h; subst h
        intro σ hσ
        rw [semAny_cons, ← x2 σ hσ]; simp [Seq.sem]
      | false =>
        simp only at h
        have := ih new r hd' hs hw h
        have e : ∀ σ, t.Sound σ → Seq.semAny σ (d :: ds) = Seq.semAny σ ds := by
          intro σ hσ; rw [semAny_cons, ← x2 σ hσ]; simp [Seq.sem]
        cases r with
        | inl u => intro σ hσ; rw [e σ hσ]; exact this σ hσ
        | inr u => exact ⟨this.1, this.2.1, fun σ hσ => by rw [e σ hσ]; exact this.2.2 σ hσ⟩

theorem reduceLoop_code {t : CTable} {enum : Seq → List Nat} {f : Nat} :
    ∀ (ds : List Seq) (new : Seq) (r : Unit ⊕ Seq),
    reduceLoop true t enum f ds new = .ok r → reduceLoop false t enum f ds new = .ok r := by
  intro ds
  induction ds with
  | nil => intro new r h; exact h
  | cons d ds ih =>
    intro new r h
    simp only [reduceLoop, bind_ok] at h ⊢
    obtain ⟨x, hx, h⟩ := h
    refine ⟨x, removeExtraG_code hx, ?_⟩
    cases x with
    | boo o l b =>
      cases b with
      | true => exact h
      | false => exact ih _ _ h
    | int n =>
      simp only [bind_ok] at h ⊢
      obtain ⟨n1, hn, h⟩ := h
      exact ⟨n1, hn, ih _ _ h⟩
    | lst o l es =>
      simp only [bind_ok] at h ⊢
      obtain ⟨n1, hn, h⟩ := h
      exact ⟨n1, hn, ih _ _ h⟩

/-- the box definition the code builds: an intersection of signed surfaces -/
def FlatAnd (box : Seq) : Prop := ∃ ns : List Int, box = .lst .and 0 (ns.map .int) ∧ ∀ n ∈ ns, n ≠ 0

theorem FlatAnd.lits {ns : List Int} {l : Int} {σ : Side} (h : (Seq.lst .and l (ns.map .int)).sem σ = true) :
    ∀ n ∈ ns, lit σ n = true := by
  induction ns with
  | nil => simp
  | cons n ns ih =>
    simp [Seq.sem, Seq.semAll] at h ih ⊢
    exact ⟨h.1, ih h.2⟩

theorem prepUnion_spec {enclosure : Bool} {box u u' : Seq} {f : Nat} (hb : enclosure = false → FlatAnd box) (hw : u.WF)
    (h : prepUnion enclosure box f u = .ok u') :
    u'.WF ∧ ∀ σ, box.sem σ = true → u'.sem σ = u.sem σ := by
  unfold prepUnion at h
  split at h
  · simp at h; subst h; exact ⟨hw, fun _ _ => rfl⟩
  · next he =>
    obtain ⟨ns, rfl, hn⟩ := hb (by simpa using he)
    simp only [bind_ok, Seq.elemsOf] at h
    obtain ⟨es, he, u1, h1, h⟩ := h
    simp at he h; subst he; subst h
    obtain ⟨a1, a2⟩ := substBox_spec ns u u1 hn hw h1
    exact ⟨clean_WF _ a1, fun σ hσ => by rw [clean_sem, a2 σ (FlatAnd.lits hσ)]⟩

/-- where the points are such that the table may be used -/
def UseTable (mode : Simp) (box : Seq) (t : CTable) (σ : Side) : Prop :=
  mode ≠ .no → box.sem σ = true → t.Sound σ

theorem voidReduce_spec {mode : Simp} {enclosure : Bool} {box u : Seq} {t : CTable} {enum : Seq → List Nat} {f : Nat}
    {r : Option Seq ⊕ Seq} (hq : mode ≠ .no → t.NoEquivalence) (hb : enclosure = false → FlatAnd box) (hs : Shape .or u)
    (hw : u.WF) (h : voidReduce true mode enclosure box t enum f u = .ok r) :
    match (generalizing := false) r with
    | .inl (some c) => c = box ∧ ∀ σ, box.sem σ = true → UseTable mode box t σ → u.sem σ = false
    | .inl none => ∀ σ, box.sem σ = true → UseTable mode box t σ → u.sem σ = true
    | .inr v => Shape .or v ∧ v.WF ∧ ∀ σ, box.sem σ = true → UseTable mode box t σ → v.sem σ = u.sem σ := by
  have main : mode ≠ .no → (do
      let u ← prepUnion enclosure box f u
      match enclosure, u with
      | false, .boo _ _ true => .ok (.inl none)
      | false, .boo _ _ false => .ok (.inl (some box))
      | _, u => do
        let u ← wrapLevel0 u
        let u ← orGuard true u
        let es ← u.elemsOf
        match ← reduceLoop true t enum f es (.lst .or 0 []) with
        | .inl () => .ok (.inl none)
        | .inr new => .ok (.inr new)) = (Except.ok r : M (Option Seq ⊕ Seq)) →
      match (generalizing := false) r with
      | .inl (some c) => c = box ∧ ∀ σ, box.sem σ = true → UseTable mode box t σ → u.sem σ = false
      | .inl none => ∀ σ, box.sem σ = true → UseTable mode box t σ → u.sem σ = true
      | .inr v => Shape .or v ∧ v.WF ∧ ∀ σ, box.sem σ = true → UseTable mode box t σ → v.sem σ = u.sem σ := by
    intro hm h
    simp only [bind_ok] at h
    obtain ⟨u1, h1, h⟩ := h
    obtain ⟨a1, a2⟩ := prepUnion_spec hb hw h1
    have other : (wrapLevel0 u1 >>= fun u => orGuard true u >>= fun u => u.elemsOf >>= fun es =>
        reduceLoop true t enum f es (.lst .or 0 []) >>= fun x => match x with
        | .inl () => .ok (.inl none)
        | .inr new => .ok (.inr new)) = (Except.ok r : M (Option Seq ⊕ Seq)) →
        match (generalizing := false) r with
        | .inl (some c) => c = box ∧ ∀ σ, box.sem σ = true → UseTable mode box t σ → u.sem σ = false
        | .inl none => ∀ σ, box.sem σ = true → UseTable mode box t σ → u.sem σ = true
        | .inr v => Shape .or v ∧ v.WF ∧ ∀ σ, box.sem σ = true → UseTable mode box t σ → v.sem σ = u.sem σ := by
      intro h
      simp only [bind_ok] at h
      obtain ⟨u2, h2, u3, h3, es, h4, x, h5, h⟩ := h
      obtain ⟨b1, b2, b3⟩ := wrapLevel0_spec a1 h2
      cases u2 with
      | int n => simp [orGuard] at h3; subst h3; simp [Seq.elemsOf] at h4
      | boo o l b => simp [orGuard] at h3; subst h3; simp [Seq.elemsOf] at h4
      | lst o l xs =>
        cases o with
        | and => simp [orGuard] at h3
        | or =>
          simp [orGuard] at h3; subst h3
          simp [Seq.elemsOf] at h4; subst h4
          have hx : ∀ d ∈ xs, d.WF := ((WF_lst _ _ _).1 b1).2
          have := reduceLoop_spec (hq hm) xs _ x hx (.inl ⟨0, [], rfl⟩) (empty_WF .or) h5
          have e : ∀ σ, box.sem σ = true → Seq.semAny σ xs = u.sem σ := by
            intro σ hσ
            rw [← a2 σ hσ, ← b2 σ]; rfl
          cases x with
          | inl x =>
            simp at h; subst h
            intro σ hσ ht
            have h9 := this σ (ht hm hσ)
            rw [e σ hσ] at h9
            simpa [Seq.sem, Seq.semAny] using h9
          | inr x =>
            simp at h; subst h
            refine ⟨this.1, this.2.1, fun σ hσ ht => ?_⟩
            rw [this.2.2 σ (ht hm hσ), e σ hσ]
            simp [Seq.sem, Seq.semAny]
    cases enclosure with
    | true => exact other h
    | false =>
      cases u1 with
      | int n => exact other h
      | lst o l es => exact other h
      | boo o l b =>
        cases b with
        | true =>
          simp at h; subst h
          intro σ hσ _
          rw [← a2 σ hσ]; rfl
        | false =>
          simp at h; subst h
          refine ⟨rfl, fun σ hσ _ => ?_⟩
          rw [← a2 σ hσ]; rfl
  cases mode with
  | no =>
    simp only [voidReduce, bind_ok] at h
    obtain ⟨u1, h1, h⟩ := h
    simp at h; subst h
    obtain ⟨b1, b2, b3⟩ := wrapLevel0_spec hw h1
    exact ⟨b3 hs, b1, fun σ _ _ => b2 σ⟩
  | diag => exact main (by simp) h
  | full => exact main (by simp) h

theorem voidReduce_code {mode : Simp} {enclosure : Bool} {box u : Seq} {t : CTable} {enum : Seq → List Nat} {f : Nat}
    {r : Option Seq ⊕ Seq} (h : voidReduce true mode enclosure box t enum f u = .ok r) :
    voidReduce false mode enclosure box t enum f u = .ok r := by
  have other : ∀ u : Seq, (wrapLevel0 u >>= fun u => orGuard true u >>= fun u => u.elemsOf >>= fun es =>
        reduceLoop true t enum f es (.lst .or 0 []) >>= fun x => match x with
        | .inl () => .ok (.inl none)
        | .inr new => .ok (.inr new)) = (Except.ok r : M (Option Seq ⊕ Seq)) →
      (wrapLevel0 u >>= fun u => orGuard false u >>= fun u => u.elemsOf >>= fun es =>
        reduceLoop false t enum f es (.lst .or 0 []) >>= fun x => match x with
        | .inl () => .ok (.inl none)
        | .inr new => .ok (.inr new)) = (Except.ok r : M (Option Seq ⊕ Seq)) := by
    intro u h
    simp only [bind_ok] at h ⊢
    obtain ⟨u2, h2, u3, h3, es, h4, x, h5, h⟩ := h
    refine ⟨u2, h2, u3, ?_, es, h4, x, reduceLoop_code _ _ _ h5, h⟩
    cases u2 with
    | int n => exact h3
    | boo o l b => exact h3
    | lst o l xs => cases o <;> simp [orGuard] at h3 ⊢; exact h3
  cases mode with
  | no => exact h
  | diag =>
    simp only [voidReduce, bind_ok] at h ⊢
    obtain ⟨u1, h1, h⟩ := h
    refine ⟨u1, h1, ?_⟩
    cases enclosure with
    | true => simp only [← bind_ok] at h ⊢; exact other _ h
    | false =>
      cases u1 with
      | int n => simp only [← bind_ok] at h ⊢; exact other _ h
      | lst o l es => simp only [← bind_ok] at h ⊢; exact other _ h
      | boo o l b => cases b <;> exact h
  | full =>
    simp only [voidReduce, bind_ok] at h ⊢
    obtain ⟨u1, h1, h⟩ := h
    refine ⟨u1, h1, ?_⟩
    cases enclosure with
    | true => simp only [← bind_ok] at h ⊢; exact other _ h
    | false =>
      cases u1 with
      | int n => simp only [← bind_ok] at h ⊢; exact other _ h
      | lst o l es => simp only [← bind_ok] at h ⊢; exact other _ h
      | boo o l b => cases b <;> exact h

theorem complLoop_spec {mode : Simp} {f : Nat} : ∀ (ds : List Seq) (c : Seq) (r : Unit ⊕ Seq), (∀ d ∈ ds, d.WF) →
    Shape .and c → c.WF → complLoop mode f ds c = .ok r →
    match (generalizing := false) r with
    | .inl () => ∀ σ, Seq.semAny σ ds = true
    | .inr k => k.WF ∧ ∀ σ, k.sem σ = (c.sem σ && !Seq.semAny σ ds) := by
  intro ds
  induction ds with
  | nil =>
    intro c r _ hs hw h
    simp [complLoop] at h; subst h
    exact ⟨hw, fun σ => by simp [Seq.semAny]⟩
  | cons d ds ih =>
    intro c r hd hs hw h
    have hd' : ∀ x ∈ ds, x.WF := fun x hx => hd x (by simp [hx])
    simp only [complLoop, bind_ok] at h
    obtain ⟨x, hx, h⟩ := h
    have hx' : x.WF ∧ ∀ σ, x.sem σ = d.sem σ := by
      unfold checkNo at hx
      split at hx
      · exact check_spec f _ _ (hd d (by simp)) hx
      · simp at hx; subst hx; exact ⟨hd d (by simp), fun _ => rfl⟩
    have other : (x.comp f >>= fun p => c.append [.seq p.2] >>= fun c => complLoop mode f ds c) = .ok r →
        match (generalizing := false) r with
        | .inl () => ∀ σ, Seq.semAny σ (d :: ds) = true
        | .inr k => k.WF ∧ ∀ σ, k.sem σ = (c.sem σ && !Seq.semAny σ (d :: ds)) := by
      intro h
      simp only [bind_ok] at h
      obtain ⟨⟨x', p⟩, hp, c1, hc, h⟩ := h
      obtain ⟨-, p2, -, p4⟩ := comp_spec f x x' p hx'.1 hp
      obtain ⟨a1, a2, a3⟩ := append_shape hs hw p2 hc
      have := ih c1 r hd' a1 a2 h
      cases r with
      | inl u => intro σ; rw [semAny_cons, this σ]; simp
      | inr k =>
        refine ⟨this.1, fun σ => ?_⟩
        rw [this.2 σ, a3 σ, p4 σ, hx'.2 σ, semAny_cons]
        cases c.sem σ <;> cases d.sem σ <;> simp [Op.app]
    cases mode with
    | diag => exact other h
    | full => exact other h
    | no =>
      cases x with
      | int n => exact other h
      | lst o l es => exact other h
      | boo o l b =>
        cases b with
        | true =>
          simp at h; subst h
          intro σ
          rw [semAny_cons, ← hx'.2 σ]; simp [Seq.sem]
        | false =>
          simp only at h
          have := ih c r hd' hs hw h
          have e : ∀ σ, Seq.semAny σ (d :: ds) = Seq.semAny σ ds := by
            intro σ; rw [semAny_cons, ← hx'.2 σ]; simp [Seq.sem]
          cases r with
          | inl u => intro σ; rw [e σ]; exact this σ
          | inr u => exact ⟨this.1, fun σ => by rw [e σ]; exact this.2 σ⟩

theorem complSeq_spec {mode : Simp} {f : Nat} {u : Seq} {r : Unit ⊕ Seq} (hs : Shape .or u) (hw : u.WF)
    (h : complSeq mode f u = .ok r) :
    match (generalizing := false) r with
    | .inl () => ∀ σ, u.sem σ = true
    | .inr k => k.WF ∧ ∀ σ, k.sem σ = !u.sem σ := by
  rcases hs with ⟨l, es, rfl⟩ | ⟨l, rfl⟩
  · simp only [complSeq] at h
    split at h
    · simp only [bind_ok] at h
      obtain ⟨⟨x', p⟩, hp, h⟩ := h
      simp at h; subst h
      obtain ⟨-, p2, -, p4⟩ := comp_spec f _ x' p hw hp
      exact ⟨p2, p4⟩
    · have hes : ∀ d ∈ es, d.WF := ((WF_lst _ _ _).1 hw).2
      simp only [reduceCtorEq, and_false, if_false] at h
      have := complLoop_spec es _ r hes (.inl ⟨0, [], rfl⟩) (empty_WF .and) h
      cases r with
      | inl x => intro σ; exact this σ
      | inr k =>
        refine ⟨this.1, fun σ => ?_⟩
        rw [this.2 σ]
        simp [Seq.sem, Seq.semAll]
  · simp [complSeq] at h

/-- the points at which the definition of the cell may be trusted -/
def Trusted (mode : Simp) (enclosure : Bool) (box : Seq) (t : CTable) (σ : Side) : Prop :=
  UseTable mode box t σ ∧ (mode = .full → enclosure = true → t.Sound σ)

theorem table_CTSound {t : CTable} (hq : t.NoEquivalence) {σ : Side} (hs : t.Sound σ) : CTSound (some t.constraintSet) σ := by
  intro ct hct v a b hab
  cases hct
  exact constraintSet_sound hs hq hab

theorem voidJoin_spec {mode : Simp} {enclosure : Bool} {t : CTable} {enum : Seq → List Nat} {f : Nat} {box c k r : Seq}
    (hq : mode ≠ .no → t.NoEquivalence) (hc : Shape .and c) (hcw : c.WF) (hcs : ∀ σ, c.sem σ = box.sem σ) (hk : k.WF)
    (h : voidJoin true mode enclosure t enum f c k = .ok r) :
    r.WF ∧ ∀ σ, Trusted mode enclosure box t σ → r.sem σ = (box.sem σ && k.sem σ) := by
  have plain : mode ≠ .full → (k.simplify true enum none f 0 >>= fun k => c.simplify true enum none f 0 >>= fun c =>
      c.opOf >>= fun op => match op with
      | .or => (Seq.lst .and 0 []).append [.seq c, .seq k]
      | .and => c.append [.seq k]) = .ok r →
      r.WF ∧ ∀ σ, Trusted mode enclosure box t σ → r.sem σ = (box.sem σ && k.sem σ) := by
    intro _ h
    simp only [bind_ok] at h
    obtain ⟨k1, h1, c1, h2, op, h3, h⟩ := h
    obtain ⟨a1, a2⟩ := simplify_spec f 0 k k1 hk h1
    obtain ⟨b1, b2⟩ := simplify_spec f 0 c c1 hcw h2
    have nt : ∀ σ, CTSound none σ := fun σ t ht => by cases ht
    cases op with
    | or =>
      obtain ⟨d1, d2⟩ := append_spec (empty_WF .and) (items := [.seq c1, .seq k1])
        (by intro i hi; simp at hi; rcases hi with rfl | rfl <;> assumption) h
      refine ⟨d1, fun σ _ => ?_⟩
      rw [d2 σ, ← hcs σ, ← b2 σ (nt σ), ← a2 σ (nt σ)]
      simp [semL, itemsSem, Op.app, Op.neutral, Item.sem]
    | and =>
      obtain ⟨op', e1, e2, e3⟩ := append_one b1 a1 h
      rw [h3] at e1; cases e1
      refine ⟨e2, fun σ _ => ?_⟩
      rw [e3 σ, ← hcs σ, ← b2 σ (nt σ), ← a2 σ (nt σ)]; rfl
  cases mode with
  | no => exact plain (by simp) (by cases enclosure <;> exact h)
  | diag => exact plain (by simp) (by cases enclosure <;> exact h)
  | full =>
    cases enclosure with
    | true =>
      simp only [voidJoin, bind_ok] at h
      obtain ⟨c1, h1, h⟩ := h
      obtain ⟨a1, a2, a3⟩ := append_shape hc hcw hk h1
      obtain ⟨b1, b2⟩ := simplify_spec f 0 c1 r a2 h
      refine ⟨b1, fun σ hσ => ?_⟩
      rw [b2 σ (table_CTSound (hq (by simp)) (hσ.2 rfl rfl)), a3 σ, hcs σ]; rfl
    | false =>
      simp only [voidJoin, bind_ok] at h
      obtain ⟨k1, h1, h⟩ := h
      obtain ⟨b1, b2⟩ := simplify_spec f 0 k k1 hk h1
      obtain ⟨a1, a2, a3⟩ := append_shape hc hcw b1 h
      refine ⟨a2, fun σ hσ => ?_⟩
      rw [a3 σ, hcs σ]
      cases hbox : box.sem σ with
      | false => simp [Op.app]
      | true => rw [b2 σ (table_CTSound (hq (by simp)) (hσ.1 (by simp) hbox))]; rfl

theorem voidJoin_code {mode : Simp} {enclosure : Bool} {t : CTable} {enum : Seq → List Nat} {f : Nat} {c k r : Seq}
    (h : voidJoin true mode enclosure t enum f c k = .ok r) : voidJoin false mode enclosure t enum f c k = .ok r := by
  cases mode <;> cases enclosure <;> simp only [voidJoin, bind_ok] at h ⊢
  case full.true => obtain ⟨c1, h1, h⟩ := h; exact ⟨c1, h1, simplify_guard _ _ _ _ h⟩
  case full.false => obtain ⟨c1, h1, h⟩ := h; exact ⟨c1, simplify_guard _ _ _ _ h1, h⟩
  all_goals
    obtain ⟨k1, h1, c1, h2, h⟩ := h
    exact ⟨k1, simplify_guard _ _ _ _ h1, c1, simplify_guard _ _ _ _ h2, h⟩

theorem voidCell_code {mode : Simp} {enclosure : Bool} {box : Seq} {objs : List Seq} {t : CTable}
    {enum : Seq → List Nat} {f : Nat} {r : Option Seq} (h : voidCell true mode enclosure box objs t enum f = .ok r) :
    voidCell false mode enclosure box objs t enum f = .ok r := by
  simp only [voidCell, bind_ok] at h ⊢
  obtain ⟨u, hu, h⟩ := h
  refine ⟨u, hu, ?_⟩
  split at h
  · next hn => rw [if_pos hn]; exact h
  · next hn =>
    rw [if_neg hn]
    simp only [bind_ok] at h ⊢
    obtain ⟨c, hc, x, hx, h⟩ := h
    refine ⟨c, hc, x, voidReduce_code hx, ?_⟩
    cases x with
    | inl x => exact h
    | inr v =>
      have key : (if v.noElements = true then (Except.ok (some box) : M (Option Seq)) else
          complSeq mode f v >>= fun x => match x with
            | .inl () => .ok none
            | .inr k => voidJoin true mode enclosure t enum f c k >>= fun c => match c.clean.levelUpdate with
              | .boo _ _ _ => .ok none
              | c => .ok (some c)) = .ok r →
          (if v.noElements = true then (Except.ok (some box) : M (Option Seq)) else
          complSeq mode f v >>= fun x => match x with
            | .inl () => .ok none
            | .inr k => voidJoin false mode enclosure t enum f c k >>= fun c => match c.clean.levelUpdate with
              | .boo _ _ _ => .ok none
              | c => .ok (some c)) = .ok r := by
        intro h
        split at h
        · next hn => rw [if_pos hn]; exact h
        · next hn =>
          rw [if_neg hn]
          simp only [bind_ok] at h ⊢
          obtain ⟨x, hx, h⟩ := h
          refine ⟨x, hx, ?_⟩
          cases x with
          | inl x => exact h
          | inr k =>
            simp only [bind_ok] at h ⊢
            obtain ⟨d, hd, h⟩ := h
            exact ⟨d, voidJoin_code hd, h⟩
      cases v with
      | int n => exact key h
      | lst o l es => exact key h
      | boo o l b =>
        cases b with
        | true => exact h
        | false => exact key h

theorem voidCell_spec {mode : Simp} {enclosure : Bool} {box : Seq} {objs : List Seq} {t : CTable}
    {enum : Seq → List Nat} {f : Nat} {r : Option Seq} (hq : mode ≠ .no → t.NoEquivalence)
    (hb : enclosure = false → FlatAnd box) (hbw : box.WF) (ho : ∀ d ∈ objs, d.WF)
    (hout : ∃ σ, Trusted mode enclosure box t σ ∧ box.sem σ = false)
    (h : voidCell true mode enclosure box objs t enum f = .ok r) :
    match (generalizing := false) r with
    | some c => c.WF ∧ ∀ σ, Trusted mode enclosure box t σ → c.sem σ = (box.sem σ && !objs.any (·.sem σ))
    | none => ∀ σ, Trusted mode enclosure box t σ → (box.sem σ && !objs.any (·.sem σ)) = false := by
  simp only [voidCell, bind_ok] at h
  obtain ⟨u, hu, h⟩ := h
  obtain ⟨u1, u2, u3⟩ := voidUnion_spec objs _ u (.inl ⟨0, [], rfl⟩) (empty_WF .or) ho hu
  have u4 : ∀ σ, objs.any (·.sem σ) = u.sem σ := fun σ => by rw [u3 σ]; simp [Seq.sem, Seq.semAny]
  simp only [u4]
  split at h
  · next hn =>
    simp at h; subst h
    exact ⟨hbw, fun σ _ => by rw [noElements_sem u1 hn σ]; simp⟩
  · simp only [bind_ok] at h
    obtain ⟨c, hc, x, hx, h⟩ := h
    obtain ⟨c1, c2, c3⟩ := append_shape (.inl ⟨0, [], rfl⟩) (empty_WF .and) hbw hc
    have c4 : ∀ σ, c.sem σ = box.sem σ := fun σ => by rw [c3 σ]; simp [Seq.sem, Seq.semAll, Op.app]
    have hx' := voidReduce_spec hq hb u1 u2 hx
    cases x with
    | inl x =>
      simp at h; subst h
      cases x with
      | none =>
        intro σ hσ
        cases hbox : box.sem σ with
        | false => rfl
        | true => rw [hx' σ hbox hσ.1]; rfl
      | some d =>
        obtain ⟨rfl, h2⟩ := hx'
        refine ⟨hbw, fun σ hσ => ?_⟩
        cases hbox : d.sem σ with
        | false => rfl
        | true => rw [h2 σ hbox hσ.1]; rfl
    | inr v =>
      obtain ⟨v1, v2, v3⟩ := hx'
      have key : (if v.noElements = true then (Except.ok (some box) : M (Option Seq)) else
          complSeq mode f v >>= fun x => match x with
            | .inl () => .ok none
            | .inr k => voidJoin true mode enclosure t enum f c k >>= fun c => match c.clean.levelUpdate with
              | .boo _ _ _ => .ok none
              | c => .ok (some c)) = .ok r →
          match (generalizing := false) r with
          | some c => c.WF ∧ ∀ σ, Trusted mode enclosure box t σ → c.sem σ = (box.sem σ && !u.sem σ)
          | none => ∀ σ, Trusted mode enclosure box t σ → (box.sem σ && !u.sem σ) = false := by
        intro h
        split at h
        · next hn =>
          simp at h; subst h
          refine ⟨hbw, fun σ hσ => ?_⟩
          cases hbox : box.sem σ with
          | false => rfl
          | true => rw [← v3 σ hbox hσ.1, noElements_sem v1 hn σ]; rfl
        · simp only [bind_ok] at h
          obtain ⟨x, hx, h⟩ := h
          have k1 := complSeq_spec v1 v2 hx
          cases x with
          | inl x =>
            simp at h; subst h
            intro σ hσ
            cases hbox : box.sem σ with
            | false => rfl
            | true => rw [← v3 σ hbox hσ.1, k1 σ]; rfl
          | inr k =>
            simp only [bind_ok] at h
            obtain ⟨d, hd, h⟩ := h
            obtain ⟨d1, d2⟩ := voidJoin_spec hq c1 c2 c4 k1.1 hd
            have d3 : ∀ σ, Trusted mode enclosure box t σ → d.clean.levelUpdate.sem σ = (box.sem σ && !u.sem σ) := by
              intro σ hσ
              rw [levelUpdate_sem, clean_sem, d2 σ hσ, k1.2 σ]
              cases hbox : box.sem σ with
              | false => rfl
              | true => rw [v3 σ hbox hσ.1]
            have d4 := levelUpdate_WF _ (clean_WF _ d1)
            revert h d3 d4
            generalize d.clean.levelUpdate = e
            intro h d3 d4
            cases e with
            | int n => simp at h; subst h; exact ⟨d4, d3⟩
            | lst o l es => simp at h; subst h; exact ⟨d4, d3⟩
            | boo o l b =>
              simp at h; subst h
              obtain ⟨σ0, t0, f0⟩ := hout
              have h0 := d3 σ0 t0
              rw [f0] at h0
              simp [Seq.sem] at h0
              intro σ hσ
              rw [← d3 σ hσ, h0]; rfl
      cases v with
      | int n => exact key h
      | lst o l es => exact key h
      | boo o l b =>
        cases b with
        | false => exact key h
        | true =>
          simp at h; subst h
          intro σ hσ
          cases hbox : box.sem σ with
          | false => rfl
          | true => rw [← v3 σ hbox hσ.1]; rfl

end Geouned
