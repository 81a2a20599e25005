import Verif.Rev.SolidLemmas2
/-! Helper lemmas: the elements of a definition after `group_single`; parts of a cell of level 0. -/
namespace Geouned.Rev.Solid

variable {α S Bx Sh : Type}

theorem filledL_iff {es : List Seq} : FilledL es ↔ ∀ e ∈ es, Filled e := by
  induction es with
  | nil => simp [FilledL]
  | cons e es ih => simp [FilledL, ih]

theorem tidyL_iff {es : List Seq} : TidyL es ↔ ∀ e ∈ es, Tidy e := by
  induction es with
  | nil => simp [TidyL]
  | cons e es ih => simp [TidyL, ih]

theorem joinsL_iff {es : List Seq} : JoinsL es ↔ ∃ e ∈ es, Joins e := by
  induction es with
  | nil => simp [JoinsL]
  | cons e es ih => simp [JoinsL, ih]

theorem startsBoundedL_iff {K : Kernel α S Bx Sh} {es : List Seq} : StartsBoundedL K es ↔ ∀ e ∈ es, StartsBounded K e := by
  induction es with
  | nil => simp [StartsBoundedL]
  | cons e es ih => simp [StartsBoundedL, ih]

/-- a sequence of surface numbers and of such sequences -/
structure Good (d : Seq) : Prop where
  lst : ∃ op l es, d = .lst op l es
  wf : d.WF
  nobool : d.NoBool
  filled : Filled d

theorem good_plain {d : Seq} (h : Plain d) : Good d := ⟨h.1, h.2.1, h.2.2.1, h.2.2.2⟩

theorem Good.occurs {d : Seq} (h' : Good d) : ∃ v, d.Occurs v := by
  suffices h : ∀ n, ∀ d : Seq, d.depth ≤ n → d.NoBool → Filled d → ∃ v, d.Occurs v from
    h _ _ (Nat.le_refl _) h'.nobool h'.filled
  intro n
  induction n with
  | zero =>
    intro d hd hb _
    cases d with
    | int n => exact ⟨_, rfl⟩
    | boo => simp [Seq.NoBool] at hb
    | lst o l es => rw [depth_lst] at hd; omega
  | succ n ih =>
    intro d hd hb hf
    cases d with
    | int n => exact ⟨_, rfl⟩
    | boo => simp [Seq.NoBool] at hb
    | lst o l es =>
      obtain ⟨hne, hf⟩ := hf
      cases es with
      | nil => simp at hne
      | cons e es =>
        obtain ⟨v, hv⟩ := ih e ((depth_lst_le o l _ n).1 hd e (by simp)) ((noBool_lst o l _).1 hb e (by simp)) (filledL_iff.1 hf e (by simp))
        exact ⟨v, by simp [Seq.Occurs, Seq.OccursL, hv]⟩

theorem Good.leaf {d : Seq} (h : Good d) (hl : isLeaf d = true) : Leaf d := by
  obtain ⟨op, l, es, rfl⟩ := h.lst
  simp only [isLeaf, beq_iff_eq] at hl
  subst hl
  exact ⟨op, es, rfl, ((WF_lst _ _ _).1 h.wf).1.2 rfl⟩

theorem leaf_group {d : Seq} (hl : Leaf d) : d.groupSingle = .ok d := by
  obtain ⟨op, es, rfl, -⟩ := hl
  simp [Seq.groupSingle]

theorem leaf_joins {d : Seq} (hl : Leaf d) : ¬ Joins d := by
  obtain ⟨op, es, rfl, hi⟩ := hl
  cases op with
  | or => simp [Joins]
  | and =>
    simp only [Joins, joinsL_iff, not_exists, not_and]
    intro e he
    obtain ⟨n, rfl⟩ := hi e he
    simp [Joins]

theorem leaf_tidy {op : Op} {g : List Int} : Tidy (.lst op 0 (g.map .int)) := by
  have h : TidyL (g.map Seq.int) := by
    rw [tidyL_iff]
    intro e he
    obtain ⟨n, -, rfl⟩ := List.mem_map.1 he
    simp [Tidy]
  cases op with
  | or => exact h
  | and =>
    refine ⟨h, ?_⟩
    rw [List.pairwise_map]
    refine List.pairwise_of_forall (fun a b hj => ?_)
    simp [Joins] at hj

/-- the elements of a sequence of level > 0 after `group_single` -/
theorem grouped {K : Kernel α S Bx Sh} {op : Op} {l : Int} {es : List Seq} (hg : Good (.lst op l es)) (ht : Tidy (.lst op l es)) (h0 : l ≠ 0) :
    ∃ es', (Seq.lst op l es).groupSingle = .ok (.lst op l es') ∧ es' ≠ [] ∧
      (∀ e ∈ es', Good e ∧ Tidy e ∧ (isLeaf e = true ∨ e.depth < (Seq.lst op l es).depth)) ∧
      (op = .and → es'.Pairwise (fun a b => Joins a → Apart a b)) ∧
      (∀ σ, (Seq.lst op l es').sem σ = (Seq.lst op l es).sem σ) ∧
      (∀ v, (Seq.lst op l es').Occurs v ↔ (Seq.lst op l es).Occurs v) ∧
      (op = .and → ¬ Joins (.lst op l es) → ∀ e ∈ es', ¬ Joins e) ∧
      (StartsBounded K (.lst op l es) → (op = .or → ∀ e ∈ es', StartsBounded K e) ∧ (op = .and → ∀ e es'', es' = e :: es'' → StartsBounded K e)) := by
  obtain ⟨es', hs, hw', hsem, hocc, hcase⟩ := groupSingle_order hg.wf hg.nobool h0
  have hwe := ((WF_lst _ _ _).1 hg.wf).2
  have hnb := (noBool_lst op l es).1 hg.nobool
  have hfl := filledL_iff.1 hg.filled.2
  have htL : ∀ e ∈ es, Tidy e := by
    cases op with
    | or => exact tidyL_iff.1 ht
    | and => exact tidyL_iff.1 ht.1
  have hrest : ∀ e ∈ es.filter (fun e => !isSingle e), Good e ∧ Tidy e ∧ (isLeaf e = true ∨ e.depth < (Seq.lst op l es).depth) := by
    intro e he
    rw [List.mem_filter] at he
    obtain ⟨he, hs⟩ := he
    refine ⟨⟨?_, hwe e he, hnb e he, hfl e he⟩, htL e he, .inr (depth_mem he)⟩
    cases e with
    | int n => simp [isSingle] at hs
    | boo o l b => have := hnb _ he; simp [Seq.NoBool] at this
    | lst o l xs => exact ⟨_, _, _, rfl⟩
  have hpw : op = .and → (es.filter (fun e => !isSingle e)).Pairwise (fun a b => Joins a → Apart a b) := by
    rintro rfl
    have h2 := ht.2.sublist (List.filter_sublist (p := fun e => !isSingle e))
    rw [List.pairwise_iff_forall_sublist] at h2 ⊢
    intro a b hab hj
    refine h2 hab hj ?_
    have hb : b ∈ es.filter (fun e => !isSingle e) := hab.subset (by simp)
    rw [List.mem_filter] at hb
    rw [← isSingle_iff (hwe b hb.1)]
    simpa using hb.2
  have hj : op = .and → ¬ Joins (.lst op l es) → ∀ e ∈ es.filter (fun e => !isSingle e), ¬ Joins e := by
    rintro rfl hj e he hje
    rw [List.mem_filter] at he
    exact hj (joinsL_iff.2 ⟨e, he.1, hje⟩)
  rcases hcase with ⟨rfl, hno⟩ | ⟨g, rfl, hg1, hg2⟩
  · have hall : es.filter (fun e => !isSingle e) = es := by
      rw [List.filter_eq_self]
      intro e he
      have : ¬ isSingle e = true := by
        rw [isSingle_iff (hwe e he)]
        rintro ⟨n, hn⟩
        exact hno e he n hn
      simpa using this
    rw [hall] at hrest hpw hj hs hsem
    refine ⟨es, hs, hg.filled.1, hrest, hpw, hsem, fun v => Iff.rfl, hj, fun hb => ?_⟩
    have hb2 := (hb.2 h0).2
    constructor
    · rintro rfl
      exact startsBoundedL_iff.1 hb2
    · rintro rfl e es'' rfl
      rcases hb2 with ⟨e', he', n, hn⟩ | hb2
      · exact absurd hn (hno e' he' n)
      · exact hb2
  · have hleaf : Leaf (.lst op 0 (g.map .int)) := ⟨op, _, rfl, by
      intro e he; obtain ⟨n, -, rfl⟩ := List.mem_map.1 he; exact ⟨n, rfl⟩⟩
    have hgood : Good (.lst op 0 (g.map .int)) := by
      refine ⟨⟨_, _, _, rfl⟩, ((WF_lst _ _ _).1 hw').2 _ (by simp), ?_, by simpa using hg2, ?_⟩
      · rw [noBool_lst]
        intro e he
        obtain ⟨n, -, rfl⟩ := List.mem_map.1 he
        simp [Seq.NoBool]
      · rw [filledL_iff]
        intro e he
        obtain ⟨n, -, rfl⟩ := List.mem_map.1 he
        simp [Filled]
    refine ⟨_, hs, by simp, ?_, ?_, hsem, fun v => ⟨hocc v, ?_⟩, ?_, fun hb => ?_⟩
    · intro e he
      rcases List.mem_cons.1 he with rfl | he
      · exact ⟨hgood, leaf_tidy, .inl rfl⟩
      · exact hrest e he
    · intro ho
      refine List.pairwise_cons.2 ⟨fun b _ hj => absurd hj (leaf_joins hleaf), hpw ho⟩
    · intro hv
      simp only [Seq.Occurs, OccursL_iff] at hv ⊢
      obtain ⟨e, he, hv⟩ := hv
      by_cases hsg : isSingle e = true
      · obtain ⟨n, hn⟩ := (isSingle_iff (hwe e he)).1 hsg
        refine ⟨_, List.mem_cons_self, ?_⟩
        simp only [Seq.Occurs, OccursL_iff]
        refine ⟨.int n, List.mem_map.2 ⟨n, (hg1 n).2 ⟨e, he, hn⟩, rfl⟩, ?_⟩
        rcases hn with rfl | ⟨o, rfl⟩
        · exact hv
        · simpa [Seq.Occurs, Seq.OccursL] using hv
      · exact ⟨e, List.mem_cons_of_mem _ (List.mem_filter.2 ⟨he, by simpa using hsg⟩), hv⟩
    · intro ho hnj e he
      rcases List.mem_cons.1 he with rfl | he
      · exact leaf_joins hleaf
      · exact hj ho hnj e he
    · have hb1 := (hb.2 h0).1 g hg1
      have hb2 := (hb.2 h0).2
      have hleafB : StartsBounded K (.lst op 0 (g.map .int)) := ⟨hb1, fun h => absurd rfl h⟩
      constructor
      · rintro rfl e he
        rcases List.mem_cons.1 he with rfl | he
        · exact hleafB
        · exact startsBoundedL_iff.1 hb2 e (List.mem_filter.1 he).1
      · rintro rfl e es'' heq
        simp only [List.cons.injEq] at heq
        rw [← heq.1]
        exact hleafB

/-! ### cells of level 0 -/

section
variable {K : Kernel α S Bx Sh} {mem : S → α → Prop} {on : Nat → α → Prop} {inBox : Bx → α → Prop}

/-- where a part comes from: `V` are the surfaces that have been used since -/
def From (mem : S → α → Prop) (V : Nat → Prop) (base : Option (List (Part S))) (p : Part S) : Prop :=
  match base with
  | none => ∀ j, ¬ V j → p.known j = none
  | some bs => ∃ b ∈ bs, (∀ x, mem p.solid x → mem b.solid x) ∧ ∀ j, ¬ V j → p.known j = b.known j

def inBase (mem : S → α → Prop) (base : Option (List (Part S))) (x : α) : Prop :=
  match base with
  | none => True
  | some bs => inP mem bs x

/-- the parts of the base are right about the surfaces of `F` -/
def BaseOK (K : Kernel α S Bx Sh) (mem : S → α → Prop) (F : Nat → Prop) (base : Option (List (Part S))) : Prop :=
  ∀ bs, base = some bs → ∀ b ∈ bs, KnownOK K mem F b

theorem baseOK_none {F : Nat → Prop} : BaseOK K mem F (none : Option (List (Part S))) := by simp [BaseOK]
theorem baseOK_some {F : Nat → Prop} {bs : List (Part S)} : BaseOK K mem F (some bs) ↔ ∀ b ∈ bs, KnownOK K mem F b := by
  simp [BaseOK]

/-- the box of the cell is not given yet, or it is right -/
def BoundOK (K : Kernel α S Bx Sh) (inBox : Bx → α → Prop) (c : Cell Bx) : Prop :=
  ∀ m, c.bound = some m → BoxSays inBox c.ext (Area K c) m

/-- what is right about the parts of a cell of level 0 -/
structure PartsOK (K : Kernel α S Bx Sh) (mem : S → α → Prop) (on : Nat → α → Prop) (inBox : Bx → α → Prop) (c : Cell Bx)
    (base : Option (List (Part S))) (r : Split S) : Prop where
  frame : ∀ p ∈ r.full, From mem (· ∈ c.surfaces) base p
  known : ∀ F, (∀ v ∈ c.surfaces, F v) → BaseOK K mem F base → ∀ p ∈ r.full, KnownOK K mem F p
  sound : ∀ x, inP mem r.full x → In K c.definition x
  complete : ∀ x, inBox c.ext x → (∀ v ∈ c.surfaces, ¬ on v x) → ¬ inS mem r.lost x → inBase mem base x → In K c.definition x →
    Area K c x → inP mem r.full x

theorem partsNew_ok {c : Cell Bx} (hR : Right K mem on inBox) (hl : Leaf c.definition) (hs : ∀ v, v ∈ c.surfaces ↔ c.definition.Occurs v)
    (hne : c.surfaces ≠ []) (hb : BoundOK K inBox c) :
    ∃ r, partsNew K c = .ok r ∧ PartsOK K mem on inBox c none r ∧
      ((∀ m, c.bound = some m → m.ori = .fwd) → (∀ e, (buildBound K c e).bound.map (·.ori) = some .fwd) → ∀ p ∈ r.full, p.ori = .fwd) := by
  -- the box that is used
  obtain ⟨m, c', hc', hcd, hcs, hce, hsays, hori⟩ : ∃ m c', partsNew K c = partsIn K c' m ∧
      c'.definition = c.definition ∧ c'.surfaces = c.surfaces ∧ c'.ext = c.ext ∧ BoxSays inBox c.ext (Area K c) m ∧
      ((∀ m, c.bound = some m → m.ori = .fwd) → (∀ e, (buildBound K c e).bound.map (·.ori) = some .fwd) → m.ori = .fwd) := by
    cases hbd : c.bound with
    | none =>
      obtain ⟨m, h1, h2⟩ := bound_says (K := K) hR c 2
      refine ⟨m, buildBound K c 2, by simp only [partsNew, hbd, h1], rfl, rfl, rfl, h2, fun _ h => ?_⟩
      have := h 2
      rw [h1] at this
      simpa using this
    | some m =>
      exact ⟨m, c, by simp only [partsNew, hbd], rfl, rfl, rfl, hb m hbd, fun h _ => h m rfl⟩
  have hem : c.surfaces.isEmpty = false := by cases h : c.surfaces <;> simp_all
  -- the box of a cell with points
  obtain ⟨ob, hob, hin⟩ : ∃ ob, workBox c' m = ob ∧
      ∀ x, inBox c.ext x → Area K c x → ∃ b, ob = some b ∧ inBox b x := by
    refine ⟨_, rfl, fun x hx ha => ?_⟩
    obtain ⟨box, ori⟩ := m
    cases ori with
    | rev => exact ⟨_, rfl, hce ▸ hx⟩
    | fwd =>
      cases box with
      | none => exact absurd ha (hsays x hx)
      | some b => exact ⟨b, rfl, hsays x hx ha⟩
  have hpn : partsNew K c = (match (generalizing := false) ob with
      | none => .ok Split.nil
      | some bx => if K.thin bx then .ok ⟨[], [], [K.makeBox bx]⟩
        else .ok (splitAll K c.definition m.ori bx c.surfaces ⟨K.makeBox bx, fun _ => none, m.ori⟩)) := by
    rw [hc']
    unfold partsIn
    simp only [hcs, hcd, hob, hem]
    rfl
  rw [hpn]
  cases ob with
  | none =>
    refine ⟨_, rfl, ⟨by simp [Split.nil], by simp [Split.nil], by simp [Split.nil], ?_⟩, by simp [Split.nil]⟩
    intro x hx _ _ _ _ ha
    obtain ⟨b, h, -⟩ := hin x hx ha
    simp at h
  | some bx =>
    dsimp only
    have hbx : ∀ x, inBox c.ext x → Area K c x → inBox bx x := by
      intro x hx ha
      obtain ⟨b, h, h'⟩ := hin x hx ha
      simp only [Option.some.injEq] at h
      exact h ▸ h'
    split
    · refine ⟨_, rfl, ⟨by simp, by simp, by simp, ?_⟩, by simp⟩
      intro x hx _ hnl _ _ ha
      exact absurd ((hR.makeBox bx x).2 (hbx x hx ha)) (by simpa using hnl)
    · have hk : ∀ F, KnownOK K mem F ⟨K.makeBox bx, fun _ => none, m.ori⟩ := by
        intro F k _ v hv
        simp at hv
      have hsa := fun F hF => splitAll_ok (F := F) (d := c.definition) (o := m.ori) (bx := bx) (ks := c.surfaces)
        (b := ⟨K.makeBox bx, fun _ => none, m.ori⟩) hR hl hF (fun v hv => (hs v).2 hv) hne (hk F) (fun x hx => (hR.makeBox bx x).1 hx)
      refine ⟨_, rfl, ⟨?_, ?_, ?_, ?_⟩, ?_⟩
      · intro p hp j hj
        exact (((hsa (fun _ => True) (by simp)).1 p hp).2.2 j hj)
      · intro F hF _ p hp
        exact ((hsa F (fun v hv => hF v ((hs v).2 hv))).1 p hp).1
      · rintro x ⟨p, hp, hx⟩
        exact (((hsa (fun _ => True) (by simp)).1 p hp).2.1 x hx).2
      · intro x hx hn hnl _ hi ha
        exact (hsa (fun _ => True) (by simp)).2.1 x ((hR.makeBox bx x).2 (hbx x hx ha)) hn hnl hi
      · intro h1 h2
        exact (hsa (fun _ => True) (by simp)).2.2 (hori h1 h2)

theorem partsOf_ok {c : Cell Bx} {b : Part S} {m : MBox Bx} (hR : Right K mem on inBox) (hl : Leaf c.definition)
    (hs : ∀ v, v ∈ c.surfaces ↔ c.definition.Occurs v) (hne : c.surfaces ≠ []) (hb : c.bound = some m)
    (hk : KnownOK K mem (· ∈ c.surfaces) b) :
    ∃ r, partsOf K c b = .ok r ∧ PartsOK K mem on inBox c (some [b]) r ∧ (b.ori = .fwd → ∀ p ∈ r.full, p.ori = .fwd) := by
  have hem : c.surfaces.isEmpty = false := by cases h : c.surfaces <;> simp_all
  unfold partsOf
  simp only [hem, hb]
  by_cases ht : K.thin (K.box b.solid) = true
  · simp only [ht, if_true]
    refine ⟨_, rfl, ⟨by simp, by simp, by simp, ?_⟩, by simp⟩
    intro x _ _ hnl hx _ _
    simp only [inBase, inP_cons, inP_nil, or_false] at hx
    exact absurd hx (by simpa using hnl)
  · simp only [ht]
    have hsa := fun F hF hk => splitAll_ok (F := F) (d := c.definition) (o := m.ori) (bx := K.box b.solid) (ks := c.surfaces)
        (b := b) hR hl hF (fun v hv => (hs v).2 hv) hne hk (fun x hx => hR.box _ x hx)
    have hsa0 := hsa (· ∈ c.surfaces) (fun v hv => (hs v).2 hv) hk
    refine ⟨_, rfl, ⟨?_, ?_, ?_, ?_⟩, hsa0.2.2⟩
    · intro p hp
      obtain ⟨-, h2, h3⟩ := hsa0.1 p hp
      exact ⟨b, by simp, fun x hx => (h2 x hx).1, h3⟩
    · intro F hF hk' p hp
      exact ((hsa F (fun v hv => hF v ((hs v).2 hv)) (baseOK_some.1 hk' b (by simp))).1 p hp).1
    · rintro x ⟨p, hp, hx⟩
      exact ((hsa0.1 p hp).2.1 x hx).2
    · intro x _ hn hnl hx hi _
      simp only [inBase, inP_cons, inP_nil, or_false] at hx
      exact hsa0.2.1 x hx hn hnl hi

theorem partsL_ok {c : Cell Bx} {m : MBox Bx} (hR : Right K mem on inBox) (hl : Leaf c.definition)
    (hs : ∀ v, v ∈ c.surfaces ↔ c.definition.Occurs v) (hne : c.surfaces ≠ []) (hb : c.bound = some m) :
    ∀ bs : List (Part S), (∀ b ∈ bs, KnownOK K mem (· ∈ c.surfaces) b) →
    ∃ r, partsL K c bs = .ok r ∧ PartsOK K mem on inBox c (some bs) r ∧ ((∀ b ∈ bs, b.ori = .fwd) → ∀ p ∈ r.full, p.ori = .fwd) := by
  intro bs
  induction bs with
  | nil =>
    intro _
    refine ⟨_, rfl, ⟨by simp [Split.nil], by simp [Split.nil], by simp [Split.nil], ?_⟩, by simp [Split.nil]⟩
    intro x _ _ _ hx
    simp [inBase] at hx
  | cons b bs ih =>
    intro hk
    obtain ⟨r1, e1, p1, f1⟩ := partsOf_ok hR hl hs hne hb (hk b (by simp))
    obtain ⟨r2, e2, p2, f2⟩ := ih (fun b' hb' => hk b' (by simp [hb']))
    refine ⟨r1.app r2, by simp [partsL, e1, e2, bind, Except.bind], ⟨?_, ?_, ?_, ?_⟩, ?_⟩
    · intro p hp
      simp only [Split.app, List.mem_append] at hp
      rcases hp with hp | hp
      · obtain ⟨b', hb', h⟩ := p1.frame p hp
        simp only [List.mem_singleton] at hb'
        subst hb'
        exact ⟨b', by simp, h⟩
      · obtain ⟨b', hb', h⟩ := p2.frame p hp
        exact ⟨b', by simp [hb'], h⟩
    · intro F hF hB p hp
      rw [baseOK_some] at hB
      simp only [Split.app, List.mem_append] at hp
      rcases hp with hp | hp
      · exact p1.known F hF (baseOK_some.2 (fun b' hb' => hB b' (by simp at hb'; simp [hb']))) p hp
      · exact p2.known F hF (baseOK_some.2 (fun b' hb' => hB b' (by simp [hb']))) p hp
    · intro x hx
      simp only [Split.app, inP_append] at hx
      rcases hx with hx | hx
      · exact p1.sound x hx
      · exact p2.sound x hx
    · intro x hx hn hnl hbx hi ha
      simp only [Split.app, inS_append, not_or, inP_append, inBase, inP_cons] at hnl hbx ⊢
      rcases hbx with hbx | hbx
      · exact .inl (p1.complete x hx hn hnl.1 (by simpa [inBase] using hbx) hi ha)
      · exact .inr (p2.complete x hx hn hnl.2 hbx hi ha)
    · intro hf p hp
      simp only [Split.app, List.mem_append] at hp
      rcases hp with hp | hp
      · exact f1 (hf b (by simp)) p hp
      · exact f2 (fun b' hb' => hf b' (by simp [hb'])) p hp

end

end Geouned.Rev.Solid
