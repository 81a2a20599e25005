import Verif.Rev.SolidLemmas5
/-! Helper lemmas: whole cells; a kernel for a finite set of points. -/
namespace Geouned.Rev.Solid

variable {α S Bx Sh : Type}

section
variable {K : Kernel α S Bx Sh} {mem : S → α → Prop} {on : Nat → α → Prop} {inBox : Bx → α → Prop}

theorem finish_in (hR : Right K mem on inBox) (ps : List (Part S)) (l : List S) :
    ∃ o, buildCell.finish K (.ok (ps, l)) = .ok (o, l) ∧ ∀ x, InShape mem o x ↔ inP mem ps x := by
  cases ps with
  | nil => exact ⟨none, rfl, fun x => by simp [InShape]⟩
  | cons p ps =>
    refine ⟨_, rfl, fun x => ?_⟩
    simp only [InShape, Option.some.injEq, exists_eq_left']
    rw [hR.fuse _ (by simp)]
    constructor
    · rintro ⟨s, hs, hx⟩
      obtain ⟨q, hq, rfl⟩ := List.mem_map.1 hs
      exact ⟨q, hq, hx⟩
    · rintro ⟨q, hq, hx⟩
      exact ⟨q.solid, List.mem_map.2 ⟨q, hq, rfl⟩, hx⟩

/-- the cell that `buildCell` hands over -/
theorem buildCell_eq (f : Nat) (d : Seq) (surfaces : List Nat) (ext : Bx) :
    (∃ c : Cell Bx, buildCell K f d surfaces ext = buildCell.finish K (buildDepth K f c none) ∧ c.definition = d ∧ c.surfaces = surfaces ∧
      c.plane = (d, ext) ∧ c.bound = some (K.boundBox d ext 2) ∧
      ((K.boundBox d ext 2).ori = .rev ∧ c.ext = ext ∨ (K.boundBox d ext 2).ori = .fwd ∧ (K.boundBox d ext 2).box = some c.ext)) ∨
    (K.boundBox d ext 2).ori = .fwd ∧ (K.boundBox d ext 2).box = none ∧ buildCell K f d surfaces ext = .ok (none, []) := by
  unfold buildCell
  cases ho : (K.boundBox d ext 2).ori with
  | rev =>
    refine .inl ⟨⟨d, surfaces, ext, (d, ext), some (K.boundBox d ext 2)⟩, ?_, rfl, rfl, rfl, rfl, .inl ⟨rfl, rfl⟩⟩
    simp only [ho]
  | fwd =>
    cases hb : (K.boundBox d ext 2).box with
    | none => exact .inr ⟨rfl, rfl, by simp only [ho, hb]⟩
    | some b =>
      refine .inl ⟨⟨d, surfaces, b, (d, ext), some (K.boundBox d ext 2)⟩, ?_, rfl, rfl, rfl, rfl, .inr ⟨rfl, rfl⟩⟩
      simp only [ho, hb]

/-- the region of the cell is the one of its definition -/
theorem area_root {c : Cell Bx} (hp : c.plane.1 = c.definition) (x : α) : Area K c x ↔ In K c.definition x := by
  unfold Area
  split
  · rw [hp]
  · exact Iff.rfl

theorem boxSays_root (hR : Right K mem on inBox) {c : Cell Bx} {d : Seq} {ext : Bx} (hd : c.definition = d) (hp : c.plane = (d, ext))
    (hx : (K.boundBox d ext 2).ori = .rev ∧ c.ext = ext ∨ (K.boundBox d ext 2).ori = .fwd ∧ (K.boundBox d ext 2).box = some c.ext) :
    BoxSays inBox c.ext (Area K c) (K.boundBox d ext 2) := by
  have h := hR.boundBox d ext 2
  have ha : ∀ x, Area K c x ↔ In K d x := fun x => by rw [area_root (by rw [hp, hd]), hd]
  rcases hx with ⟨-, h1⟩ | ⟨h1, h2⟩
  · exact h.ext (by rw [h1]; exact fun x hx => hx) (fun x => (ha x).symm)
  · unfold BoxSays
    rw [h1, h2]
    exact fun x hx _ => hx

/-- what the working box is for the points of the external box -/
theorem work_box (hR : Right K mem on inBox) {d : Seq} {ext b : Bx} {x : α}
    (hx : (K.boundBox d ext 2).ori = .rev ∧ b = ext ∨ (K.boundBox d ext 2).ori = .fwd ∧ (K.boundBox d ext 2).box = some b) (he : inBox ext x) :
    (In K d x → inBox b x) ∧ (InCellBox K inBox d ext x → inBox b x) := by
  have h := hR.boundBox d ext 2
  rcases hx with ⟨-, rfl⟩ | ⟨h1, h2⟩
  · exact ⟨fun _ => he, fun _ => he⟩
  · unfold BoxSays at h
    rw [h1, h2] at h
    refine ⟨h x he, fun hc => ?_⟩
    obtain ⟨b', h3, h4⟩ := hc h1
    rw [h2] at h3
    simp only [Option.some.injEq] at h3
    exact h3 ▸ h4

theorem no_shape (hR : Right K mem on inBox) {d : Seq} {ext : Bx} (h1 : (K.boundBox d ext 2).ori = .fwd) (h2 : (K.boundBox d ext 2).box = none) :
    RightShape K mem on inBox d ext none [] := by
  have h := hR.boundBox d ext 2
  unfold BoxSays at h
  rw [h1, h2] at h
  intro x hx _ _
  exact ⟨fun hi => absurd hi (h x hx), fun _ ⟨s, hs, _⟩ => by simp at hs⟩

/-- flat definitions -/
theorem flat_or {rec : Cell Bx → Option (List (Part S)) → Res S} {c : Cell Bx} : ∀ es : List Seq,
    (∀ e ∈ es, ∃ r : Split S, rec (getSubCell c e) none = .ok (r.full, r.lost) ∧ PartsOK K mem on inBox (getSubCell c e) none r ∧
      ∀ v, e.Occurs v → v ∈ c.surfaces) →
    ∃ qs l, orLoop K rec c none es = .ok (qs, l) ∧ (∀ x, inP mem qs x → ∃ e ∈ es, In K e x) ∧
      ∀ x, inBox c.ext x → (∀ v ∈ c.surfaces, ¬ on v x) → ¬ inS mem l x → (∃ e ∈ es, In K e x) → Area K c x → inP mem qs x := by
  intro es
  induction es with
  | nil => intro _; exact ⟨[], [], rfl, by simp, by simp⟩
  | cons e es ih =>
    intro h
    obtain ⟨r, h1, h2, he⟩ := h e (by simp)
    obtain ⟨qs, l, h3, h4, h5⟩ := ih (fun e' he' => h e' (by simp [he']))
    refine ⟨r.full ++ qs, r.lost ++ l, by simp [orLoop, h1, h3, bind, Except.bind], ?_, ?_⟩
    · intro x hx
      simp only [inP_append] at hx
      rcases hx with hx | hx
      · exact ⟨e, by simp, h2.sound x hx⟩
      · obtain ⟨e', he', hi⟩ := h4 x hx
        exact ⟨e', by simp [he'], hi⟩
    · rintro x hx hn hl ⟨e', he', hi⟩ ha
      simp only [inS_append, not_or, inP_append] at hl ⊢
      rcases List.mem_cons.1 he' with rfl | he'
      · exact .inl (h2.complete x hx (fun v hv => hn v (he v ((sub_surf he v).1 hv))) hl.1 (by simp [inBase]) hi (area_sub.2 hi ha))
      · exact .inr (h5 x hx hn hl.2 ⟨e', he', hi⟩ ha)

theorem flat_ok (hR : Right K mem on inBox) {c : Cell Bx} (f : Nat) (hg : Good c.definition) (hfl : Flat c.definition)
    (hs : ∀ v, v ∈ c.surfaces ↔ c.definition.Occurs v) (hb : BoundOK K inBox c) :
    ∃ qs l, buildDepth K (f + 2) c none = .ok (qs, l) ∧ (∀ x, inP mem qs x → In K c.definition x) ∧
      ∀ x, inBox c.ext x → (∀ v ∈ c.surfaces, ¬ on v x) → ¬ inS mem l x → In K c.definition x → Area K c x → inP mem qs x := by
  have leafCase : ∀ (f : Nat) (c : Cell Bx), Good c.definition → isLeaf c.definition = true → (∀ v, v ∈ c.surfaces ↔ c.definition.Occurs v) → BoundOK K inBox c →
      ∃ r : Split S, buildDepth K (f + 1) c none = .ok (r.full, r.lost) ∧ PartsOK K mem on inBox c none r := by
    intro f c hg hl hs hb
    have hlf := hg.leaf hl
    have hne : c.surfaces ≠ [] := by
      obtain ⟨v, hv⟩ := hg.occurs
      intro h
      have := (hs v).2 hv
      rw [h] at this
      simp at this
    obtain ⟨r, e1, p1, -⟩ := partsNew_ok (c := c) hR hlf hs hne hb
    refine ⟨r, ?_, p1⟩
    have hl' : isLeaf ({ c with definition := c.definition } : Cell Bx).definition = true := hl
    simp only [buildDepth, leaf_group hlf, hl, if_true]
    simp [e1, bind, Except.bind]
  obtain ⟨op, l, es, hd, hor⟩ := hfl
  by_cases h0 : l = 0
  · obtain ⟨r, h1, h2⟩ := leafCase (f + 1) c hg (by rw [hd, h0]; rfl) hs hb
    exact ⟨r.full, r.lost, h1, h2.sound, fun x hx hn hl hi ha => h2.complete x hx hn hl (by simp [inBase]) hi ha⟩
  · obtain ⟨rfl, hes⟩ := hor.resolve_left h0
    have hg' := hg
    rw [hd] at hg'
    have htidy : Tidy (Seq.lst .or l es) := by
      show TidyL es
      rw [tidyL_iff]
      intro e he
      rcases hes e he with ⟨n, rfl⟩ | ⟨o, xs, rfl⟩
      · simp [Tidy]
      · have hw := ((WF_lst _ _ _).1 hg'.wf).2 _ he
        have hi := ((WF_lst _ _ _).1 hw).1.2 rfl
        have hx : TidyL xs := by
          rw [tidyL_iff]
          intro y hy
          obtain ⟨n, rfl⟩ := hi y hy
          simp [Tidy]
        cases o with
        | or => exact hx
        | and =>
          refine ⟨hx, ?_⟩
          rw [List.pairwise_iff_forall_sublist]
          intro a b hab hj
          obtain ⟨n, rfl⟩ := hi a (hab.subset (by simp))
          simp [Joins] at hj
    obtain ⟨es', hgs, hw', hsem, hocc, hcase⟩ := groupSingle_order hg'.wf hg'.nobool h0
    obtain ⟨es'', g1, g2, g3, -, g5, g6, -, -⟩ := grouped (K := K) hg' htidy h0
    have heq : es'' = es' := by rw [hgs] at g1; simpa using g1.symm
    subst heq
    have hlv : ∀ e ∈ es'', isLeaf e = true := by
      have hrest : ∀ e ∈ es.filter (fun e => !isSingle e), isLeaf e = true := by
        intro e he
        rw [List.mem_filter] at he
        rcases hes e he.1 with ⟨n, rfl⟩ | ⟨o, xs, rfl⟩
        · simp [isSingle] at he
        · rfl
      rcases hcase with ⟨rfl, -⟩ | ⟨g, rfl, -⟩
      · exact hrest
      · intro e he
        rcases List.mem_cons.1 he with rfl | he
        · rfl
        · exact hrest e he
    have hsub : ∀ e ∈ es'', ∀ v, e.Occurs v → v ∈ c.surfaces := by
      intro e he v hv
      rw [hs v, hd, ← g6 v]
      simp only [Seq.Occurs, OccursL_iff]
      exact ⟨e, he, hv⟩
    obtain ⟨qs, lo, h1, h2, h3⟩ := flat_or (K := K) (mem := mem) (on := on) (inBox := inBox) (rec := buildDepth K (f + 1))
      (c := { c with definition := .lst .or l es'' }) es'' (fun e he => by
        obtain ⟨r, h1, h2⟩ := leafCase f (getSubCell { c with definition := .lst .or l es'' } e) (g3 e he).1 (hlv e he)
          (fun v => sub_surf (hsub e he) v) (by intro m hm; simp [getSubCell] at hm)
        exact ⟨r, h1, h2, hsub e he⟩)
    have hl2 : isLeaf (Seq.lst .or l es'') = false := by simpa [isLeaf] using h0
    have hin : ∀ x, In K c.definition x ↔ ∃ e ∈ es'', In K e x := by
      intro x
      rw [← in_or (l := l), hd]
      unfold In
      rw [g5]
    refine ⟨(joinBase K qs).toList, lo, ?_, ?_, ?_⟩
    · have h4 : depthOne K (buildDepth K (f + 1)) { c with definition := .lst .or l es'' } none = .ok ((joinBase K qs).toList, lo) := by
        simp only [depthOne, h1]
        rfl
      rw [buildDepth]
      simp only [hd, g1, hl2]
      simpa using depthL_none h4
    · intro x hx
      rw [hin]
      exact h2 x ((joinBase_in hR qs x).1 hx)
    · intro x hx hn hl hi ha
      refine (joinBase_in hR qs x).2 (h3 x hx hn hl ((hin x).1 hi) ?_)
      unfold Area at ha ⊢
      split
      · next h => rw [if_pos h] at ha; exact ha
      · exact in_or.2 ((hin x).1 hi)

end

/-! ### a kernel for finitely many points -/

/-- `side`: on which side of each surface the points are. A solid and a box are lists of points. `far`: a region that holds this
point has a reversed box. -/
def tableK (n : Nat) (side : Nat → Fin n → Bool) (far : Option (Fin n)) : Kernel (Fin n) (List (Fin n)) (List (Fin n)) Nat where
  side := side
  isPlane _ := true
  shape k _ := some k
  slice s k := some ([s.filter (fun x => side k x), s.filter (fun x => !side k x)].filter (fun l => !l.isEmpty))
  sliver _ := false
  small _ := false
  inner s := s.head?
  box s := s
  thin _ := false
  makeBox b := b
  meet a b := a.any (fun x => b.contains x)
  fuse l := l.flatten
  same a b := a == b
  boundBox d out _ :=
    match far with
    | none => ⟨some (out.filter (fun x => d.sem (fun k => side k x))), .fwd⟩
    | some p =>
      if d.sem (fun k => side k p) then ⟨some (out.filter (fun x => !d.sem (fun k => side k x))), .rev⟩
      else ⟨some (out.filter (fun x => d.sem (fun k => side k x))), .fwd⟩

/-- it is a right kernel -/
theorem tableK_right (n : Nat) (side : Nat → Fin n → Bool) (far : Option (Fin n)) :
    Right (tableK n side far) (fun s x => x ∈ s) (fun _ _ => False) (fun b x => x ∈ b) where
  slice_some := by
    intro s k b sh l hsh _ hl _
    simp only [tableK, Option.some.injEq] at hsh hl
    subst hsh hl
    constructor
    · intro t ht
      simp only [List.mem_filter, List.mem_cons, List.not_mem_nil, or_false] at ht
      rcases ht.1 with rfl | rfl
      · refine ⟨fun x y hx hy => ?_, fun x hx => (List.mem_filter.1 hx).1⟩
        have h1 := (List.mem_filter.1 hx).2
        have h2 := (List.mem_filter.1 hy).2
        simp only [tableK]
        rw [h1, h2]
      · refine ⟨fun x y hx hy => ?_, fun x hx => (List.mem_filter.1 hx).1⟩
        have h1 := (List.mem_filter.1 hx).2
        have h2 := (List.mem_filter.1 hy).2
        simp only [Bool.not_eq_true'] at h1 h2
        simp only [tableK]
        rw [h1, h2]
    · intro x hx _
      cases hs : side k x with
      | true =>
        have h : x ∈ s.filter (fun x => side k x) := List.mem_filter.2 ⟨hx, hs⟩
        refine ⟨s.filter (fun x => side k x), List.mem_filter.2 ⟨by simp, ?_⟩, h⟩
        cases he : s.filter (fun x => side k x) with
        | nil => rw [he] at h; simp at h
        | cons a t => rfl
      | false =>
        have h : x ∈ s.filter (fun x => !side k x) := List.mem_filter.2 ⟨hx, by simp [hs]⟩
        refine ⟨s.filter (fun x => !side k x), List.mem_filter.2 ⟨by simp, ?_⟩, h⟩
        cases he : s.filter (fun x => !side k x) with
        | nil => rw [he] at h; simp at h
        | cons a t => rfl
  slice_none := by
    intro s k b sh hsh _ hl x y hx hy
    simp only [tableK, Option.some.injEq, reduceCtorEq, false_or] at hsh hl
    subst hsh
    rw [List.filter_eq_nil_iff] at hl
    exfalso
    cases hs : side k x with
    | true =>
      have h : x ∈ s.filter (fun x => side k x) := List.mem_filter.2 ⟨hx, hs⟩
      have h' := hl (s.filter (fun x => side k x)) (by simp)
      cases he : s.filter (fun x => side k x) with
      | nil => rw [he] at h; simp at h
      | cons a t => rw [he] at h'; simp at h'
    | false =>
      have h : x ∈ s.filter (fun x => !side k x) := List.mem_filter.2 ⟨hx, by simp [hs]⟩
      have h' := hl (s.filter (fun x => !side k x)) (by simp)
      cases he : s.filter (fun x => !side k x) with
      | nil => rw [he] at h; simp at h
      | cons a t => rw [he] at h'; simp at h'
  shape_none := by intro s k b h; simp [tableK] at h
  inner := by
    intro s p h
    simp only [tableK] at h
    exact List.mem_of_mem_head? (by rw [h]; rfl)
  box := by intro s x h; exact h
  makeBox := by intro b x; exact Iff.rfl
  meet := by
    intro a b h x
    simp only [tableK, List.any_eq_false] at h
    rintro ⟨h1, h2⟩
    exact absurd (List.contains_iff_mem.2 h2) (by simpa using h x h1)
  fuse := by intro l _ x; simp [tableK]
  same := by
    intro a b h x
    simp only [tableK, beq_iff_eq] at h
    rw [h]
  same_refl := by intro a; simp [tableK]
  boundBox := by
    intro d out e
    cases far with
    | none =>
      intro x hx hi
      exact List.mem_filter.2 ⟨hx, hi⟩
    | some p =>
      simp only [tableK]
      split
      · intro x hx hi
        refine List.mem_filter.2 ⟨hx, ?_⟩
        simp only [In] at hi
        simpa using hi
      · intro x hx hi
        exact List.mem_filter.2 ⟨hx, hi⟩

end Geouned.Rev.Solid
