import Verif.CTable.BuildLemmas
/-!
# C129: the constraint table made from the solids describes the box

Meaning of tables: `CTable/Spec.lean`; what is taken of the CAD kernel: `CTable/BuildSpec.lean`.
-/
namespace Geouned

variable {P Q : Type}

theorem sign_one (K : CutKernel P Q) (p : P) (s : Nat) : (K.sign p s == 1) = K.positive (K.inside p) s := by
  unfold CutKernel.sign
  cases K.positive (K.inside p) s <;> rfl

theorem splitBox_some {K : CutKernel P Q} {s : Nat} {A B : List P} (h : (K.splitBox s).2 = some (A, B)) :
    K.hasShape s = true ∧ 1 < (K.cut s).length ∧ A = (K.cut s).filter (fun p => K.positive (K.inside p) s) ∧ B = (K.cut s).filter (fun p => !K.positive (K.inside p) s) := by
  unfold CutKernel.splitBox at h
  split_ifs at h with h1 h2
  simp only [Option.some.injEq, Prod.mk.injEq, sign_one] at h
  refine ⟨by simpa using h1, by omega, h.1.symm, h.2.symm⟩

theorem splitBox_none {K : CutKernel P Q} {s : Nat} (h : (K.splitBox s).2 = none) :
    (K.hasShape s = false ∨ (K.cut s).length ≤ 1) ∧ (K.splitBox s).1 = if K.positive (K.inside K.box) s then 1 else -1 := by
  unfold CutKernel.splitBox at h ⊢
  by_cases h1 : K.hasShape s = false
  · rw [if_pos h1]; exact ⟨.inl h1, rfl⟩
  · rw [if_neg h1] at h ⊢
    by_cases h2 : (K.cut s).length ≤ 1
    · rw [if_pos h2]; exact ⟨.inr h2, rfl⟩
    · rw [if_neg h2] at h; cases h

/-- the positions of a piece with respect to a surface: what occurs in it -/
theorem splitPiece_ok {K : CutKernel P Q} {inP : P → Q → Prop} (hK : K.Honest inP) {s1 s2 : Nat} {p : P} (hp : p ∈ K.cut s1) :
    PieceOK (K.splitPiece s2 p) ∧ ∀ q, inP p q → (K.positive q s2 = true → (K.splitPiece s2 p).1 = true) ∧ (K.positive q s2 = false → (K.splitPiece s2 p).2 = true) := by
  unfold CutKernel.splitPiece
  split_ifs with h1 h2
  · refine ⟨.inl rfl, fun q hq => ⟨fun _ => rfl, fun hf => ?_⟩⟩
    have := hK.away s1 s2 p hp h1 q _ hq (hK.inside s1 p hp)
    have h3 : K.positive (K.inside p) s2 = true := by simpa [sign_one] using (beq_iff_eq.2 h2)
    rw [hf, h3] at this; cases this
  · refine ⟨.inr rfl, fun q hq => ⟨fun hf => ?_, fun _ => rfl⟩⟩
    have := hK.away s1 s2 p hp h1 q _ hq (hK.inside s1 p hp)
    have h3 : K.positive (K.inside p) s2 = false := by
      have : ¬ ((K.sign p s2 == 1) = true) := fun h => h2 (beq_iff_eq.1 h)
      rw [sign_one] at this; simpa using this
    rw [hf, h3] at this; cases this
  · exact ⟨.inl rfl, fun q _ => ⟨fun _ => rfl, fun _ => rfl⟩⟩

theorem diag_allows {K : CutKernel P Q} {inP : P → Q → Prop} (hK : K.Honest inP) (s : Nat) {q : Q} (hq : inP K.box q) :
    (CTVal.diag (K.splitBox s).1).Allows (K.positive q s) (K.positive q s) := by
  refine ⟨rfl, ?_⟩
  cases hs : (K.splitBox s).2 with
  | none =>
    obtain ⟨h1, h2⟩ := splitBox_none hs
    rw [h2, hK.whole s h1 q _ hq hK.inside_box]
    cases K.positive (K.inside K.box) s <;> simp
  | some x =>
    left
    unfold CutKernel.splitBox at hs ⊢
    split_ifs at hs ⊢
    rfl

theorem pair_allows {K : CutKernel P Q} {inP : P → Q → Prop} (hK : K.Honest inP) {s1 s2 : Nat} {A B : List P} (hs : (K.splitBox s1).2 = some (A, B)) {pos neg : Option (Bool × Bool)} {e : CTVal}
    {p n : Bool × Bool} (he : pairEntry (A.map (K.splitPiece s2)) (B.map (K.splitPiece s2)) pos neg = .ok (e, p, n)) (q : Q) (hq : inP K.box q) : e.Allows (K.positive q s1) (K.positive q s2) := by
  obtain ⟨h1, h2, rfl, rfl⟩ := splitBox_some hs
  obtain ⟨c1, c2⟩ := C45_pair_entry_sound _ _ pos neg e p n
    (fun x hx => by obtain ⟨y, hy, rfl⟩ := List.mem_map.1 hx; exact (splitPiece_ok hK (List.mem_filter.1 hy).1).1)
    (fun x hx => by obtain ⟨y, hy, rfl⟩ := List.mem_map.1 hx; exact (splitPiece_ok hK (List.mem_filter.1 hy).1).1) he
  obtain ⟨x, hx, hxq⟩ := hK.cover s1 q hq
  have hside := hK.piece s1 x hx q _ hxq (hK.inside s1 x hx)
  obtain ⟨-, hin⟩ := splitPiece_ok (s2 := s2) hK hx
  obtain ⟨i1, i2⟩ := hin q hxq
  cases e1 : K.positive q s1 with
  | true =>
    have hm : K.splitPiece s2 x ∈ ((K.cut s1).filter (fun p => K.positive (K.inside p) s1)).map (K.splitPiece s2) :=
      List.mem_map_of_mem (List.mem_filter.2 ⟨hx, by rw [← hside, e1]⟩)
    cases e2 : K.positive q s2 with
    | true => exact (c1 _ hm).1 (i1 e2)
    | false => exact (c1 _ hm).2 (i2 e2)
  | false =>
    have hm : K.splitPiece s2 x ∈ ((K.cut s1).filter (fun p => !K.positive (K.inside p) s1)).map (K.splitPiece s2) :=
      List.mem_map_of_mem (List.mem_filter.2 ⟨hx, by rw [← hside, e1]; rfl⟩)
    cases e2 : K.positive q s2 with
    | true => exact (c2 _ hm).1 (i1 e2)
    | false => exact (c2 _ hm).2 (i2 e2)

/-- **C129**: the table excludes no combination of sides that occurs at a point of the box, whatever the variables `pos` and `neg` were left with -/
theorem C129_sound (K : CutKernel P Q) (inP : P → Q → Prop) (hK : K.Honest inP) (diag : Bool) (surfs : List Nat) (hnd : surfs.Nodup) (t : CTable) (h : K.build diag surfs = .ok t) :
    t.keys = surfs ∧ ∀ q, inP K.box q → t.Sound (K.positive q) := by
  have := build_ent K diag (R := fun a b e => ∀ q, inP K.box q → e.Allows (K.positive q a) (K.positive q b)) hnd
    (fun s _ q hq => diag_allows hK s hq)
    (fun s1 s2 A B _ hs pos neg e p n he q hq => ?_)
    (fun a b e e' _ hR ht q hq => transpose_spec ht _ _ (hR q hq))
    (fun a b d1 d2 e _ _ r1 r2 hc q hq => (combineDiag_spec hc _ _).2 ⟨r1 q hq, r2 q hq⟩) h
  · exact ⟨this.2, fun q hq a b e he => this.1 a b e he q hq⟩
  · exact pair_allows hK hs he q hq

theorem sideLoop_exact : ∀ (ps : List (Bool × Bool)) (p0 cur : Option (Bool × Bool)) (r : Bool × Bool),
    (∀ p ∈ ps, PieceOK p) → (∀ q, p0 = some q → PieceOK q ∧ cur = some q) → (p0 = none → ps ≠ []) → sideLoop ps p0 cur = some r →
    (r.1 = true → (∃ p ∈ ps, p.1 = true) ∨ ∃ q, p0 = some q ∧ q.1 = true) ∧ (r.2 = true → (∃ p ∈ ps, p.2 = true) ∨ ∃ q, p0 = some q ∧ q.2 = true) := by
  intro ps
  induction ps with
  | nil =>
    intro p0 cur r _ h0 hn h
    cases p0 with
    | none => exact absurd rfl (hn rfl)
    | some q =>
      simp only [sideLoop] at h
      rw [(h0 q rfl).2] at h; cases h
      exact ⟨fun h => .inr ⟨_, rfl, h⟩, fun h => .inr ⟨_, rfl, h⟩⟩
  | cons p ps ih =>
    intro p0 cur r hp h0 _ h
    simp only [sideLoop] at h
    split at h
    · next heq => cases h; exact ⟨fun h => .inl ⟨_, List.mem_cons_self .., h⟩, fun h => .inl ⟨_, List.mem_cons_self .., h⟩⟩
    · next hne =>
      cases p0 with
      | none =>
        obtain ⟨a, b⟩ := ih (some p) (some p) r (fun q hq => hp q (List.mem_cons_of_mem _ hq)) (fun q hq => by cases hq; exact ⟨hp p (List.mem_cons_self ..), rfl⟩) (by simp) h
        constructor
        · intro hr
          rcases a hr with ⟨x, hx, h1⟩ | ⟨x, hx, h1⟩
          · exact .inl ⟨x, List.mem_cons_of_mem _ hx, h1⟩
          · cases hx; exact .inl ⟨_, List.mem_cons_self .., h1⟩
        · intro hr
          rcases b hr with ⟨x, hx, h1⟩ | ⟨x, hx, h1⟩
          · exact .inl ⟨x, List.mem_cons_of_mem _ hx, h1⟩
          · cases hx; exact .inl ⟨_, List.mem_cons_self .., h1⟩
      | some q =>
        simp only at h
        split at h
        · next hpq =>
          have hq := (h0 q rfl).1
          have hp' := hp p (List.mem_cons_self ..)
          obtain ⟨p1, p2⟩ := p
          obtain ⟨q1, q2⟩ := q
          cases h
          simp only [PieceOK] at hq hp'
          constructor
          · intro _
            cases hp1 : p1 with
            | true => exact .inl ⟨_, List.mem_cons_self .., rfl⟩
            | false =>
              cases hq1 : q1 with
              | true => exact .inr ⟨_, rfl, rfl⟩
              | false => subst hp1 hq1; simp at hp' hq; subst hp' hq; exact absurd rfl hpq
          · intro _
            cases hp1 : p2 with
            | true => exact .inl ⟨_, List.mem_cons_self .., rfl⟩
            | false =>
              cases hq1 : q2 with
              | true => exact .inr ⟨_, rfl, rfl⟩
              | false => subst hp1 hq1; simp at hp' hq; subst hp' hq; exact absurd rfl hpq
        · next hpq =>
          obtain rfl : p = q := by simpa using hpq
          obtain ⟨a, b⟩ := ih (some p) (some p) r (fun q hq => hp q (List.mem_cons_of_mem _ hq)) (fun q hq => by cases hq; exact ⟨hp p (List.mem_cons_self ..), rfl⟩) (by simp) h
          constructor
          · intro hr
            rcases a hr with ⟨x, hx, h1⟩ | h1
            · exact .inl ⟨x, List.mem_cons_of_mem _ hx, h1⟩
            · exact .inr h1
          · intro hr
            rcases b hr with ⟨x, hx, h1⟩ | h1
            · exact .inl ⟨x, List.mem_cons_of_mem _ hx, h1⟩
            · exact .inr h1

/-- **C129**: when every surface that cuts the box leaves pieces on both sides and "not away" means "on both sides", the table allows exactly the combinations of sides that occur at the points of
the box -/
theorem C129_exact (K : CutKernel P Q) (inP : P → Q → Prop) (hK : K.Honest inP) (diag : Bool) (surfs : List Nat) (hnd : surfs.Nodup) (hB : K.BothSides surfs) (hE : K.Exact inP) (t : CTable)
    (h : K.build diag surfs = .ok t) (a b : Nat) (e : CTVal) (he : t.get a b = some e) (x y : Bool) :
    e.Allows x y ↔ ∃ q, inP K.box q ∧ K.positive q a = x ∧ K.positive q b = y := by
  refine ⟨?_, ?_⟩
  rotate_left
  · rintro ⟨q, hq, rfl, rfl⟩
    exact (C129_sound K inP hK diag surfs hnd t h).2 q hq a b e he
  have := build_ent K diag (R := fun a b e => (a = b ∨ ∃ c1 c2 c3 c4, e = .pair c1 c2 c3 c4) ∧ ∀ x y, e.Allows x y → ∃ q, inP K.box q ∧ K.positive q a = x ∧ K.positive q b = y)
    hnd ?_ ?_ ?_ ?_ h
  · exact (this.1 a b e he).2 x y
  · intro s hs
    refine ⟨.inl rfl, fun x y hxy => ?_⟩
    obtain ⟨rfl, hd⟩ := hxy
    cases hsp : (K.splitBox s).2 with
    | none =>
      obtain ⟨-, h2⟩ := splitBox_none hsp
      rw [h2] at hd
      refine ⟨K.inside K.box, hK.inside_box, ?_, ?_⟩ <;> cases hp : K.positive (K.inside K.box) s <;> simp [hp] at hd <;> exact hd.symm
    | some z =>
      obtain ⟨A, B⟩ := z
      obtain ⟨h1, h2, -, -⟩ := splitBox_some hsp
      obtain ⟨⟨p, hp, e1⟩, p', hp', e2⟩ := hB s hs h1 h2
      cases x with
      | true => exact ⟨_, hK.part s _ p hp (hK.inside s p hp), e1, e1⟩
      | false => exact ⟨_, hK.part s _ p' hp' (hK.inside s p' hp'), e2, e2⟩
  · intro s1 s2 A B hsub hs pos neg e p n hpe
    obtain ⟨h1, h2, rfl, rfl⟩ := splitBox_some hs
    have hm : s1 ∈ surfs := hsub.subset (List.mem_cons_self ..)
    obtain ⟨⟨p0, hp0, e1⟩, p1, hp1, e2⟩ := hB s1 hm h1 h2
    have occ : ∀ z ∈ K.cut s1, ((K.splitPiece s2 z).1 = true → ∃ q, inP z q ∧ K.positive q s2 = true) ∧ ((K.splitPiece s2 z).2 = true → ∃ q, inP z q ∧ K.positive q s2 = false) := by
      intro z hz
      by_cases hcase : K.hasShape s2 = false ∨ K.far z s2 = true
      · unfold CutKernel.splitPiece
        rw [if_pos hcase]
        cases hps : K.positive (K.inside z) s2 with
        | true => simp [CutKernel.sign, hps]; exact ⟨_, hK.inside s1 z hz, hps⟩
        | false => simp [CutKernel.sign, hps]; exact ⟨_, hK.inside s1 z hz, hps⟩
      · simp only [not_or, Bool.not_eq_false, Bool.not_eq_true] at hcase
        exact ⟨fun _ => (hE s1 s2 z hz hcase.1 hcase.2).1, fun _ => (hE s1 s2 z hz hcase.1 hcase.2).2⟩
    have tight : ∀ (l : List P) (c : Option (Bool × Bool)) (r : Bool × Bool), (∀ z ∈ l, z ∈ K.cut s1) → l ≠ [] → sideLoop (l.map (K.splitPiece s2)) none c = some r →
        (r.1 = true → ∃ z ∈ l, ∃ q, inP z q ∧ K.positive q s2 = true) ∧ (r.2 = true → ∃ z ∈ l, ∃ q, inP z q ∧ K.positive q s2 = false) := by
      intro l c r hl hne hr
      obtain ⟨t1, t2⟩ := sideLoop_exact _ none c r (fun w hw => by obtain ⟨z, hz, rfl⟩ := List.mem_map.1 hw; exact (splitPiece_ok hK (hl z hz)).1) (by simp) (by simpa using hne) hr
      constructor
      · intro hr1
        obtain ⟨w, hw, h3⟩ := (t1 hr1).resolve_right (by simp)
        obtain ⟨z, hz, rfl⟩ := List.mem_map.1 hw
        exact ⟨z, hz, (occ z (hl z hz)).1 h3⟩
      · intro hr1
        obtain ⟨w, hw, h3⟩ := (t2 hr1).resolve_right (by simp)
        obtain ⟨z, hz, rfl⟩ := List.mem_map.1 hw
        exact ⟨z, hz, (occ z (hl z hz)).2 h3⟩
    simp only [pairEntry] at hpe
    split at hpe
    · next pp nn hpp hnn =>
      cases hpe
      have tp := tight _ _ _ (fun z hz => (List.mem_filter.1 hz).1) (List.ne_nil_of_mem (List.mem_filter.2 ⟨hp0, e1⟩)) hpp
      have tn := tight _ _ _ (fun z hz => (List.mem_filter.1 hz).1) (List.ne_nil_of_mem (List.mem_filter.2 ⟨hp1, by rw [e2]; rfl⟩)) hnn
      have back : ∀ z ∈ K.cut s1, ∀ q, inP z q → inP K.box q ∧ K.positive q s1 = K.positive (K.inside z) s1 := fun z hz q hq =>
        ⟨hK.part s1 q z hz hq, hK.piece s1 z hz q _ hq (hK.inside s1 z hz)⟩
      refine ⟨.inr ⟨_, _, _, _, rfl⟩, fun x y hxy => ?_⟩
      cases x <;> cases y <;> simp only [CTVal.Allows, if_true, Bool.false_eq_true, if_false] at hxy
      · obtain ⟨z, hz, q, hq, h4⟩ := tn.2 hxy
        obtain ⟨hz1, hz2⟩ := List.mem_filter.1 hz
        exact ⟨q, (back z hz1 q hq).1, by rw [(back z hz1 q hq).2]; simpa using hz2, h4⟩
      · obtain ⟨z, hz, q, hq, h4⟩ := tn.1 hxy
        obtain ⟨hz1, hz2⟩ := List.mem_filter.1 hz
        exact ⟨q, (back z hz1 q hq).1, by rw [(back z hz1 q hq).2]; simpa using hz2, h4⟩
      · obtain ⟨z, hz, q, hq, h4⟩ := tp.2 hxy
        obtain ⟨hz1, hz2⟩ := List.mem_filter.1 hz
        exact ⟨q, (back z hz1 q hq).1, by rw [(back z hz1 q hq).2]; simpa using hz2, h4⟩
      · obtain ⟨z, hz, q, hq, h4⟩ := tp.1 hxy
        obtain ⟨hz1, hz2⟩ := List.mem_filter.1 hz
        exact ⟨q, (back z hz1 q hq).1, by rw [(back z hz1 q hq).2]; simpa using hz2, h4⟩
    · cases hpe
  · rintro a b e e' hne ⟨hR0, hR⟩ ht
    obtain ⟨c1, c2, c3, c4, rfl⟩ := hR0.resolve_left hne
    cases ht
    refine ⟨.inr ⟨_, _, _, _, rfl⟩, fun x y hxy => ?_⟩
    have hback : (CTVal.pair c1 c2 c3 c4).Allows y x := by
      revert hxy; cases x <;> cases y <;> simp [CTVal.Allows]
    obtain ⟨q, hq, h1, h2⟩ := hR y x hback
    exact ⟨q, hq, h2, h1⟩
  · intro a b d1 d2 e hsub hs r1 r2 hc
    refine ⟨.inr ?_, fun x y hxy => ?_⟩
    · cases d1 with
      | raw d => simp [combineDiag] at hc
      | pair _ _ _ _ => simp [combineDiag] at hc
      | diag d1 =>
        cases d2 with
        | raw d => simp [combineDiag] at hc
        | pair _ _ _ _ => simp [combineDiag] at hc
        | diag d2 =>
          simp only [combineDiag] at hc
          split_ifs at hc <;> (cases hc; exact ⟨_, _, _, _, rfl⟩)
    obtain ⟨c1, c2⟩ := (combineDiag_spec hc x y).1 hxy
    obtain ⟨q1, hq1, h1, -⟩ := r1.2 x x c1
    obtain ⟨q2, hq2, h2, -⟩ := r2.2 y y c2
    refine ⟨q2, hq2, ?_, h2⟩
    rw [hK.whole a (splitBox_none hs).1 q2 q1 hq2 hq1, h1]

/-- **C129**: with at least one surface the table is made, the surfaces are its rows, and unless the mode is "diag" every pair of surfaces has an entry from which the constraints of both can be read -/
theorem C129_returns (K : CutKernel P Q) (diag : Bool) (surfs : List Nat) (hne : surfs ≠ []) (hnd : surfs.Nodup) (hB : K.BothSides surfs) :
    ∃ t, K.build diag surfs = .ok t ∧ t.keys = surfs ∧ (∀ a ∈ surfs, ∃ e, t.get a a = some e) ∧
      (diag = false → (∀ a ∈ surfs, ∀ b ∈ surfs, ∃ e, t.get a b = some e) ∧ ∀ a ∈ surfs, ∃ ts fs, t.constraintSet a = .ok (ts, fs)) := by
  obtain ⟨t0, t, -, h1, h2, h3, h4⟩ := build_shape K diag hne hnd (fun s hs A B hAB => by
    obtain ⟨g1, g2, rfl, rfl⟩ := splitBox_some hAB
    obtain ⟨⟨p, hp, e1⟩, p', hp', e2⟩ := hB s hs g1 g2
    exact ⟨List.ne_nil_of_mem (List.mem_filter.2 ⟨hp, e1⟩), List.ne_nil_of_mem (List.mem_filter.2 ⟨hp', by rw [e2]; rfl⟩)⟩)
  rcases h4 with ⟨rfl, rfl⟩ | ⟨rfl, h4⟩
  · exact ⟨t, h3, h2, fun a ha => by obtain ⟨d, hd, -⟩ := h1.diag a (h2 ▸ ha); exact ⟨_, hd⟩, by simp⟩
  · obtain ⟨t', g1, g2, -, g4, -⟩ := C21_fill_missing t0 h1.diag h1.pairs (h2 ▸ hnd)
    rw [h4] at g1
    cases g1
    rw [h2] at g2 g4
    refine ⟨t, h3, g2, fun a ha => g4 a ha a ha, fun _ => ⟨g4, fun a ha => ?_⟩⟩
    obtain ⟨t', ts, fs, f1, f2⟩ := C20_constraint_set_returns t0 h1.diag h1.pairs (h2 ▸ hnd) a (h2 ▸ ha)
    rw [h4] at f1
    cases f1
    exact ⟨ts, fs, f2⟩

/-- **C129**: no surface: the making raises -/
theorem C129_no_surface (K : CutKernel P Q) (diag : Bool) : K.build diag [] = .error .indexError := rfl

theorem build_noEq (K : CutKernel P Q) (inP : P → Q → Prop) (hK : K.Honest inP) (diag : Bool) (surfs : List Nat) (hnd : surfs.Nodup) (hB : K.BothSides surfs)
    (hd : ∀ a ∈ surfs, ∀ b ∈ surfs, a ≠ b → K.Crosses inP a → K.Crosses inP b →
      (∃ q, inP K.box q ∧ K.positive q a = K.positive q b) ∧ ∃ q, inP K.box q ∧ K.positive q a ≠ K.positive q b)
    (t : CTable) (h : K.build diag surfs = .ok t) : t.NoEquivalence := by
  have := build_ent K diag (R := fun a b e => (∀ q, inP K.box q → e.Allows (K.positive q a) (K.positive q b)) ∧ ¬ e.Equivalence) hnd
    (fun s _ => ⟨fun q hq => diag_allows hK s hq, by simp [CTVal.Equivalence]⟩)
    (fun s1 s2 A B hsub hs pos neg e p n he => ?_)
    (fun a b e e' _ hR ht => ⟨fun q hq => transpose_spec ht _ _ (hR.1 q hq), transpose_noEq ht hR.2⟩)
    (fun a b d1 d2 e _ _ r1 r2 hc => ⟨fun q hq => (combineDiag_spec hc _ _).2 ⟨r1.1 q hq, r2.1 q hq⟩, combine_noEq hc⟩) h
  · exact fun a b e he => (this.1 a b e he).2
  · have hsnd := pair_allows hK hs he
    refine ⟨hsnd, fun hq => ?_⟩
    obtain ⟨g1, g2, -, -⟩ := splitBox_some hs
    have m1 : s1 ∈ surfs := hsub.subset (List.mem_cons_self ..)
    obtain ⟨⟨p0, hp0, e0⟩, p1, hp1, e1⟩ := hB s1 m1 g1 g2
    have b0 := hK.part s1 _ p0 hp0 (hK.inside s1 p0 hp0)
    have b1 := hK.part s1 _ p1 hp1 (hK.inside s1 p1 hp1)
    have hmix : (∃ q, inP K.box q ∧ K.positive q s1 = K.positive q s2) ∧ ∃ q, inP K.box q ∧ K.positive q s1 ≠ K.positive q s2 := by
      by_cases hc : K.Crosses inP s2
      · exact hd s1 m1 s2 (hsub.subset (by simp)) (by simpa using hsub.nodup hnd) ⟨⟨_, b0, e0⟩, _, b1, e1⟩ hc
      · have hcst : K.positive (K.inside p0) s2 = K.positive (K.inside p1) s2 := by
          cases h0 : K.positive (K.inside p0) s2 <;> cases h1 : K.positive (K.inside p1) s2
          · rfl
          · exact absurd ⟨⟨_, b1, h1⟩, _, b0, h0⟩ hc
          · exact absurd ⟨⟨_, b0, h0⟩, _, b1, h1⟩ hc
          · rfl
        cases h0 : K.positive (K.inside p0) s2 with
        | true => exact ⟨⟨_, b0, by rw [e0, h0]⟩, _, b1, by rw [e1, ← hcst, h0]; simp⟩
        | false => exact ⟨⟨_, b1, by rw [e1, ← hcst, h0]⟩, _, b0, by rw [e0, h0]; simp⟩
    obtain ⟨⟨q1, i1, f1⟩, q2, i2, f2⟩ := hmix
    have s1' := hsnd q1 i1
    have s2' := hsnd q2 i2
    rw [← f1] at s1'
    rcases hq with rfl | rfl
    · revert s1'; cases K.positive q1 s1 <;> simp [CTVal.Allows]
    · revert s2' f2; cases K.positive q2 s1 <;> cases K.positive q2 s2 <;> simp [CTVal.Allows]

/-- **C129**: a definition simplified with the table made for its box keeps its region at every point of the box, when no two surfaces that cross the box are
on the same side everywhere in it, or on opposite sides everywhere, and `update` overwrites no sibling by a neutral boolean (C12) -/
theorem C129_simplify_partial (K : CutKernel P Q) (inP : P → Q → Prop) (hK : K.Honest inP) (diag : Bool) (surfs : List Nat) (hnd : surfs.Nodup) (hB : K.BothSides surfs)
    (hd : ∀ a ∈ surfs, ∀ b ∈ surfs, a ≠ b → K.Crosses inP a → K.Crosses inP b →
      (∃ q, inP K.box q ∧ K.positive q a = K.positive q b) ∧ ∃ q, inP K.box q ∧ K.positive q a ≠ K.positive q b)
    (t : CTable) (h : K.build diag surfs = .ok t) (enum : Seq → List Nat) (f depth : Nat) (s s' : Seq) (hw : s.WF)
    (hs : s.simplify true enum (some t.constraintSet) f depth = .ok s') (q : Q) (hq : inP K.box q) : s'.sem (K.positive q) = s.sem (K.positive q) :=
  (C13_simplify_table_partial enum t f depth s s' hw (build_noEq K inP hK diag surfs hnd hB hd t h) hs).2.2 _ ((C129_sound K inP hK diag surfs hnd t h).2 q hq)

/-! ### non-vacuity: the box is the points 0..3 of a line, surface `s` cuts after `s` -/

def lineKernel : CutKernel (List Nat) Nat where
  box := [0, 1, 2, 3]
  hasShape _ := true
  cut s := if s < 3 then [[0, 1, 2, 3].filter (fun q => decide (s < q)), [0, 1, 2, 3].filter (fun q => !decide (s < q))] else [[0, 1, 2, 3]]
  far p s := p.all (fun q => decide (s < q)) || p.all (fun q => !decide (s < q))
  inside p := p.headD 0
  positive q s := decide (s < q)

theorem line_small (s : Nat) (h : s < 3) : s = 0 ∨ s = 1 ∨ s = 2 := by omega

theorem line_cut_small (s : Nat) (p : List Nat) (hp : p ∈ lineKernel.cut s) : (p ≠ [] ∧ ∀ q ∈ p, q ∈ [0, 1, 2, 3]) ∧ ((∀ q ∈ p, s < q) ∨ ∀ q ∈ p, ¬ s < q) := by
  by_cases h : s < 3
  · rcases line_small s h with rfl | rfl | rfl <;> (simp [lineKernel] at hp; rcases hp with rfl | rfl <;> simp)
  · simp only [lineKernel, if_neg h, List.mem_singleton] at hp
    subst hp
    exact ⟨⟨by simp, fun _ h => h⟩, .inr (by intro q hq; simp at hq; omega)⟩

theorem line_honest : lineKernel.Honest (fun p q => q ∈ p) where
  inside_box := by simp [lineKernel]
  inside s p hp := by
    obtain ⟨⟨h, -⟩, -⟩ := line_cut_small s p hp
    cases p with
    | nil => exact absurd rfl h
    | cons a p => simp [lineKernel]
  cover s q hq := by
    by_cases h : s < 3
    · rcases line_small s h with rfl | rfl | rfl <;> (simp [lineKernel] at hq ⊢; omega)
    · exact ⟨_, by simp only [lineKernel, if_neg h, List.mem_singleton], hq⟩
  part s q p hp hq := (line_cut_small s p hp).1.2 q hq
  piece s p hp q q' h h' := by
    rcases (line_cut_small s p hp).2 with g | g
    · simp [lineKernel, g q h, g q' h']
    · simp only [lineKernel, decide_eq_decide]; exact ⟨fun a => absurd a (g q h), fun a => absurd a (g q' h')⟩
  whole s h q q' hq hq' := by
    rcases h with h | h
    · cases h
    · by_cases h3 : s < 3
      · simp only [lineKernel, if_pos h3, List.length_cons, List.length_nil] at h; omega
      · simp only [lineKernel, List.mem_cons, List.not_mem_nil, or_false] at hq hq' ⊢
        rw [decide_eq_decide]; omega
  away s1 s2 p hp h q q' hq hq' := by
    rcases h with h | h
    · cases h
    · simp only [lineKernel, Bool.or_eq_true, List.all_eq_true, decide_eq_true_eq, Bool.not_eq_true', decide_eq_false_iff_not] at h
      rcases h with g | g
      · simp [lineKernel, g q hq, g q' hq']
      · simp only [lineKernel, decide_eq_decide]; exact ⟨fun a => absurd a (g q hq), fun a => absurd a (g q' hq')⟩

theorem line_exact : lineKernel.Exact (fun p q => q ∈ p) := by
  intro s1 s2 p _ _ h
  simp only [lineKernel, Bool.or_eq_false_iff, List.all_eq_false] at h
  obtain ⟨⟨q, hq, h1⟩, q', hq', h2⟩ := h
  exact ⟨⟨q', hq', by simpa [lineKernel] using h2⟩, q, hq, by simpa [lineKernel] using h1⟩

/-- surfaces 0 and 2 cut the box, surface 5 does not -/
theorem line_both : lineKernel.BothSides [0, 2, 5] := by
  intro s hs _ h
  simp only [List.mem_cons, List.not_mem_nil, or_false] at hs
  rcases hs with rfl | rfl | rfl
  · exact ⟨⟨[1, 2, 3], by simp [lineKernel], by decide⟩, [0], by simp [lineKernel], by decide⟩
  · exact ⟨⟨[3], by simp [lineKernel], by decide⟩, [0, 1, 2], by simp [lineKernel], by decide⟩
  · simp [lineKernel] at h

example : ∃ t, lineKernel.build false [0, 2, 5] = .ok t ∧ t.get 0 2 = some (.pair true true true false) ∧ t.get 5 5 = some (.diag (-1)) ∧ t.NoEquivalence ∧
    (∀ q ∈ [0, 1, 2, 3], t.Sound (lineKernel.positive q)) := by
  refine ⟨_, rfl, rfl, rfl, build_noEq lineKernel _ line_honest false [0, 2, 5] (by decide) line_both ?_ _ rfl, (C129_sound lineKernel _ line_honest false [0, 2, 5] (by decide) _ rfl).2⟩
  intro a ha b hb hab h1 h2
  have h5 : ¬ lineKernel.Crosses (fun p q => q ∈ p) 5 := by
    rintro ⟨⟨q, hq, h⟩, -⟩
    simp [lineKernel] at hq h
    omega
  simp only [List.mem_cons, List.not_mem_nil, or_false] at ha hb
  rcases ha with rfl | rfl | rfl <;> rcases hb with rfl | rfl | rfl <;> first
    | exact absurd rfl hab
    | exact absurd h1 h5
    | exact absurd h2 h5
    | exact ⟨⟨0, by decide, by decide⟩, 1, by decide, by decide⟩

end Geouned
