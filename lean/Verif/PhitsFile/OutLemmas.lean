import Verif.PhitsFile.InnerLemmas
/-!
# Lemmas for C109: what each cell gives, surfaces, header
-/
namespace Geouned.PhitsFile

open Geouned.McnpFile hiding SurfSays CellSays UniverseWords MatSays Cell Input Fmt Formats Good GoodCell words
open Geouned.Card (fileText)

/-- the cell is changed only in its comments and its definition -/
structure Same (c c' : Cell) : Prop where
  id : c'.id = c.id
  label : c'.label = c.label
  material : c'.material = c.material
  void : c'.void = c.void
  volume : c'.volume = c.volume
  density : c'.density = c.density
  enclosure : c'.enclosure = c.enclosure
  info : ∀ m, c'.matInfo = some m → '\n' ∉ m ∨ c.matInfo = some m

theorem Same.refl (c : Cell) : Same c c := ⟨rfl, rfl, rfl, rfl, rfl, rfl, rfl, fun _ h => Or.inr h⟩

/-- the material is used by the cell -/
def Uses (i : Input) (uni : Bool) (c : Cell) (m : Int) : Prop :=
  Shown uni c ∧ ((m ≠ 0 ∧ c.material = m) ∨ (c.inner ∧ ∃ d, i.voidMat = some (m, d)))

/-- what is written for a cell is right -/
def OutOk (f : Fmt) (i : Input) (uni : Bool) (c : Cell) (o : Out) : Prop :=
  ∃ ls ws, o.text = fileText ls ∧ (∀ t ∈ ls, NoTitle t) ∧ cards (body ls) = ([], ws)
    ∧ List.Forall₂ (CellSays f i uni) (if Shown uni c then [c] else []) ws ∧ Same c o.cell ∧ ∀ m, m ∈ o.mats ↔ Uses i uni c m

/-- a comment, or a cell that is left out -/
theorem silent_ok {f : Fmt} {i : Input} {uni : Bool} {c : Cell} {ls : List (List Char)} (hs : ∀ t ∈ ls, Silent t) (hn : ¬ Shown uni c) :
    OutOk f i uni c ⟨fileText ls, c, []⟩ := by
  refine ⟨ls, [], rfl, fun t ht => (hs t ht).noTitle, ?_, ?_, Same.refl c, fun m => ?_⟩
  · rw [body_silent hs]; rfl
  · rw [if_neg hn]; exact .nil
  · simp only [List.not_mem_nil, false_iff]
    exact fun h => hn h.1

theorem voidHead_ok {f : Fmt} {i : Input} {uni : Bool} (hg : Good f i uni) {c : Cell} (hl : c.label.natAbs < 10 ^ 8) (hi : c.inner) :
    ∃ mat den, HeadOk c.label mat den (voidHead f i c) ∧ MaterialWords f i c mat den := by
  have ho : ¬ c.outer := by
    intro h
    unfold Cell.inner at hi
    unfold Cell.outer at h
    rw [hi] at h
    exact absurd h (by decide)
  unfold MaterialWords voidHead
  simp only [if_neg ho, if_pos hi]
  cases hv : i.voidMat with
  | none => exact ⟨_, _, plainHead_ok hl 0 (by decide), isNum_int 0, rfl⟩
  | some md =>
    obtain ⟨m, d⟩ := md
    obtain ⟨h1, h2, h3, _⟩ := hg.voidMat m d hv
    obtain ⟨den, h4, h5⟩ := denseHead_ok hg.formats hl m h2 h3
    exact ⟨_, den, h5, isNum_int m, h4⟩

theorem outer_words (f : Fmt) (i : Input) {c : Cell} (h : c.outer) : MaterialWords f i c (Text.strInt (-1)) [] := by
  unfold MaterialWords
  rw [if_pos h]
  exact ⟨isNum_int _, rfl⟩

theorem zero_words (f : Fmt) (i : Input) {c : Cell} (h1 : ¬ c.outer) (h2 : ¬ c.inner) (h3 : c.material = 0) : MaterialWords f i c (Text.strInt 0) [] := by
  unfold MaterialWords
  rw [if_neg h1, if_neg h2, if_pos h3]
  exact ⟨isNum_int _, rfl⟩

theorem matHead_ok {f : Fmt} {i : Input} {uni : Bool} (hg : Good f i uni) {c : Cell} (hc : GoodCell f i uni c) (hr : c.real) (hm : c.material ≠ 0) :
    ∃ h mat den, matHead f i c = .ok h ∧ HeadOk c.label mat den h ∧ MaterialWords f i c mat den := by
  have ho : ¬ c.outer := fun h => hm (hc.grave (Or.inr h)).2
  have hi : ¬ c.inner := fun h => hm (hc.grave (Or.inl h)).2
  obtain ⟨d, hd, hds⟩ := hc.dense hr hm
  unfold MaterialWords matHead
  simp only [if_neg ho, if_neg hi, if_neg hm]
  by_cases h : i.matFile = [] ∧ c.enclosure ≠ some 0
  · simp only [if_pos h]
    exact ⟨_, _, _, rfl, constHead_ok hc.label _ hc.material, isNum_int _, _, isNum_int _, rfl⟩
  · simp only [if_neg h, hd]
    obtain ⟨den, h4, h5⟩ := denseHead_ok hg.formats hc.label c.material hc.material hds
    exact ⟨_, _, den, rfl, h5, isNum_int _, d, rfl, h4⟩

/-- an ordinary card -/
theorem put_ok {f : Fmt} {i : Input} {uni : Bool} (hf : Formats f) {c c' : Cell} (hdef : GoodDef c.definition) (hs : Shown uni c) (hin : ¬ (uni = true ∧ c.inner))
    (hd' : c'.definition = c.definition) (hl' : c'.label = c.label) (hsame : Same c c') {mat : List Char} {den : List (List Char)} {h : List Char}
    (hh : HeadOk c.label mat den h) (hmw : MaterialWords f i c mat den) {mats : List Int} (hm : ∀ m, m ∈ mats ↔ Uses i uni c m) (r : Nat) (hr : 30 ≤ r) :
    ∃ K, ∀ k, K ≤ k → ∃ o, putCell f i r k h c' mats = .ok o ∧ OutOk f i uni c o := by
  rw [← hl'] at hh
  rw [← hd'] at hdef
  obtain ⟨K, hK⟩ := putCell_ok hf i hdef hh r hr mats
  refine ⟨K, fun k hk => ?_⟩
  obtain ⟨t, ls, reg, u, h1, h2, h3, h4, h5, h6⟩ := hK k hk
  refine ⟨_, h1, ls, _, h2, h3, h6, ?_, hsame, hm⟩
  rw [if_pos hs]
  refine .cons ⟨_, mat, den, reg, u, rfl, ?_, hmw, ?_, h5⟩ .nil
  · rw [hl']; exact isNum_int _
  · rw [if_neg hin]
    unfold RegionWords at h4 ⊢
    rw [← hd']
    exact h4

theorem uses_outer {i : Input} {uni : Bool} {c : Cell} (ho : ¬ c.inner) (hm : c.material = 0) : ∀ m, m ∈ ([] : List Int) ↔ Uses i uni c m := by
  intro m
  simp only [List.not_mem_nil, false_iff]
  rintro ⟨_, ⟨h1, h2⟩ | ⟨h1, _⟩⟩
  · exact h1 (h2.symm.trans hm)
  · exact ho h1

theorem uses_inner {i : Input} {uni : Bool} {c : Cell} (hi : c.inner) (hm : c.material = 0) (hs : Shown uni c) : ∀ m, m ∈ voidAdds i ↔ Uses i uni c m := by
  intro m
  unfold voidAdds Uses
  cases hv : i.voidMat with
  | none =>
    simp only [List.not_mem_nil, false_iff]
    rintro ⟨_, ⟨h1, h2⟩ | ⟨_, d, h⟩⟩
    · exact h1 (h2.symm.trans hm)
    · cases h
  | some md =>
    obtain ⟨a, d⟩ := md
    simp only [List.mem_singleton, Option.some.injEq, Prod.mk.injEq]
    constructor
    · rintro rfl
      exact ⟨hs, Or.inr ⟨hi, d, rfl, rfl⟩⟩
    · rintro ⟨_, ⟨h1, h2⟩ | ⟨_, d, h, _⟩⟩
      · exact absurd (h2.symm.trans hm) h1
      · exact h.symm

theorem uses_mat {i : Input} {uni : Bool} {c : Cell} (hi : ¬ c.inner) (hm : c.material ≠ 0) (hs : Shown uni c) : ∀ m, m ∈ [c.material] ↔ Uses i uni c m := by
  intro m
  unfold Uses
  simp only [List.mem_singleton]
  constructor
  · rintro rfl; exact ⟨hs, Or.inl ⟨hm, rfl⟩⟩
  · rintro ⟨_, ⟨_, h⟩ | ⟨h, _⟩⟩
    · exact h.symm
    · exact absurd h hi

theorem same_info (c : Cell) {t : List Char} (ht : '\n' ∉ t) : Same c { c with matInfo := some t } :=
  ⟨rfl, rfl, rfl, rfl, rfl, rfl, rfl, fun m hm => by
    left
    have : t = m := by simpa using hm
    rw [← this]; exact ht⟩

theorem writeCell_real {f : Fmt} {i : Input} {r k : Nat} {c : Cell} (h : c.real) : writeCell f i r k c =
    if c.material = 0 then
      if c.matInfo = some (T "Graveyard") then putCell f i r k (plainHead c.label (-1)) { c with matInfo := some (T "Outer void") } []
      else if c.matInfo = some (T "Graveyard_in") then putCell f i r k (voidHead f i c) { c with matInfo := some (T "Inner void") } (voidAdds i)
      else putCell f i r k (plainHead c.label 0) c []
    else
      match matHead f i c with
      | .error e => .error e
      | .ok h => putCell f i r k h c [c.material] := by
  unfold writeCell
  split
  · next h' => exact absurd h' h
  · rfl

theorem writeCellUni_real {f : Fmt} {i : Input} {r k : Nat} {c : Cell} (h : c.real) : writeCellUni f i r k c =
    if c.void then
      if c.matInfo = some (T "Graveyard_in") then innerVoid f i r k c
      else if c.matInfo = some (T "Graveyard") then putCell f i r k (plainHead c.label (-1)) { c with matInfo := some (T "Outer void") } []
      else .ok ⟨[], c, []⟩
    else
      match matHead f i c with
      | .error e => .error e
      | .ok h => putCell f i r k h c [c.material] := by
  unfold writeCellUni
  split
  · next h' => exact absurd h' h
  · rfl

theorem comment_ok {f : Fmt} {i : Input} {uni : Bool} {c : Cell} (h : ¬ c.real) : OutOk f i uni c ⟨commentLine c.comments, c, []⟩ := by
  obtain ⟨ls, h1, h2⟩ := commentLine_silent c.comments
  rw [h1]
  exact silent_ok h2 (fun h' => h h'.1)

/-- void cells written as they are -/
theorem writeCell_ok {f : Fmt} {i : Input} (hg : Good f i false) {c : Cell} (hmem : c ∈ i.cells) (r : Nat) (hr : 30 ≤ r) :
    ∃ K, ∀ k, K ≤ k → ∃ o, writeCell f i r k c = .ok o ∧ OutOk f i false c o := by
  have hc := hg.cells c hmem
  by_cases hreal : c.real
  swap
  · refine ⟨0, fun k _ => ⟨⟨commentLine c.comments, c, []⟩, ?_, comment_ok hreal⟩⟩
    have : c.id = none := by by_contra h; exact hreal h
    unfold writeCell
    rw [this]
  · simp only [writeCell_real hreal]
    have hs : Shown false c := ⟨hreal, fun h => absurd h (by decide)⟩
    have hdef : GoodDef c.definition := by simpa using hc.definition hs
    have hin : ¬ (false = true ∧ c.inner) := fun h => absurd h.1 (by decide)
    by_cases hm : c.material = 0
    · simp only [if_pos hm]
      by_cases ho : c.matInfo = some (T "Graveyard")
      · simp only [if_pos ho]
        have ho' : c.outer := ho
        have hni : ¬ c.inner := by unfold Cell.inner; rw [ho]; decide
        exact put_ok hg.formats hdef hs hin (c' := { c with matInfo := some (T "Outer void") }) rfl rfl (same_info c (by decide)) (plainHead_ok hc.label (-1) (by decide)) (outer_words f i ho') (uses_outer hni hm) r hr
      · simp only [if_neg ho]
        have ho' : ¬ c.outer := ho
        by_cases hi : c.matInfo = some (T "Graveyard_in")
        · simp only [if_pos hi]
          have hi' : c.inner := hi
          obtain ⟨mat, den, h1, h2⟩ := voidHead_ok hg hc.label hi'
          exact put_ok hg.formats hdef hs hin (c' := { c with matInfo := some (T "Inner void") }) rfl rfl (same_info c (by decide)) h1 h2 (uses_inner hi' hm hs) r hr
        · simp only [if_neg hi]
          exact put_ok hg.formats hdef hs hin rfl rfl (Same.refl c) (plainHead_ok hc.label 0 (by decide)) (zero_words f i ho' hi hm) (uses_outer hi hm) r hr
    · simp only [if_neg hm]
      obtain ⟨h, mat, den, h1, h2, h3⟩ := matHead_ok hg hc hreal hm
      simp only [h1]
      exact put_ok hg.formats hdef hs hin rfl rfl (Same.refl c) h2 h3 (uses_mat (fun h => hm (hc.grave (Or.inl h)).2) hm hs) r hr

/-- void cells unified -/
theorem writeCellUni_ok {f : Fmt} {i : Input} (hg : Good f i true) {c : Cell} (hmem : c ∈ i.cells) (r : Nat) (hr : 30 ≤ r) :
    ∃ K, ∀ k, K ≤ k → ∃ o, writeCellUni f i r k c = .ok o ∧ OutOk f i true c o := by
  have hc := hg.cells c hmem
  by_cases hreal : c.real
  swap
  · refine ⟨0, fun k _ => ⟨⟨commentLine c.comments, c, []⟩, ?_, comment_ok hreal⟩⟩
    have : c.id = none := by by_contra h; exact hreal h
    unfold writeCellUni
    rw [this]
  · simp only [writeCellUni_real hreal]
    by_cases hv : c.void = true
    · simp only [if_pos hv]
      by_cases hi : c.matInfo = some (T "Graveyard_in")
      · simp only [if_pos hi]
        have hi' : c.inner := hi
        have hs : Shown true c := ⟨hreal, fun _ => Or.inr (Or.inl hi')⟩
        have hm := (hc.grave (Or.inl hi')).2
        have hd := hc.definition hs
        rw [if_pos ⟨rfl, hi'⟩] at hd
        obtain ⟨op, l, n, es, hd, hn0, hn⟩ := hd
        obtain ⟨mat, den, h1, h2⟩ := voidHead_ok hg hc.label hi'
        obtain ⟨K, hK⟩ := innerVoid_ok hg hd hn h1 r hr
        refine ⟨K, fun k hk => ?_⟩
        obtain ⟨t, ls, reg, u, g1, g2, g3, g4, g5, g6⟩ := hK k hk
        refine ⟨_, g1, ls, _, g2, g3, g6, ?_, ?_, uses_inner hi' hm hs⟩
        · rw [if_pos hs]
          refine .cons ⟨_, mat, den, reg, u, rfl, isNum_int _, h2, ?_, g5⟩ .nil
          rw [if_pos ⟨rfl, hi'⟩]
          exact g4
        · refine ⟨rfl, rfl, rfl, rfl, rfl, rfl, rfl, fun m hm => ?_⟩
          left
          have : T "Inner void" = m := by simpa using hm
          rw [← this]
          decide
      · simp only [if_neg hi]
        have hni : ¬ c.inner := hi
        by_cases ho : c.matInfo = some (T "Graveyard")
        · simp only [if_pos ho]
          have ho' : c.outer := ho
          have hs : Shown true c := ⟨hreal, fun _ => Or.inr (Or.inr ho')⟩
          have hm := (hc.grave (Or.inr ho')).2
          have hdef : GoodDef c.definition := by
            have := hc.definition hs
            rwa [if_neg (fun h => hni h.2)] at this
          exact put_ok hg.formats hdef hs (fun h => hni h.2) (c' := { c with matInfo := some (T "Outer void") }) rfl rfl (same_info c (by decide)) (plainHead_ok hc.label (-1) (by decide)) (outer_words f i ho')
            (uses_outer hni hm) r hr
        · simp only [if_neg ho]
          refine ⟨0, fun k _ => ⟨_, rfl, ?_⟩⟩
          refine silent_ok (ls := []) (fun t h => by cases h) ?_
          rintro ⟨_, h⟩
          rcases h rfl with h | h | h
          · rw [hv] at h; cases h
          · exact hi h
          · exact ho h
    · replace hv : c.void = false := by simpa using hv
      have hni : ¬ c.inner := fun h => by
        have := (hc.grave (Or.inl h)).1
        rw [hv] at this; cases this
      simp only [hv, Bool.false_eq_true, if_false]
      have hs : Shown true c := ⟨hreal, fun _ => Or.inl hv⟩
      have hm := hc.solid rfl hreal hv
      have hdef : GoodDef c.definition := by
        have := hc.definition hs
        rwa [if_neg (fun h => hni h.2)] at this
      obtain ⟨h, mat, den, h1, h2, h3⟩ := matHead_ok hg hc hreal hm
      simp only [h1]
      exact put_ok hg.formats hdef hs (fun h => hni h.2) rfl rfl (Same.refl c) h2 h3 (uses_mat hni hm hs) r hr

/-- all cells -/
theorem writeCells_ok {f : Fmt} {i : Input} {uni : Bool} (hg : Good f i uni) (r : Nat) (hr : 30 ≤ r) :
    ∀ cs : List Cell, (∀ c ∈ cs, c ∈ i.cells) → ∃ K, ∀ k, K ≤ k → ∃ os, writeCells f i r k uni cs = .ok os ∧ List.Forall₂ (OutOk f i uni) cs os
  | [], _ => ⟨0, fun _ _ => ⟨[], rfl, .nil⟩⟩
  | c :: cs, h => by
    obtain ⟨K1, h1⟩ := writeCells_ok hg r hr cs (fun d hd => h d (List.mem_cons_of_mem _ hd))
    have hmem := h c (by simp)
    obtain ⟨K2, h2⟩ : ∃ K, ∀ k, K ≤ k → ∃ o, (if uni then writeCellUni f i r k c else writeCell f i r k c) = .ok o ∧ OutOk f i uni c o := by
      cases uni with
      | true => exact writeCellUni_ok hg hmem r hr
      | false => exact writeCell_ok hg hmem r hr
    refine ⟨max K1 K2, fun k hk => ?_⟩
    obtain ⟨os, g1, g2⟩ := h1 k (le_trans (le_max_left _ _) hk)
    obtain ⟨o, g3, g4⟩ := h2 k (le_trans (le_max_right _ _) hk)
    refine ⟨o :: os, ?_, .cons g4 g2⟩
    unfold writeCells
    rw [g3]
    dsimp only
    rw [g1]

/-- the text of all cells -/
theorem cells_text {f : Fmt} {i : Input} {uni : Bool} : ∀ {cs : List Cell} {os : List Out}, List.Forall₂ (OutOk f i uni) cs os →
    ∃ ls ws, os.flatMap (·.text) = fileText ls ∧ (∀ t ∈ ls, NoTitle t) ∧ cards (body ls) = ([], ws)
      ∧ List.Forall₂ (CellSays f i uni) (cs.filter (fun c => Shown uni c)) ws
  | _, _, .nil => ⟨[], [], rfl, fun t h => (by cases h), rfl, .nil⟩
  | _, _, .cons (a := c) (b := o) h hs => by
    obtain ⟨l1, w1, h1, h2, h3, h4, -, -⟩ := h
    obtain ⟨l2, w2, g1, g2, g3, g4⟩ := cells_text hs
    refine ⟨l1 ++ l2, w1 ++ w2, ?_, ?_, ?_, ?_⟩
    · rw [List.flatMap_cons, h1, g1, fileText_append]
    · exact fun t ht => (List.mem_append.mp ht).elim (h2 t) (g2 t)
    · rw [body_append, cards_append _ _ (by rw [g3]), h3, g3]
    · rw [List.filter_cons]
      by_cases hs : Shown uni c
      · rw [if_pos hs] at h4
        rw [if_pos (by simpa using hs)]
        exact List.rel_append h4 g4
      · rw [if_neg hs] at h4
        rw [if_neg (by simpa using hs)]
        cases h4
        exact g4

/-! ## surfaces -/

theorem surfaces_text : ∀ ss : List Surf, (∀ s ∈ ss, GoodSurf s) →
    ∃ ls ws, writeSurfaces ss = .ok (fileText ls) ∧ (∀ t ∈ ls, NoTitle t) ∧ cards (body ls) = ([], ws)
      ∧ List.Forall₂ SurfSays (ss.filter (fun s => s.card ≠ none)) ws
  | [], _ => ⟨[], [], rfl, fun t h => (by cases h), rfl, .nil⟩
  | s :: ss, h => by
    obtain ⟨l2, w2, g1, g2, g3, g4⟩ := surfaces_text ss (fun d hd => h d (List.mem_cons_of_mem _ hd))
    have hs := h s (by simp)
    cases hc : s.card with
    | none =>
      refine ⟨l2, w2, ?_, g2, g3, ?_⟩
      · unfold writeSurfaces writeSurface
        rw [hc]
        dsimp only
        rw [g1]
        rfl
      · rw [List.filter_cons_of_neg (by simp [hc])]
        exact g4
    | some nv =>
      obtain ⟨name, v⟩ := nv
      obtain ⟨first, rest, k1, k2, k3, k4, k5⟩ := surf_card hs hc
      have hb : body (first :: rest) = first :: rest := body_tidy fun t ht => ⟨k5 t ht, by
        rcases List.mem_cons.mp ht with rfl | ht
        · exact first_inked k2
        · exact cont_inked (k3 t ht)⟩
      refine ⟨(first :: rest) ++ l2, [(first :: rest).flatMap Wrap.wordsOf] ++ w2, ?_, ?_, ?_, ?_⟩
      · unfold writeSurfaces
        rw [k1]
        dsimp only
        rw [g1]
        dsimp only
        rw [fileText_append]
      · exact fun t ht => (List.mem_append.mp ht).elim (fun h => tidy_noTitle (k5 t h)) (g2 t)
      · rw [body_append, cards_append _ _ (by rw [g3]), g3, hb, cards_card (first_five k2) (fun t ht => cont_five (k3 t ht))]
      · rw [List.filter_cons_of_pos (by simp [hc])]
        refine .cons ?_ g4
        obtain ⟨n, name', v', q1, q2, q3⟩ := k4
        refine ⟨n, name', v', q1, q2, ?_⟩
        rw [← q3, words_tidy first rest k5]

end Geouned.PhitsFile
