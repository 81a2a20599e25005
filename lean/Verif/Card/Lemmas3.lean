import Verif.Card.Lemmas2
/-!
# Lemmas for C79: whole files
-/
namespace Geouned.Card

/-- `CID`: parser.py 59-68 -/
def kindOf (ct : Int) : Option Kind := if ct = 3 then some .cell else if ct = 4 then some .surface else if ct = 5 then some .data else none

/-- what the list of `Card` objects says: type and texts (`input`), blank ones left out, of the cell, surface and data cards -/
def view (cs : List PyCard) : List (Kind × List (List Char)) :=
  cs.filterMap (fun c => (kindOf c.ctype).map (fun k => (k, c.input.filter (fun t => t.any (fun x => x ≠ ' ')))))

/-- value of `get_input` -/
def inp (r : Raw) : List (List Char) :=
  match getInput r.1 r.2 with
  | .ok i => i
  | .error _ => []

theorem makeCards_ok (rs : List Raw) (h : ∀ r ∈ rs, ∃ i, getInput r.1 r.2 = .ok i) :
    ∃ cs, makeCards rs = .ok cs ∧ view cs = (info rs).filterMap (fun r => (kindOf r.2).map (fun k => (k, texts (inp r))))
      ∧ ∀ c ∈ cs, (c.lines, c.ctype) ∈ rs ∧ getInput c.lines c.ctype = .ok c.input := by
  induction rs with
  | nil => exact ⟨[], rfl, rfl, fun c hc => (by cases hc)⟩
  | cons r rs ih =>
    obtain ⟨i, hi⟩ := h r List.mem_cons_self
    obtain ⟨cs, h1, h2, h3⟩ := ih (fun x hx => h x (List.mem_cons_of_mem _ hx))
    refine ⟨⟨r.1, r.2, i⟩ :: cs, ?_, ?_, fun c hc => ?_⟩
    · simp only [makeCards, hi, h1]
      rfl
    · have hin : inp r = i := by simp only [inp, hi]
      unfold view at h2 ⊢
      rw [List.filterMap_cons]
      by_cases hk : r.2 = 3 ∨ r.2 = 4 ∨ r.2 = 5
      · rw [info, List.filter_cons_of_pos (by simpa using hk), List.filterMap_cons, hin]
        have h2' := h2
        unfold info at h2'
        rw [h2']
        rfl
      · have hn : kindOf r.2 = none := by
          unfold kindOf
          rw [if_neg (fun h => hk (Or.inl h)), if_neg (fun h => hk (Or.inr (Or.inl h))), if_neg (fun h => hk (Or.inr (Or.inr h)))]
        rw [info, List.filter_cons_of_neg (by simpa using hk)]
        simp only [hn, Option.map_none]
        exact h2
    · rcases List.mem_cons.mp hc with rfl | hc
      · exact ⟨List.mem_cons_self, hi⟩
      · exact ⟨List.mem_cons_of_mem _ (h3 c hc).1, (h3 c hc).2⟩

theorem getInput_harmless {r : Raw} (h : Harmless r) : ∃ i, getInput r.1 r.2 = .ok i := by
  refine ⟨[], ?_⟩
  unfold getInput
  exact if_pos h

theorem getInput_filled (lines : List (List Char)) (n : Int) {c : Char} (hc : c ∈ lines.flatten) (hw : white c = false) :
    ∃ i, getInput lines n = .ok i := by
  unfold getInput
  split
  · exact ⟨_, rfl⟩
  · split
    · rename_i h
      rw [firstWord_none h c hc] at hw
      exact absurd hw (by decide)
    · split <;> exact ⟨_, rfl⟩

theorem forall2_append {α β : Type} {R : α → β → Prop} {l : List α} {u v : List β} (h : List.Forall₂ R l (u ++ v)) :
    ∃ a b, l = a ++ b ∧ List.Forall₂ R a u ∧ List.Forall₂ R b v := by
  induction u generalizing l with
  | nil => exact ⟨[], l, rfl, .nil, h⟩
  | cons x u ih =>
    cases h with
    | cons h1 h2 =>
      obtain ⟨a, b, e, ha, hb⟩ := ih h2
      exact ⟨_ :: a, b, by rw [e]; rfl, .cons h1 ha, hb⟩

theorem expand_all {a u : List (List Char)} (h : List.Forall₂ (Expand 0) a u) : (a.map nl).map (replaceTab 0) = u.map nl := by
  induction h with
  | nil => rfl
  | cons h1 _ ih =>
    rw [List.map_cons, List.map_cons, ih, replaceTab_expand h1]
    rfl

theorem noNl_all {a u : List (List Char)} (h : List.Forall₂ (Expand 0) a u) (hu : ∀ t ∈ u, Plain t) : ∀ t ∈ a, '\n' ∉ t := by
  induction h with
  | nil => intro t ht; exact absurd ht List.not_mem_nil
  | cons h1 _ ih =>
    intro t ht
    rcases List.mem_cons.mp ht with rfl | ht
    · exact expand_noNl h1 (hu _ List.mem_cons_self).noNl
    · exact ih (fun x hx => hu x (List.mem_cons_of_mem _ hx)) t ht

/-- three blocks the program recognises -/
theorem loopT_deck (d : Deck) (h1 : Block1 d.cells) (h2 : Block1 d.surfaces) (h3 : Block1 d.data) (b1 : Empty d.blank1) (b2 : Empty d.blank2)
    (tail : List (List Char)) (ht : tail = [] ∨ ∃ t ls, Empty t ∧ tail = nl t :: ls) :
    info (loopT 3 false [] [] (d.cells.lines.map nl ++ nl d.blank1 :: (d.surfaces.lines.map nl ++ nl d.blank2 :: (d.data.lines.map nl ++ tail))))
      = d.cells.cards.map (fun m => (m.2.lines.map nl, (3 : Int))) ++ (d.surfaces.cards.map (fun m => (m.2.lines.map nl, (4 : Int)))
        ++ d.data.cards.map (fun m => (m.2.lines.map nl, (5 : Int))))
    ∧ ∀ r ∈ loopT 3 false [] [] (d.cells.lines.map nl ++ nl d.blank1 :: (d.surfaces.lines.map nl ++ nl d.blank2 :: (d.data.lines.map nl ++ tail))),
        Harmless r ∨ ∃ c n, Card1 c ∧ (n = 3 ∨ n = 4 ∨ n = 5) ∧ r = (c.lines.map nl, n) := by
  have e1 := loopT_blank d.cells 3 (Or.inl rfl) h1 d.blank1 b1 (d.surfaces.lines.map nl ++ nl d.blank2 :: (d.data.lines.map nl ++ tail))
  have e2 := loopT_blank d.surfaces 4 (Or.inr (Or.inl rfl)) h2 d.blank2 b2 (d.data.lines.map nl ++ tail)
  have e3 : info (loopT 5 false [] [] (d.data.lines.map nl ++ tail)) = d.data.cards.map (fun m => (m.2.lines.map nl, (5 : Int)))
      ∧ ∀ r ∈ loopT 5 false [] [] (d.data.lines.map nl ++ tail), Harmless r ∨ r ∈ d.data.cards.map (fun m => (m.2.lines.map nl, (5 : Int))) := by
    rcases ht with rfl | ⟨t, ls, ht, rfl⟩
    · rw [List.append_nil]
      exact loopT_end d.data 5 (Or.inr (Or.inr rfl)) h3
    · have := loopT_blank d.data 5 (Or.inr (Or.inr rfl)) h3 t ht ls
      rw [if_pos rfl] at this
      refine ⟨by rw [this.1]; simp [info], ?_⟩
      intro r hr
      rcases this.2 r hr with h | h | h
      · exact Or.inl h
      · exact Or.inr h
      · exact absurd h List.not_mem_nil
  rw [if_neg (by decide)] at e1 e2
  constructor
  · rw [e1.1, e2.1, e3.1]
    rfl
  · intro r hr
    have hb : ∀ (b : Block) (n : Int), Block1 b → (n = 3 ∨ n = 4 ∨ n = 5) → r ∈ b.cards.map (fun m => (m.2.lines.map nl, n)) →
        ∃ c n, Card1 c ∧ (n = 3 ∨ n = 4 ∨ n = 5) ∧ r = (c.lines.map nl, n) := by
      intro b n hb hn hm
      obtain ⟨m, hm', rfl⟩ := List.mem_map.mp hm
      exact ⟨m.2, n, (hb.cards m hm').2, hn, rfl⟩
    rcases e1.2 r hr with h | h | h
    · exact Or.inl h
    · exact Or.inr (hb _ 3 h1 (Or.inl rfl) h)
    rcases e2.2 r h with h | h | h
    · exact Or.inl h
    · exact Or.inr (hb _ 4 h2 (Or.inr (Or.inl rfl)) h)
    rcases e3.2 r h with h | h
    · exact Or.inl h
    · exact Or.inr (hb _ 5 h3 (Or.inr (Or.inr rfl)) h)

theorem view_block {b : Block} (hb : Block1 b) (n : Int) (k : Kind) (hk : kindOf n = some k) (hn : n ≠ -1) (hn' : n ≠ -2) :
    (b.cards.map (fun m => (m.2.lines.map nl, n))).filterMap (fun r => (kindOf r.2).map (fun k => (k, texts (inp r))))
      = b.cards.map (fun m => (k, m.2.says)) := by
  have : ∀ l : List (List (List Char) × CardText), (∀ m ∈ l, Card1 m.2) →
      (l.map (fun m => (m.2.lines.map nl, n))).filterMap (fun r => (kindOf r.2).map (fun k => (k, texts (inp r)))) = l.map (fun m => (k, m.2.says)) := by
    intro l
    induction l with
    | nil => intro _; rfl
    | cons m l ih =>
      intro h
      obtain ⟨i, h1, h2⟩ := getInput_card (h m List.mem_cons_self) n hn hn'
      have hin : inp (m.2.lines.map nl, n) = i := by simp only [inp, h1]
      rw [List.map_cons, List.filterMap_cons]
      simp only [hk, Option.map_some, hin, h2, List.map_cons]
      rw [← ih (fun x hx => h x (List.mem_cons_of_mem _ hx))]
  exact this b.cards (fun m hm => (hb.cards m hm).2)

theorem lower_take {u w : List Char} {n : Nat} (h : lower ((nl u).take n) = w) (hw : '\n' ∉ w) : n ≤ u.length ∧ lower (u.take n) = w := by
  by_cases hn : n ≤ u.length
  · refine ⟨hn, ?_⟩
    rw [nl, List.take_append_of_le_length hn] at h
    exact h
  · exfalso
    apply hw
    rw [← h, nl, List.take_of_length_le (by simp; omega), lower, List.map_append]
    exact List.mem_append_right _ (by decide)

theorem startsWith_of_kw {t w : List Char} {n : Nat} (hp : Plain t) (h : lower ((lstrip (nl t)).take n) = w) (hw : '\n' ∉ w) (h0 : w ≠ []) : StartsWith w t := by
  obtain ⟨k, hk | ⟨c, r, hc, hk⟩⟩ := plain_split hp
  · exfalso
    rw [hk, nl, white_replicate] at h
    exact h0 (h.symm.trans (by simp [lstrip, white_nl, lower]))
  · rw [hk, nl, List.append_assoc, white_replicate, List.cons_append, lstrip_cons hc, ← List.cons_append] at h
    obtain ⟨_, h2⟩ := lower_take (u := c :: r) h hw
    refine ⟨k, (c :: r).drop n, (c :: r).take n, ?_, h2⟩
    rw [List.append_assoc, List.take_append_drop, hk]

theorem kw_of_startsWith {t w : List Char} (hp : Plain t) (h : StartsWith w t) {x : Char} {ws : List Char} (hw : w = x :: ws) (hx : x ≠ ' ') :
    lower ((lstrip (nl t)).take w.length) = w := by
  obtain ⟨k, rest, v, ht, hv⟩ := h
  cases v with
  | nil => rw [hw] at hv; exact absurd hv (by simp)
  | cons y v =>
    have hy : white y = false := by
      rcases Bool.eq_false_or_eq_true (white y) with hy | hy
      · exfalso
        have := hp y (by rw [ht]; simp) hy
        subst this
        rw [hw, List.map_cons] at hv
        exact hx (List.cons.inj hv).1.symm
      · exact hy
    rw [nl, ht, List.append_assoc, List.append_assoc, white_replicate, List.cons_append, lstrip_cons hy]
    have hl : w.length = (y :: v).length := by rw [← hv]; simp
    rw [hl, ← List.cons_append, List.take_left]
    exact hv

theorem messageBlock_spec (ls : List (List Char)) : ∀ (x : List (List Char)) (ms : List (List Char)) (y b : List Char),
    x.map (replaceTab 0) = ms.map nl → (∀ t ∈ ms, Plain t ∧ ¬ Empty t) → replaceTab 0 y = nl b → Empty b →
    messageBlock (x ++ y :: ls) = some (ms.map nl, nl b, ls) := by
  intro x
  induction x with
  | nil =>
    intro ms y b hx hm hy hb
    cases ms with
    | nil =>
      rw [List.nil_append, messageBlock]
      simp only [hy, if_pos ((isBlankline_nl hb.plain).mpr hb), List.map_nil]
    | cons m ms => exact absurd hx (by simp)
  | cons l x ih =>
    intro ms y b hx hm hy hb
    cases ms with
    | nil => exact absurd hx (by simp)
    | cons m ms =>
      rw [List.map_cons, List.map_cons] at hx
      obtain ⟨h1, h2⟩ := List.cons.inj hx
      have hm1 := hm m List.mem_cons_self
      rw [List.cons_append, messageBlock]
      simp only [h1, if_neg (fun h => hm1.2 ((isBlankline_nl hm1.1).mp h)), ih ms y b h2 (fun t ht => hm t (List.mem_cons_of_mem _ ht)) hy hb,
        Option.map_some, List.map_cons]

theorem plain_filled {t : List Char} (hp : Plain t) (h : ¬ Empty t) : ∃ c ∈ t, white c = false := by
  by_contra hn
  apply h
  intro c hc
  apply hp c hc
  rcases Bool.eq_false_or_eq_true (white c) with hw | hw
  · exact hw
  · exact absurd ⟨c, hc, hw⟩ hn

/-! ## no line is lost -/

theorem flush_flat (card : List (List Char)) (n : Int) : (flush card n).flatMap (·.1) = card := by
  unfold flush
  split
  · rename_i h; rw [h]; rfl
  · simp

theorem loopT_flat (ls : List (List Char)) : ∀ n cf card cmnt, ∃ rest, card ++ cmnt ++ ls = (loopT n cf card cmnt ls).flatMap (·.1) ++ rest
    ∧ (rest ≠ [] → ∃ r, (loopT n cf card cmnt ls).getLast? = some r ∧ r.2 = cidBlank) := by
  induction ls with
  | nil =>
    intro n cf card cmnt
    refine ⟨[], ?_, fun h => absurd rfl h⟩
    rw [loopT, List.flatMap_append, flush_flat, flush_flat]
  | cons l ls ih =>
    intro n cf card cmnt
    rw [loopT]
    split
    · split
      · refine ⟨ls, ?_, fun _ => ⟨([l], cidBlank), by simp, rfl⟩⟩
        simp [List.flatMap_append, flush_flat]
      · obtain ⟨rest, h1, h2⟩ := ih (n + 1) cf [] []
        refine ⟨rest, ?_, fun h => ?_⟩
        · simp only [List.flatMap_append, flush_flat]
          rw [List.append_assoc _ _ rest, ← h1]
          simp
        · obtain ⟨r, hr, hb⟩ := h2 h
          refine ⟨r, ?_, hb⟩
          rw [List.getLast?_append, hr]
          rfl
    · split
      · obtain ⟨rest, h1, h2⟩ := ih n (ampFlag l) (card ++ cmnt ++ [l]) []
        refine ⟨rest, ?_, h2⟩
        rw [← h1]
        simp
      · split
        · obtain ⟨rest, h1, h2⟩ := ih n cf card (cmnt ++ [l])
          refine ⟨rest, ?_, h2⟩
          rw [← h1]
          simp
        · obtain ⟨rest, h1, h2⟩ := ih n (!isFcCard l && ampFlag l) [l] []
          refine ⟨rest, ?_, fun h => ?_⟩
          · simp only [List.flatMap_append, flush_flat]
            rw [List.append_assoc _ _ rest, ← h1]
            simp
          · obtain ⟨r, hr, hb⟩ := h2 h
            refine ⟨r, ?_, hb⟩
            rw [List.getLast?_append, hr]
            rfl

theorem makeCards_lines (rs : List Raw) : ∀ cs, makeCards rs = .ok cs → cs.map (fun c => (c.lines, c.ctype)) = rs := by
  induction rs with
  | nil =>
    intro cs h
    simp only [makeCards, Except.ok.injEq] at h
    rw [← h]
    rfl
  | cons r rs ih =>
    intro cs h
    simp only [makeCards] at h
    cases h1 : getInput r.1 r.2 with
    | error e => rw [h1] at h; cases h
    | ok i =>
      cases h2 : makeCards rs with
      | error e => rw [h1, h2] at h; cases h
      | ok cs' =>
        rw [h1, h2] at h
        have h' : Except.ok (⟨r.1, r.2, i⟩ :: cs') = (Except.ok cs : Except Err (List PyCard)) := h
        have h'' := (Except.ok.inj h').symm
        rw [h'', List.map_cons, ih cs' h2]

theorem messageBlock_flat : ∀ (x a : List (List Char)) (b : List Char) (ls : List (List Char)), messageBlock x = some (a, b, ls) →
    x.map (replaceTab 0) = a ++ b :: ls.map (replaceTab 0) := by
  intro x
  induction x with
  | nil => intro a b ls h; simp [messageBlock] at h
  | cons l x ih =>
    intro a b ls h
    rw [messageBlock] at h
    split at h
    · simp only [Option.some.injEq, Prod.mk.injEq] at h
      obtain ⟨rfl, rfl, rfl⟩ := h
      rfl
    · cases hm : messageBlock x with
      | none => rw [hm] at h; simp at h
      | some r =>
        rw [hm] at h
        simp only [Option.map_some, Option.some.injEq, Prod.mk.injEq] at h
        obtain ⟨rfl, rfl, rfl⟩ := h
        rw [List.map_cons, ih r.1 r.2.1 r.2.2 hm]
        rfl

theorem rawCards_flat (s : List Char) (rs : List Raw) (h : rawCards s = (rs, none))
    (hc : ∀ l ls, pyLines s = l :: ls → lower ((lstrip (replaceTab 0 l)).take 8) ≠ "continue".toList) :
    ∃ rest, (pyLines s).map (replaceTab 0) = rs.flatMap (·.1) ++ rest ∧ (rest ≠ [] → ∃ r, rs.getLast? = some r ∧ r.2 = cidBlank) := by
  unfold rawCards at h
  cases hp : pyLines s with
  | nil => rw [hp] at h; cases h
  | cons l ls =>
    rw [hp] at h
    dsimp only at h
    split at h
    · cases hm : messageBlock (l :: ls) with
      | none => rw [hm] at h; cases h
      | some r =>
        obtain ⟨a, b, x⟩ := r
        have hf := messageBlock_flat _ _ _ _ hm
        rw [hm] at h
        cases x with
        | nil => cases h
        | cons t x =>
          have h' := (Prod.mk.inj h).1
          obtain ⟨rest, h1, h2⟩ := loopT_flat (x.map (replaceTab 0)) 3 false [] []
          rw [← h', hf]
          refine ⟨rest, ?_, fun hr => ?_⟩
          · rw [List.flatMap_append, loop_eq, List.append_assoc, ← h1]
            simp
          · obtain ⟨r, hr, hb⟩ := h2 hr
            refine ⟨r, ?_, hb⟩
            rw [List.getLast?_append, loop_eq, hr]
            rfl
    · split at h
      · rename_i hk
        exact absurd hk (hc l ls hp)
      · have h' := (Prod.mk.inj h).1
        obtain ⟨rest, h1, h2⟩ := loopT_flat (ls.map (replaceTab 0)) 3 false [] []
        rw [← h']
        refine ⟨rest, ?_, fun hr => ?_⟩
        · rw [List.flatMap_cons, loop_eq, List.append_assoc, ← h1]
          simp
        · obtain ⟨r, hr, hb⟩ := h2 hr
          refine ⟨r, ?_, hb⟩
          rw [List.getLast?_cons, loop_eq, hr]
          rfl

end Geouned.Card
