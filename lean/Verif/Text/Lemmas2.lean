import Verif.Text.Lemmas
/-! Lemmas for the text of cell definitions: the loops over the parentheses -/
namespace Geouned.Text

/-! ### searching -/

theorem spanInner_some : ∀ {r i p : List Item}, spanInner r = some (i, p) → r = i ++ .tok .rp :: p ∧ NoPar i
  | [], i, p, h => by simp [spanInner] at h
  | x :: r, i, p, h => by
    have key : x ≠ .tok .rp → x ≠ .tok .lp → (spanInner r).map (fun q => (x :: q.1, q.2)) = some (i, p) →
        x :: r = i ++ .tok .rp :: p ∧ NoPar i := by
      intro h1 h2 h
      obtain ⟨⟨i', p'⟩, h3, h4⟩ := Option.map_eq_some_iff.1 h
      cases h4
      obtain ⟨rfl, h5⟩ := spanInner_some h3
      refine ⟨rfl, ?_, ?_⟩
      · simp [h5.1, Ne.symm h2]
      · simp [h5.2, Ne.symm h1]
    match x, h with
    | .tok .rp, h =>
      simp [spanInner] at h
      obtain ⟨rfl, rfl⟩ := h
      exact ⟨rfl, by simp [NoPar]⟩
    | .tok .lp, h => simp [spanInner] at h
    | .tok .blank, h => exact key (by simp) (by simp) (by simpa [spanInner] using h)
    | .tok .colon, h => exact key (by simp) (by simp) (by simpa [spanInner] using h)
    | .tok (.num _), h => exact key (by simp) (by simp) (by simpa [spanInner] using h)
    | .gone _, h => exact key (by simp) (by simp) (by simpa [spanInner] using h)
    | .block _, h => exact key (by simp) (by simp) (by simpa [spanInner] using h)

theorem spanInner_of {p : List Item} : ∀ {i : List Item}, NoPar i → spanInner (i ++ .tok .rp :: p) = some (i, p)
  | [], _ => by simp [spanInner]
  | x :: i, h => by
    simp only [NoPar, List.mem_cons, not_or] at h
    have ih := spanInner_of (p := p) (i := i) ⟨h.1.2, h.2.2⟩
    match x, h with
    | .tok .rp, h => simp at h
    | .tok .lp, h => simp at h
    | .tok .blank, h => simp [spanInner, ih]
    | .tok .colon, h => simp [spanInner, ih]
    | .tok (.num _), h => simp [spanInner, ih]
    | .gone _, h => simp [spanInner, ih]
    | .block _, h => simp [spanInner, ih]

theorem findInner_some : ∀ {r pre i p : List Item}, findInner r = some (pre, i, p) →
    r = pre ++ .tok .lp :: (i ++ .tok .rp :: p) ∧ NoPar i
  | [], pre, i, p, h => by simp [findInner] at h
  | x :: r, pre, i, p, h => by
    have key : (findInner r).map (fun q => (x :: q.1, q.2.1, q.2.2)) = some (pre, i, p) →
        x :: r = pre ++ .tok .lp :: (i ++ .tok .rp :: p) ∧ NoPar i := by
      intro h
      obtain ⟨⟨pre', i', p'⟩, h3, h4⟩ := Option.map_eq_some_iff.1 h
      cases h4
      obtain ⟨rfl, h5⟩ := findInner_some h3
      exact ⟨rfl, h5⟩
    match x, h, key with
    | .tok .rp, h, key => exact key (by simpa [findInner] using h)
    | .tok .lp, h, key =>
      simp only [findInner] at h
      split at h
      · next i' p' hs =>
        cases h
        obtain ⟨rfl, h2⟩ := spanInner_some hs
        exact ⟨rfl, h2⟩
      · exact key h
    | .tok .blank, h, key => exact key (by simpa [findInner] using h)
    | .tok .colon, h, key => exact key (by simpa [findInner] using h)
    | .tok (.num _), h, key => exact key (by simpa [findInner] using h)
    | .gone _, h, key => exact key (by simpa [findInner] using h)
    | .block _, h, key => exact key (by simpa [findInner] using h)

theorem findInner_none : ∀ {pre i p : List Item}, NoPar i → findInner (pre ++ .tok .lp :: (i ++ .tok .rp :: p)) ≠ none
  | [], i, p, h => by simp [findInner, spanInner_of h]
  | x :: pre, i, p, h => by
    have ih := findInner_none (pre := pre) (p := p) h
    match x with
    | .tok .rp => simpa [findInner] using ih
    | .tok .lp =>
      simp only [List.cons_append, findInner]
      split
      · simp
      · simpa using ih
    | .tok .blank => simpa [findInner] using ih
    | .tok .colon => simpa [findInner] using ih
    | .tok (.num _) => simpa [findInner] using ih
    | .gone _ => simpa [findInner] using ih
    | .block _ => simpa [findInner] using ih

/-- a readable text with parentheses has an inner one -/
theorem G.hasInner {σ r w b} (h : G σ r w b) : NoPar w ∨ ∃ pre i p, w = pre ++ .tok .lp :: (i ++ .tok .rp :: p) ∧ NoPar i := by
  have left : ∀ (u : List Item) {v : List Item}, (∃ pre i p, v = pre ++ .tok .lp :: (i ++ .tok .rp :: p) ∧ NoPar i) →
      ∃ pre i p, u ++ v = pre ++ .tok .lp :: (i ++ .tok .rp :: p) ∧ NoPar i := by
    rintro u v ⟨pre, i, p, rfl, h⟩
    exact ⟨u ++ pre, i, p, by simp, h⟩
  have right : ∀ {u : List Item} (v : List Item), (∃ pre i p, u = pre ++ .tok .lp :: (i ++ .tok .rp :: p) ∧ NoPar i) →
      ∃ pre i p, u ++ v = pre ++ .tok .lp :: (i ++ .tok .rp :: p) ∧ NoPar i := by
    rintro u v ⟨pre, i, p, rfl, h⟩
    exact ⟨pre, i, p ++ v, by simp, h⟩
  induction h with
  | num n _ => exact Or.inl (by simp [NoPar])
  | block _ _ => exact Or.inl (by simp [NoPar])
  | @paren w b _ ih =>
    rcases ih with h | h
    · exact Or.inr ⟨[], w, [], by simp, h⟩
    · exact Or.inr (left [_] (right _ h))
  | one _ ih => exact ih
  | single _ ih => exact ih
  | @and u v _ _ _ _ ih1 ih2 =>
    rcases ih1 with h1 | h1
    · rcases ih2 with h2 | h2
      · exact Or.inl ⟨by simp [h1.1, h2.1], by simp [h1.2, h2.2]⟩
      · exact Or.inr (left _ h2)
    · exact Or.inr (right _ h1)
  | @or u v _ _ _ _ ih1 ih2 =>
    rcases ih1 with h1 | h1
    · rcases ih2 with h2 | h2
      · exact Or.inl ⟨by simp [h1.1, h2.1], by simp [h1.2, h2.2]⟩
      · exact Or.inr (left _ (left [_] h2))
    · exact Or.inr (right _ h1)
  | blankL _ ih =>
    rcases ih with h | h
    · exact Or.inl ⟨by simp [h.1], by simp [h.2]⟩
    · exact Or.inr (left [_] h)
  | blankR _ ih =>
    rcases ih with h | h
    · exact Or.inl ⟨by simp [h.1], by simp [h.2]⟩
    · exact Or.inr (right _ h)
  | goneI _ ih =>
    rcases ih with h | h
    · exact Or.inl ⟨by simp [h.1], by simp [h.2]⟩
    · exact Or.inr (left [_] (right _ h))
  | goneU _ ih =>
    rcases ih with h | h
    · exact Or.inl ⟨by simp [h.1], by simp [h.2]⟩
    · exact Or.inr (left [_] (right _ h))

/-! ### one replacement -/

def down : Rank → Rank
  | .union => .inter
  | r => r

theorem G.noColon {σ r w b} (h : G σ r w b) : .tok .colon ∉ w → G σ (down r) w b := by
  induction h with
  | num n h => exact fun _ => .num n h
  | block h _ => exact fun _ => .block h
  | paren h _ => exact fun _ => .paren h
  | one h _ => exact fun _ => .one h
  | single h _ => exact fun _ => h
  | and h1 h2 _ _ => exact fun _ => .and h1 h2
  | or _ _ _ _ => intro h; simp at h
  | blankL _ ih => exact fun h => .blankL (ih (by simp at h; exact h))
  | blankR _ ih => exact fun h => .blankR (ih (by simp at h; exact h))
  | goneI h _ => exact fun _ => .goneI h
  | goneU _ ih => exact fun h => .goneI (ih (by simp at h; exact h))

/-- the text that a masked text stands for is readable with the same value -/
theorem G.origs {σ r w b} (k : Bool) (h : G σ r w b) : G σ (Text.up r) ((Text.origs k w).map .tok) b := by
  induction h with
  | num n h => exact .one (.num n h)
  | @block ts b h _ =>
    have := G.one (G.paren h)
    simpa [Text.up, Item.orig] using this
  | paren _ ih =>
    have := G.one (G.paren ih)
    simpa [Text.up, Item.orig] using this
  | one _ ih => exact ih
  | single _ ih => exact .single ih
  | and _ _ ih1 ih2 =>
    have := G.and ih1 ih2
    simpa [Text.up] using this
  | or _ _ ih1 ih2 =>
    have := G.or ih1 ih2
    simpa [Text.up, Item.orig] using this
  | blankL _ ih =>
    have := G.blankL ih
    simpa [Text.up, Item.orig] using this
  | blankR _ ih =>
    have := G.blankR ih
    simpa [Text.up, Item.orig] using this
  | goneI _ ih =>
    cases k
    · have := G.blankL (G.blankR ih)
      simpa [Text.up, Item.orig] using this
    · have := G.one (G.paren (G.single ih))
      simpa [Text.up, Item.orig] using this
  | goneU _ ih =>
    cases k
    · have := G.blankL (G.blankR ih)
      simpa [Text.up, Item.orig] using this
    · have := G.single (G.one (G.paren ih))
      simpa [Text.up, Item.orig] using this

/-- a readable text, maybe with `(` without partner before it and `)` without partner after it -/
def Top (σ : Side) (w : List Item) (b : Bool) : Prop :=
  ∃ L m R, w = L ++ (m ++ R) ∧ (∀ x ∈ L, x = .tok .lp ∨ x = .tok .blank) ∧ (∀ x ∈ R, x = .tok .rp ∨ x = .tok .blank) ∧ G σ .union m b

theorem LOK_open {L : List Item} (h : ∀ x ∈ L, x = .tok .lp ∨ x = .tok .blank) : LOK L := by
  induction L with
  | nil => rfl
  | cons x L ih =>
    refine LOK.append (u := [x]) ?_ (ih fun y hy => h y (by simp [hy]))
    rcases h x (by simp) with rfl | rfl <;> rfl

theorem ROK_close {R : List Item} (h : ∀ x ∈ R, x = .tok .rp ∨ x = .tok .blank) : ROK R := by
  induction R with
  | nil => rfl
  | cons x R ih =>
    refine ROK.append (u := [x]) ?_ (ih fun y hy => h y (by simp [hy]))
    rcases h x (by simp) with rfl | rfl <;> rfl

theorem G.blanksL {σ r m b} (h : G σ r m b) : ∀ {x : List Item}, (∀ y ∈ x, y = .tok .blank) → G σ r (x ++ m) b
  | [], _ => h
  | y :: x, hx => by
    have := hx y (by simp)
    subst this
    exact .blankL (h.blanksL fun z hz => hx z (by simp [hz]))

theorem G.blanksR {σ r m b} (h : G σ r m b) : ∀ {x : List Item}, (∀ y ∈ x, y = .tok .blank) → G σ r (m ++ x) b
  | [], _ => by simpa using h
  | y :: x, hx => by
    have := hx y (by simp)
    subst this
    have := (G.blankR h).blanksR (x := x) fun z hz => hx z (by simp [hz])
    simpa using this

/-- where an inner parenthesis can be -/
theorem top_cases {L m R pre inner post : List Item} (hL : ∀ x ∈ L, x = Item.tok .lp ∨ x = .tok .blank)
    (hR : ∀ x ∈ R, x = Item.tok .rp ∨ x = .tok .blank) (hm : Bal m) (hn : NoPar inner)
    (h : L ++ (m ++ R) = pre ++ .tok .lp :: (inner ++ .tok .rp :: post)) :
    (∃ p q, m = p ++ .tok .lp :: (inner ++ .tok .rp :: q) ∧ pre = L ++ p ∧ post = q ++ R) ∨
    (∃ x z, inner = x ++ (m ++ z) ∧ L = pre ++ .tok .lp :: x ∧ R = z ++ .tok .rp :: post) := by
  have first : ∀ x, pre = L ++ x → m ++ R = x ++ .tok .lp :: (inner ++ .tok .rp :: post) →
      ∃ p q, m = p ++ .tok .lp :: (inner ++ .tok .rp :: q) ∧ pre = L ++ p ∧ post = q ++ R := by
    intro x h1 h2
    rcases inner_append hm hn h2 with ⟨p, h3, h4⟩ | ⟨p, h3, h4⟩
    · exact ⟨x, p, h3, h1, h4⟩
    · have := hR (.tok .lp) (by rw [h3]; simp)
      simp at this
  rcases List.append_eq_append_iff.1 h with ⟨x, h1, h2⟩ | ⟨x, h1, h2⟩
  · exact Or.inl (first x h1 h2)
  · cases x with
    | nil => exact Or.inl (first [] (by simpa using h1.symm) (by simpa using h2.symm))
    | cons x0 x =>
      simp only [List.cons_append, List.cons.injEq] at h2
      obtain ⟨rfl, h2⟩ := h2
      have second : ∀ y, inner = x ++ y → m ++ R = y ++ .tok .rp :: post →
          ∃ z, inner = x ++ (m ++ z) ∧ R = z ++ .tok .rp :: post := by
        intro y h3 h4
        rcases List.append_eq_append_iff.1 h4 with ⟨z, h5, h6⟩ | ⟨z, h5, h6⟩
        · exact ⟨z, by rw [h3, h5], h6⟩
        · cases z with
          | nil => exact ⟨[], by rw [h3, h5]; simp, by simpa using h6.symm⟩
          | cons z0 z =>
            exfalso
            simp only [List.cons_append, List.cons.injEq] at h6
            obtain ⟨rfl, h6⟩ := h6
            have a := hm.2 (y ++ [.tok .rp]) z (by rw [h5]; simp)
            have c := hn.counts
            rw [h3] at c
            simp only [lpc_append, rpc_append] at c
            simp [lpc_cons, rpc_cons] at a
            omega
      rcases List.append_eq_append_iff.1 h2 with ⟨y, h3, h4⟩ | ⟨y, h3, h4⟩
      · cases y with
        | nil =>
          obtain ⟨z, h5, h6⟩ := second [] (by simpa using h3.symm) (by simpa using h4.symm)
          exact Or.inr ⟨x, z, h5, h1, h6⟩
        | cons y0 y =>
          exfalso
          simp only [List.cons_append, List.cons.injEq] at h4
          have := hL (.tok .rp) (by rw [h1, h3, ← h4.1]; simp)
          simp at this
      · obtain ⟨z, h5, h6⟩ := second y h3 h4
        exact Or.inr ⟨x, z, h5, h1, h6⟩

theorem step {keep : Bool} {σ : Side} {b : Bool} {left inner post : List Item}
    (h : Top σ (left ++ .tok .lp :: (inner ++ .tok .rp :: post)) b) (hn : NoPar inner) :
    Top σ (left ++ (masked keep left inner post ++ post)) b ∧
    (redundant left inner post = false → 0 < numsI left + numsI post) := by
  obtain ⟨L, m, R, e, hL, hR, hm⟩ := h
  rcases top_cases hL hR hm.bal hn e.symm with ⟨p, q, rfl, rfl, rfl⟩ | ⟨x, z, rfl, rfl, rfl⟩
  · obtain ⟨c, h1, h2, h3⟩ := hm.ctx p inner q rfl hn
    have red : redundant (L ++ p) inner (q ++ R) = true ↔ .tok .colon ∉ inner ∨ (LOK (L ++ p) ∧ ROK (q ++ R)) := by
      unfold redundant LOK ROK
      split
      · next h => simp [h]
      · next h => simp at h; simp [h]
    constructor
    · have fin : ∀ y, G σ .union (p ++ (y ++ q)) b → Top σ (L ++ p ++ (y ++ (q ++ R))) b := by
        intro y hy
        exact ⟨L, _, R, by simp, hL, hR, hy⟩
      unfold masked
      split
      · next hr =>
        apply fin
        rcases red.1 hr with hc | ⟨hl, hr⟩
        · exact h2 _ (.goneI (h1.noColon hc))
        · exact (h3 hl.of_append hr.of_append _ (.goneU h1)).1
      · exact fin _ (h2 _ (.one (.block (h1.origs keep))))
    · intro hr
      refine Classical.byContradiction fun h0 => ?_
      simp only [numsI_append] at h0
      obtain ⟨a, c⟩ := hm.lone p inner q rfl hn (by omega)
      have := red.2 (Or.inr ⟨(LOK_open hL).append a, c.append (ROK_close hR)⟩)
      rw [this] at hr
      cases hr
  · have hx : ∀ y ∈ x, y = .tok .blank := by
      intro y hy
      rcases hL y (by simp [hy]) with rfl | rfl
      · exact absurd hn.1 (by simp [hy])
      · rfl
    have hz : ∀ y ∈ z, y = .tok .blank := by
      intro y hy
      rcases hR y (by simp [hy]) with rfl | rfl
      · exact absurd hn.2 (by simp [hy])
      · rfl
    have hl : ∀ y ∈ left, y = Item.tok .lp ∨ y = .tok .blank := fun y hy => hL y (by simp [hy])
    have hp : ∀ y ∈ post, y = Item.tok .rp ∨ y = .tok .blank := fun y hy => hR y (by simp [hy])
    have red : redundant left (x ++ (m ++ z)) post = true := by
      unfold redundant
      split
      · rfl
      · have a := LOK_open hl
        have c := ROK_close hp
        unfold LOK at a
        unfold ROK at c
        simp [a, c]
    refine ⟨⟨left, .gone .lp :: (x ++ (m ++ z) ++ [.gone .rp]), post, ?_, hl, hp, ?_⟩, fun h => by rw [red] at h; cases h⟩
    · simp [masked, red]
    · exact .goneU ((hm.blanksR hz).blanksL hx)

/-! ### the loops -/

/-- what the loops keep -/
structure Inv (keep : Bool) (σ : Side) (ts : List Tok) (w : List Item) (b : Bool) : Prop where
  top : Top σ w b
  orig : keep = true → origs true w = ts
  blk : keep = true → ∀ us, .block us ∈ w → nums us < nums ts

theorem Inv.step {keep σ ts b} {left inner post : List Item}
    (h : Inv keep σ ts (left ++ .tok .lp :: (inner ++ .tok .rp :: post)) b) (hn : NoPar inner) :
    Inv keep σ ts (left ++ (masked keep left inner post ++ post)) b := by
  obtain ⟨h1, h2⟩ := Text.step (keep := keep) h.top hn
  refine ⟨h1, fun hk => ?_, fun hk us hu => ?_⟩
  · have := h.orig hk
    subst hk
    rw [← this]
    unfold masked
    split <;> simp [Item.orig]
  · have ho := h.orig hk
    have hb := h.blk hk us
    subst hk
    unfold masked at hu
    split at hu
    · apply hb
      simp at hu ⊢
      exact hu
    · next hr =>
      simp only [List.mem_append, List.mem_cons, List.not_mem_nil, or_false, Item.block.injEq] at hu
      rcases hu with hu | hu | hu
      · exact hb (by simp [hu])
      · subst hu
        have hp := h2 (by simpa using hr)
        rw [← ho]
        simp only [origs_append, origs_cons, nums_append, Item.orig]
        rw [nums_cons, nums_append]
        simp only [numsI] at hp
        omega
      · exact hb (by simp [hu])

theorem pass_inv {keep σ ts b} : ∀ (k : Nat) (done rest : List Item), Inv keep σ ts (done ++ rest) b →
    Inv keep σ ts (pass keep k done rest) b
  | 0, done, rest, h => h
  | k + 1, done, rest, h => by
    unfold pass
    split
    · exact h
    · next pre inner post hf =>
      obtain ⟨rfl, hn⟩ := findInner_some hf
      apply pass_inv
      have h' : Inv keep σ ts (done ++ pre ++ .tok .lp :: (inner ++ .tok .rp :: post)) b := by simpa using h
      have := h'.step hn
      simpa using this

theorem passes_inv {keep σ ts b} : ∀ (k : Nat) (w : List Item), Inv keep σ ts w b → Inv keep σ ts (passes keep k w) b
  | 0, w, h => h
  | k + 1, w, h => by
    unfold passes
    split
    · exact h
    · exact passes_inv k _ (pass_inv _ [] w (by simpa using h))

theorem lpc_masked (keep : Bool) (left inner post : List Item) (hn : NoPar inner) : lpc (masked keep left inner post) = 0 := by
  have := hn.counts
  unfold masked
  split
  · simp [lpc_cons, this.1]
  · simp [lpc_cons]

theorem lpc_pass {keep : Bool} : ∀ (k : Nat) (done rest : List Item), lpc (pass keep k done rest) ≤ lpc done + lpc rest
  | 0, done, rest => by simp [pass]
  | k + 1, done, rest => by
    unfold pass
    split
    · simp
    · next pre inner post hf =>
      obtain ⟨rfl, hn⟩ := findInner_some hf
      have := lpc_pass (keep := keep) k (done ++ pre ++ masked keep (done ++ pre) inner post) post
      have h2 := lpc_masked keep (done ++ pre) inner post hn
      simp only [lpc_append, h2, lpc_cons] at this ⊢
      omega

theorem lpc_pass_lt {keep : Bool} {k : Nat} {rest : List Item} (h : (findInner rest).isNone = false) :
    lpc (pass keep (k + 1) [] rest) < lpc rest := by
  unfold pass
  split
  · next hf => simp [hf] at h
  · next pre inner post hf =>
    obtain ⟨rfl, hn⟩ := findInner_some hf
    have := lpc_pass (keep := keep) k ([] ++ pre ++ masked keep ([] ++ pre) inner post) post
    have h2 := lpc_masked keep ([] ++ pre) inner post hn
    simp only [lpc_append, h2, lpc_cons, if_pos] at this ⊢
    simp only [lpc_nil] at this
    simp at this ⊢
    omega

theorem passes_none {keep : Bool} : ∀ (k : Nat) (w : List Item), lpc w < k → (findInner (passes keep k w)).isNone = true
  | 0, w, h => absurd h (by omega)
  | k + 1, w, h => by
    unfold passes
    split
    · assumption
    · next hf =>
      have hf' : (findInner w).isNone = false := Bool.eq_false_iff.2 hf
      cases hw : w.length with
      | zero =>
        have : w = [] := List.length_eq_zero_iff.1 hw
        subst this
        simp [findInner] at hf'
      | succ n =>
        have := lpc_pass_lt (keep := keep) (k := n) hf'
        exact passes_none k _ (by omega)

end Geouned.Text
