import Verif.Text.Lemmas2
import Mathlib.Data.List.Forall2
/-! Lemmas for the text of cell definitions: flat texts, and the link with the specification -/
namespace Geouned.Text

/-! ### specification and masked texts -/

theorem Reads.interAppend {σ t u b c} (h1 : Reads σ .inter t b) (h2 : Reads σ .inter u c) : Reads σ .inter (t ++ u) (b && c) := by
  generalize hr : Rank.inter = r at h1
  induction h1 with
  | num n h => cases hr
  | paren _ _ => cases hr
  | one h _ => exact .and h h2
  | and ha _ _ ih => rw [List.append_assoc, Bool.and_assoc]; exact .and ha (ih hr)
  | single _ _ => cases hr
  | or _ _ _ _ => cases hr

theorem Reads.unionAppend {σ t u b c} (h1 : Reads σ .union t b) (h2 : Reads σ .union u c) : Reads σ .union (t ++ .colon :: u) (b || c) := by
  generalize hr : Rank.union = r at h1
  induction h1 with
  | num n h => cases hr
  | paren _ _ => cases hr
  | one _ _ => cases hr
  | and _ _ _ _ => cases hr
  | single h _ => exact .or h h2
  | or ha _ _ ih => rw [List.append_assoc, Bool.or_assoc]; exact .or ha (ih hr)

@[simp] theorem solid_append (a b : List Tok) : solid (a ++ b) = solid a ++ solid b := by simp [solid]
theorem solid_cons (t : Tok) (ts : List Tok) : solid (t :: ts) = (if t = .blank then [] else [t]) ++ solid ts := by
  simp [solid, List.filter_cons]; split <;> simp_all
@[simp] theorem solid_nil : solid [] = [] := rfl

/-- a readable masked text stands for a readable text -/
theorem G.reads {σ r w b} (k : Bool) (h : G σ r w b) : Reads σ (Text.up r) (solid (Text.origs k w)) b := by
  induction h with
  | num n h => exact .one (.num n h)
  | @block ts b h ih =>
    rw [origs_map_tok] at ih
    have := Reads.one (Reads.paren ih)
    simpa [Text.up, Item.orig, solid_cons] using this
  | paren _ ih =>
    have := Reads.one (Reads.paren ih)
    simpa [Text.up, Item.orig, solid_cons] using this
  | one _ ih => exact ih
  | single _ ih => exact .single ih
  | and _ _ ih1 ih2 =>
    have := ih1.interAppend ih2
    simpa [Text.up] using this
  | or _ _ ih1 ih2 =>
    have := ih1.unionAppend ih2
    simpa [Text.up, Item.orig, solid_cons] using this
  | blankL _ ih => simpa [Text.up, Item.orig, solid_cons] using ih
  | blankR _ ih => simpa [Text.up, Item.orig, solid_cons] using ih
  | goneI _ ih =>
    cases k
    · simpa [Text.up, Item.orig, solid_cons] using ih
    · have := Reads.one (Reads.paren (.single ih))
      simpa [Text.up, Item.orig, solid_cons] using this
  | goneU _ ih =>
    cases k
    · simpa [Text.up, Item.orig, solid_cons] using ih
    · have := Reads.single (Reads.one (Reads.paren ih))
      simpa [Text.up, Item.orig, solid_cons] using this

theorem solid_eq_append {ts a b : List Tok} (h : solid ts = a ++ b) : ∃ x y, ts = x ++ y ∧ solid x = a ∧ solid y = b := by
  obtain ⟨x, y, h1, h2, h3⟩ := List.filter_eq_append_iff.1 h
  exact ⟨x, y, h1, h2, h3⟩

theorem solid_eq_cons {ts a : List Tok} {t : Tok} (h : solid ts = t :: a) : ∃ x y, ts = x ++ t :: y ∧ (∀ z ∈ x, z = .blank) ∧ solid y = a := by
  obtain ⟨x, y, h1, h2, h3, h4⟩ := List.filter_eq_cons_iff.1 h
  exact ⟨x, y, h1, fun z hz => by simpa using h2 z hz, h4⟩

theorem solid_eq_nil {ts : List Tok} (h : solid ts = []) : ∀ z ∈ ts, z = .blank := by
  intro z hz
  have := List.filter_eq_nil_iff.1 h z hz
  simpa using this

theorem map_blanks {x : List Tok} (h : ∀ z ∈ x, z = Tok.blank) : ∀ y ∈ x.map Item.tok, y = .tok .blank := by
  intro y hy
  obtain ⟨z, hz, rfl⟩ := List.mem_map.1 hy
  rw [h z hz]

theorem Reads.toG {σ r t b} (h : Reads σ r t b) : ∀ ts, solid ts = t → G σ r (ts.map .tok) b := by
  induction h with
  | num n h =>
    intro ts hs
    obtain ⟨x, y, rfl, hx, hy⟩ := solid_eq_cons hs
    have := ((G.num n h).blanksR (map_blanks (solid_eq_nil hy))).blanksL (σ := σ) (map_blanks hx)
    simpa using this
  | @paren t b _ ih =>
    intro ts hs
    obtain ⟨x, y, rfl, hx, hy⟩ := solid_eq_cons hs
    obtain ⟨z, u, rfl, hz, hu⟩ := solid_eq_append hy
    obtain ⟨v, w, rfl, hv, hw⟩ := solid_eq_cons hu
    have h1 := (G.paren ((ih z hz).blanksR (map_blanks hv)))
    have := (h1.blanksR (map_blanks (solid_eq_nil hw))).blanksL (map_blanks hx)
    simpa using this
  | one _ ih => exact fun ts hs => .one (ih ts hs)
  | and _ _ ih1 ih2 =>
    intro ts hs
    obtain ⟨x, y, rfl, hx, hy⟩ := solid_eq_append hs
    have := G.and (.one (ih1 x hx)) (ih2 y hy)
    simpa using this
  | single _ ih => exact fun ts hs => .single (ih ts hs)
  | or _ _ ih1 ih2 =>
    intro ts hs
    obtain ⟨x, y, rfl, hx, hy⟩ := solid_eq_append hs
    obtain ⟨v, w, rfl, hv, hw⟩ := solid_eq_cons hy
    have := G.or ((G.single (ih1 x hx)).blanksR (map_blanks hv)) (ih2 w hw)
    simpa using this

/-- a readable text, maybe with `(` before it and `)` after it -/
def TopT (σ : Side) (ts : List Tok) (b : Bool) : Prop :=
  ∃ L m R, solid ts = L ++ (m ++ R) ∧ (∀ x ∈ L, x = .lp) ∧ (∀ x ∈ R, x = .rp) ∧ Reads σ .union m b

theorem solid_all {t : Tok} {x : List Tok} (h : ∀ z ∈ solid x, z = t) : ∀ y ∈ x.map Item.tok, y = .tok t ∨ y = .tok .blank := by
  intro y hy
  obtain ⟨z, hz, rfl⟩ := List.mem_map.1 hy
  by_cases hb : z = .blank
  · exact Or.inr (by rw [hb])
  · exact Or.inl (by rw [h z (List.mem_filter.2 ⟨hz, by simpa using hb⟩)])

theorem TopT.top {σ ts b} (h : TopT σ ts b) : Top σ (ts.map .tok) b := by
  obtain ⟨L, m, R, h1, h2, h3, h4⟩ := h
  obtain ⟨x, y, rfl, rfl, hy⟩ := solid_eq_append h1
  obtain ⟨z, w, rfl, rfl, rfl⟩ := solid_eq_append hy
  exact ⟨x.map .tok, z.map .tok, w.map .tok, by simp, solid_all h2, solid_all h3, h4.toG z rfl⟩

theorem solid_dropWhile (ts : List Tok) : solid (ts.dropWhile (· = .blank)) = solid ts := by
  induction ts with
  | nil => rfl
  | cons t ts ih =>
    by_cases h : t = .blank
    · subst h; simp [solid_cons] at ih ⊢; exact ih
    · simp [List.dropWhile_cons, h]

theorem solid_reverse (ts : List Tok) : solid ts.reverse = (solid ts).reverse := by simp [solid]

theorem solid_strip (ts : List Tok) : solid (strip ts) = solid ts := by
  unfold strip
  rw [solid_reverse, solid_dropWhile, solid_reverse, solid_dropWhile, List.reverse_reverse]

/-! ### flat texts -/

theorem mask_inv {σ ts b} (h : TopT σ ts b) : Inv true σ ts (mask true ts) b ∧ findInner (mask true ts) = none := by
  constructor
  · apply passes_inv
    refine ⟨h.top, fun _ => origs_map_tok _ _, fun _ us hu => ?_⟩
    simp at hu
  · have := passes_none (keep := true) (ts.length + 1) (ts.map .tok) (by
      unfold lpc
      have := List.count_le_length (a := Item.tok .lp) (l := ts.map .tok)
      simp at this
      omega)
    simpa [mask] using this

/-- a term of an intersection -/
def TermVal (σ : Side) (m : List Item) (t : List Tok) (c : Bool) : Prop :=
  (∃ n, n ≠ 0 ∧ t = [.num n] ∧ c = lit σ n) ∨ (.block t ∈ m ∧ TopT σ t c)

theorem andTerms_append : ∀ u v : List Item, andTerms (u ++ v) = andTerms u ++ andTerms v
  | [], v => rfl
  | x :: u, v => by
    have ih := andTerms_append u v
    match x with
    | .tok (.num n) => simp [andTerms, ih]
    | .block ts => simp [andTerms, ih]
    | .tok .lp => simp [andTerms, ih]
    | .tok .rp => simp [andTerms, ih]
    | .tok .colon => simp [andTerms, ih]
    | .tok .blank => simp [andTerms, ih]
    | .gone _ => simp [andTerms, ih]

theorem TermVal.mono {σ m m' t c} (hm : ∀ x ∈ m, x ∈ m') (h : TermVal σ m t c) : TermVal σ m' t c := by
  rcases h with h | ⟨h1, h2⟩
  · exact Or.inl h
  · exact Or.inr ⟨hm _ h1, h2⟩

theorem Forall₂.mono {α β : Type} {P Q : α → β → Prop} (hpq : ∀ a b, P a b → Q a b) : ∀ {l : List α} {m : List β},
    List.Forall₂ P l m → List.Forall₂ Q l m
  | _, _, .nil => .nil
  | _, _, .cons h t => .cons (hpq _ _ h) (Forall₂.mono hpq t)

theorem Forall₂.append {α β : Type} {P : α → β → Prop} : ∀ {l l' : List α} {m m' : List β},
    List.Forall₂ P l m → List.Forall₂ P l' m' → List.Forall₂ P (l ++ l') (m ++ m')
  | _, _, _, _, .nil, h => h
  | _, _, _, _, .cons h t, h' => .cons h (Forall₂.append t h')

theorem reads_top {σ r t b} (h : Reads σ r (solid t) b) : TopT σ t b := by
  refine ⟨[], solid t, [], by simp, by simp, by simp, ?_⟩
  cases r
  · exact .single (.one h)
  · exact .single h
  · exact h

theorem G.flatAnd {σ r m b} (h : G σ r m b) : NoPar m → .tok .colon ∉ m →
    ∃ vs, List.Forall₂ (TermVal σ m) (andTerms m) vs ∧ b = vs.all id := by
  have wrap : ∀ {x : Item} {m : List Item} {b : Bool}, andTerms (x :: m) = andTerms m →
      (∃ vs, List.Forall₂ (TermVal σ m) (andTerms m) vs ∧ b = vs.all id) →
      ∃ vs, List.Forall₂ (TermVal σ (x :: m)) (andTerms (x :: m)) vs ∧ b = vs.all id := by
    rintro x m b e ⟨vs, h1, h2⟩
    exact ⟨vs, by rw [e]; exact Forall₂.mono (fun _ _ h => h.mono (by simp +contextual)) h1, h2⟩
  have wrapR : ∀ {x : Item} {m : List Item} {b : Bool}, andTerms [x] = [] →
      (∃ vs, List.Forall₂ (TermVal σ m) (andTerms m) vs ∧ b = vs.all id) →
      ∃ vs, List.Forall₂ (TermVal σ (m ++ [x])) (andTerms (m ++ [x])) vs ∧ b = vs.all id := by
    rintro x m b e ⟨vs, h1, h2⟩
    refine ⟨vs, ?_, h2⟩
    rw [andTerms_append, e, List.append_nil]
    exact Forall₂.mono (fun _ _ h => h.mono (by simp +contextual)) h1
  induction h with
  | num n h => exact fun _ _ => ⟨[lit σ n], .cons (Or.inl ⟨n, h, rfl, rfl⟩) .nil, by simp⟩
  | @block ts b h _ =>
    intro _ _
    refine ⟨[b], .cons (Or.inr ⟨by simp, ?_⟩) .nil, by simp⟩
    have := (G.paren h).reads true
    rw [show Text.origs true (Item.tok .lp :: (ts.map .tok ++ [.tok .rp])) = .lp :: (ts ++ [.rp]) by simp [Item.orig]] at this
    exact reads_top this
  | paren _ _ => intro h; simp [NoPar] at h
  | one _ ih => exact ih
  | single _ ih => exact ih
  | @and u v b c _ _ ih1 ih2 =>
    intro hp hc
    simp only [NoPar, List.mem_append, not_or] at hp hc
    obtain ⟨vs, h1, h2⟩ := ih1 ⟨hp.1.1, hp.2.1⟩ hc.1
    obtain ⟨vs', h3, h4⟩ := ih2 ⟨hp.1.2, hp.2.2⟩ hc.2
    refine ⟨vs ++ vs', ?_, by simp [h2, h4]⟩
    rw [andTerms_append]
    exact Forall₂.append (Forall₂.mono (fun _ _ h => h.mono (by simp +contextual)) h1)
      (Forall₂.mono (fun _ _ h => h.mono (by simp +contextual)) h3)
  | or _ _ _ _ => intro _ h; simp at h
  | blankL _ ih =>
    intro hp hc
    exact wrap rfl (ih ⟨by simpa using hp.1, by simpa using hp.2⟩ (by simpa using hc))
  | blankR _ ih =>
    intro hp hc
    exact wrapR rfl (ih ⟨by simpa using hp.1, by simpa using hp.2⟩ (by simpa using hc))
  | goneI _ ih =>
    intro hp hc
    exact wrap rfl (wrapR rfl (ih ⟨by simpa using hp.1, by simpa using hp.2⟩ (by simpa using hc)))
  | goneU _ ih =>
    intro hp hc
    exact wrap rfl (wrapR rfl (ih ⟨by simpa using hp.1, by simpa using hp.2⟩ (by simpa using hc)))

/-- a slice of a union: an intersection, with parentheses before and after it whose partners are in other slices -/
def Piece (σ : Side) (p : List Item) (c : Bool) : Prop :=
  ∃ L v R, p = L ++ (v ++ R) ∧ (∀ x ∈ L, x = .gone .lp ∨ x = .tok .lp ∨ x = .tok .blank) ∧
    (∀ x ∈ R, x = .gone .rp ∨ x = .tok .rp ∨ x = .tok .blank) ∧ G σ .inter v c

theorem splitColon_ne : ∀ w : List Item, splitColon w ≠ []
  | [] => by simp [splitColon]
  | x :: w => by
    unfold splitColon
    split
    · next h => cases h
    · simp
    · split <;> simp

theorem splitColon_cons {x : Item} (hx : x ≠ .tok .colon) (w : List Item) : ∃ p ps, splitColon w = p :: ps ∧ splitColon (x :: w) = (x :: p) :: ps := by
  cases h : splitColon w with
  | nil => exact absurd h (splitColon_ne w)
  | cons p ps =>
    refine ⟨p, ps, rfl, ?_⟩
    rw [splitColon]
    · rw [h]
    · exact fun h => hx h

theorem splitColon_noColon : ∀ {w : List Item}, .tok .colon ∉ w → splitColon w = [w]
  | [], _ => rfl
  | x :: w, h => by
    simp only [List.mem_cons, not_or] at h
    obtain ⟨p, ps, h1, h2⟩ := splitColon_cons (Ne.symm h.1) w
    rw [splitColon_noColon h.2] at h1
    cases h1
    exact h2

theorem splitColon_or : ∀ u v : List Item, splitColon (u ++ .tok .colon :: v) = splitColon u ++ splitColon v
  | [], v => by simp [splitColon]
  | x :: u, v => by
    by_cases hx : x = .tok .colon
    · subst hx; simp [splitColon, splitColon_or u v]
    · obtain ⟨p, ps, h1, h2⟩ := splitColon_cons hx u
      obtain ⟨q, qs, h3, h4⟩ := splitColon_cons hx (u ++ .tok .colon :: v)
      rw [splitColon_or u v, h1] at h3
      cases h3
      rw [List.cons_append, h4, h2]
      rfl

theorem splitColon_snoc {x : Item} (hx : x ≠ .tok .colon) : ∀ w : List Item, ∃ ps p, splitColon w = ps ++ [p] ∧ splitColon (w ++ [x]) = ps ++ [p ++ [x]]
  | [] => ⟨[], [], rfl, by
      obtain ⟨p, ps, h1, h2⟩ := splitColon_cons hx []
      cases h1
      simpa using h2⟩
  | y :: w => by
    obtain ⟨ps, p, h1, h2⟩ := splitColon_snoc hx w
    by_cases hy : y = .tok .colon
    · subst hy
      exact ⟨[] :: ps, p, by simp [splitColon, h1], by simp [splitColon, h2]⟩
    · obtain ⟨q, qs, h3, h4⟩ := splitColon_cons hy w
      obtain ⟨q', qs', h3', h4'⟩ := splitColon_cons hy (w ++ [x])
      rw [h1] at h3
      rw [h2] at h3'
      rw [List.cons_append, h4, h4']
      cases ps with
      | nil =>
        simp at h3 h3'
        obtain ⟨rfl, rfl⟩ := h3
        obtain ⟨rfl, rfl⟩ := h3'
        exact ⟨[], y :: p, rfl, rfl⟩
      | cons a ps =>
        simp at h3 h3'
        obtain ⟨rfl, rfl⟩ := h3
        obtain ⟨rfl, rfl⟩ := h3'
        exact ⟨(y :: a) :: ps, p, rfl, rfl⟩

theorem pieces_cons {σ : Side} {x : Item} {w : List Item} {vs : List Bool} (hx : x = .gone .lp ∨ x = .tok .lp ∨ x = .tok .blank)
    (h : List.Forall₂ (Piece σ) (splitColon w) vs) : List.Forall₂ (Piece σ) (splitColon (x :: w)) vs := by
  obtain ⟨p, ps, h1, h2⟩ := splitColon_cons (x := x) (by rcases hx with rfl | rfl | rfl <;> simp) w
  rw [h1] at h
  rw [h2]
  cases h with
  | cons ha hb =>
    refine .cons ?_ hb
    obtain ⟨L, v, R, rfl, hL, hR, hv⟩ := ha
    refine ⟨x :: L, v, R, rfl, ?_, hR, hv⟩
    intro y hy
    rcases List.mem_cons.1 hy with rfl | hy
    · exact hx
    · exact hL y hy

theorem forall₂_snoc {α β : Type} {P : α → β → Prop} : ∀ {l : List α} {a : α} {vs : List β}, List.Forall₂ P (l ++ [a]) vs →
    ∃ ws v, vs = ws ++ [v] ∧ List.Forall₂ P l ws ∧ P a v
  | [], a, vs, h => by
    cases h with
    | cons h t => cases t; exact ⟨[], _, rfl, .nil, h⟩
  | b :: l, a, vs, h => by
    cases h with
    | cons h t =>
      obtain ⟨ws, v, rfl, h1, h2⟩ := forall₂_snoc t
      exact ⟨_ :: ws, v, rfl, .cons h h1, h2⟩

theorem pieces_snoc {σ : Side} {x : Item} {w : List Item} {vs : List Bool} (hx : x = .gone .rp ∨ x = .tok .rp ∨ x = .tok .blank)
    (h : List.Forall₂ (Piece σ) (splitColon w) vs) : List.Forall₂ (Piece σ) (splitColon (w ++ [x])) vs := by
  obtain ⟨ps, p, h1, h2⟩ := splitColon_snoc (x := x) (by rcases hx with rfl | rfl | rfl <;> simp) w
  rw [h1] at h
  rw [h2]
  obtain ⟨ws, v, rfl, h3, h4⟩ := forall₂_snoc h
  refine Forall₂.append h3 (.cons ?_ .nil)
  obtain ⟨L, v, R, rfl, hL, hR, hv⟩ := h4
  refine ⟨L, v, R ++ [x], by simp, hL, ?_, hv⟩
  intro y hy
  rcases List.mem_append.1 hy with hy | hy
  · exact hR y hy
  · rcases List.mem_singleton.1 hy with rfl
    exact hx

theorem G.interNoColon {σ r m b} (h : G σ r m b) : r ≠ .union → NoPar m → .tok .colon ∉ m := by
  induction h with
  | num n h => intro _ _; simp
  | block _ _ => intro _ _; simp
  | paren _ _ => intro _ h; simp [NoPar] at h
  | one _ ih => exact fun _ hp => ih (by simp) hp
  | single _ _ => intro h; simp at h
  | and _ _ ih1 ih2 =>
    intro hr hp
    simp only [NoPar, List.mem_append, not_or] at hp
    simp [ih1 hr ⟨hp.1.1, hp.2.1⟩, ih2 hr ⟨hp.1.2, hp.2.2⟩]
  | or _ _ _ _ => intro h; simp at h
  | blankL _ ih => intro hr hp; simpa using ih hr ⟨by simpa using hp.1, by simpa using hp.2⟩
  | blankR _ ih => intro hr hp; simpa using ih hr ⟨by simpa using hp.1, by simpa using hp.2⟩
  | goneI _ ih => intro hr hp; simpa using ih hr ⟨by simpa using hp.1, by simpa using hp.2⟩
  | goneU _ _ => intro h; simp at h

theorem G.flatOr {σ r m b} (h : G σ r m b) : NoPar m → ∃ vs, List.Forall₂ (Piece σ) (splitColon m) vs ∧ b = vs.any id := by
  have lone : ∀ {m b}, G σ .inter m b → NoPar m → ∃ vs, List.Forall₂ (Piece σ) (splitColon m) vs ∧ b = vs.any id := by
    intro m b hm hp
    rw [splitColon_noColon (hm.interNoColon (by simp) hp)]
    exact ⟨[b], .cons ⟨[], m, [], by simp, by simp, by simp, hm⟩ .nil, by simp⟩
  induction h with
  | num n h => exact lone (.one (.num n h))
  | block h _ => exact lone (.one (.block h))
  | paren h _ => exact lone (.one (.paren h))
  | one h _ => exact lone (.one h)
  | single h _ => exact lone h
  | and h1 h2 _ _ => exact lone (.and h1 h2)
  | or _ _ ih1 ih2 =>
    intro hp
    simp only [NoPar, List.mem_append, List.mem_cons, not_or] at hp
    obtain ⟨vs, h1, h2⟩ := ih1 ⟨hp.1.1, hp.2.1⟩
    obtain ⟨vs', h3, h4⟩ := ih2 ⟨hp.1.2.2, hp.2.2.2⟩
    exact ⟨vs ++ vs', by rw [splitColon_or]; exact Forall₂.append h1 h3, by simp [h2, h4]⟩
  | blankL _ ih =>
    intro hp
    obtain ⟨vs, h1, h2⟩ := ih ⟨by simpa using hp.1, by simpa using hp.2⟩
    exact ⟨vs, pieces_cons (by simp) h1, h2⟩
  | blankR _ ih =>
    intro hp
    obtain ⟨vs, h1, h2⟩ := ih ⟨by simpa using hp.1, by simpa using hp.2⟩
    exact ⟨vs, pieces_snoc (by simp) h1, h2⟩
  | goneI h _ => exact lone (.goneI h)
  | goneU _ ih =>
    intro hp
    obtain ⟨vs, h1, h2⟩ := ih ⟨by simpa using hp.1, by simpa using hp.2⟩
    exact ⟨vs, pieces_cons (by simp) (pieces_snoc (by simp) h1), h2⟩

theorem Piece.topT {σ p c} (h : Piece σ p c) : TopT σ (strip (origs true p)) c := by
  obtain ⟨L, v, R, rfl, hL, hR, hv⟩ := h
  refine ⟨solid (origs true L), solid (origs true v), solid (origs true R), ?_, ?_, ?_, .single (hv.reads true)⟩
  · rw [solid_strip]; simp
  · intro x hx
    unfold solid origs at hx
    obtain ⟨h1, h2⟩ := List.mem_filter.1 hx
    obtain ⟨y, h3, h4⟩ := List.mem_flatMap.1 h1
    rcases hL y h3 with rfl | rfl | rfl
    · simpa [Item.orig] using h4
    · simpa [Item.orig] using h4
    · simp [Item.orig] at h4; subst h4; simp at h2
  · intro x hx
    unfold solid origs at hx
    obtain ⟨h1, h2⟩ := List.mem_filter.1 hx
    obtain ⟨y, h3, h4⟩ := List.mem_flatMap.1 h1
    rcases hR y h3 with rfl | rfl | rfl
    · simpa [Item.orig] using h4
    · simpa [Item.orig] using h4
    · simp [Item.orig] at h4; subst h4; simp at h2

end Geouned.Text
