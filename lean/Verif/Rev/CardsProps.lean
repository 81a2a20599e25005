import Verif.Rev.CardsLemmas5
/-!
# C68: cells read from an MCNP file are what their cards say
-/
namespace Geouned.Rev
open Geouned.Text

/-- C68: The cells read from an MCNP file (with `LIKE n BUT`, `TRCL`, `#`, and with surfaces named in any way) are, universe by universe, those of the cards: same
entries, and the region that the card describes, now with numbered surfaces. `f`: recursion depth allowed; `order`: the order in which sets are visited. -/
def C68_statement : Prop :=
  ∀ (P : Type) [Inhabited P] (σ : P → Side) (cards : List (DCard P)) (cell : P → Nat → Bool) (keep : Nat → Bool) (ρ : Nat → Nat) (surfs : List (Surf P))
    (order : List Nat → List Nat) (f : Nat) (Us : List Nat),
    SoundFile cards (fun n => n ∈ surfs.map (·.name)) ρ → InDeck σ cards cell →
    (surfs.map (·.name)).Nodup → (surfs.map (·.id)).Nodup → (∀ s ∈ surfs, s.id ≠ 0) → (∀ s ∈ surfs, ∀ p, σ p s.name = s.pos p) →
    (∀ l, (order l).Perm l) → (∀ n, ρ n < f) →
    ∃ us S, readCells order f keep surfs cards Us = .ok (us, S) ∧ us.length = Us.length ∧
      ∀ i (h : i < us.length) (h' : i < Us.length), RightCells cards cell keep S.get Us[i] us[i]

/-- C68 for the files described by `PlainFile`, when no surface card has been skipped (ids 1, 2, ...). -/
theorem C68_read_partial {P : Type} [Inhabited P] (σ : P → Side) (cards : List (DCard P)) (cell : P → Nat → Bool) (keep : Nat → Bool) (ρ : Nat → Nat)
    (surfs : List (Surf P)) (order : List Nat → List Nat) (f : Nat) (Us : List Nat)
    (hs : SoundFile cards (fun n => n ∈ surfs.map (·.name)) ρ) (hin : InDeck σ cards cell) (hp : PlainFile cards keep)
    (hid : surfs.map (·.id) = List.range' 1 surfs.length) (hσ : ∀ s ∈ surfs, ∀ p, σ p s.name = s.pos p)
    (ho : ∀ l, (order l).Perm l) (hf : ∀ n, ρ n < f) :
    ∃ us S, readCells order f keep surfs cards Us = .ok (us, S) ∧ us.length = Us.length ∧
      ∀ i (h : i < us.length) (h' : i < Us.length), RightCells cards cell keep S.get Us[i] us[i] := by
  obtain ⟨cells, e1, e2, e3⟩ := explicit_spec hs.names hp (cards.map (·.name)) [] cards (by simp) rfl fun c hc => ⟨fun _ => cellAt_of_mem hs.names hc, fun h => by cases h⟩
  obtain ⟨us, u1, u2, u3, -⟩ := readUniverses_spec hs hp hin hid hσ f hf cells e2 e3 Us
  obtain ⟨us', S', r1, -, -, r4, r5⟩ := subst_spec hs hp hin ho Us us (byId surfs) (dense_byId hid) (.refl _) u2 u3
  refine ⟨us', S', ?_, r4, r5⟩
  unfold readCells
  simp only [e1, u1, bind, Except.bind]
  exact r1

/-! ## examples -/

/-- shift of the line -/
def shiftBy (k : Int) : Motion Int := ⟨fun p => p + k, fun p => p - k, fun p => by omega, fun p => by omega⟩

def plainCard (name mat : Nat) (geom : List HTok) : DCard Int := ⟨name, none, some mat, none, none, none, none, geom⟩

/-- `LIKE b BUT TRCL=(k 0 0)` -/
def likeCard (name b : Nat) (k : Int) : DCard Int := ⟨name, some b, none, none, none, none, some (shiftBy k), []⟩

/-- cell 1: inside surface 5. Cell 2: between 5 and 7 and outside cell 1. Cell 3: `LIKE 1 BUT TRCL=(20 0 0)`. Cell 4: `LIKE 3 BUT TRCL=(40 0 0)` -/
def likeFile : List (DCard Int) :=
  [plainCard 1 1 [.num (-5)], plainCard 2 2 [.num 5, .blank, .num (-7), .blank, .hash, .num 1], likeCard 3 1 20, likeCard 4 3 40]

def lineSurfs : List (Surf Int) := [⟨5, 1, fun p => decide (3 ≤ p.natAbs)⟩, ⟨7, 2, fun p => decide (10 ≤ p.natAbs)⟩]

def lineσ (p : Int) : Side := fun n => if n = 5 then decide (3 ≤ p.natAbs) else decide (10 ≤ p.natAbs)

def lineCell (p : Int) (n : Nat) : Bool :=
  match n with
  | 1 => !decide (3 ≤ p.natAbs)
  | 2 => decide (3 ≤ p.natAbs) && (!decide (10 ≤ p.natAbs) && !!decide (3 ≤ p.natAbs))
  | 3 => !decide (3 ≤ (p - 20).natAbs)
  | _ => !decide (3 ≤ (p - 40).natAbs)

theorem likeFile_1 {r : Entries Int} (h : Resolves likeFile (plainCard 1 1 [.num (-5)]) r) : r = ⟨some 1, none, none, none, none, [.num (-5)]⟩ := by
  cases h with
  | own _ => rfl
  | like h => cases h

theorem likeFile_2 {r : Entries Int} (h : Resolves likeFile (plainCard 2 2 [.num 5, .blank, .num (-7), .blank, .hash, .num 1]) r) :
    r = ⟨some 2, none, none, none, none, [.num 5, .blank, .num (-7), .blank, .hash, .num 1]⟩ := by
  cases h with
  | own _ => rfl
  | like h => cases h

theorem likeFile_mem {c : DCard Int} (h : c ∈ likeFile) : c = plainCard 1 1 [.num (-5)] ∨ c = plainCard 2 2 [.num 5, .blank, .num (-7), .blank, .hash, .num 1] ∨
    c = likeCard 3 1 20 ∨ c = likeCard 4 3 40 := by
  simpa [likeFile] using h

theorem likeFile_3 {r : Entries Int} (h : Resolves likeFile (likeCard 3 1 20) r) : r = ⟨some 1, none, none, none, some (shiftBy 20), [.num (-5)]⟩ := by
  cases h with
  | own h => cases h
  | @like _ d r h1 h2 h3 =>
    have h1 : 1 = d.name := Option.some.inj h1
    rcases likeFile_mem h2 with rfl | rfl | rfl | rfl
    · rw [likeFile_1 h3]; rfl
    · cases h1
    · cases h1
    · cases h1

theorem likeFile_4 {r : Entries Int} (h : Resolves likeFile (likeCard 4 3 40) r) : r = ⟨some 1, none, none, none, some (shiftBy 40), [.num (-5)]⟩ := by
  cases h with
  | own h => cases h
  | @like _ d r h1 h2 h3 =>
    have h1 : 3 = d.name := Option.some.inj h1
    rcases likeFile_mem h2 with rfl | rfl | rfl | rfl
    · cases h1
    · cases h1
    · rw [likeFile_3 h3]; rfl
    · cases h1

theorem likeFile_resolves : ∀ c ∈ likeFile, ∃ r, Resolves likeFile c r := by
  have r1 : Resolves likeFile (plainCard 1 1 [.num (-5)]) _ := .own rfl
  have r3 : Resolves likeFile (likeCard 3 1 20) _ := .like (d := plainCard 1 1 [.num (-5)]) rfl (by simp [likeFile]) r1
  intro c hc
  rcases likeFile_mem hc with rfl | rfl | rfl | rfl
  · exact ⟨_, r1⟩
  · exact ⟨_, .own rfl⟩
  · exact ⟨_, r3⟩
  · exact ⟨_, .like (d := likeCard 3 1 20) rfl (by simp [likeFile]) r3⟩

theorem hmentions_cons {t : HTok} {ts : List HTok} {n : Nat} (h : mentions (t :: ts) n) (ht : t ≠ .hash) : mentions ts n := by
  obtain ⟨a, b, e⟩ := h
  rw [hsolid_cons] at e
  split at e
  · exact ⟨a, b, e⟩
  · cases a with
    | nil => simp at e; exact absurd e.1 ht
    | cons x a => simp at e; exact ⟨a, b, e.2⟩

theorem likeFile_mentions1 {n : Nat} (h : mentions [.num (-5)] n) : False := by
  have := hmentions_cons h (by simp)
  obtain ⟨a, b, e⟩ := this
  simp [hsolid] at e

theorem likeFile_mentions2 {n : Nat} (h : mentions [.num 5, .blank, .num (-7), .blank, .hash, .num 1] n) : n = 1 := by
  have := hmentions_cons (hmentions_cons (hmentions_cons (hmentions_cons h (by simp)) (by simp)) (by simp)) (by simp)
  obtain ⟨a, b, e⟩ := this
  simp only [hsolid] at e
  cases a with
  | nil => simp at e; omega
  | cons x a =>
    cases a with
    | nil => simp at e
    | cons y a => simp at e

theorem likeFile_deck : InDeck lineσ likeFile lineCell := by
  intro c hc r hr p
  rcases likeFile_mem hc with rfl | rfl | rfl | rfl
  · rw [likeFile_1 hr]
    exact .single (.one (.num (-5) (by decide)))
  · rw [likeFile_2 hr]
    exact .single (.and (t := [.num 5]) (.num 5 (by decide)) (.and (t := [.num (-7)]) (u := [.hash, .num 1]) (.num (-7) (by decide)) (.one (.hashCell 1))))
  · rw [likeFile_3 hr]
    exact .single (.one (.num (-5) (by decide)))
  · rw [likeFile_4 hr]
    exact .single (.one (.num (-5) (by decide)))

theorem likeFile_sound : SoundFile likeFile (fun n => n ∈ lineSurfs.map (·.name)) (fun n => min n 4) where
  names := by decide
  resolves := likeFile_resolves
  spaced := by
    intro c hc hl
    rcases likeFile_mem hc with rfl | rfl | rfl | rfl
    · simp [plainCard, Spaced]
    · simp [plainCard, Spaced, isNumH]
    · cases hl
    · cases hl
  surfaces := by
    intro c hc hl n hn
    obtain ⟨a, m, b, e, rfl, hh⟩ := hn
    have hm : HTok.num m ∈ hsolid c.geom := by rw [e]; simp
    rcases likeFile_mem hc with rfl | rfl | rfl | rfl
    · simp [plainCard, hsolid] at hm
      subst hm
      decide
    · have e' : [HTok.num 5, .num (-7), .hash, .num 1] = a ++ .num m :: b := e
      match a, e' with
      | [], e' => cases e'; decide
      | [_], e' => cases e'; decide
      | [_, _], e' => cases e'
      | [x, y, z], e' =>
        cases e'
        exact absurd ⟨by decide, [_, _], rfl⟩ hh
      | x :: y :: z :: w :: a, e' => simp at e'
    · cases hl
    · cases hl
  hash := by
    intro c hc hl m hm
    rcases likeFile_mem hc with rfl | rfl | rfl | rfl
    · exact absurd hm likeFile_mentions1
    · cases likeFile_mentions2 hm
      refine ⟨by decide, plainCard 1 1 [.num (-5)], by simp [likeFile], rfl, ?_⟩
      intro r r' h1 h2
      rw [likeFile_2 h1, likeFile_1 h2]
    · cases hl
    · cases hl

theorem likeFile_plain : PlainFile likeFile (fun _ => true) where
  order := by
    intro pre c post e b hb
    match pre, e with
    | [], e => cases e; cases hb
    | [x], e => cases e; cases hb
    | [x, y], e =>
      cases e
      cases hb
      exact ⟨_, .head _, rfl, .inl (.head _)⟩
    | [x, y, z], e =>
      cases e
      cases hb
      exact ⟨likeCard 3 1 20, by simp [likeFile], rfl, .inl (by simp)⟩
    | x :: y :: z :: w :: pre, e =>
      have := congrArg List.length e
      simp [likeFile] at this
  given := by
    intro c hc _
    rcases likeFile_mem hc with rfl | rfl | rfl | rfl <;> decide
  sameU := by
    intro c hc d hd _ r r' h1 h2
    have hu : ∀ {x r}, x ∈ likeFile → Resolves likeFile x r → r.u = none := by
      intro x r hx h
      rcases likeFile_mem hx with rfl | rfl | rfl | rfl
      · rw [likeFile_1 h]
      · rw [likeFile_2 h]
      · rw [likeFile_3 h]
      · rw [likeFile_4 h]
    rw [hu hc h1, hu hd h2]
  kept := fun _ _ _ _ _ _ => rfl
  noHash := by
    intro c hc hl ht
    rcases likeFile_mem hc with rfl | rfl | rfl | rfl
    · exact absurd rfl ht
    · exact absurd rfl ht
    · cases hl
    · cases hl
  hashPlain := by
    intro c hc hl d hd hm
    rcases likeFile_mem hc with rfl | rfl | rfl | rfl
    · exact absurd hm likeFile_mentions1
    · have := likeFile_mentions2 hm
      rcases likeFile_mem hd with rfl | rfl | rfl | rfl
      · exact ⟨rfl, rfl⟩
      · cases this
      · cases this
      · cases this
    · cases hl
    · cases hl
  fillTr := by
    intro c hc r hr _
    rcases likeFile_mem hc with rfl | rfl | rfl | rfl
    · rw [likeFile_1 hr]
    · rw [likeFile_2 hr]
    · rw [likeFile_3 hr]
    · rw [likeFile_4 hr]

theorem lineSurfs_sides : ∀ s ∈ lineSurfs, ∀ p, lineσ p s.name = s.pos p := by
  intro s hs p
  have hs : s = ⟨5, 1, fun p => decide (3 ≤ p.natAbs)⟩ ∨ s = ⟨7, 2, fun p => decide (10 ≤ p.natAbs)⟩ := by simpa [lineSurfs] using hs
  rcases hs with rfl | rfl <;> rfl

/-- the hypotheses of C68 hold of `likeFile` -/
example : ∃ us S, readCells id 5 (fun _ => true) lineSurfs likeFile [0] = .ok (us, S) ∧ us.length = 1 ∧
    ∀ i (h : i < us.length) (h' : i < 1), RightCells likeFile lineCell (fun _ => true) S.get ([0] : List Nat)[i] us[i] := by
  obtain ⟨us, S, h1, h2, h3⟩ := C68_read_partial lineσ likeFile lineCell (fun _ => true) (fun n => min n 4) lineSurfs id 5 [0]
    likeFile_sound
    likeFile_deck likeFile_plain rfl lineSurfs_sides (fun l => .refl l) (fun n => by omega)
  exact ⟨us, S, h1, h2, h3⟩

/-- what is read: surfaces are renamed, and there are new surfaces 3 and 4 -/
example : ∃ a b c d S, readCells id 5 (fun _ => true) lineSurfs likeFile [0] = .ok ([[a, b, c, d]], S) ∧
    a.geom = [.num (-1)] ∧ c.geom = [.num (-3)] ∧ d.geom = [.num (-4)] ∧ S.map (·.1) = [1, 2, 3, 4] :=
  ⟨_, _, _, _, _, rfl, rfl, rfl, rfl, rfl⟩

/-! ## what goes wrong -/

/-- Surface card 2 is not supported and has been skipped; cell 1 has `TRCL=(5 0 0)` -/
def gapFile : List (DCard Int) := [⟨1, none, some 1, none, none, none, some (shiftBy 5), [.num 1]⟩, plainCard 2 1 [.num 3]]

def gapSurfs : List (Surf Int) := [⟨1, 1, fun p => decide (0 < p)⟩, ⟨3, 3, fun p => decide (10 < p)⟩]

def gapσ (p : Int) : Side := fun n => if n = 1 then decide (0 < p) else decide (10 < p)

def gapCell (p : Int) (n : Nat) : Bool := if n = 1 then decide (0 < p - 5) else decide (10 < p)

theorem gap_mem {c : DCard Int} (h : c ∈ gapFile) : c = ⟨1, none, some 1, none, none, none, some (shiftBy 5), [.num 1]⟩ ∨ c = plainCard 2 1 [.num 3] := by
  simpa [gapFile] using h

theorem gap_resolves {c : DCard Int} (h : c ∈ gapFile) {r : Entries Int} (hr : Resolves gapFile c r) : r = ⟨c.mat, c.u, c.fill, c.tr, c.trcl, c.geom⟩ := by
  cases hr with
  | own _ => rfl
  | like h1 => rcases gap_mem h with rfl | rfl <;> cases h1

theorem no_mentions {m : Int} {n : Nat} (h : mentions [.num m] n) : False := by
  obtain ⟨a, b, e⟩ := hmentions_cons h (by simp)
  simp [hsolid] at e

theorem gap_sound : SoundFile gapFile (fun n => n ∈ gapSurfs.map (·.name)) (fun _ => 0) where
  names := by decide
  resolves := by
    intro c hc
    rcases gap_mem hc with rfl | rfl <;> exact ⟨_, .own rfl⟩
  spaced := by
    intro c hc _
    rcases gap_mem hc with rfl | rfl <;> simp [plainCard, Spaced]
  surfaces := by
    intro c hc _ n hn
    obtain ⟨a, m, b, e, rfl, -⟩ := hn
    have hm : HTok.num m ∈ hsolid c.geom := by rw [e]; simp
    rcases gap_mem hc with rfl | rfl
    · simp [hsolid] at hm; subst hm; decide
    · simp [hsolid, plainCard] at hm; subst hm; decide
  hash := by
    intro c hc _ m hm
    rcases gap_mem hc with rfl | rfl <;> exact absurd hm no_mentions

theorem gap_deck : InDeck gapσ gapFile gapCell := by
  intro c hc r hr p
  rw [gap_resolves hc hr]
  rcases gap_mem hc with rfl | rfl
  · exact .single (.one (.num 1 (by decide)))
  · exact .single (.one (.num 3 (by decide)))

/-- C68 is false: when a surface card has been skipped, the moved copy of a surface takes the place of another surface. Here cell 2 becomes `x > 5`, not `x > 10`. -/
theorem C68_violated : ¬ C68_statement := by
  intro h
  obtain ⟨us, S, h1, h2, h3⟩ := h Int gapσ gapFile gapCell (fun _ => true) (fun _ => 0) gapSurfs id 1 [0] gap_sound gap_deck (by decide) (by decide)
    (by decide) (by
      intro s hs p
      have hs : s = ⟨1, 1, fun p => decide (0 < p)⟩ ∨ s = ⟨3, 3, fun p => decide (10 < p)⟩ := by simpa [gapSurfs] using hs
      rcases hs with rfl | rfl <;> rfl) (fun l => .refl l) (fun _ => by decide)
  have e : ∃ u1, readCells id 1 (fun _ => true) gapSurfs gapFile [0] =
      .ok ([[u1, plainCard 2 1 [.num 3]]], [(1, fun p => decide (0 < p)), (3, fun p => decide (0 < p - 5))]) := ⟨_, rfl⟩
  obtain ⟨u1, e⟩ := e
  rw [h1] at e
  cases e
  have h4 := h3 0 (Nat.zero_lt_one) (Nat.zero_lt_one)
  obtain ⟨c, hc, hi⟩ := h4.cells (plainCard 2 1 [.num 3]) (by simp)
  have hn : c.name = 2 := hi.name.symm
  obtain ⟨ts, g1, -, g2⟩ := hi.region
  have : ts = [.num 3] := by
    match ts, g1 with
    | [.num _], g1 => cases g1; rfl
    | [.lp], g1 => cases g1
    | [.rp], g1 => cases g1
    | [.colon], g1 => cases g1
    | [.blank], g1 => cases g1
  subst this
  have := g2 7
  rw [hn] at this
  have h5 : Means (fun n => (SDict.get [(1, fun p : Int => decide (0 < p)), (3, fun p => decide (0 < p - 5))] n).any fun s => s 7) [.num 3] true :=
    .single (.one (.num 3 (by decide)))
  exact absurd (C16_unambiguous _ _ _ _ h5 this) (by decide)

/-- The cell that a `LIKE` card names is in another universe: nothing can be read. (`LIKE 1 BUT U=1`; the file is `SoundFile`.) -/
theorem C68_universe_violated :
    readCells id 5 (fun _ => true) lineSurfs [plainCard 1 1 [.num (-5)], ⟨2, some 1, none, some 1, none, none, none, []⟩] [0, 1] = .error .keyError := rfl

/-- The cell that a `LIKE` card names is excluded by the filters: nothing can be read. -/
theorem C68_filter_violated : readCells id 5 (fun n => n ≠ 1) lineSurfs likeFile [0] = .error .keyError := rfl

/-- `LIKE 1 BUT MAT=0` has the material of cell 1, not 0; `LIKE 1 BUT U=0` is in the universe of cell 1. -/
theorem C68_zero_violated (c1 : DCard Int) (m u : Nat) (hm : c1.mat = some m) (hu : c1.u = some u) (hl : c1.like = none) (hn : c1.name = 1) :
    ∃ c, explicitLoop [1, 2] [c1, ⟨2, some 1, some 0, some 0, none, none, none, []⟩] = .ok [c1, c] ∧ c.mat = some m ∧ c.u = some u := by
  refine ⟨inherit ⟨2, some 1, some 0, some 0, none, none, none, []⟩ c1, ?_, hm, hu⟩
  simp [explicitLoop, cellAt, setCell, hl, hn, inherit]

/-- `FILL=1 (1 0 0) TRCL=(5 0 0)`: the transformation given with `FILL` is lost. -/
theorem C68_fill_violated : ∃ c t S, readCells id 5 (fun _ => true) lineSurfs [⟨1, none, some 0, none, some 1, some (shiftBy 1), some (shiftBy 5), [.num 5]⟩] [0] = .ok ([[c]], S) ∧
    c.tr = some t ∧ t.fwd 0 = 5 := ⟨_, _, _, rfl, rfl, rfl⟩

/-- The cell named by a `LIKE` card is itself a `LIKE` card that comes later: its entries are missing. Here cell 1 is `LIKE 2 BUT TRCL=...`, cell 2 is `LIKE 3 BUT
TRCL=...`, cell 3 is in universe 7; cell 1 is read into universe 0, where cell 2 is not. -/
theorem C68_order_violated :
    readCells id 5 (fun _ => true) lineSurfs [likeCard 1 2 20, likeCard 2 3 40, ⟨3, none, some 1, some 7, none, none, none, [.num (-5)]⟩] [0] = .error .keyError := rfl


end Geouned.Rev
