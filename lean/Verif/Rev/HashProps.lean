import Verif.Rev.HashLemmas4
import Verif.Text.Props
/-!
# C64: removal of the complement operator

What a text with `#` means is specified in `HashSpec.lean`.
-/
namespace Geouned.Rev
open Geouned.Text

/-! ## complementary -/

/-- **C64**, `complementary`: the text that is returned holds exactly at the points where the given one does not. It is a text in parentheses
(category `factor`), so that it may stand in the place of `#n`. -/
theorem C64_complementary (ts : List Tok) (hr : Readable ts) (hs : Spaced (ts.map emb)) :
    ∃ us, complementary (ts.map emb) = .ok (us.map emb) ∧ Spaced (us.map emb) ∧
      ∀ σ b, Means σ ts b → Reads σ .factor (solid us) (!b) := by
  obtain ⟨σ, b, h⟩ := hr
  obtain ⟨us, h1, -, h3, -⟩ := complementary_spec h ((spaced_iff ts).1 hs)
  refine ⟨us, h1, (spaced_iff us).2 h3, fun τ c h' => ?_⟩
  obtain ⟨vs, g1, g2, -⟩ := complementary_spec h' ((spaced_iff ts).1 hs)
  rw [h1] at g1
  cases map_emb_inj (Except.ok.inj g1)
  exact g2

/-- `1 (-2:( 3 4))` : the complement is `(-1:2 (-3:-4))` -/
example : (complementary (sample.map emb)).map hsolid =
    .ok [.lp, .num (-1), .colon, .num 2, .lp, .num (-3), .colon, .num (-4), .rp, .rp] := rfl

example : Readable sample ∧ Spaced (sample.map emb) := ⟨sample_readable, by simp [sample, emb, Spaced, isNumH]⟩

/-! ## remove_hash -/

theorem HReads.noAmp {σ cell r t b} (h : HReads σ cell r t b) : .amp ∉ t := by
  induction h with
  | num n _ => simp
  | paren _ ih => simp [ih]
  | hashCell n => simp
  | hashParen _ ih => simp [ih]
  | one _ ih => exact ih
  | and _ _ ih1 ih2 => simp [ih1, ih2]
  | single _ ih => exact ih
  | or _ _ ih1 ih2 => simp [ih1, ih2]

theorem removeText_noHash (ct : Nat → M (List HTok)) : ∀ ts : List HTok, .hash ∉ ts → removeText ct ts = .ok ts
  | [], _ => rfl
  | t :: ts, h => by
    simp only [List.mem_cons, not_or] at h
    exact removeText_tok ct (Ne.symm h.1) (removeText_noHash ct ts h.2)

/-- **C64**, `remove_hash`: for cells (`R`) whose cards are ordinary and well formed, and mention with `#` only such cells, and never
themselves (`ρ` decreases), the text returned has no `#` and holds exactly at the points of the cell. -/
theorem C64_remove_hash_partial (σ : Side) (deck : Nat → Option Card) (cell : Nat → Bool) (R : Nat → Prop) (ρ : Nat → Nat)
    (hR : ∀ n, R n → ∃ c, deck n = some c ∧ c.plain = true ∧ Spaced c.geom ∧ HMeans σ cell c.geom (cell n) ∧
      ∀ m, mentions c.geom m → R m ∧ ρ m < ρ n)
    (n : Nat) (hn : R n) (f : Nat) (hf : ρ n < f) :
    ∃ us, removeHash deck f n = .ok (us.map emb) ∧ Means σ us (cell n) ∧ Spaced (us.map emb) := by
  have key : ∀ f n, R n → ρ n < f → ∀ c, deck n = some c →
      ∃ us, remove deck f c = .ok (us.map emb) ∧ Means σ us (cell n) ∧ NoAdj (us.map isNum) := by
    intro f
    induction f with
    | zero => intro n _ h; omega
    | succ f ih =>
      intro n hn hf c hc
      obtain ⟨c', h1, h2, h3, h4, h5⟩ := hR n hn
      rw [hc] at h1
      cases h1
      have hgood : ∀ m : Nat, (∃ x y, hsolid c.geom = x ++ .hash :: .num m :: y) → Good σ (fun m => match deck m with
          | none => .error .keyError
          | some d => remove deck f d) cell m := by
        intro m hm
        obtain ⟨g1, g2⟩ := h5 m hm
        obtain ⟨d, g3, -⟩ := hR m g1
        obtain ⟨ds, g4, g5, g6⟩ := ih m g1 (by omega) d g3
        exact ⟨ds, by simp only [g3, g4], g5, g6⟩
      obtain ⟨us, hu⟩ := HReads.removed h4 hgood c.geom rfl ((spacedH_iff _).1 h3)
      have hrun := hu.run [] [] rfl
      simp only [List.append_nil] at hrun
      refine ⟨us, ?_, hu.reads, hu.spaced⟩
      unfold remove
      rw [h2]
      by_cases hh : HTok.hash ∈ c.geom
      · simp only [Bool.not_true, Bool.false_or, hh, not_true, decide_false, Bool.false_eq_true, if_false]
        exact hrun
      · simp only [Bool.not_true, Bool.false_or, hh, not_false_eq_true, decide_true, if_true]
        rw [removeText_noHash _ _ hh] at hrun
        exact hrun
  obtain ⟨c, h1, -⟩ := hR n hn
  obtain ⟨us, h2, h3, h4⟩ := key f n hn hf c h1
  refine ⟨us, ?_, h3, (spaced_iff us).2 h4⟩
  unfold removeHash
  rw [h1]
  exact h2

/-- cell 1: `1 -2`; cell 2: `3 #1 #(4:5)`; cell 3: `#2 : 6` -/
def sampleDeck : Nat → Option Card
  | 1 => some ⟨[.num 1, .blank, .num (-2)], true⟩
  | 2 => some ⟨[.num 3, .blank, .hash, .num 1, .blank, .hash, .lp, .num 4, .colon, .num 5, .rp], true⟩
  | 3 => some ⟨[.hash, .num 2, .blank, .colon, .blank, .num 6], true⟩
  | _ => none

/-- cell 2 becomes `3 (-1:2) (-4 -5)`, cell 3 becomes `(-3:(1 -2):(4:5)) : 6` -/
example : (removeHash sampleDeck 4 2).map hsolid =
      .ok [.num 3, .lp, .num (-1), .colon, .num 2, .rp, .lp, .lp, .num (-4), .num (-5), .rp, .rp] ∧
    (removeHash sampleDeck 4 3).map hsolid =
      .ok [.lp, .num (-3), .colon, .num 1, .num (-2), .colon, .num 4, .colon, .num 5, .rp, .colon, .num 6] := ⟨rfl, rfl⟩

/-- the conditions are met, for any sides -/
example (σ : Side) : ∃ cell : Nat → Bool, ∀ n, (n = 1 ∨ n = 2 ∨ n = 3) → ∃ c, sampleDeck n = some c ∧ c.plain = true ∧ Spaced c.geom ∧
    HMeans σ cell c.geom (cell n) := by
  refine ⟨fun n => if n = 1 then lit σ 1 && lit σ (-2) else
    if n = 2 then lit σ 3 && (!(lit σ 1 && lit σ (-2)) && !(lit σ 4 || lit σ 5)) else
    !(lit σ 3 && (!(lit σ 1 && lit σ (-2)) && !(lit σ 4 || lit σ 5))) || lit σ 6, ?_⟩
  rintro n (rfl | rfl | rfl)
  · refine ⟨_, rfl, rfl, by simp [Spaced, isNumH], ?_⟩
    exact .single (.and (.num 1 (by decide)) (.one (.num (-2) (by decide))))
  · refine ⟨_, rfl, rfl, by simp [Spaced, isNumH], ?_⟩
    exact .single (.and (.num 3 (by decide)) (.and (.hashCell 1) (.one (.hashParen (.or (.one (.num 4 (by decide)))
      (.single (.one (.num 5 (by decide)))))))))
  · refine ⟨_, rfl, rfl, by simp [Spaced, isNumH], ?_⟩
    exact .or (.one (.hashCell 2)) (.single (.one (.num 6 (by decide))))

example : ∀ n, (n = 1 ∨ n = 2 ∨ n = 3) → ∀ c, sampleDeck n = some c → ∀ m, mentions c.geom m → (m = 1 ∨ m = 2 ∨ m = 3) ∧ m < n := by
  rintro n hn c hc m ⟨a, b, h⟩
  have hm : HTok.num m ∈ hsolid c.geom := by rw [h]; simp
  rcases hn with rfl | rfl | rfl <;> cases hc <;> simp [hsolid] at h hm
  · rcases a with _ | ⟨x, _ | ⟨y, a⟩⟩ <;> simp at h
  · rcases a with _ | ⟨x, _ | ⟨y, _ | ⟨z, a⟩⟩⟩ <;> simp at h
    · omega
    · obtain ⟨_, _, _, h⟩ := h
      rcases a with _ | ⟨x, _ | ⟨y, _ | ⟨z, _ | ⟨w, _ | ⟨w', _ | ⟨w'', a⟩⟩⟩⟩⟩⟩ <;> simp at h
  · rcases a with _ | ⟨x, _ | ⟨y, _ | ⟨z, _ | ⟨w, a⟩⟩⟩⟩ <;> simp at h
    omega

/-- The full property: with cells that have a transformation (`TRCL`), too. -/
def C64_statement : Prop :=
  ∀ (P : Type) (σ : P → Side) (deck : Nat → Option (TCard P)) (cell : P → Nat → Bool) (ρ : Nat → Nat),
    InCells σ deck cell →
    (∀ n c, deck n = some c → Spaced c.geom ∧ ∀ m, mentions c.geom m → (∃ d, deck m = some d) ∧ ρ m < ρ n) →
    ∀ n c, deck n = some c → c.trcl = false → ∀ f, ρ n < f →
      ∃ us, removeHash (fun m => (deck m).map TCard.card) f n = .ok (us.map emb) ∧ ∀ x, Means (σ x) us (cell x n)

/-- cell 2: surface 1, transformed; cell 1: `#2`. The points are two, the transformation exchanges them -/
def movedDeck : Nat → Option (TCard Bool)
  | 1 => some ⟨[.hash, .num 2], false, id⟩
  | 2 => some ⟨[.num 1], true, not⟩
  | _ => none

/-- It does not hold: for `#n` the geometry of cell `n` is taken without its transformation. -/
theorem C64_transformed_violated : ¬ C64_statement := by
  intro H
  obtain ⟨us, h1, h2⟩ := H Bool (fun x _ => x) movedDeck (fun x n => if n = 2 then !x else x) (fun n => 2 - n) (by
      intro n c hc x
      match n, hc with
      | 1, hc =>
        cases hc
        have := HReads.single (HReads.one (HReads.hashCell (σ := fun _ => x) (cell := fun n => if n = 2 then !x else x) 2))
        simpa [HMeans, hsolid] using this
      | 2, hc =>
        cases hc
        have := HReads.single (HReads.one (HReads.num (σ := fun _ => !x) (cell := fun n => if n = 2 then !(!x) else !x) 1 (by decide)))
        simpa [HMeans, hsolid, lit] using this) (by
      intro n c hc
      match n, hc with
      | 1, hc =>
        cases hc
        refine ⟨by simp [Spaced, isNumH], ?_⟩
        rintro m ⟨a, b, h⟩
        have : m = 2 := by
          rcases a with _ | ⟨x, _ | ⟨y, a⟩⟩ <;> simp [hsolid] at h
          omega
        subst this
        exact ⟨⟨_, rfl⟩, by omega⟩
      | 2, hc =>
        cases hc
        refine ⟨by simp [Spaced], ?_⟩
        rintro m ⟨a, b, h⟩
        rcases a with _ | ⟨x, a⟩ <;> simp [hsolid] at h) 1 _ rfl rfl 3 (by omega)
  have e : removeHash (fun m => (movedDeck m).map TCard.card) 3 1 =
      .ok ([.blank, .blank, .blank, .blank, .blank, .blank, .blank, .lp, .lp, .num (-1), .rp, .rp, .blank, .blank].map emb) := rfl
  rw [e] at h1
  cases map_emb_inj (Except.ok.inj h1)
  have h3 := h2 true
  have h4 : Means (fun _ => true) [.blank, .blank, .blank, .blank, .blank, .blank, .blank, .lp, .lp, .num (-1), .rp, .rp, .blank, .blank] false := by
    have := Reads.single (Reads.one (Reads.paren (Reads.single (Reads.one (Reads.paren (Reads.single (Reads.one
      (Reads.num (σ := fun _ => true) (-1) (by decide)))))))))
    simpa [Means, solid, lit] using this
  have := C16_unambiguous _ _ _ _ h3 h4
  simp at this

/-- A cell with `TRCL` (or `LIKE`) keeps its `#`: its text is returned as it is. -/
theorem C64_transformed_kept_violated (deck : Nat → Option Card) (n f : Nat) (c : Card) (hc : deck n = some c) (hp : c.plain = false) :
    removeHash deck (f + 1) n = .ok c.geom := by
  unfold removeHash
  rw [hc]
  simp [remove, hp]

/-- A cell that mentions itself: the recursion does not end. -/
theorem C64_cycle_raises (f : Nat) : removeHash (fun n => if n = 1 then some ⟨[.hash, .num 1], true⟩ else none) f 1 = .error .recursion := by
  unfold removeHash
  simp only [if_true]
  induction f with
  | zero => rfl
  | succ f ih =>
    unfold remove
    simp [removeText, dropBlanks, bind, Except.bind]
    rw [ih]

end Geouned.Rev
