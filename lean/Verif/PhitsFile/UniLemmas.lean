import Verif.PhitsFile.UniSpec
import Verif.PhitsFile.FileLemmas
import Verif.McnpFile.ReadLemmas
import Verif.McnpFile.ReadSurf
/-!
# Lemmas for C110
-/
namespace Geouned.PhitsFile

open Geouned.McnpFile (IsNum RegionWords NumText)

theorem reads_one {σ : Side} {n : Int} {k : Text.Rank} {ts : List Text.Tok} {b : Bool} (h : Text.Reads σ k ts b) : ts = [.num n] → b = lit σ n := by
  induction h with
  | num m hm =>
    intro h
    have : m = n := by simpa using h
    rw [this]
  | paren _ _ => intro h; simp at h
  | one _ ih => exact ih
  | and h1 h2 _ _ =>
    intro h
    have h1 := List.length_pos_of_ne_nil (McnpFile.reads_ne h1)
    have h2 := List.length_pos_of_ne_nil (McnpFile.reads_ne h2)
    have := congrArg List.length h
    simp at this
    omega
  | single _ ih => exact ih
  | or h1 _ _ _ =>
    intro h
    have h1 := List.length_pos_of_ne_nil (McnpFile.reads_ne h1)
    have := congrArg List.length h
    simp at this
    omega

theorem tokOf_head {w : List Char} {t : Text.Tok} (h : Text.tokOf w = some t) : w.head? ≠ some 'U' ∧ w.head? ≠ some '#' := by
  have key : ∀ c : Char, c = 'U' ∨ c = '#' → w.head? ≠ some c := by
    intro c hc hw
    cases w with
    | nil => cases hw
    | cons a w =>
      have ha : a = c := by simpa using hw
      subst ha
      have hn : Text.natOf (a :: w) = none := by
        unfold Text.natOf
        rcases hc with rfl | rfl <;> simp
      have e : Text.tokOf (a :: w) = (Text.natOf (a :: w)).map fun (n : Nat) => .num (n : Int) := by
        unfold Text.tokOf
        split <;> first | (rcases hc with hc | hc <;> simp_all; done) | rfl
      rw [e, hn] at h
      cases h
  exact ⟨key _ (Or.inl rfl), key _ (Or.inr rfl)⟩

theorem tokens_heads : ∀ {ws : List (List Char)} {ts : List Text.Tok}, Text.tokensOf ws = some ts → ∀ w ∈ ws, w.head? ≠ some 'U' ∧ w.head? ≠ some '#'
  | [], _, _, w, hw => by cases hw
  | v :: ws, ts, h, w, hw => by
    unfold Text.tokensOf at h
    split at h
    · next t us h1 h2 =>
      rcases List.mem_cons.mp hw with rfl | hw
      · exact tokOf_head h1
      · exact tokens_heads h2 w hw
    · cases h

theorem density_one {f : Fmt} (hf : Formats f) {d : ℚ} {den : List (List Char)} (h : Density f d den) : den.length = 1 := by
  rcases h with ⟨_, rfl⟩ | ⟨_, rfl⟩
  · obtain ⟨w, h1, _⟩ := McnpFile.numText_words (hf.e4 d)
    rw [h1]; rfl
  · obtain ⟨w, h1, _⟩ := McnpFile.numText_words (hf.f7 d)
    rw [h1]; rfl

theorem isNum_ne {w : List Char} {n m : Int} (h : IsNum w n) (hne : n ≠ m) : Text.tokOf w ≠ some (.num m) := by
  unfold IsNum at h
  rw [h]
  intro h'
  exact hne (by simpa using h')

/-- material and density on a card -/
theorem material_drop {f : Fmt} (hf : Formats f) {i : Input} (hp : Positive i) {c : Cell} (hc : c ∈ i.cells) {mat : List Char} {den : List (List Char)}
    (h : MaterialWords f i c mat den) (x : List (List Char)) :
    (if Text.tokOf mat = some (.num 0) ∨ Text.tokOf mat = some (.num (-1)) then den ++ x else (den ++ x).drop 1) = x := by
  have pos : ∀ {m : Int}, 0 < m → IsNum mat m → den.length = 1 →
      (if Text.tokOf mat = some (.num 0) ∨ Text.tokOf mat = some (.num (-1)) then den ++ x else (den ++ x).drop 1) = x := by
    intro m hm hn hl
    rw [if_neg (by
      rintro (h | h)
      · exact isNum_ne hn (by omega) h
      · exact isNum_ne hn (by omega) h)]
    match den, hl with
    | [a], _ => rfl
  unfold MaterialWords at h
  split at h
  · obtain ⟨h1, rfl⟩ := h
    exact if_pos (Or.inr h1)
  split at h
  · split at h
    · obtain ⟨h1, rfl⟩ := h
      exact if_pos (Or.inl h1)
    · next m d hv =>
      exact pos (hp.voidMat m d hv) h.1 (density_one hf h.2)
  split at h
  · obtain ⟨h1, rfl⟩ := h
    exact if_pos (Or.inl h1)
  · next hm =>
    have hpos : 0 < c.material := lt_of_le_of_ne (hp.cells c hc) (Ne.symm hm)
    refine pos hpos h.1 ?_
    have h2 := h.2
    split at h2
    · obtain ⟨w, _, rfl⟩ := h2; rfl
    · obtain ⟨d, _, h3⟩ := h2; exact density_one hf h3

theorem number_card {w : List Char} {n : Int} (h : IsNum w n) (ws : List (List Char)) : number (w :: ws) = some n := by
  unfold number
  unfold IsNum at h
  dsimp only
  rw [h]

/-- the region on a card -/
theorem region_card {f : Fmt} (hf : Formats f) {i : Input} (hp : Positive i) {c : Cell} (hc : c ∈ i.cells) {uni : Bool} {ws : List (List Char)}
    (h : CellSays f i uni c ws) : number ws = some c.label ∧ (if uni = true ∧ c.inner then InnerWords i c (regionOf ws) else RegionWords c.toCell (regionOf ws)) := by
  obtain ⟨label, mat, den, reg, u, rfl, h1, h2, h3, h4⟩ := h
  refine ⟨number_card h1 _, ?_⟩
  have hu : u.filter (fun w => w.head? ≠ some 'U') = [] := by
    unfold UniverseWords at h4
    split at h4
    · rw [h4]; rfl
    · obtain ⟨w, _, rfl⟩ := h4
      rfl
  have e : regionOf (label :: mat :: (den ++ (reg ++ u))) = reg.filter (fun w => w.head? ≠ some 'U') := by
    unfold regionOf
    dsimp only
    rw [material_drop hf hp hc h2, List.filter_append, hu, List.append_nil]
  have hr : reg.filter (fun w => w.head? ≠ some 'U') = reg := by
    rw [List.filter_eq_self]
    intro w hw
    rw [decide_eq_true_eq]
    split at h3
    · obtain ⟨op, l, n, es, v, hs, _, rfl, g1, g2⟩ := h3
      rcases List.mem_cons.mp hw with rfl | hw
      · exact (tokOf_head g1).1
      · obtain ⟨j, hj, rfl⟩ := List.mem_iff_getElem.mp hw
        obtain ⟨v', hv', _⟩ := (List.forall₂_iff_get.mp g2).2 j hj (by rw [← (List.forall₂_iff_get.mp g2).1]; exact hj)
        have hv'' : hs[j] = '#' :: v' := hv'
        rw [hv'']
        simp
    · obtain ⟨ts, hts, _⟩ := (h3 (fun _ => true) _).mpr rfl
      exact (tokens_heads hts w hw).1
  rw [e, hr]
  exact h3

/-- a card without complements -/
theorem inside_plain {file : List (List (List Char))} {ws : List (List Char)} {c : McnpFile.Cell} (h : RegionWords c (regionOf ws)) (σ : Side) (n : Nat) :
    Inside file σ (n + 1) ws ↔ c.definition.sem σ = true := by
  obtain ⟨ts, hts, _⟩ := (h σ _).mpr rfl
  have hh := tokens_heads hts
  have e : (regionOf ws).filter (fun w => w.head? ≠ some '#') = regionOf ws := by
    rw [List.filter_eq_self]
    intro w hw
    rw [decide_eq_true_eq]
    exact (hh w hw).2
  unfold Inside
  rw [e, h σ true]
  constructor
  · exact fun h => h.1.symm
  · intro h
    refine ⟨h.symm, fun v hv => ?_⟩
    exact absurd rfl (hh _ hv).2

theorem forall2_left {α β : Type} {R : α → β → Prop} {as : List α} {bs : List β} (h : List.Forall₂ R as bs) {b : β} (hb : b ∈ bs) : ∃ a ∈ as, R a b := by
  induction h with
  | nil => cases hb
  | cons h _ ih =>
    rcases List.mem_cons.mp hb with rfl | hb
    · exact ⟨_, by simp, h⟩
    · obtain ⟨a, h1, h2⟩ := ih hb
      exact ⟨a, List.mem_cons_of_mem _ h1, h2⟩

theorem forall2_right {α β : Type} {R : α → β → Prop} {as : List α} {bs : List β} (h : List.Forall₂ R as bs) {a : α} (ha : a ∈ as) : ∃ b ∈ bs, R a b := by
  induction h with
  | nil => cases ha
  | cons h _ ih =>
    rcases List.mem_cons.mp ha with rfl | ha
    · exact ⟨_, by simp, h⟩
    · obtain ⟨a, h1, h2⟩ := ih ha
      exact ⟨a, List.mem_cons_of_mem _ h1, h2⟩

/-- numbers are not used twice -/
theorem numbered_inj {i : Input} (h : Numbered i) {c d : Cell} (hc : c ∈ i.cells) (hd : d ∈ i.cells) (hcr : c.real) (hdr : d.real) (hl : c.label = d.label) : c = d := by
  obtain ⟨so, vo, gr, h1, -, -, -, h5⟩ := h
  rw [← h1] at h5
  have mc : c ∈ i.cells.filter (fun c => c.real) := List.mem_filter.mpr ⟨hc, by simpa using hcr⟩
  have md : d ∈ i.cells.filter (fun c => c.real) := List.mem_filter.mpr ⟨hd, by simpa using hdr⟩
  obtain ⟨a, ha, ea⟩ := List.mem_iff_getElem.mp mc
  obtain ⟨b, hb, eb⟩ := List.mem_iff_getElem.mp md
  have l1 := h5 a c (by rw [← ea]; simp [ha])
  have l2 := h5 b d (by rw [← eb]; simp [hb])
  have : a = b := by omega
  subst this
  rw [← ea, ← eb]

/-- the points of all cards -/
theorem inside_region {f : Fmt} {i : Input} (hg : Good f i true) (hp : Positive i) {ws : List (List (List Char))}
    (h : List.Forall₂ (CellSays f i true) (i.cells.filter (fun c => Shown true c)) ws) :
    List.Forall₂ (fun c w => number w = some c.label ∧ ∀ n, 2 ≤ n → ∀ σ, Inside ws σ n w ↔ Region i c σ) (i.cells.filter (fun c => Shown true c)) ws := by
  have hmem : ∀ c ∈ i.cells.filter (fun c => Shown true c), c ∈ i.cells ∧ Shown true c := fun c hc => by
    have := List.mem_filter.mp hc
    exact ⟨this.1, by simpa using this.2⟩
  have hnum := hg.numbered rfl
  have hall : List.Forall₂ (fun c w => c ∈ i.cells ∧ Shown true c ∧ CellSays f i true c w) (i.cells.filter (fun c => Shown true c)) ws := by
    revert hmem
    generalize i.cells.filter (fun c => Shown true c) = l at h
    intro hmem
    induction h with
    | nil => exact .nil
    | cons h _ ih =>
      exact .cons ⟨(hmem _ (by simp)).1, (hmem _ (by simp)).2, h⟩ (ih fun c hc => hmem c (List.mem_cons_of_mem _ hc))
  refine hall.imp ?_
  rintro c w ⟨hc, hs, hw⟩
  obtain ⟨r1, r2⟩ := region_card hg.formats hp hc hw
  refine ⟨r1, fun n hn σ => ?_⟩
  obtain ⟨n, rfl⟩ : ∃ m, n = m + 2 := ⟨n - 2, by omega⟩
  unfold Region
  by_cases hi : c.inner
  · rw [if_pos ⟨rfl, hi⟩] at r2
    rw [if_pos hi]
    obtain ⟨op, l, m, es, w0, hs', hdef, hreg, hw0, hhs⟩ := r2
    have hgd := (hg.cells c hc).definition hs
    rw [if_pos ⟨rfl, hi⟩] at hgd
    obtain ⟨op', l', m', es', hdef', hm0, _⟩ := hgd
    rw [hdef] at hdef'
    have hmm : m = m' := by simp at hdef'; exact hdef'.2.2.1
    subst hmm
    have e : (regionOf w).filter (fun w => w.head? ≠ some '#') = [w0] := by
      rw [hreg, List.filter_cons_of_pos (by simpa using (tokOf_head hw0).2)]
      congr 1
      rw [List.filter_eq_nil_iff]
      intro x hx
      obtain ⟨s, _, v, rfl, _⟩ := forall2_right hhs hx
      simp
    have et : Text.tokensOf [w0] = some [.num m] := by
      unfold IsNum at hw0
      simp [Text.tokensOf, hw0]
    -- the cards of the solids
    have hsol : ∀ s ∈ solids i, ∃ w' ∈ ws, number w' = some s.label ∧ RegionWords s.toCell (regionOf w') := by
      intro s hs1
      obtain ⟨m1, m2, m3⟩ := solid_mem hs1
      have hsh : Shown true s := ⟨m2, fun _ => Or.inl m3⟩
      obtain ⟨w', k1, k2, k3, k4⟩ := forall2_right hall (a := s) (List.mem_filter.mpr ⟨m1, by simpa using hsh⟩)
      obtain ⟨q1, q2⟩ := region_card hg.formats hp m1 k4
      rw [if_neg (by
        rintro ⟨_, h⟩
        have := ((hg.cells s m1).grave (Or.inl h)).1
        rw [m3] at this; cases this)] at q2
      exact ⟨w', k1, q1, q2⟩
    unfold Inside
    rw [e, et]
    constructor
    · rintro ⟨⟨ts, hts, hr⟩, hall'⟩
      cases hts
      refine ⟨op, l, m, es, hdef, (reads_one hr rfl).symm, fun s hs1 => ?_⟩
      obtain ⟨w', k1, k2, k3⟩ := hsol s hs1
      obtain ⟨x, hx, v, rfl, hv⟩ := forall2_left hhs hs1
      have := hall' v (by rw [hreg]; exact List.mem_cons_of_mem _ hx) w' k1 s.label hv k2
      rw [inside_plain k3] at this
      simpa using this
    · rintro ⟨op2, l2, m2, es2, hd2, hlit, hsols⟩
      rw [hdef] at hd2
      have hm2 : m = m2 := by simp at hd2; exact hd2.2.2.1
      subst hm2
      refine ⟨⟨_, rfl, ?_⟩, ?_⟩
      · rw [← hlit]
        exact .single (.one (.num m hm0))
      · intro v hv w' hw' q hvq hq hin
        rw [hreg] at hv
        rcases List.mem_cons.mp hv with hv | hv
        · rw [← hv] at hw0
          exact (tokOf_head hw0).2 rfl
        · obtain ⟨s, hs1, v', hv', hsl⟩ := forall2_right hhs hv
          cases hv'
          have hqs : q = s.label := by
            unfold IsNum at hvq hsl
            rw [hvq] at hsl
            simpa using hsl
          obtain ⟨c0, _, g1, g2, g3⟩ := forall2_left hall hw'
          obtain ⟨q1, q2⟩ := region_card hg.formats hp g1 g3
          have hlab : c0.label = s.label := by
            rw [q1] at hq
            rw [← hqs]
            simpa using hq
          obtain ⟨m1, m2, m3⟩ := solid_mem hs1
          have : c0 = s := numbered_inj hnum g1 m1 g2.1 m2 hlab
          subst this
          rw [if_neg (by
            rintro ⟨_, h⟩
            have := ((hg.cells c0 m1).grave (Or.inl h)).1
            rw [m3] at this; cases this)] at q2
          rw [inside_plain q2, hsols c0 hs1] at hin
          cases hin
  · rw [if_neg (fun h => hi h.2)] at r2
    rw [if_neg hi]
    exact inside_plain r2 σ _

end Geouned.PhitsFile
