import Verif.Decom.EndLemmas
import Verif.Decom.Props2
import Mathlib.Algebra.Order.Floor.Semiring
import Mathlib.Data.Rat.Floor
/-!
# C85: the decomposition ends

`splitSolid k o n` gives each `while True` loop `n` rounds; its outcome is `endless` if one of them has not ended by then.
-/
namespace Geouned.Decom

variable {S T Pt : Type}

/-- the property in full: with a kernel whose cuts are divisions, the decomposition ends -/
def C85_statement : Prop :=
  ∀ (S T Pt : Type) (k : Cad S T) (mem : S → Pt → Prop) (o : Options) (solids : List S), Exact k mem →
    ∃ n, splitSolid k o n solids ≠ .error .endless

/-- if no solid can be cut for ever, the decomposition ends, with one outcome however many rounds it is given -/
theorem C85_ends_partial (k : Cad S T) (hw : WellFounded (fun p s => ∃ ts tol ps, k.slice s ts tol = some ps ∧ 1 < ps.length ∧ p ∈ ps))
    (o : Options) (solids : List S) :
    ∃ n₀ r, r ≠ .error .endless ∧ ∀ n ≥ n₀, splitSolid k o n solids = r :=
  solidLoop_stable hw solids [] none

theorem sum_ge {v : S → ℚ} {ε : ℚ} {l : List S} (h : ∀ p ∈ l, ε ≤ v p) (hl : 1 ≤ l.length) (hε : 0 ≤ ε) : ε ≤ (l.map v).sum := by
  induction l with
  | nil => simp at hl
  | cons a l ih =>
    rw [List.map_cons, List.sum_cons]
    have ha := h a List.mem_cons_self
    rcases Nat.eq_zero_or_pos l.length with h0 | h0
    · have : l = [] := List.eq_nil_of_length_eq_zero h0
      subst this
      simpa using ha
    · have := ih (fun p hp => h p (List.mem_cons_of_mem _ hp)) h0
      linarith

theorem piece_le {v : S → ℚ} {ε : ℚ} {l : List S} (h : ∀ p ∈ l, ε ≤ v p) (hl : 1 < l.length) (hε : 0 ≤ ε) {p : S} (hp : p ∈ l) :
    v p + ε ≤ (l.map v).sum := by
  obtain ⟨a, b, rfl⟩ := List.append_of_mem hp
  have hab : 1 ≤ (a ++ b).length := by
    simp only [List.length_append, List.length_cons] at hl ⊢
    omega
  have := sum_ge (l := a ++ b) (fun q hq => h q (by
    rcases List.mem_append.mp hq with hq | hq
    · exact List.mem_append_left _ hq
    · exact List.mem_append_right _ (List.mem_cons_of_mem _ hq))) hab hε
  simp only [List.map_append, List.sum_append, List.map_cons, List.sum_cons] at this ⊢
  linarith

/-- if the kernel conserves the volume and its pieces are not arbitrarily small, the decomposition ends -/
theorem C85_volume_partial (k : Cad S T) (hk : KeepsVolume k) (ε : ℚ) (hε : 0 < ε)
    (hp : ∀ s ts tol ps, k.slice s ts tol = some ps → ∀ p ∈ ps, ε ≤ k.vol p) (o : Options) (solids : List S) :
    ∃ n₀ r, r ≠ .error .endless ∧ ∀ n ≥ n₀, splitSolid k o n solids = r := by
  refine C85_ends_partial k ?_ o solids
  refine Subrelation.wf (r := InvImage (· < ·) (fun s => ⌊k.vol s / ε⌋₊)) ?_ (InvImage.wf _ Nat.lt_wfRel.wf)
  rintro p s ⟨ts, tol, ps, hs, hl, hmem⟩
  have h1 := piece_le (hp s ts tol ps hs) hl hε.le hmem
  rw [hk s ts tol ps hs] at h1
  have h2 := hp s ts tol ps hs p hmem
  have h3 : k.vol p / ε + 1 ≤ k.vol s / ε := by
    rw [div_add_one hε.ne', div_le_div_iff_of_pos_right hε]
    exact h1
  change ⌊k.vol p / ε⌋₊ < ⌊k.vol s / ε⌋₊
  have h4 : ⌊k.vol p / ε + 1⌋₊ ≤ ⌊k.vol s / ε⌋₊ := Nat.floor_le_floor h3
  rw [Nat.floor_add_one (div_nonneg (by linarith) hε.le)] at h4
  omega

/-- the kernel of intervals meets the hypotheses -/
example (scale : ℚ) (hs : 0 < scale) (cl pl cy ax : ℤ × ℤ → List ℤ) : KeepsVolume (lineCad scale cl pl cy ax) ∧
    ∀ s ts tol ps, (lineCad scale cl pl cy ax).slice s ts tol = some ps → ∀ p ∈ ps, scale ≤ (lineCad scale cl pl cy ax).vol p := by
  refine ⟨line_keepsVolume _ _ _ _ _, ?_⟩
  intro s ts tol ps h p hp
  simp only [lineCad] at h ⊢
  split at h
  · next h0 =>
    have hx := Option.some.inj h
    rw [← hx] at hp
    have h1 : p.1 < p.2 := foldl_cutAt_pos ts [s] (by simpa using h0) p hp
    have h2 : (1 : ℚ) ≤ ((p.2 - p.1 : ℤ) : ℚ) := by exact_mod_cast (by omega : (1 : ℤ) ≤ p.2 - p.1)
    nlinarith
  · cases h

/-- a kernel that cuts an empty piece off every solid, and so from every piece again -/
def sliverCad : Cad (ℤ × ℤ) ℤ where
  vol i := (i.2 - i.1 : ℤ)
  slice i _ _ := some [(i.1, i.1), i]
  cylPlanes _ := []
  cyl i := i.1
  planes _ := [0]
  second _ _ := []
  aux _ := []
  par _ _ := true
  pos _ p := p
  depth := 30

theorem sliver_exact : Exact sliverCad lineMem := by
  intro s ts tol ps h
  have hx : [(s.1, s.1), s] = ps := Option.some.inj h
  rw [← hx]
  refine ⟨fun x => ?_, ?_, ?_⟩
  · simp only [List.mem_cons, List.not_mem_nil, or_false, exists_eq_or_imp, exists_eq_left, lineMem]
    omega
  · simp only [List.pairwise_cons, List.mem_cons, List.not_mem_nil, or_false, forall_eq, false_imp_iff, implies_true, List.Pairwise.nil, and_true,
      Apart, lineMem]
    intro x
    omega
  · simp [sliverCad]

theorem cutLoop_endless {cut : S → Except Exc (List S × Nat)} (h : ∀ s, ∃ a b, cut s = .ok ([a, b], 0)) : ∀ (n : Nat) (bs done : List S) (e : Nat),
    bs ≠ [] → cutLoop cut n bs done e = .error .endless := by
  have hr : ∀ (bs done new : List S) (e : Nat), ∃ new' e', cutRound cut bs done new e = .ok (done, new', e') ∧ (bs ≠ [] ∨ new ≠ [] → new' ≠ []) := by
    intro bs
    induction bs with
    | nil => intro done new e; exact ⟨new, e, rfl, by simp⟩
    | cons b bs ih =>
      intro done new e
      obtain ⟨x, y, hb⟩ := h b
      obtain ⟨new', e', h1, h2⟩ := ih done (new ++ [x, y]) 0
      refine ⟨new', e', ?_, fun _ => h2 (by simp)⟩
      rw [cutRound, hb]
      dsimp only
      rw [if_neg (by simp), h1]
  intro n
  induction n with
  | zero => intro bs done e _; rfl
  | succ n ih =>
    intro bs done e hne
    obtain ⟨new', e', h1, h2⟩ := hr bs done [] e
    rw [cutLoop, h1]
    dsimp only
    have := h2 (Or.inl hne)
    rw [if_neg (by rwa [List.length_eq_zero_iff]), ih _ _ _ this]

/-- the property fails: a kernel that keeps producing empty pieces -/
theorem C85_violated : ¬ C85_statement := by
  intro h
  obtain ⟨n, hn⟩ := h (ℤ × ℤ) ℤ ℤ sliverCad lineMem {} [(0, 1)] sliver_exact
  apply hn
  have hp : ∀ m, cutLoop (planeCut sliverCad {}) m [(0, 1)] [] 0 = .error .endless := by
    intro m
    refine cutLoop_endless (fun s => ⟨(s.1, s.1), s, ?_⟩) m _ _ _ (by simp)
    have : cutBy sliverCad {} s [0] = .ok [(s.1, s.1), s] := by
      unfold cutBy
      rw [show sliverCad.depth = 28 + 1 + 1 from rfl, splitBop, if_neg (by norm_num), if_pos (by norm_num), if_pos rfl, splitBop,
        if_neg (by norm_num), if_neg (by norm_num)]
      rfl
    have hl : planeLoop sliverCad {} s [[0]] = .ok [(s.1, s.1), s] := by
      rw [planeLoop, this]
      rfl
    have hg : orderGroups (T := ℤ) {} (Planes.sortPlanes sliverCad.par (fun a b => decide (a ≤ b)) sliverCad.pos false (sliverCad.planes s)) = [[0]] := rfl
    unfold planeCut splitPPlanes
    dsimp only
    rw [hg, hl]
    rfl
  cases n with
  | zero => rfl
  | succ n =>
    have h0 : splitFullCylinder sliverCad {} (n + 1) (0, 1) = .ok [(0, 1)] := rfl
    unfold splitSolid
    rw [solidLoop, h0]
    dsimp only
    unfold splitComponent splitPlanes
    rw [hp]

end Geouned.Decom
