import Verif.Decom.ErrLemmas
import Verif.Decom.Props
import Verif.Decom.Cuts
import Mathlib.Algebra.Order.Field.Basic
import Mathlib.Tactic.Positivity
/-!
# C84: the cells reported as suspicious
-/
namespace Geouned.Decom

variable {S T : Type}

/-- every cut of the kernel conserves the volume -/
def KeepsVolume (k : Cad S T) : Prop := ∀ s ts tol ps, k.slice s ts tol = some ps → (ps.map k.vol).sum = k.vol s

/-- the property in full: a cell that is decomposed and not reported has its volume within 1 % -/
def C84_statement : Prop :=
  ∀ (S T : Type) (k : Cad S T) (o : Options) (n : Nat) (isMeta : Bool) (ms out : List (Meta S)) (warn : List Nat) (i : Nat) (m m' : Meta S),
    KeepsVolume k → decomposeSolids k o n isMeta ms = .ok (out, warn) → ms[i]? = some m → out[i]? = some m' → i ∉ warn →
    |(m.solids.map k.vol).sum - (m'.solids.map k.vol).sum| ≤ 1 / 100 * |(m.solids.map k.vol).sum|

/-- the same for the points: a cell of one solid that is not reported has lost no piece -/
def C84_statement_pieces : Prop :=
  ∀ (S T Pt : Type) (k : Cad S T) (mem : S → Pt → Prop) (o : Options) (n : Nat) (s : S) (out : List S),
    Exact k mem → splitSolid k o n [s] = .ok (out, 0) → Divides k mem out [s]

/-- the cells afterwards: an enclosure among the solid cells is left alone; any other has the pieces of its decomposition, and is reported if and only if
the error number of the decomposition is not 0; the report is in order and without repetition -/
theorem C84_report (k : Cad S T) (o : Options) (n : Nat) (isMeta : Bool) (ms out : List (Meta S)) (warn : List Nat)
    (h : decomposeSolids k o n isMeta ms = .ok (out, warn)) :
    out.length = ms.length ∧ (∀ w ∈ warn, w < ms.length) ∧ warn.Pairwise (· < ·) ∧
    ∀ i m, ms[i]? = some m →
      (isMeta = true ∧ m.isEnclosure = true ∧ out[i]? = some m ∧ i ∉ warn) ∨
      ((isMeta && m.isEnclosure) = false ∧ ∃ pieces err, splitSolid k o n m.solids = .ok (pieces, err) ∧
        out[i]? = some ⟨pieces, m.isEnclosure⟩ ∧ (i ∈ warn ↔ err ≠ 0)) := by
  obtain ⟨more, ws, h1, h2, h3, h4, h5, h6⟩ := decomposeLoop_ok h
  have e1 : out = more := by simpa using h1
  have e2 : warn = ws := by simpa using h2
  subst e1
  subst e2
  refine ⟨h3, fun w hw => by have := (h4 w hw).2; omega, h5, fun i m hi => ?_⟩
  have := h6 i m hi
  rw [Nat.zero_add] at this
  exact this

/-- one solid, error number 0: the volume is within 1 % -/
theorem C84_single_partial (k : Cad S T) (hk : KeepsVolume k) (o : Options) (n : Nat) (s : S) (out : List S)
    (h : splitSolid k o n [s] = .ok (out, 0)) : k.vol s ≠ 0 ∧ |k.vol s - (out.map k.vol).sum| ≤ 1 / 100 * |k.vol s| := by
  obtain ⟨ex, h0, h1⟩ := splitSolid_one h
  have hs : volume k ex = k.vol s := splitFullCylinder_sum (μ := k.vol) hk h0
  obtain ⟨h2, h3⟩ := splitComponent_zero h1
  rw [hs] at h2 h3
  refine ⟨h2, ?_⟩
  rw [abs_div, div_le_iff₀ (abs_pos.mpr h2)] at h3
  exact h3

/-- a cell of one solid that is not reported has its volume within 1 % -/
theorem C84_cells_partial (k : Cad S T) (hk : KeepsVolume k) (o : Options) (n : Nat) (isMeta : Bool) (ms out : List (Meta S)) (warn : List Nat)
    (i : Nat) (m m' : Meta S) (s : S) (h : decomposeSolids k o n isMeta ms = .ok (out, warn)) (hi : ms[i]? = some m) (ho : out[i]? = some m')
    (hs : m.solids = [s]) (hw : i ∉ warn) : |(m.solids.map k.vol).sum - (m'.solids.map k.vol).sum| ≤ 1 / 100 * |(m.solids.map k.vol).sum| := by
  rcases (C84_report k o n isMeta ms out warn h).2.2.2 i m hi with ⟨-, -, h1, -⟩ | ⟨-, pieces, err, h1, h2, h3⟩
  · rw [h1] at ho
    have hx : m = m' := Option.some.inj ho
    rw [← hx, sub_self, abs_zero]
    positivity
  · rw [h2] at ho
    have hx : (⟨pieces, m.isEnclosure⟩ : Meta S) = m' := Option.some.inj ho
    have he : err = 0 := by
      by_contra hne
      exact hw (h3.mpr hne)
    rw [he, hs] at h1
    have := (C84_single_partial k hk o n s pieces h1).2
    rw [← hx, hs]
    simpa using this

/-- the error number is the one of the last solid of the cell alone -/
theorem C84_last (k : Cad S T) (o : Options) (n : Nat) (ss : List S) (s : S) (out : List S) (err : Nat)
    (h : splitSolid k o n (ss ++ [s]) = .ok (out, err)) : ∃ pre last, out = pre ++ last ∧ splitSolid k o n [s] = .ok (last, err) :=
  solidLoop_last h

/-- a cell without solids: an exception -/
theorem C84_empty (k : Cad S T) (o : Options) (n : Nat) : splitSolid k o n [] = .error .unbound := rfl

theorem line_keepsVolume (scale : ℚ) (cl pl cy ax : ℤ × ℤ → List ℤ) : KeepsVolume (lineCad scale cl pl cy ax) := by
  intro s ts tol ps h
  have := (line_exact scale cl pl cy ax s ts tol ps h).volume
  simpa using this

/-- a run with a report: the second cell loses a piece of 0.01 mm³ of 2 mm³ -/
example : decomposeSolids (lineCad (1 / 100) (fun _ => []) (fun _ => []) (fun _ => []) (fun i => if i.1 = 100 then [101] else [250])) {} 5 true
    [⟨[(0, 50)], false⟩, ⟨[(100, 300)], false⟩, ⟨[(400, 500)], true⟩] =
    .ok ([⟨[(0, 50)], false⟩, ⟨[(101, 300)], false⟩, ⟨[(400, 500)], true⟩], [1]) := by
  decide +kernel

example : splitSolid (lineCad 1 (fun _ => []) (fun _ => [2]) (fun _ => [4]) (fun _ => [5])) {} 5 [(0, 6)] = .ok ([(0, 2), (2, 4), (4, 5), (5, 6)], 0) := by
  decide +kernel

/-- the property fails: a cell of two solids of 0.015 mm³ each; the first vanishes, the report is empty -/
theorem C84_violated : ¬ C84_statement := by
  intro h
  have := h (ℤ × ℤ) ℤ (lineCad (3 / 400) (fun _ => []) (fun _ => []) (fun _ => []) (fun i => if i.1 = 0 then [1] else [])) {} 5 true
    [⟨[(0, 2), (10, 12)], false⟩] [⟨[(10, 12)], false⟩] [] 0 ⟨[(0, 2), (10, 12)], false⟩ ⟨[(10, 12)], false⟩ (line_keepsVolume _ _ _ _ _)
    (by decide +kernel) rfl rfl (by simp)
  norm_num [lineCad] at this

/-- the property of the pieces fails: a solid of 10 mm³ in two halves, of which the first loses a piece of 0.01 mm³; error number 0 -/
theorem C84_violated_pieces : ¬ C84_statement_pieces := by
  intro h
  have h2 := h (ℤ × ℤ) ℤ ℤ (lineCad (1 / 100) (fun _ => []) (fun _ => [500]) (fun _ => []) (fun i => if i = (0, 500) then [1] else [])) lineMem {} 5
    (0, 1000) [(1, 500), (500, 1000)] (line_exact _ _ _ _ _) (by decide +kernel)
  have := (h2.same 0).mpr ⟨(0, 1000), by simp, by simp [lineMem]⟩
  simp [lineMem] at this

/-! ### cuts that fail -/

/-- the property for cuts that fail: if a solid is not reported, no cut has failed: a kernel that makes the same cuts, and also those the first one cannot make, gives the same pieces -/
def C84_statement_cuts : Prop :=
  ∀ (S T : Type) (k : Cad S T) (sl : S → List T → ℚ → Option (List S)) (o : Options) (n : Nat) (s : S) (out : List S), Extends o k sl →
    splitSolid k o n [s] = .ok (out, 0) → splitSolid (k.with sl) o n [s] = .ok (out, 0)

/-- for solids without closed cylinders it holds -/
theorem C84_cuts_partial (k : Cad S T) (sl : S → List T → ℚ → Option (List S)) (o : Options) (n : Nat) (s : S) (out : List S) (h : Extends o k sl)
    (hc : k.cylPlanes s = []) (e : splitSolid k o n [s] = .ok (out, 0)) : splitSolid (k.with sl) o n [s] = .ok (out, 0) := by
  cases n with
  | zero => cases e
  | succ n =>
    have h1 : ∀ k' : Cad S T, k'.cylPlanes s = [] → splitFullCylinder k' o (n + 1) s = .ok [s] := by
      intro k' hk'
      have : cutFullCylinder k' o s = [s] := by unfold cutFullCylinder; rw [hk']; rfl
      unfold splitFullCylinder
      simp [cutLoop, cutRound, this]
    unfold splitSolid solidLoop at e ⊢
    rw [h1 k hc] at e
    rw [h1 (k.with sl) hc]
    dsimp only at e ⊢
    split at e
    · cases e
    · rename_i piece err hp
      have hr : ([] ++ piece, err) = (out, 0) := by
        unfold solidLoop at e; injection e
      injection hr with hr1 hr2
      subst hr2
      rw [splitComponent_mono h hp]
      exact e

/-- a kernel that cannot cut the interval (0, 6), and one that can -/
def noCut (k : Cad (ℤ × ℤ) ℤ) : Cad (ℤ × ℤ) ℤ := k.with fun i ts tol => if i = (0, 6) then none else k.slice i ts tol

theorem noCut_extends (k : Cad (ℤ × ℤ) ℤ) (o : Options) : Extends o (noCut k) k.slice := by
  intro s ts c h
  have hk : (noCut k).with k.slice = k := rfl
  rw [hk]
  unfold cutBy at h ⊢
  have hb : ∀ (n : Nat) (tol scale : ℚ), splitBop (fun _ => (none : Option (List (ℤ × ℤ)))) o n tol scale ≠ .ok c := by
    intro n
    induction n with
    | zero => intro tol scale h; cases h
    | succ n ih =>
      intro tol scale h
      rw [splitBop] at h
      split at h
      · cases h
      · split at h
        · split at h
          · exact ih _ _ h
          · cases h
        · exact ih _ _ h
  by_cases hs : s = (0, 6)
  · rw [show (noCut k).slice s ts = fun _ => none from by funext tol; simp [noCut, Cad.with, hs]] at h
    exact absurd h (hb _ _ _)
  · rw [show (noCut k).slice s ts = k.slice s ts from by funext tol; simp [noCut, Cad.with, hs]] at h
    exact h

/-- a failing cut by a cylinder is reported -/
example : splitSolid (noCut (lineCad 1 (fun _ => []) (fun _ => []) (fun _ => [4]) (fun _ => []))) {} 5 [(0, 6)] = .ok ([(0, 6)], 2) := by decide +kernel

example : splitSolid (noCut (lineCad 1 (fun _ => []) (fun _ => []) (fun _ => []) (fun _ => []))) {} 5 [(0, 6)] = .ok ([(0, 6)], 0) := by decide +kernel

/-- the property fails for closed cylinders: the cut that fails is taken as one that leaves the solid in one piece, and nothing is reported -/
theorem C84_cuts_violated : ¬ C84_statement_cuts := by
  intro h
  have := h (ℤ × ℤ) ℤ (noCut (lineCad 1 (fun i => if i = (0, 6) then [3] else []) (fun _ => []) (fun _ => []) (fun _ => []))) _ {} 5 (0, 6) [(0, 6)] (noCut_extends _ _)
    (by decide +kernel)
  exact absurd this (by decide +kernel)

end Geouned.Decom
