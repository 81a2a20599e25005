import Verif.Face.NodeLemmas
import Mathlib.Logic.Relation
/-!
# Lemmas on the loop over the sorted ends
-/
namespace Geouned.Face

open Relation

/-- two ranges overlap, or are less than the tolerance apart -/
def Tch (rng : Nat → ℚ × ℚ) (ks : List Nat) (k m : Nat) : Prop :=
  k ∈ ks ∧ m ∈ ks ∧ (rng k).1 - (rng m).2 < uTol ∧ (rng m).1 - (rng k).2 < uTol

theorem uTol_pos : 0 < uTol := by unfold uTol; norm_num

structure Block (nodes : List Node) (rng : Nat → ℚ × ℚ) (ks : List Nat) (P Q : Nat → Nat) (s e : Nat) : Prop where
  lt : s < e
  len : e < nodes.length
  inPQ : ∀ k ∈ ks, s ≤ P k → P k ≤ e → Q k ≤ e
  inQP : ∀ k ∈ ks, s ≤ Q k → s ≤ P k
  head : (nodeAt nodes s).2 ∈ ks ∧ P (nodeAt nodes s).2 = s
  last : (nodeAt nodes e).2 ∈ ks ∧ Q (nodeAt nodes e).2 = e
  conn : ∀ k ∈ ks, s ≤ P k → P k ≤ e → ReflTransGen (Tch rng ks) (nodeAt nodes s).2 k
  cov : ∀ t, (nodeAt nodes s).1 ≤ t → t ≤ (nodeAt nodes e).1 → ∃ k ∈ ks, s ≤ P k ∧ P k ≤ e ∧ (rng k).1 - uTol ≤ t ∧ t ≤ (rng k).2 + uTol

inductive Good (nodes : List Node) (rng : Nat → ℚ × ℚ) (ks : List Nat) (P Q : Nat → Nat) : Nat → List (Nat × Nat) → Prop
  | last {s e : Nat} : Block nodes rng ks P Q s e → e + 1 = nodes.length → Good nodes rng ks P Q s [(s, e)]
  | more {s e : Nat} {bs : List (Nat × Nat)} : Block nodes rng ks P Q s e → e + 1 < nodes.length →
      (nodeAt nodes e).1 + uTol ≤ (nodeAt nodes (e + 1)).1 → Good nodes rng ks P Q (e + 1) bs → Good nodes rng ks P Q s ((s, e) :: bs)

theorem searchNext_spec {nodes : List Node} {rng : Nat → ℚ × ℚ} {ks : List Nat} {mn mx : Nat → Option Nat} {P Q : Nat → Nat}
    (h : NodesOK nodes rng ks mn mx P Q) (x : ℚ) : ∀ (l : List Nat), (∀ i ∈ l, i < nodes.length) →
    (searchNext nodes mn x l = some none ∧ ∀ i ∈ l, x + uTol ≤ (rng (nodeAt nodes i).2).1) ∨
    ∃ i ∈ l, searchNext nodes mn x l = some (some (nodeAt nodes i).2) ∧ (rng (nodeAt nodes i).2).1 < x + uTol
  | [], _ => Or.inl ⟨by simp [searchNext], by simp⟩
  | i :: rest, hl => by
    have hi := hl i List.mem_cons_self
    have hk := (h.cover i hi).1
    rw [searchNext, h.mn_eq _ hk]
    dsimp only
    rw [h.atP _ hk]
    dsimp only
    split
    · next hlt => exact Or.inr ⟨i, List.mem_cons_self, rfl, by linarith⟩
    · next hlt =>
      rcases searchNext_spec h x rest (fun j hj => hl j (List.mem_cons_of_mem _ hj)) with ⟨h1, h2⟩ | ⟨j, hj, h1, h2⟩
      · refine Or.inl ⟨h1, fun j hj => ?_⟩
        rcases List.mem_cons.mp hj with rfl | hj
        · linarith
        · exact h2 j hj
      · exact Or.inr ⟨j, List.mem_cons_of_mem _ hj, h1, h2⟩

theorem valP {nodes : List Node} {rng : Nat → ℚ × ℚ} {ks : List Nat} {mn mx : Nat → Option Nat} {P Q : Nat → Nat}
    (h : NodesOK nodes rng ks mn mx P Q) {k : Nat} (hk : k ∈ ks) : (nodeAt nodes (P k)).1 = (rng k).1 := by rw [h.atP k hk]

theorem valQ {nodes : List Node} {rng : Nat → ℚ × ℚ} {ks : List Nat} {mn mx : Nat → Option Nat} {P Q : Nat → Nat}
    (h : NodesOK nodes rng ks mn mx P Q) {k : Nat} (hk : k ∈ ks) : (nodeAt nodes (Q k)).1 = (rng k).2 := by rw [h.atQ k hk]

theorem rng_le {nodes : List Node} {rng : Nat → ℚ × ℚ} {ks : List Nat} {mn mx : Nat → Option Nat} {P Q : Nat → Nat}
    (h : NodesOK nodes rng ks mn mx P Q) {k : Nat} (hk : k ∈ ks) : (rng k).1 ≤ (rng k).2 := by
  rw [← valP h hk, ← valQ h hk]
  exact h.mono _ _ (h.lt k hk).le (h.len k hk)

/-- the start of a range -/
theorem start_inv {nodes : List Node} {rng : Nat → ℚ × ℚ} {ks : List Nat} {mn mx : Nat → Option Nat} {P Q : Nat → Nat}
    (h : NodesOK nodes rng ks mn mx P Q) {s : Nat} (hs : s < nodes.length) (hP : P (nodeAt nodes s).2 = s) :
    (∀ k ∈ ks, s ≤ P k → P k ≤ Q (nodeAt nodes s).2 → ReflTransGen (Tch rng ks) (nodeAt nodes s).2 k) ∧
    ∀ t, (nodeAt nodes s).1 ≤ t → t ≤ (nodeAt nodes (Q (nodeAt nodes s).2)).1 →
      ∃ k ∈ ks, s ≤ P k ∧ P k ≤ Q (nodeAt nodes s).2 ∧ (rng k).1 - uTol ≤ t ∧ t ≤ (rng k).2 + uTol := by
  have hl := (h.cover s hs).1
  generalize hL : (nodeAt nodes s).2 = L at hP hl
  have h0 := uTol_pos
  constructor
  · intro k hk h1 h2
    refine ReflTransGen.single ⟨hl, hk, ?_, ?_⟩
    · have a1 : (rng L).1 ≤ (rng k).1 := by
        rw [← valP h hl, ← valP h hk, hP]
        exact h.mono _ _ h1 ((h.lt k hk).trans (h.len k hk))
      have a2 := rng_le h hk
      linarith
    · have a1 : (rng k).1 ≤ (rng L).2 := by
        rw [← valP h hk, ← valQ h hl]
        exact h.mono _ _ h2 (h.len L hl)
      linarith
  · intro t h1 h2
    refine ⟨L, hl, by omega, (h.lt L hl).le, ?_, ?_⟩
    · have : (nodeAt nodes s).1 = (rng L).1 := by rw [← valP h hl, hP]
      linarith
    · rw [valQ h hl] at h2
      linarith

theorem intervalLoop_spec {nodes : List Node} {rng : Nat → ℚ × ℚ} {ks : List Nat} {mn mx : Nat → Option Nat} {P Q : Nat → Nat}
    (h : NodesOK nodes rng ks mn mx P Q) : ∀ {n s i : Nat}, nodes.length ≤ i + n → s < i → i < nodes.length →
    (∀ k ∈ ks, s ≤ Q k → s ≤ P k) → P (nodeAt nodes s).2 = s → Q (nodeAt nodes i).2 = i →
    (∀ k ∈ ks, s ≤ P k → P k ≤ i → ReflTransGen (Tch rng ks) (nodeAt nodes s).2 k) →
    (∀ t, (nodeAt nodes s).1 ≤ t → t ≤ (nodeAt nodes i).1 → ∃ k ∈ ks, s ≤ P k ∧ P k ≤ i ∧ (rng k).1 - uTol ≤ t ∧ t ≤ (rng k).2 + uTol) →
    ∃ bs, intervalLoop nodes mn mx n i (nodeAt nodes s) = some (bs.map (fun b => (nodeAt nodes b.1, nodeAt nodes b.2))) ∧ Good nodes rng ks P Q s bs := by
  have h0 := uTol_pos
  intro n
  induction n with
  | zero => intro s i hn _ hi; omega
  | succ n ih =>
    intro s i hn hsi hi hcl hP hQ hconn hcov
    have hc := (h.cover i hi).1
    have hx : (nodeAt nodes i).1 = (rng (nodeAt nodes i).2).2 := by
      rw [← valQ h hc, hQ]
    have hmem : ∀ j, j ∈ List.range' (i + 1) (nodes.length - (i + 1)) ↔ i < j ∧ j < nodes.length := by
      intro j
      rw [List.mem_range'_1]
      omega
    rw [intervalLoop]
    rcases searchNext_spec h (nodeAt nodes i).1 (List.range' (i + 1) (nodes.length - (i + 1))) (fun j hj => ((hmem j).mp hj).2) with
      ⟨h1, h2⟩ | ⟨j, hj, h1, h2⟩
    · rw [h1]
      dsimp only
      -- no range begins near: the block ends
      have hafter : ∀ j, i < j → j < nodes.length → i < P (nodeAt nodes j).2 := by
        intro j hj hjl
        have a := h2 j ((hmem j).mpr ⟨hj, hjl⟩)
        by_contra hcon
        have hk := (h.cover j hjl).1
        have := h.mono (P (nodeAt nodes j).2) i (by omega) hi
        rw [valP h hk] at this
        linarith
      have hblock : Block nodes rng ks P Q s i := by
        refine ⟨hsi, hi, fun k hk a1 a2 => ?_, hcl, ⟨(h.cover s (by omega)).1, hP⟩, ⟨hc, hQ⟩, hconn, hcov⟩
        by_contra hcon
        have := hafter (Q k) (by omega) (h.len k hk)
        rw [h.atQ k hk] at this
        dsimp only at this
        omega
      split
      · next hlt =>
        have hk := (h.cover (i + 1) hlt).1
        have hPi : P (nodeAt nodes (i + 1)).2 = i + 1 := by
          rcases (h.cover (i + 1) hlt).2 with a | a
          · exact a.symm
          · have b := hafter (i + 1) (by omega) hlt
            have c := h.lt _ hk
            omega
        rw [h.mx_eq _ hk]
        dsimp only
        obtain ⟨c1, c2⟩ := start_inv h hlt hPi
        have hcl' : ∀ k ∈ ks, i + 1 ≤ Q k → i + 1 ≤ P k := by
          intro k hk' hq
          have := hafter (Q k) (by omega) (h.len k hk')
          rw [h.atQ k hk'] at this
          exact this
        obtain ⟨bs, hb1, hb2⟩ := ih (s := i + 1) (i := Q (nodeAt nodes (i + 1)).2) (by have := h.lt _ hk; omega) (by have := h.lt _ hk; omega)
          (h.len _ hk) hcl' hPi (by rw [h.atQ _ hk]) c1 c2
        refine ⟨(s, i) :: bs, by rw [hb1]; rfl, Good.more hblock hlt ?_ hb2⟩
        have := h2 (i + 1) ((hmem _).mpr ⟨by omega, hlt⟩)
        rw [← valP h hk, hPi] at this
        exact this
      · exact ⟨[(s, i)], rfl, Good.last hblock (by omega)⟩
    · rw [h1]
      obtain ⟨hj1, hj2⟩ := (hmem j).mp hj
      have hm := (h.cover j hj2).1
      have hjQ : j ≤ Q (nodeAt nodes j).2 := by
        rcases (h.cover j hj2).2 with a | a
        · have := h.lt _ hm; omega
        · omega
      generalize (nodeAt nodes j).2 = m at *
      dsimp only
      rw [h.mx_eq m hm]
      dsimp only
      have hQl := h.len m hm
      have hb : (rng (nodeAt nodes i).2).2 ≤ (rng m).2 := by
        rw [← hx, ← valQ h hm]
        exact h.mono _ _ (by omega) hQl
      have hsm : s ≤ P m := hcl m hm (by omega)
      have hsc : s ≤ P (nodeAt nodes i).2 := hcl _ hc (by omega)
      have hle : P (nodeAt nodes i).2 ≤ i := by have := h.lt _ hc; omega
      have hcm : Tch rng ks (nodeAt nodes i).2 m := by
        refine ⟨hc, hm, ?_, ?_⟩
        · have := rng_le h hc
          linarith
        · linarith
      have hLm : ReflTransGen (Tch rng ks) (nodeAt nodes s).2 m := (hconn _ hc hsc hle).tail hcm
      refine ih (by omega) (by omega) hQl hcl hP (by rw [h.atQ m hm]) (fun k hk a1 a2 => ?_) (fun t t1 t2 => ?_)
      · rcases Nat.lt_or_ge i (P k) with hik | hik
        · refine hLm.tail ⟨hm, hk, ?_, ?_⟩
          · have b1 : (nodeAt nodes i).1 ≤ (rng k).1 := by
              rw [← valP h hk]
              exact h.mono _ _ hik.le ((h.lt k hk).trans (h.len k hk))
            have b2 := rng_le h hk
            linarith
          · have b1 : (rng k).1 ≤ (rng m).2 := by
              rw [← valP h hk, ← valQ h hm]
              exact h.mono _ _ a2 hQl
            linarith
        · exact hconn k hk a1 hik
      · rcases le_or_gt t (nodeAt nodes i).1 with ht | ht
        · obtain ⟨k, hk, k1, k2, k3, k4⟩ := hcov t t1 ht
          exact ⟨k, hk, k1, by omega, k3, k4⟩
        · refine ⟨m, hm, hsm, (h.lt m hm).le, by linarith, ?_⟩
          rw [valQ h hm] at t2
          linarith

/-- the blocks found, from a start -/
theorem good_spec {nodes : List Node} {rng : Nat → ℚ × ℚ} {ks : List Nat} {mn mx : Nat → Option Nat} {P Q : Nat → Nat}
    (h : NodesOK nodes rng ks mn mx P Q) {s : Nat} {bs : List (Nat × Nat)} (hg : Good nodes rng ks P Q s bs)
    (hprev : ∀ i < s, (nodeAt nodes i).1 + uTol ≤ (nodeAt nodes s).1) :
    (∀ b ∈ bs, s ≤ b.1 ∧ Block nodes rng ks P Q b.1 b.2 ∧ (∀ i < b.1, (nodeAt nodes i).1 + uTol ≤ (nodeAt nodes b.1).1) ∧
      ∀ i, b.2 < i → i < nodes.length → (nodeAt nodes b.2).1 + uTol ≤ (nodeAt nodes i).1) ∧
    (∀ i, s ≤ i → i < nodes.length → ∃ b ∈ bs, b.1 ≤ i ∧ i ≤ b.2) ∧
    bs.Pairwise (fun b c => b.2 < c.1) ∧ (∀ b ∈ bs.head?, b.1 = s) ∧ (∀ b ∈ bs.getLast?, b.2 + 1 = nodes.length) ∧ bs ≠ [] := by
  induction hg with
  | @last s e hb he =>
    refine ⟨fun b hbm => ?_, fun i h1 h2 => ⟨(s, e), by simp, h1, by dsimp only; omega⟩, by simp, by simp, by simp; omega, by simp⟩
    rw [List.mem_singleton] at hbm
    subst hbm
    exact ⟨Nat.le_refl _, hb, hprev, fun i h1 h2 => by dsimp only at h1; omega⟩
  | @more s e bs hb he hsep hg' ih =>
    have hprev' : ∀ i < e + 1, (nodeAt nodes i).1 + uTol ≤ (nodeAt nodes (e + 1)).1 := by
      intro i hi
      have := h.mono i e (by omega) (by omega)
      linarith
    obtain ⟨i1, i2, i3, i4, i5, i6⟩ := ih hprev'
    refine ⟨fun b hbm => ?_, fun i h1 h2 => ?_, ?_, by simp, ?_, by simp⟩
    · rcases List.mem_cons.mp hbm with rfl | hbm
      · refine ⟨Nat.le_refl _, hb, hprev, fun i h1 h2 => ?_⟩
        dsimp only at h1 ⊢
        have := h.mono (e + 1) i (by omega) h2
        linarith
      · obtain ⟨a1, a2⟩ := i1 b hbm
        exact ⟨by have := hb.lt; omega, a2⟩
    · rcases Nat.lt_or_ge e i with hie | hie
      · obtain ⟨b, hbm, hb2⟩ := i2 i (by omega) h2
        exact ⟨b, List.mem_cons_of_mem _ hbm, hb2⟩
      · exact ⟨(s, e), List.mem_cons_self, h1, hie⟩
    · refine List.pairwise_cons.mpr ⟨fun c hc => ?_, i3⟩
      have := (i1 c hc).1
      dsimp only
      omega
    · cases bs with
      | nil => exact absurd rfl i6
      | cons c cs =>
        rw [List.getLast?_cons_cons]
        exact i5

end Geouned.Face
