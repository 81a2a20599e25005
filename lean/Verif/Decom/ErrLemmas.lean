import Verif.Decom.Lemmas
import Mathlib.Tactic.Ring
/-!
# Lemmas on the error number of the decomposition
-/
namespace Geouned.Decom

variable {S T : Type}

/-- the pieces found so far are a prefix; after one solid the error number so far is of no account -/
theorem solidLoop_err {k : Cad S T} {o : Options} {n : Nat} : ∀ {l parts : List S} {e : Option Nat} {out : List S} {e' : Nat},
    solidLoop k o n l parts e = .ok (out, e') →
    ∃ more, out = parts ++ more ∧ ∀ (parts2 : List S) (e2 : Option Nat), (l ≠ [] ∨ e2 = e) → solidLoop k o n l parts2 e2 = .ok (parts2 ++ more, e') := by
  intro l
  induction l with
  | nil =>
    intro parts e out e' h
    cases e with
    | none => cases h
    | some e =>
      cases h
      refine ⟨[], by simp, fun parts2 e2 he => ?_⟩
      rcases he with he | he
      · exact absurd rfl he
      · subst he
        simp [solidLoop]
  | cons s ss ih =>
    intro parts e out e' h
    rw [solidLoop] at h
    split at h
    · cases h
    · next explode h0 =>
      split at h
      · cases h
      · next piece err h1 =>
        obtain ⟨more, h2, h3⟩ := ih h
        refine ⟨piece ++ more, by rw [h2, List.append_assoc], fun parts2 e2 _ => ?_⟩
        rw [solidLoop, h0]
        dsimp only
        rw [h1]
        dsimp only
        rw [h3 _ _ (Or.inr rfl), List.append_assoc]

theorem solidLoop_last {k : Cad S T} {o : Options} {n : Nat} : ∀ {ss : List S} {s : S} {parts : List S} {e : Option Nat} {out : List S} {e' : Nat},
    solidLoop k o n (ss ++ [s]) parts e = .ok (out, e') → ∃ pre more, out = pre ++ more ∧ solidLoop k o n [s] [] none = .ok (more, e') := by
  intro ss
  induction ss with
  | nil =>
    intro s parts e out e' h
    obtain ⟨more, h1, h2⟩ := solidLoop_err h
    exact ⟨parts, more, h1, by simpa using h2 [] none (by simp)⟩
  | cons a ss ih =>
    intro s parts e out e' h
    rw [List.cons_append, solidLoop] at h
    split at h
    · cases h
    · split at h
      · cases h
      · exact ih h

/-- what error number 0 of `split_component` says -/
theorem splitComponent_zero {k : Cad S T} {o : Options} {n : Nat} {l out : List S} (h : splitComponent k o n l = .ok (out, 0)) :
    volume k l ≠ 0 ∧ |(volume k l - volume k out) / volume k l| ≤ 1 / 100 := by
  unfold splitComponent at h
  split at h
  · cases h
  · split at h
    · cases h
    · split at h
      · cases h
      · dsimp only at h
        split at h
        · cases h
        · next h0 =>
          split at h
          · simp at h
          · next h1 =>
            have : out = _ := (congrArg Prod.fst (Except.ok.inj h)).symm
            rw [this]
            exact ⟨h0, not_lt.mp h1⟩

/-- one solid -/
theorem splitSolid_one {k : Cad S T} {o : Options} {n : Nat} {s : S} {out : List S} {err : Nat} (h : splitSolid k o n [s] = .ok (out, err)) :
    ∃ explode, splitFullCylinder k o n s = .ok explode ∧ splitComponent k o n explode = .ok (out, err) := by
  unfold splitSolid at h
  rw [solidLoop] at h
  split at h
  · cases h
  · next ex h0 =>
    split at h
    · cases h
    · next p e h1 =>
      rw [solidLoop] at h
      cases h
      exact ⟨ex, h0, by simpa using h1⟩

/-- the loop over the cells -/
theorem decomposeLoop_ok {k : Cad S T} {o : Options} {n : Nat} {isMeta : Bool} : ∀ {ms : List (Meta S)} {i : Nat} {out : List (Meta S)}
    {warn : List Nat} {out' : List (Meta S)} {warn' : List Nat},
    decomposeLoop k o n isMeta ms i out warn = .ok (out', warn') →
    ∃ more ws, out' = out ++ more ∧ warn' = warn ++ ws ∧ more.length = ms.length ∧ (∀ w ∈ ws, i ≤ w ∧ w < i + ms.length) ∧ ws.Pairwise (· < ·) ∧
      ∀ j m, ms[j]? = some m →
        (isMeta = true ∧ m.isEnclosure = true ∧ more[j]? = some m ∧ i + j ∉ ws) ∨
        ((isMeta && m.isEnclosure) = false ∧ ∃ pieces err, splitSolid k o n m.solids = .ok (pieces, err) ∧
          more[j]? = some ⟨pieces, m.isEnclosure⟩ ∧ (i + j ∈ ws ↔ err ≠ 0)) := by
  intro ms
  induction ms with
  | nil =>
    intro i out warn out' warn' h
    cases h
    exact ⟨[], [], by simp, by simp, rfl, by simp, by simp, by simp⟩
  | cons m ms ih =>
    intro i out warn out' warn' h
    rw [decomposeLoop] at h
    split at h
    · next hm =>
      obtain ⟨more, ws, h1, h2, h3, h4, h5, h6⟩ := ih h
      rw [Bool.and_eq_true] at hm
      refine ⟨m :: more, ws, by rw [h1]; simp, h2, by simp [h3], fun w hw => ?_, h5, fun j m' hj => ?_⟩
      · have := h4 w hw
        simp only [List.length_cons]
        omega
      · cases j with
        | zero =>
          have hx : m = m' := by simpa using hj
          subst hx
          refine Or.inl ⟨hm.1, hm.2, by simp, fun hw => ?_⟩
          have := (h4 _ hw).1
          omega
        | succ j =>
          have := h6 j m' (by simpa using hj)
          rw [show i + (j + 1) = i + 1 + j by omega]
          simpa using this
    · next hm =>
      split at h
      · cases h
      · next pieces err hs =>
        obtain ⟨more, ws, h1, h2, h3, h4, h5, h6⟩ := ih h
        have hmf : (isMeta && m.isEnclosure) = false := by simpa using hm
        by_cases he : err = 0
        · subst he
          rw [if_neg (by simp)] at h2
          refine ⟨⟨pieces, m.isEnclosure⟩ :: more, ws, by rw [h1]; simp, h2, by simp [h3], fun w hw => ?_, h5, fun j m' hj => ?_⟩
          · have := h4 w hw
            simp only [List.length_cons]
            omega
          · cases j with
            | zero =>
              have hx : m = m' := by simpa using hj
              subst hx
              refine Or.inr ⟨hmf, pieces, 0, hs, by simp, ⟨fun hw => ?_, fun hne => absurd rfl hne⟩⟩
              have := (h4 _ hw).1
              omega
            | succ j =>
              have := h6 j m' (by simpa using hj)
              rw [show i + (j + 1) = i + 1 + j by omega]
              simpa using this
        · rw [if_pos he] at h2
          refine ⟨⟨pieces, m.isEnclosure⟩ :: more, i :: ws, by rw [h1]; simp, by rw [h2]; simp, by simp [h3], fun w hw => ?_, ?_, fun j m' hj => ?_⟩
          · simp only [List.length_cons]
            rcases List.mem_cons.mp hw with rfl | hw
            · omega
            · have := h4 w hw
              omega
          · rw [List.pairwise_cons]
            exact ⟨fun w hw => by have := (h4 w hw).1; omega, h5⟩
          · cases j with
            | zero =>
              have hx : m = m' := by simpa using hj
              subst hx
              exact Or.inr ⟨hmf, pieces, err, hs, by simp, ⟨fun _ => he, fun _ => by simp⟩⟩
            | succ j =>
              have := h6 j m' (by simpa using hj)
              rw [show i + (j + 1) = i + 1 + j by omega]
              have hin : i + 1 + j ∈ i :: ws ↔ i + 1 + j ∈ ws := by
                rw [List.mem_cons]
                constructor
                · rintro (h | h)
                  · omega
                  · exact h
                · exact Or.inr
              rw [hin]
              simpa using this

end Geouned.Decom
