import Verif.Nest.Lemmas
import Verif.Shape.Props
/-!
# Lemmas: the definition of planes of a cell can be walked through
-/
namespace Geouned.Nest
open Geouned Geouned.Poly

theorem groupLoop_ne : ∀ (k : Nat) (rest kept group K G : List Seq), groupLoop k rest kept group = .ok (K, G) →
    (kept ≠ [] ∨ group ≠ [] ∨ (k ≠ 0 ∧ rest ≠ [])) → K ≠ [] ∨ G ≠ []
  | 0, rest, kept, group, K, G, h, hne => by
    simp only [groupLoop, Except.ok.injEq, Prod.mk.injEq] at h
    obtain ⟨rfl, rfl⟩ := h
    rcases hne with h | h | h
    · exact .inl h
    · exact .inr h
    · exact absurd rfl h.1
  | k + 1, [], kept, group, K, G, h, hne => by
    simp only [groupLoop, Except.ok.injEq, Prod.mk.injEq] at h
    obtain ⟨rfl, rfl⟩ := h
    rcases hne with h | h | h
    · exact .inl h
    · exact .inr h
    · exact absurd rfl h.2
  | k + 1, .int n :: rest, kept, group, K, G, h, _ => by
    simp only [groupLoop] at h
    exact groupLoop_ne k _ _ _ K G h (.inr (.inl (by simp)))
  | k + 1, .boo op l b :: rest, kept, group, K, G, h, _ => by
    simp only [groupLoop] at h
    split at h
    · cases h
    · exact groupLoop_ne k _ _ _ K G h (.inl (by simp))
  | k + 1, .lst op l es :: rest, kept, group, K, G, h, _ => by
    simp only [groupLoop] at h
    split at h
    · exact groupLoop_ne k _ _ _ K G h (.inr (.inl (by simp)))
    · exact groupLoop_ne k _ _ _ K G h (.inl (by simp))

theorem groupSingle_ne {op : Op} {l : Int} {es : List Seq} (hne : es ≠ []) {s : Seq} (h : Seq.groupSingle (.lst op l es) = .ok s) :
    ∃ es', s = .lst op l es' ∧ es' ≠ [] := by
  simp only [Seq.groupSingle] at h
  split at h
  · cases h; exact ⟨es, rfl, hne⟩
  · cases hg : groupLoop es.length es.reverse [] [] with
    | error e => rw [hg] at h; cases h
    | ok r =>
      obtain ⟨K, G⟩ := r
      rw [hg] at h
      simp only [bind, Except.bind] at h
      have hk := groupLoop_ne _ _ _ _ K G hg (.inr (.inr ⟨by simpa using hne, by simpa using hne⟩))
      cases G with
      | nil =>
        cases h
        exact ⟨K, rfl, hk.resolve_right (by simp)⟩
      | cons x G => cases h; exact ⟨_, rfl, by simp⟩

theorem mergeSame_ne {op : Op} {l : Int} {es : List Seq} (hne : es ≠ []) {r : Int × List Seq} (h : Poly.mergeSame op l es = .ok r) : r.2 ≠ [] := by
  unfold Poly.mergeSame at h
  cases hs : splitOps es with
  | error e => rw [hs] at h; cases h
  | ok x =>
    rw [hs] at h
    have fin : ∀ S T : List Seq, (if 1 < S.length then (do let cat ← concatElems S; .ok (max l (level cat + 1), T ++ [.lst op (level cat) cat]) : M (Int × List Seq)) else .ok (l, es)) = .ok r →
        r.2 ≠ [] := by
      intro S T h
      split at h
      · cases hc : concatElems S with
        | error e => rw [hc] at h; cases h
        | ok c => rw [hc] at h; cases h; simp
      · cases h; exact hne
    cases op
    · exact fin x.1 x.2 h
    · exact fin x.2 x.1 h

theorem shapedL_iff : ∀ (es : List Seq), ShapedL es ↔ ∀ e ∈ es, Shaped e
  | [] => by simp [ShapedL]
  | e :: es => by simp [ShapedL, shapedL_iff es]

theorem mapM_shaped {rec : Seq → M Seq} (hr : ∀ s s', rec s = .ok s' → Shaped s') : ∀ (es es' : List Seq), mapM' rec es = .ok es' → ShapedL es' ∧ es'.length = es.length
  | [], es', h => by cases h; exact ⟨trivial, rfl⟩
  | e :: es, es', h => by
    unfold mapM' at h
    cases he : rec e with
    | error x => rw [he] at h; cases h
    | ok e' =>
      rw [he] at h
      simp only [bind, Except.bind] at h
      cases hm : mapM' rec es with
      | error x => rw [hm] at h; cases h
      | ok r =>
        rw [hm] at h
        cases h
        obtain ⟨h1, h2⟩ := mapM_shaped hr es r hm
        exact ⟨⟨hr e e' he, h1⟩, by simp [h2]⟩

theorem joinParts_shaped {rec : Seq → M Seq} (hr : ∀ s s', rec s = .ok s' → Shaped s') {s s' : Seq} (hs : ∀ o l es, s = .lst o l es → l ≠ 0 → es ≠ [])
    (h : joinParts rec s = .ok s') : Shaped s' := by
  cases s with
  | int n => cases h
  | boo o l b =>
    simp only [joinParts] at h
    split at h
    · cases h; trivial
    · cases h
  | lst o l es =>
    simp only [joinParts] at h
    split at h
    · cases h; rename_i h0; exact .inl h0
    · rename_i h0
      cases hm : mapM' rec es with
      | error x => rw [hm] at h; cases h
      | ok r =>
        rw [hm] at h
        cases h
        obtain ⟨h1, h2⟩ := mapM_shaped hr es r hm
        refine .inr ⟨?_, h1⟩
        rintro rfl
        exact hs o l es rfl h0 (List.eq_nil_of_length_eq_zero h2.symm)

/-- what `join_operators` returns can be walked through -/
theorem joinOps_shaped : ∀ (f : Nat) (s s' : Seq), joinOps f s = .ok s' → Shaped s'
  | 0, _, _, h => by cases h
  | _ + 1, .int _, _, h => by cases h
  | _ + 1, .boo op l b, _, h => by cases h; trivial
  | f + 1, .lst op l es, s', h => by
    have ih := joinOps_shaped f
    rw [joinOps] at h
    split at h
    · cases h; exact .inl rfl
    · rename_i h0
      have hne : es ≠ [] := by rintro rfl; exact h0 rfl
      cases hg : Seq.groupSingle (.lst op (Poly.level es) es) with
      | error e => rw [hg] at h; cases h
      | ok g =>
        rw [hg] at h
        obtain ⟨es1, rfl, hne1⟩ := groupSingle_ne hne hg
        simp only [bind, Except.bind] at h
        cases hm : Poly.mergeSame op (Poly.level es) es1 with
        | error e => rw [hm] at h; cases h
        | ok r =>
          rw [hm] at h
          have hne2 := mergeSame_ne hne1 hm
          have last : ∀ s', joinParts (joinOps f) (.lst op r.1 r.2) = .ok s' → Shaped s' :=
            fun s' hs => joinParts_shaped ih (fun o l es e _ => by cases e; exact hne2) hs
          have single : ∀ x s', (joinOps f x >>= joinParts (joinOps f)) = .ok s' → Shaped s' := by
            intro x s' hs
            cases hx : joinOps f x with
            | error e => rw [hx] at hs; cases hs
            | ok v =>
              rw [hx] at hs
              have hv := ih _ _ hx
              refine joinParts_shaped ih ?_ hs
              rintro o l es rfl hl
              unfold Shaped at hv
              exact (hv.resolve_left hl).1
          dsimp only at h
          split at h
          · split at h
            · exact single _ _ h
            · exact last _ h
          · split at h
            · exact single _ _ h
            · exact last _ h
          · exact last _ h

theorem planeDefinition_shaped (o : Orient) : ∀ (dict : List (Nat × Poly.Group Nat)) (d r : Seq), planeDefinition o dict d = .ok r → Shaped r
  | [], d, r, h => joinOps_shaped _ _ _ h
  | (s, g) :: dict, d, r, h => by
    unfold planeDefinition at h
    split at h
    · exact joinOps_shaped _ _ _ h
    · rename_i heq; cases heq; exact planeDefinition_shaped o dict _ r h
    · rename_i heq; cases heq
      cases hi : inside g with
      | error e => rw [hi] at h; cases h
      | ok pm =>
        rw [hi] at h
        simp only [bind, Except.bind] at h
        split at h
        · cases h; trivial
        · cases hc : complement pm with
          | error e => rw [hc] at h; cases h
          | ok c =>
            rw [hc] at h
            dsimp only at h
            split at h
            · cases h
            · exact planeDefinition_shaped o dict _ r h

theorem planesOf_shaped {P : Type} {order : List Int → List Int} {surfaces : Nat → Option (Surf P)} {o : Orient} {d : Seq} {planes : Nat → Option P} {r : Seq}
    (h : planesOf order surfaces o d = .ok (planes, r)) : Shaped r := by
  unfold planesOf at h
  cases hq : quadricToPlane order surfaces o d with
  | error e => rw [hq] at h; cases h
  | ok t =>
    rw [hq] at h
    simp only [bind, Except.bind] at h
    cases hp : planeDefinition o t.dict d with
    | error e => rw [hp] at h; cases h
    | ok r' =>
      rw [hp] at h
      cases h
      exact planeDefinition_shaped o _ _ _ hp

end Geouned.Nest
