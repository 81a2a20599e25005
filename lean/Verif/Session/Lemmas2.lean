import Verif.Session.Lemmas
/-!
# Lemmas for C111 and C112: the arguments, and the files one after the other
-/
namespace Geouned.Session

open Geouned.McnpFile (T)

theorem check_ok {a : Args} {g : Good} {cc su : Bool} {o : List (List Char)} (h : Means a g cc su o) : check a = .ok (g, cc, su, o) := by
  obtain ⟨t, n, vs, vc, u, dm⟩ := g
  obtain ⟨h1, h2, h3, h4, h5, h6, h7, h8, h9⟩ := h
  unfold check
  have hu : checkU a.ucard = .ok u := by
    rcases h6 with ⟨e, e'⟩ | ⟨m, hm, e, e'⟩
    · rw [e]; cases e'; rfl
    · rw [e]; cases e'
      show (if m < 0 then _ else _) = _
      rw [if_neg (by omega)]
  have ho : formatsOf a.outFormat = .ok o := by
    rcases h3 with h3 | ⟨h3, rfl⟩ <;> rw [h3] <;> rfl
  rw [hu, h1, h2, h4, h5, h7, h8, h9, ho]
  rfl

theorem check_inv {a : Args} {g : Good} {cc su : Bool} {o : List (List Char)} (h : check a = .ok (g, cc, su, o)) :
    Means a g cc su o ∨ ∃ s, s ≠ [] ∧ a.outFormat = .str s ∧ o = s.map (fun c => [c]) := by
  obtain ⟨t, n, of, vs, vc, u, dm, c1, c2⟩ := a
  unfold check at h
  dsimp only at h
  cases hu : checkU u with
  | error e => rw [hu] at h; cases h
  | ok u' =>
  rw [hu] at h
  cases vs with
  | bool vs =>
    cases vc with
    | bool vc =>
      cases dm with
      | bool dm =>
        cases c1 with
        | bool c1 =>
          cases c2 with
          | bool c2 =>
            cases t with
            | str t =>
              cases n with
              | str n =>
                have key : ∀ o', formatsOf of = .ok o' → (⟨t, n, vs, vc, u', dm⟩ : Good) = g ∧ c1 = cc ∧ c2 = su ∧ o' = o := by
                  intro o' ho
                  rw [ho] at h
                  have h := Except.ok.inj h
                  simp only [Prod.mk.injEq] at h
                  exact h
                have hu' : (u = .none ∧ u' = none) ∨ ∃ m, 0 ≤ m ∧ u = .int m ∧ u' = some m := by
                  cases u with
                  | none => cases hu; exact Or.inl ⟨rfl, rfl⟩
                  | other => cases hu
                  | int m =>
                    simp only [checkU] at hu
                    split at hu
                    · cases hu
                    · cases hu; exact Or.inr ⟨m, by omega, rfl, rfl⟩
                cases of with
                | strs l =>
                  obtain ⟨rfl, rfl, rfl, rfl⟩ := key l rfl
                  exact Or.inl ⟨rfl, rfl, Or.inl rfl, rfl, rfl, hu', rfl, rfl, rfl⟩
                | str s =>
                  obtain ⟨rfl, rfl, rfl, rfl⟩ := key _ rfl
                  by_cases hs : s = []
                  · subst hs
                    exact Or.inl ⟨rfl, rfl, Or.inr ⟨rfl, rfl⟩, rfl, rfl, hu', rfl, rfl, rfl⟩
                  · exact Or.inr ⟨s, hs, rfl, rfl⟩
                | _ => cases h
              | _ => cases h
            | _ => cases h
          | _ => cases h
        | _ => cases h
      | _ => cases h
    | _ => cases h
  | _ => cases h

theorem check_fail {a : Args} {e : Fail} (h : check a = .error e) : e = .type ∨ e = .value := by
  obtain ⟨t, n, of, vs, vc, u, dm, c1, c2⟩ := a
  unfold check at h
  dsimp only at h
  have hb : ∀ v e, checkBool v = .error e → e = .type := by
    intro v e h
    cases v <;> first | cases h | rfl
    all_goals rfl
  have hs : ∀ v e, checkStr v = .error e → e = .type := by
    intro v e h
    cases v <;> first | cases h | rfl
    all_goals rfl
  have hf : ∀ v e, formatsOf v = .error e → e = .type := by
    intro v e h
    cases v <;> first | cases h | rfl
    all_goals rfl
  have hu : ∀ v e, checkU v = .error e → e = .type ∨ e = .value := by
    intro v e h
    cases v with
    | none => cases h
    | other => cases h; exact Or.inl rfl
    | int m =>
      simp only [checkU] at h
      split at h
      · cases h; exact Or.inr rfl
      · cases h
  cases h1 : checkU u with
  | error e' => rw [h1] at h; cases h; exact hu _ _ h1
  | ok u' =>
  rw [h1] at h
  cases h2 : checkBool vs with
  | error e' => rw [h2] at h; cases h; exact Or.inl (hb _ _ h2)
  | ok _ =>
  rw [h2] at h
  cases h3 : checkBool vc with
  | error e' => rw [h3] at h; cases h; exact Or.inl (hb _ _ h3)
  | ok _ =>
  rw [h3] at h
  cases h4 : checkBool dm with
  | error e' => rw [h4] at h; cases h; exact Or.inl (hb _ _ h4)
  | ok _ =>
  rw [h4] at h
  cases h5 : checkBool c1 with
  | error e' => rw [h5] at h; cases h; exact Or.inl (hb _ _ h5)
  | ok _ =>
  rw [h5] at h
  cases h6 : checkBool c2 with
  | error e' => rw [h6] at h; cases h; exact Or.inl (hb _ _ h6)
  | ok _ =>
  rw [h6] at h
  cases h7 : checkStr t with
  | error e' => rw [h7] at h; cases h; exact Or.inl (hs _ _ h7)
  | ok _ =>
  rw [h7] at h
  cases h8 : checkStr n with
  | error e' => rw [h8] at h; cases h; exact Or.inl (hs _ _ h8)
  | ok _ =>
  rw [h8] at h
  cases h9 : formatsOf of with
  | error e' => rw [h9] at h; cases h; exact Or.inl (hf _ _ h9)
  | ok _ => rw [h9] at h; cases h

theorem suffix_inj {n : List Char} {x y : Kind} (h : n ++ x.suffix = n ++ y.suffix) : x = y := by
  have h := List.append_cancel_left h
  revert h
  cases x <;> cases y <;> decide

theorem put_same (d : Disk) (n : List Char) (x : File) : put d n x n = some x := by simp [put]

theorem put_other {d : Disk} {n m : List Char} {x : File} (h : m ≠ n) : put d n x m = d m := by simp [put, h]

section
variable {f : PhitsFile.Fmt} {r k : Nat} {p : Project} {g : Good} {cc su : Bool} {o : List (List Char)}

theorem after_other {cs : List PhitsFile.Cell} {x : Kind} (h : x ≠ .phits) : after f r k p g cs x = cs := by
  cases x <;> first | rfl | exact absurd rfl h

theorem step_ok {x : Kind} {w w' : World} (h : step f r k p g cc su o x w = .ok w') :
    (¬ Wanted cc su o x ∧ w' = w) ∨ (Wanted cc su o x ∧ ∃ s, Gives f r k p g w.cells x s ∧ w' = ⟨put w.disk (g.name ++ x.suffix) (.text s), after f r k p g w.cells x⟩) := by
  unfold step at h
  split at h
  · rename_i hw
    right
    refine ⟨hw, ?_⟩
    split at h
    · cases h
    · rename_i hs
      cases hc : content f r k p g w.cells x with
      | error e => rw [hc] at h; cases h
      | ok s => rw [hc] at h; cases h; exact ⟨s, ⟨hs, hc⟩, rfl⟩
  · rename_i hw
    cases h
    exact Or.inl ⟨hw, rfl⟩

theorem step_fail {x : Kind} {w : World} {e : Fail} {d : Disk} (h : step f r k p g cc su o x w = .fail e d) :
    Wanted cc su o x ∧ Raises f r k p g w.cells x e ∧ (d = w.disk ∨ d = put w.disk (g.name ++ x.suffix) .broken) := by
  unfold step at h
  split at h
  · rename_i hw
    refine ⟨hw, ?_⟩
    split at h
    · rename_i hs
      cases h
      exact ⟨Or.inl ⟨hs.1, hs.2, rfl⟩, Or.inl rfl⟩
    · rename_i hs
      cases hc : content f r k p g w.cells x with
      | ok s => rw [hc] at h; cases h
      | error e' => rw [hc] at h; cases h; exact ⟨Or.inr ⟨hs, hc⟩, Or.inr rfl⟩
  · cases h

theorem run_ok {xs : List Kind} (hn : xs.Nodup) (hp : .phits ∉ xs.dropLast) {w w' : World} (h : run f r k p g cc su o xs w = .ok w') :
    (∀ x ∈ xs, Wanted cc su o x → ∃ s, Gives f r k p g w.cells x s ∧ w'.disk (g.name ++ x.suffix) = some (.text s))
      ∧ (∀ n, (∀ x ∈ xs, Wanted cc su o x → n ≠ g.name ++ x.suffix) → w'.disk n = w.disk n)
      ∧ w'.cells = if .phits ∈ xs ∧ Wanted cc su o .phits then after f r k p g w.cells .phits else w.cells := by
  induction xs generalizing w with
  | nil =>
    cases h
    exact ⟨fun _ h => absurd h (by simp), fun _ _ => rfl, by simp⟩
  | cons x xs ih =>
    unfold run at h
    cases hs : step f r k p g cc su o x w with
    | fail e d => rw [hs] at h; cases h
    | ok w1 =>
      rw [hs] at h
      have h : run f r k p g cc su o xs w1 = .ok w' := h
      have hn' := (List.nodup_cons.mp hn)
      have hp' : Kind.phits ∉ xs.dropLast := fun hm => hp (by
        cases xs with
        | nil => cases hm
        | cons y ys => exact List.mem_cons_of_mem _ hm)
      obtain ⟨i1, i2, i3⟩ := ih hn'.2 hp' h
      rcases step_ok hs with ⟨hw, rfl⟩ | ⟨hw, s, hg, rfl⟩
      · refine ⟨fun y hy hwy => ?_, fun n hnn => i2 n (fun y hy => hnn y (List.mem_cons_of_mem _ hy)), ?_⟩
        · rcases List.mem_cons.mp hy with rfl | hy
          · exact absurd hwy hw
          · exact i1 y hy hwy
        · rw [i3]
          congr 1
          rw [eq_iff_iff]
          constructor
          · rintro ⟨h1, h2⟩; exact ⟨List.mem_cons_of_mem _ h1, h2⟩
          · rintro ⟨h1, h2⟩
            rcases List.mem_cons.mp h1 with rfl | h1
            · exact absurd h2 hw
            · exact ⟨h1, h2⟩
      · have hfile : w'.disk (g.name ++ x.suffix) = some (.text s) := by
          rw [i2 _ (fun y hy _ he => hn'.1 ((suffix_inj he : x = y) ▸ hy))]
          exact put_same _ _ _
        by_cases hx : x = .phits
        · subst hx
          have hnil : xs = [] := by
            cases xs with
            | nil => rfl
            | cons y ys => exact absurd (List.mem_cons_self ..) hp
          subst hnil
          cases h
          refine ⟨fun y hy hwy => ?_, fun n hnn => put_other (hnn _ (List.mem_singleton.mpr rfl) hw), ?_⟩
          · rw [List.mem_singleton.mp hy]
            exact ⟨s, hg, hfile⟩
          · rw [if_pos ⟨List.mem_singleton.mpr rfl, hw⟩]
        · rw [after_other hx] at i1 i3
          refine ⟨fun y hy hwy => ?_, fun n hnn => ?_, ?_⟩
          · rcases List.mem_cons.mp hy with rfl | hy
            · exact ⟨s, hg, hfile⟩
            · exact i1 y hy hwy
          · rw [i2 n (fun y hy => hnn y (List.mem_cons_of_mem _ hy))]
            exact put_other (hnn _ (List.mem_cons_self ..) hw)
          · rw [i3]
            congr 1
            rw [eq_iff_iff]
            constructor
            · rintro ⟨h1, h2⟩; exact ⟨List.mem_cons_of_mem _ h1, h2⟩
            · rintro ⟨h1, h2⟩
              rcases List.mem_cons.mp h1 with h1 | h1
              · exact absurd h1.symm hx
              · exact ⟨h1, h2⟩

theorem run_fail {xs : List Kind} (hn : xs.Nodup) (hp : .phits ∉ xs.dropLast) {w : World} {e : Fail} {d : Disk} (h : run f r k p g cc su o xs w = .fail e d) :
    ∃ pre x post, xs = pre ++ x :: post ∧ Wanted cc su o x ∧ Raises f r k p g w.cells x e
      ∧ (∀ y ∈ pre, Wanted cc su o y → ∃ s, Gives f r k p g w.cells y s ∧ d (g.name ++ y.suffix) = some (.text s))
      ∧ (d (g.name ++ x.suffix) = w.disk (g.name ++ x.suffix) ∨ d (g.name ++ x.suffix) = some .broken)
      ∧ (∀ n, (∀ y ∈ pre ++ [x], Wanted cc su o y → n ≠ g.name ++ y.suffix) → d n = w.disk n) := by
  induction xs generalizing w with
  | nil => cases h
  | cons x xs ih =>
    unfold run at h
    cases hs : step f r k p g cc su o x w with
    | fail e' d' =>
      rw [hs] at h
      cases h
      obtain ⟨h1, h2, h3⟩ := step_fail hs
      refine ⟨[], x, xs, rfl, h1, h2, fun _ h => absurd h (by simp), ?_, fun n hnn => ?_⟩
      · rcases h3 with rfl | rfl
        · exact Or.inl rfl
        · exact Or.inr (put_same _ _ _)
      · rcases h3 with rfl | rfl
        · rfl
        · exact put_other (hnn x (by simp) h1)
    | ok w1 =>
      rw [hs] at h
      have h : run f r k p g cc su o xs w1 = .fail e d := h
      have hn' := (List.nodup_cons.mp hn)
      have hx : x ≠ .phits := fun hx => by
        subst hx
        cases xs with
        | nil => cases h
        | cons y ys => exact hp (List.mem_cons_self ..)
      have hp' : Kind.phits ∉ xs.dropLast := fun hm => hp (by
        cases xs with
        | nil => cases hm
        | cons y ys => exact List.mem_cons_of_mem _ hm)
      obtain ⟨pre, y, post, q1, q2, q3, q4, q5, q6⟩ := ih hn'.2 hp' h
      have hxy : ∀ z ∈ xs, g.name ++ z.suffix ≠ g.name ++ x.suffix := fun z hz he => hn'.1 (suffix_inj he ▸ hz)
      have hy : y ∈ xs := by rw [q1]; simp
      have hpre : ∀ z ∈ pre, z ∈ xs := fun z hz => by rw [q1]; simp [hz]
      rcases step_ok hs with ⟨hw, rfl⟩ | ⟨hw, s, hg, rfl⟩
      · refine ⟨x :: pre, y, post, by rw [q1]; rfl, q2, q3, fun z hz hwz => ?_, q5, fun n hnn => q6 n (fun z hz => hnn z (List.mem_cons_of_mem _ hz))⟩
        rcases List.mem_cons.mp hz with rfl | hz
        · exact absurd hwz hw
        · exact q4 z hz hwz
      · rw [after_other hx] at q3 q4
        refine ⟨x :: pre, y, post, by rw [q1]; rfl, q2, q3, fun z hz hwz => ?_, ?_, fun n hnn => ?_⟩
        · rcases List.mem_cons.mp hz with rfl | hz
          · refine ⟨s, hg, ?_⟩
            rw [q6 _ (fun v hv _ he => ?_)]
            · exact put_same _ _ _
            · refine hxy v ?_ he.symm
              rcases List.mem_append.mp hv with hv | hv
              · exact hpre v hv
              · rw [List.mem_singleton.mp hv]; exact hy
          · exact q4 z hz hwz
        · rw [show (⟨put w.disk (g.name ++ x.suffix) (.text s), w.cells⟩ : World).disk (g.name ++ y.suffix) = w.disk (g.name ++ y.suffix) from put_other (hxy y hy)] at q5
          exact q5
        · rw [q6 n (fun z hz => hnn z (List.mem_cons_of_mem _ hz))]
          exact put_other (hnn x (List.mem_cons_self ..) hw)

theorem run_total {xs : List Kind} (hp : .phits ∉ xs.dropLast) {w : World} (h : ∀ x ∈ xs, Wanted cc su o x → ∃ s, Gives f r k p g w.cells x s) :
    ∃ w', run f r k p g cc su o xs w = .ok w' := by
  induction xs generalizing w with
  | nil => exact ⟨w, rfl⟩
  | cons x xs ih =>
    have hp' : Kind.phits ∉ xs.dropLast := fun hm => hp (by
      cases xs with
      | nil => cases hm
      | cons y ys => exact List.mem_cons_of_mem _ hm)
    unfold run
    by_cases hw : Wanted cc su o x
    · obtain ⟨s, hg⟩ := h x (List.mem_cons_self ..) hw
      have hs : step f r k p g cc su o x w = .ok ⟨put w.disk (g.name ++ x.suffix) (.text s), after f r k p g w.cells x⟩ := by
        unfold step
        rw [if_pos hw, if_neg hg.1, hg.2]
      rw [hs]
      show ∃ w', run f r k p g cc su o xs _ = _
      by_cases hx : x = .phits
      · subst hx
        cases xs with
        | nil => exact ⟨_, rfl⟩
        | cons y ys => exact absurd (List.mem_cons_self ..) hp
      · rw [after_other hx]
        exact ih hp' (fun y hy => h y (List.mem_cons_of_mem _ hy))
    · have hs : step f r k p g cc su o x w = .ok w := by
        unfold step
        rw [if_neg hw]
      rw [hs]
      exact ih hp' (fun y hy => h y (List.mem_cons_of_mem _ hy))
end

end Geouned.Session
