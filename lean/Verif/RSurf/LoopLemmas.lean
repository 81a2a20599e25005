import Verif.RSurf.TrLemmas
namespace Geouned.RSurf
open Geouned.Geom

/-- the loop, when no card is a cylinder given by two points and no pass raises -/
theorem primLoop_map : ∀ (cs : List SCard) (vars : Vars) (acc : List (Nat × Surf)),
    (∀ c ∈ cs, ∃ s bp bR s', makeSurf c.mn c.args = some (.surf s bp bR) ∧ place c.tr s = some s') →
    ∃ ss, primLoop cs vars acc = some (acc ++ ss) ∧ ss.length = cs.length ∧
      ∀ (i : Nat) c, cs[i]? = some c → ∃ s bp bR s', makeSurf c.mn c.args = some (.surf s bp bR) ∧ place c.tr s = some s' ∧ ss[i]? = some (c.name, s')
  | [], vars, acc, _ => ⟨[], by simp [primLoop], rfl, fun i c h => by simp at h⟩
  | c :: cs, vars, acc, h => by
    obtain ⟨s, bp, bR, s', h1, h2⟩ := h c (by simp)
    obtain ⟨ss, e, el, ei⟩ := primLoop_map cs ⟨if bp then some (if c.tr.isNone then some c.name else none) else vars.p, vars.R || bR⟩ (acc ++ [(c.name, s')])
      (fun c' hc' => h c' (by simp [hc']))
    refine ⟨(c.name, s') :: ss, ?_, by simp [el], fun i c' hi => ?_⟩
    · rw [primLoop, h1]
      simp only [Option.bind_eq_bind, Option.bind_some, h2]
      rw [e]; simp
    · cases i with
      | zero =>
        simp only [List.getElem?_cons_zero, Option.some.injEq] at hi
        subst hi
        exact ⟨s, bp, bR, s', h1, h2, by simp⟩
      | succ i => simpa using ei i c' (by simpa using hi)

theorem pointsMade_moves {e : Vec} {l : List ℝ} {s : Surf} {bp bR : Bool} (he : e.sq = 1) (h : pointsMade e (Vec.smul (-1) e) l = some (.surf s bp bR)) (hb : s ≠ .bad) :
    Moves s := by
  unfold pointsMade at h
  split at h
  · simp only [Option.some.injEq, Made.surf.injEq] at h
    rw [← h.1]; exact he
  · split at h
    · simp only [div?, Option.bind_eq_bind] at h
      split at h
      · simp at h
      · simp only [Option.bind_some] at h
        split at h
        · simp at h
        · simp only [Option.bind_some] at h
          split at h
          · simp only [Option.some.injEq, Made.surf.injEq] at h
            rw [← h.1]; trivial
          · simp only [Option.some.injEq, Made.surf.injEq] at h
            exact absurd h.1.symm hb
    · split at h
      · split at h
        · simp only [Option.some.injEq, Made.surf.injEq] at h
          rw [← h.1]; exact he
        · simp only [Option.some.injEq, Made.surf.injEq] at h
          exact absurd h.1.symm hb
      · simp at h
  · simp at h

theorem coneMade_moves {p e ne : Vec} {t2 : ℝ} {l : List ℝ} {s : Surf} {bp bR : Bool} (h : coneMade p e ne t2 l = some (.surf s bp bR)) : Moves s := by
  unfold coneMade at h
  split at h
  · simp at h
  · simp only [Option.some.injEq, Made.surf.injEq] at h
    rw [← h.1]; trivial

theorem normalize_sq {a b : Vec} (h : a.normalize = some b) : b.sq = 1 := by
  by_cases h0 : a.sq = 0
  · simp [Vec.normalize, Vec.len, h0] at h
  · rw [normalize_ne h0, Option.some.injEq] at h
    have hl := len_pos h0
    have e : a.len ^ 2 = a.sq := len_sq a
    rw [← h]
    have : (Vec.smul (1 / a.len) a).sq = a.sq / a.len ^ 2 := by
      simp only [Vec.sq, Vec.smul, Vec.dot]; field_simp
    rw [this, e, div_self h0]

theorem threePlane_moves {p1 p2 p3 : Vec} {s : Surf} (h : threePlane p1 p2 p3 = some s) : Moves s := by
  unfold threePlane at h
  simp only [Option.bind_eq_bind, Option.bind_eq_some_iff, Option.some.injEq] at h
  obtain ⟨_, _, n, hn, h⟩ := h
  rw [← h]
  exact normalize_sq hn

theorem recMade_moves (P v a : Vec) (r : ℝ) (b : Vec) (q : ℝ) : Moves (recMade P v a r b q) := by
  unfold recMade; split <;> trivial

/-- the exceptions: BOX, RPP and P with four entries -/
def MovesCard (mn : String) (args : List ℝ) : Prop :=
  mn ≠ "BOX" ∧ mn ≠ "RPP" ∧ ∀ a b c d, mn = "P" → args = [a, b, c, d] → a ^ 2 + b ^ 2 + c ^ 2 = 1

theorem some_surf {s s' : Surf} {a b a' b' : Bool} (h : some (Made.surf s a b) = some (.surf s' a' b')) : s = s' := by
  simp only [Option.some.injEq, Made.surf.injEq] at h; exact h.1

theorem card_moves {mn : String} {args : List ℝ} {r : Region} {s : Surf} {bp bR : Bool} (hm : cardMeaning mn args = some r)
    (h : makeSurf mn args = some (.surf s bp bR)) (hb : s ≠ .bad) (hx : MovesCard mn args) : Moves s := by
  have sx : vX.sq = 1 := by simp [vX, Vec.sq, Vec.dot]
  have sy : vY.sq = 1 := by simp [vY, Vec.sq, Vec.dot]
  have sz : vZ.sq = 1 := by simp [vZ, Vec.sq, Vec.dot]
  unfold cardMeaning at hm
  replace hm := or_some hm
  rcases hm with hm | hm
  · unfold planeCards at hm
    split at hm
    · have := some_surf (show some (Made.surf (.plane vX _) false false) = _ from h); subst this; exact sx
    · have := some_surf (show some (Made.surf (.plane vY _) false false) = _ from h); subst this; exact sy
    · have := some_surf (show some (Made.surf (.plane vZ _) false false) = _ from h); subst this; exact sz
    · rename_i a b c d
      have := some_surf (show some (Made.surf (.plane ⟨a, b, c⟩ _) false false) = _ from h); subst this
      have := hx.2.2 a b c d rfl rfl
      show a * a + b * b + c * c = 1
      linarith
    · rename_i x1 y1 z1 x2 y2 z2 x3 y3 z3
      have h' : ((threePlane ⟨x1, y1, z1⟩ ⟨x2, y2, z2⟩ ⟨x3, y3, z3⟩).map fun s => Made.surf s false false) = some (.surf s bp bR) := h
      simp only [Option.map_eq_some_iff, Made.surf.injEq] at h'
      obtain ⟨s0, h1, h2, _⟩ := h'
      subst h2
      exact threePlane_moves h1
    · simp at hm
  replace hm := or_some hm
  rcases hm with hm | hm
  · unfold sphereCards at hm
    split at hm <;> first
      | (have := some_surf (show some (Made.surf (.sphere _ _) false false) = _ from h); subst this; trivial)
      | simp at hm
  replace hm := or_some hm
  rcases hm with hm | hm
  · unfold cylCards at hm
    split at hm <;> first
      | (have := some_surf (show some (Made.surf (.cyl _ _ _) true true) = _ from h); subst this; trivial)
      | simp at hm
  replace hm := or_some hm
  rcases hm with hm | hm
  · unfold coneCards at hm
    split at hm
    · exact coneMade_moves (made_KX .. ▸ h)
    · exact coneMade_moves (made_KY .. ▸ h)
    · exact coneMade_moves (made_KZ .. ▸ h)
    · exact coneMade_moves (made_KoX .. ▸ h)
    · exact coneMade_moves (made_KoY .. ▸ h)
    · exact coneMade_moves (made_KoZ .. ▸ h)
    · simp at hm
  replace hm := or_some hm
  rcases hm with hm | hm
  · unfold torusCards at hm
    split at hm <;> first
      | (have := some_surf (show some (Made.surf (.torus _ _ _ _ _) true false) = _ from h); subst this; trivial)
      | simp at hm
  replace hm := or_some hm
  rcases hm with hm | hm
  · unfold pointCards at hm
    split at hm
    · rw [made_X, nX_eq] at h; exact pointsMade_moves sx h hb
    · rw [made_Y, nY_eq] at h; exact pointsMade_moves sy h hb
    · rw [made_Z, nZ_eq] at h; exact pointsMade_moves sz h hb
    · simp at hm
  replace hm := or_some hm
  rcases hm with hm | hm
  · unfold boxCards at hm
    split at hm
    · exact absurd rfl hx.1
    · exact absurd rfl hx.2.1
    · simp at hm
  · unfold canCards at hm
    split at hm
    · have := some_surf (show some (Made.surf (.can _ _ _) true true) = _ from h); subst this; trivial
    · rename_i x y z a b c a1 b1 c1 a2 b2 c2
      have h' : (((⟨a1, b1, c1⟩ : Vec).normalize).bind fun M => ((⟨a2, b2, c2⟩ : Vec).normalize).bind fun N =>
        some (Made.surf (recMade ⟨x, y, z⟩ ⟨a, b, c⟩ M (Vec.len ⟨a1, b1, c1⟩) N (Vec.len ⟨a2, b2, c2⟩)) true false)) = some (.surf s bp bR) := h
      simp only [Option.bind_eq_some_iff] at h'
      obtain ⟨M, _, N, _, h'⟩ := h'
      have := some_surf h'; subst this; exact recMade_moves ..
    · rename_i x y z a b c a1 b1 c1 r
      have h' : (((⟨a1, b1, c1⟩ : Vec).normalize).bind fun M => (div? 1 (Vec.len ⟨a, b, c⟩)).bind fun l =>
        some (Made.surf (recMade ⟨x, y, z⟩ ⟨a, b, c⟩ M (Vec.len ⟨a1, b1, c1⟩) (Vec.smul l ((⟨a, b, c⟩ : Vec).cross M)) r) true false)) = some (.surf s bp bR) := h
      simp only [Option.bind_eq_some_iff] at h'
      obtain ⟨M, _, N, _, h'⟩ := h'
      have := some_surf h'; subst this; exact recMade_moves ..
    · have := some_surf (show some (Made.surf (.tcone _ _ _ _) true false) = _ from h); subst this; trivial
    · simp at hm

theorem box_made {mn : String} {args : List ℝ} {r : Region} {s : Surf} {bp bR : Bool} (hm : cardMeaning mn args = some r)
    (h : makeSurf mn args = some (.surf s bp bR)) (hx : mn = "BOX" ∨ mn = "RPP") : ∃ P v1 v2 v3, s = .box P v1 v2 v3 := by
  have hm' : boxCards mn args = some r := by
    rcases hx with e | e <;> subst e
    · simpa [cardMeaning, planeCards, sphereCards, cylCards, coneCards, torusCards, pointCards, canCards] using hm
    · simpa [cardMeaning, planeCards, sphereCards, cylCards, coneCards, torusCards, pointCards, canCards] using hm
  unfold boxCards at hm'
  split at hm'
  · have := some_surf (show some (Made.surf (.box _ _ _ _) true false) = _ from h); subst this; exact ⟨_, _, _, _, rfl⟩
  · have := some_surf (show some (Made.surf (.box _ _ _ _) true false) = _ from h); subst this; exact ⟨_, _, _, _, rfl⟩
  · simp at hm'

end Geouned.RSurf
