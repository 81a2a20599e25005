import Verif.RSurf.Xml
import Verif.RSurf.XmlSpec
import Verif.RSurf.QuadProps2
/-! Helper lemmas for the surfaces of an OpenMC XML file (C75). -/
namespace Geouned.RSurf
open Geouned.Geom

/-- sides of a region -/
def Sides (r : Region) (s : Surf) : Prop := ∀ p, (r.pos p → surfaceSide (mm p) s = some true) ∧ (r.neg p → surfaceSide (mm p) s = some false)

theorem good_sides {mn : String} {args : List ℝ} {r : Region} {s : Surf} {bp bR : Bool} (h : Good mn args r) (hm : makeSurf mn args = some (.surf s bp bR))
    (ho : ∀ p, offFacets mn args p) : Sides r s := by
  obtain ⟨s', _, _, h1, _, h2⟩ := h
  rw [hm] at h1
  obtain rfl := some_surf h1
  exact fun p => h2 p (ho p)

theorem cone_sides {mn : String} {x y z t2 : ℝ} {v ne : Vec} {r : Region} (ht : 0 < t2) (h : Good mn [x, y, z, t2] r)
    (hm : makeSurf mn [x, y, z, t2] = coneMade ⟨x, y, z⟩ v ne t2 []) (ho : ∀ p, offFacets mn [x, y, z, t2] p) :
    ∃ s, xmlCone ⟨x, y, z⟩ v t2 = some (some s) ∧ Sides r s := by
  have hn : ¬ t2 < 0 := not_lt.mpr ht.le
  refine ⟨.cone (Vec.smul 10 ⟨x, y, z⟩) v (Real.sqrt t2) true, by rw [xmlCone, if_neg hn], ?_⟩
  refine good_sides h (bp := true) (bR := false) ?_ ho
  rw [hm, coneMade, if_neg hn]
  rfl

/-- all types but quadrics -/
theorem xml_good (eigh : GQ → Eig) {ty : String} {args : List ℝ} {r : Region} (hq : ty ≠ "quadric") (h : omcXmlMeaning ty args = some r) (he : XmlEntries ty args) :
    ∃ s, makeXml eigh ty args = some (some s) ∧ Sides r s := by
  have tt : ∀ p : Vec, True := fun _ => trivial
  unfold omcXmlMeaning at h
  split at h
  · rename_i d
    exact ⟨_, rfl, good_sides (good_plane (mn := "PX") (args := [d]) h) rfl tt⟩
  · rename_i d
    exact ⟨_, rfl, good_sides (good_plane (mn := "PY") (args := [d]) h) rfl tt⟩
  · rename_i d
    exact ⟨_, rfl, good_sides (good_plane (mn := "PZ") (args := [d]) h) rfl tt⟩
  · rename_i a b c d
    replace he : ¬ (a = 0 ∧ b = 0 ∧ c = 0) := he
    exact ⟨_, rfl, good_sides (good_plane (mn := "P") (args := [a, b, c, d]) (by simp only [planeCards]; rw [if_neg he]; exact h)) rfl tt⟩
  · rename_i a b c
    replace he : 0 < c := he
    exact ⟨_, rfl, good_sides (good_cyl (mn := "C/X") (args := [a, b, c]) (by simp only [cylCards]; rw [if_pos he]; exact h)) rfl tt⟩
  · rename_i a b c
    replace he : 0 < c := he
    exact ⟨_, rfl, good_sides (good_cyl (mn := "C/Y") (args := [a, b, c]) (by simp only [cylCards]; rw [if_pos he]; exact h)) rfl tt⟩
  · rename_i a b c
    replace he : 0 < c := he
    exact ⟨_, rfl, good_sides (good_cyl (mn := "C/Z") (args := [a, b, c]) (by simp only [cylCards]; rw [if_pos he]; exact h)) rfl tt⟩
  · rename_i a b c d
    replace he : 0 < d := he
    exact ⟨_, rfl, good_sides (good_sphere (mn := "S") (args := [a, b, c, d]) (by simp only [sphereCards]; rw [if_pos he]; exact h)) rfl tt⟩
  · rename_i a b c d
    replace he : 0 < d := he
    exact cone_sides (ne := nX) he (good_cone (mn := "K/X") (args := [a, b, c, d]) (by simp only [coneCards]; rw [if_pos he]; exact h)) rfl tt
  · rename_i a b c d
    replace he : 0 < d := he
    exact cone_sides (ne := nY) he (good_cone (mn := "K/Y") (args := [a, b, c, d]) (by simp only [coneCards]; rw [if_pos he]; exact h)) rfl tt
  · rename_i a b c d
    replace he : 0 < d := he
    exact cone_sides (ne := nZ) he (good_cone (mn := "K/Z") (args := [a, b, c, d]) (by simp only [coneCards]; rw [if_pos he]; exact h)) rfl tt
  · exact absurd rfl hq
  · rename_i x y z a b c
    replace he : 0 < b ∧ 0 < c := he
    exact ⟨_, rfl, good_sides (good_torus (mn := "TX") (args := [x, y, z, a, b, c]) (by simp only [torusCards]; rw [if_pos he]; exact h)) rfl tt⟩
  · rename_i x y z a b c
    replace he : 0 < b ∧ 0 < c := he
    exact ⟨_, rfl, good_sides (good_torus (mn := "TY") (args := [x, y, z, a, b, c]) (by simp only [torusCards]; rw [if_pos he]; exact h)) rfl tt⟩
  · rename_i x y z a b c
    replace he : 0 < b ∧ 0 < c := he
    exact ⟨_, rfl, good_sides (good_torus (mn := "TZ") (args := [x, y, z, a, b, c]) (by simp only [torusCards]; rw [if_pos he]; exact h)) rfl tt⟩
  · simp at h

/-! ### the loop -/

theorem xml_loop (eigh : GQ → Eig) : ∀ (cs : List XSurf) (n : Nat), (cs.map (·.id)).Nodup → (∀ c ∈ cs, ∃ s, makeXml eigh c.ty c.coeffs = some (some s)) →
    ∃ ss, xmlSurfaces eigh n cs = some ss ∧ ss.map (·.1) = cs.map (·.id) ∧
      ∀ (i : Nat) c, cs[i]? = some c → ∀ s, makeXml eigh c.ty c.coeffs = some (some s) → ss[i]? = some (c.id, n + i, s)
  | [], n, _, _ => ⟨[], rfl, rfl, by simp⟩
  | c :: cs, n, hn, h => by
    obtain ⟨s, hs⟩ := h c (by simp)
    obtain ⟨ss, h1, h2, h3⟩ := xml_loop eigh cs (n + 1) (by simp only [List.map_cons, List.nodup_cons] at hn; exact hn.2) (fun c hc => h c (by simp [hc]))
    refine ⟨(c.id, n, s) :: ss, by simp [xmlSurfaces, hs, h1], by simp [h2], fun i d hi t ht => ?_⟩
    cases i with
    | zero =>
      simp at hi
      subst hi
      rw [hs] at ht
      simp at ht
      simp [ht]
    | succ i =>
      simp at hi
      have := h3 i d hi t ht
      simpa [Nat.add_assoc, Nat.add_comm 1 i] using this

/-! ### quadrics -/

/-- `P.T (P b) = b` -/
theorem rows_back {E : Eig} (hu : Orthonormal3 E.u) (b : Vec) (i : Fin 3) :
    (E.u i).dot ⟨(E.row 0).dot b, (E.row 1).dot b, (E.row 2).dot b⟩ = Vec.comp b i := by
  have h0 := hu i 0; have h1 := hu i 1; have h2 := hu i 2
  have : (E.u i).dot ⟨(E.row 0).dot b, (E.row 1).dot b, (E.row 2).dot b⟩ = (E.u i).dot (E.u 0) * b.x + (E.u i).dot (E.u 1) * b.y + (E.u i).dot (E.u 2) * b.z := by
    simp only [Vec.dot, Eig.row, Vec.comp]
    simp
    ring
  rw [this, h0, h1, h2]
  fin_cases i <;> simp [Vec.comp]

theorem cylPoint_one {E : Eig} (hu : Orthonormal3 E.u) (b : Vec) (i : Fin 3) (h : ∀ j, j ≠ i → E.e j = 1) : cylPoint E b i = Vec.smul (-(1 / 2)) b := by
  have e : ∀ j, (if j = i then (E.row j).dot b else (E.row j).dot b / E.e j) = (E.row j).dot b := by
    intro j
    by_cases hj : j = i
    · rw [if_pos hj]
    · rw [if_neg hj, h j hj, div_one]
  unfold cylPoint
  simp only [e, rows_back hu]
  simp [Vec.comp]

theorem conePoint_eq {q : GQ} {E : Eig} (hu : Orthonormal3 E.u) {c : Vec} (hx : ∀ i, gqXD q E i = -(E.e i * (E.u i).dot c)) (h : ∀ i, E.e i ≠ 0) :
    conePoint E ⟨q.G, q.H, q.J⟩ = c := by
  have hb : ∀ i, (E.u i).dot ⟨q.G, q.H, q.J⟩ = -2 * (E.e i * (E.u i).dot c) := by
    intro i
    have : (E.u i).dot ⟨q.G, q.H, q.J⟩ = 2 * gqXD q E i := by simp only [gqXD, Vec.dot]; ring
    rw [this, hx]; ring
  apply eq_of_dots hu
  intro i
  have k : ∀ j, (E.u j).dot ⟨q.G, q.H, q.J⟩ / E.e j = -2 * (E.u j).dot c := by
    intro j
    rw [hb j]
    have := h j
    field_simp
  unfold conePoint
  rw [k, k, k, dot_smul, dot_add, dot_add, dot_smul, dot_smul, dot_smul]
  fin_cases i
  · simp only [Fin.zero_eta, hu 0 0, hu 0 1, hu 0 2]; simp
  · simp only [Fin.mk_one, hu 1 0, hu 1 1, hu 1 2]; simp
  · simp only [Fin.reduceFinMk, hu 2 0, hu 2 1, hu 2 2]; simp

/-- a circular cone or hyperboloid that is not narrow -/
theorem gq2cyl_cone {q : GQ} {E : Eig} {l0 l1 : ℝ} (e0 : E.e 0 = l0) (e1 : E.e 1 = l1) (e2 : E.e 2 = l1) (h0 : l0 < 0) (h1 : 0 < l1) (hn : l1 ≤ 20 * -l0) :
    gq2cyl q E = some (.cone (conePoint E ⟨q.G, q.H, q.J⟩) (E.u 0) (Real.sqrt (l1 / -l0)) true) := by
  have c1 : ¬ asw0 E < 5 / 100 * asw1 E := by
    unfold asw0 asw1
    rw [e0, e1, e2, abs_of_neg h0, abs_of_pos h1, min_self]
    rcases le_total (-l0) l1 with h | h
    · rw [min_eq_left h, max_eq_right h, min_self, max_eq_right h]; linarith
    · rw [min_eq_right h, max_eq_left h, min_eq_right h, max_self]; linarith
  have c3 : ¬ 1 / 10 ^ 3 * asw2 E < |l1 - l1| := by
    unfold asw2
    rw [sub_self, abs_zero, not_lt]
    positivity
  have hi : (if SignType.sign (E.e 0) = SignType.sign (E.e 1) then (2 : Fin 3) else 0) = 0 := by
    rw [e0, e1, sign_pos' h1, sign_neg' h0]; rfl
  unfold gq2cyl
  simp only [hi]
  rw [if_neg c1, if_pos (by rw [e0, e2, sign_pos' h1, sign_neg' h0]; decide), f01, f02, e0, e1, e2, if_neg c3, neg_div, div_neg]

end Geouned.RSurf
