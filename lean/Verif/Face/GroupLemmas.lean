import Verif.Face.Model
import Mathlib.Logic.Relation
import Mathlib.Data.List.Nodup
import Mathlib.Data.List.Perm.Subperm
import Mathlib.Data.List.GetD
/-!
# Lemmas on the groups of torus faces
-/
namespace Geouned.Face

open Relation

theorem foldl_erase {s : List Nat} : ∀ {l : List Nat}, l.Nodup → (s.foldl List.erase l).Nodup ∧ ∀ x, x ∈ s.foldl List.erase l ↔ x ∈ l ∧ x ∉ s := by
  induction s with
  | nil => intro l h; exact ⟨h, by simp⟩
  | cons a s ih =>
    intro l h
    rw [List.foldl_cons]
    obtain ⟨h1, h2⟩ := ih (h.erase a)
    refine ⟨h1, fun x => ?_⟩
    rw [h2, h.mem_erase_iff, List.mem_cons, not_or]
    constructor
    · rintro ⟨⟨a1, a2⟩, a3⟩
      exact ⟨a2, a1, a3⟩
    · rintro ⟨a1, a2, a3⟩
      exact ⟨⟨a2, a1⟩, a3⟩

/-- what a division of a list without repetitions into groups is -/
structure Groups (l : List Nat) (gs : List (List Nat)) : Prop where
  mem : ∀ x, x ∈ l ↔ ∃ g ∈ gs, x ∈ g
  nodup : ∀ g ∈ gs, g.Nodup
  apart : gs.Pairwise (fun g h => ∀ x ∈ g, x ∉ h)
  full : ∀ g ∈ gs, g ≠ []

theorem Groups.flatten {l : List Nat} {gs : List (List Nat)} (hl : l.Nodup) (h : Groups l gs) : gs.flatten.Perm l := by
  rw [List.perm_ext_iff_of_nodup ?_ hl]
  · intro x
    rw [List.mem_flatten, h.mem]
  · rw [List.nodup_flatten]
    refine ⟨h.nodup, h.apart.imp fun {g k} hgk => ?_⟩
    intro x hx hx2
    exact hgk x hx hx2

theorem length_le_of {l m : List Nat} (hl : l.Nodup) (h : ∀ x ∈ l, x ∈ m) : l.length ≤ m.length :=
  (List.subperm_of_subset hl h).length_le

theorem sameTorusLoop_groups {same : Nat → Nat → Bool} : ∀ {n : Nat} {l : List Nat}, l.length ≤ n → l.Nodup →
    Groups l (sameTorusLoop same n l) ∧
    (∀ g ∈ sameTorusLoop same n l, ∃ i ∈ g, ∀ x ∈ g, x = i ∨ same i x = true) ∧
    ((∀ i ∈ l, same i i = true) → (∀ a b c, same a b = true → same a c = true → same b c = true) →
      (sameTorusLoop same n l).Pairwise (fun g h => ∀ x ∈ g, ∀ y ∈ h, same x y ≠ true)) := by
  intro n
  induction n with
  | zero =>
    intro l hl _
    have : l = [] := List.eq_nil_of_length_eq_zero (by omega)
    subst this
    exact ⟨⟨by simp [sameTorusLoop], by simp [sameTorusLoop], by simp [sameTorusLoop], by simp [sameTorusLoop]⟩, by simp [sameTorusLoop],
      by simp [sameTorusLoop]⟩
  | succ n ih =>
    intro l hl hn
    cases l with
    | nil =>
      exact ⟨⟨by simp [sameTorusLoop], by simp [sameTorusLoop], by simp [sameTorusLoop], by simp [sameTorusLoop]⟩, by simp [sameTorusLoop],
        by simp [sameTorusLoop]⟩
    | cons i rest =>
      rw [sameTorusLoop]
      generalize hc : i :: rest.filter (same i) = cur
      obtain ⟨h1, h2⟩ := foldl_erase (s := cur) hn
      have hsub : ∀ x ∈ cur.foldl List.erase (i :: rest), x ∈ rest := by
        intro x hx
        obtain ⟨a, b⟩ := (h2 x).mp hx
        rw [← hc] at b
        rcases List.mem_cons.mp a with rfl | a
        · exact absurd List.mem_cons_self b
        · exact a
      have hlen : (cur.foldl List.erase (i :: rest)).length ≤ n := by
        have := length_le_of h1 hsub
        simp only [List.length_cons] at hl
        omega
      obtain ⟨g, hs, ht⟩ := ih hlen h1
      have hcur : ∀ x ∈ cur, x ∈ i :: rest := by
        intro x hx
        rw [← hc] at hx
        rcases List.mem_cons.mp hx with rfl | hx
        · exact List.mem_cons_self
        · exact List.mem_cons_of_mem _ (List.mem_filter.mp hx).1
      refine ⟨⟨fun x => ?_, fun k hk => ?_, ?_, fun k hk => ?_⟩, fun k hk => ?_, fun hr he => ?_⟩
      · constructor
        · intro hx
          by_cases hxc : x ∈ cur
          · exact ⟨cur, List.mem_cons_self, hxc⟩
          · obtain ⟨k, hk, hxk⟩ := (g.mem x).mp ((h2 x).mpr ⟨hx, hxc⟩)
            exact ⟨k, List.mem_cons_of_mem _ hk, hxk⟩
        · rintro ⟨k, hk, hxk⟩
          rcases List.mem_cons.mp hk with rfl | hk
          · exact hcur x hxk
          · exact ((h2 x).mp ((g.mem x).mpr ⟨k, hk, hxk⟩)).1
      · rcases List.mem_cons.mp hk with rfl | hk
        · rw [← hc]
          have hnr := (List.nodup_cons.mp hn)
          exact List.nodup_cons.mpr ⟨fun hi => hnr.1 (List.mem_filter.mp hi).1, hnr.2.filter _⟩
        · exact g.nodup k hk
      · rw [List.pairwise_cons]
        refine ⟨fun k hk x hx hxk => ?_, g.apart⟩
        exact ((h2 x).mp ((g.mem x).mpr ⟨k, hk, hxk⟩)).2 hx
      · rcases List.mem_cons.mp hk with rfl | hk
        · rw [← hc]; simp
        · exact g.full k hk
      · rcases List.mem_cons.mp hk with rfl | hk
        · refine ⟨i, by rw [← hc]; exact List.mem_cons_self, fun x hx => ?_⟩
          rw [← hc] at hx
          rcases List.mem_cons.mp hx with rfl | hx
          · exact Or.inl rfl
          · exact Or.inr (List.mem_filter.mp hx).2
        · exact hs k hk
      · rw [List.pairwise_cons]
        refine ⟨fun k hk x hx y hy hxy => ?_, ht (fun j hj => hr j (List.mem_cons_of_mem _ (hsub j hj))) he⟩
        have hy2 := (h2 y).mp ((g.mem y).mpr ⟨k, hk, hy⟩)
        -- `same i x`, hence `same x i`, hence `same i y`
        have hix : same i x = true := by
          rw [← hc] at hx
          rcases List.mem_cons.mp hx with rfl | hx
          · exact hr x List.mem_cons_self
          · exact (List.mem_filter.mp hx).2
        have hii : same i i = true := hr i List.mem_cons_self
        have hxi : same x i = true := he i x i hix hii
        have hiy : same i y = true := he x i y hxi hxy
        apply hy2.2
        rw [← hc]
        rcases List.mem_cons.mp hy2.1 with rfl | h
        · exact List.mem_cons_self
        · exact List.mem_cons_of_mem _ (List.mem_filter.mpr ⟨h, hiy⟩)

theorem addNear_eq {near : Nat → Nat → Bool} {c : Nat} : ∀ {temp current removed : List Nat}, temp.Nodup →
    addNear near c temp current removed =
      (current ++ temp.filter (fun t => near c t && decide (t ∉ current)), removed ++ temp.filter (fun t => near c t && decide (t ∉ current))) := by
  intro temp
  induction temp with
  | nil => intro current removed _; simp [addNear]
  | cons t ts ih =>
    intro current removed hn
    obtain ⟨hn1, hn2⟩ := List.nodup_cons.mp hn
    rw [addNear]
    by_cases h1 : near c t = true
    · rw [if_pos h1]
      by_cases h2 : t ∉ current
      · rw [if_pos h2, ih hn2]
        have hf : ts.filter (fun x => near c x && decide (x ∉ current ++ [t])) = ts.filter (fun x => near c x && decide (x ∉ current)) := by
          refine List.filter_congr fun x hx => ?_
          have : x ≠ t := fun h => hn1 (h ▸ hx)
          simp [this]
        rw [hf]
        simp [List.filter_cons, h1, h2]
      · rw [if_neg h2, ih hn2]
        simp [List.filter_cons, h1, h2]
    · rw [if_neg h1, ih hn2]
      simp [List.filter_cons, h1]

/-- a chain of faces of `l` that touch -/
def Chain (near : Nat → Nat → Bool) (l : List Nat) (a b : Nat) : Prop := ReflTransGen (fun x y => x ∈ l ∧ y ∈ l ∧ near x y = true) a b

theorem growLoop_spec {near : Nat → Nat → Bool} {l : List Nat} {t : Nat} : ∀ {n i : Nat} {current removed temp : List Nat},
    l.length + 1 ≤ i + n → i ≤ current.length → current.Nodup → temp.Nodup →
    (∀ x, x ∈ l ↔ x ∈ current ∨ x ∈ temp) → (∀ x, x ∈ removed ↔ x ∈ current ∧ x ∈ temp) →
    (0 < i → removed = []) →
    (∀ x ∈ current, Chain near l t x) → (∀ a < i, ∀ x ∈ temp, near (current.getD a 0) x ≠ true) →
    (i = 0 → ∀ x ∈ removed, x ∈ current.head?) → current ≠ [] → (removed = [] ∨ 0 < temp.length) →
    let r := growLoop near n i current removed temp
    r.1.Nodup ∧ r.2.Nodup ∧ (∀ x, x ∈ l ↔ x ∈ r.1 ∨ x ∈ r.2) ∧ (∀ x ∈ r.1, x ∉ r.2) ∧ (∀ x ∈ current, x ∈ r.1) ∧
      (∀ x ∈ r.1, Chain near l t x) ∧ ∀ x ∈ r.1, ∀ y ∈ r.2, near x y ≠ true := by
  intro n
  induction n with
  | zero =>
    intro i current removed temp h1 h2 hc _ hu _ _ _ _ _ _ _
    exfalso
    have := length_le_of hc (fun x hx => (hu x).mpr (Or.inl hx))
    omega
  | succ n ih =>
    intro i current removed temp h1 h2 hc ht hu hr h0 hch hp hh hne hrt
    rw [growLoop]
    split
    · next hcond =>
      have hget : current.getD i 0 ∈ current := by
        rw [List.getD_eq_getElem _ _ hcond.2]
        exact List.getElem_mem _
      rw [addNear_eq ht]
      generalize hnews : temp.filter (fun t => near (current.getD i 0) t && decide (t ∉ current)) = news
      have hmn : ∀ x, x ∈ news ↔ x ∈ temp ∧ near (current.getD i 0) x = true ∧ x ∉ current := by
        intro x
        rw [← hnews, List.mem_filter]
        simp
      obtain ⟨e1, e2⟩ := foldl_erase (s := removed ++ news) ht
      have hm : ∀ x, x ∈ (removed ++ news).foldl List.erase temp ↔ x ∈ temp ∧ x ∉ current ∧ x ∉ news := by
        intro x
        rw [e2, List.mem_append, not_or, hr]
        constructor
        · rintro ⟨a, b, c⟩
          exact ⟨a, fun h => b ⟨h, a⟩, c⟩
        · rintro ⟨a, b, c⟩
          exact ⟨a, fun h => b h.1, c⟩
      have hres := ih (i := i + 1) (current := current ++ news) (removed := []) (temp := (removed ++ news).foldl List.erase temp)
        (by omega) (by rw [List.length_append]; omega)
        (by
          rw [List.nodup_append]
          refine ⟨hc, by rw [← hnews]; exact ht.filter _, fun x hx y hy hxy => ?_⟩
          subst hxy
          exact ((hmn x).mp hy).2.2 hx) e1
        (by
          intro x
          rw [hu, hm, List.mem_append]
          constructor
          · rintro (h | h)
            · exact Or.inl (Or.inl h)
            · by_cases a : x ∈ current
              · exact Or.inl (Or.inl a)
              · by_cases b : x ∈ news
                · exact Or.inl (Or.inr b)
                · exact Or.inr ⟨h, a, b⟩
          · rintro ((h | h) | h)
            · exact Or.inl h
            · exact Or.inr ((hmn x).mp h).1
            · exact Or.inr h.1)
        (by
          intro x
          rw [hm, List.mem_append]
          simp only [List.not_mem_nil, false_iff]
          rintro ⟨a | a, b, c, d⟩
          · exact c a
          · exact d a)
        (fun _ => rfl)
        (by
          intro x hx
          rcases List.mem_append.mp hx with hx | hx
          · exact hch x hx
          · obtain ⟨a, b, _⟩ := (hmn x).mp hx
            exact (hch _ hget).tail ⟨(hu _).mpr (Or.inl hget), (hu _).mpr (Or.inr a), b⟩)
        (by
          intro a ha x hx
          obtain ⟨a1, a2, a3⟩ := (hm x).mp hx
          have hal : a < current.length := by omega
          have hga : (current ++ news).getD a 0 = current.getD a 0 := by
            rw [List.getD_append _ _ _ _ hal]
          rw [hga]
          rcases Nat.lt_or_ge a i with h | h
          · exact hp a h x a1
          · have : a = i := by omega
            subst this
            intro hnear
            exact a3 ((hmn x).mpr ⟨a1, hnear, a2⟩))
        (fun h => by omega) (by simp [hne]) (Or.inl rfl)
      obtain ⟨r1, r2, r3, r4, r5, r6, r7⟩ := hres
      exact ⟨r1, r2, r3, r4, fun x hx => r5 x (List.mem_append_left _ hx), r6, r7⟩
    · next hcond =>
      have hrem : removed = [] := by
        rcases hrt with h | h
        · exact h
        · rcases Nat.eq_zero_or_pos i with hi | hi
          · subst hi
            exfalso
            apply hcond
            exact ⟨h, List.length_pos_of_ne_nil hne⟩
          · exact h0 hi
      subst hrem
      have hdis : ∀ x ∈ current, x ∉ temp := fun x hx hx2 => by
        have := (hr x).mpr ⟨hx, hx2⟩
        cases this
      refine ⟨hc, ht, hu, hdis, fun x hx => hx, hch, fun x hx y hy => ?_⟩
      have hlen : ¬ i < current.length := fun h => hcond ⟨List.length_pos_of_mem hy, h⟩
      have hx' : x ∈ current := hx
      obtain ⟨a, ha, rfl⟩ := List.getElem_of_mem hx'
      have := hp a (by omega) y hy
      rwa [List.getD_eq_getElem _ _ ha] at this

theorem separateLoop_groups {near : Nat → Nat → Bool} : ∀ {n : Nat} {l : List Nat}, l.length ≤ n → l.Nodup →
    Groups l (separateLoop near n l) ∧ (∀ g ∈ separateLoop near n l, ∃ t ∈ g, ∀ x ∈ g, Chain near l t x) ∧
    (separateLoop near n l).Pairwise (fun g h => ∀ x ∈ g, ∀ y ∈ h, near x y ≠ true) := by
  intro n
  induction n with
  | zero =>
    intro l hl _
    have : l = [] := List.eq_nil_of_length_eq_zero (by omega)
    subst this
    exact ⟨⟨by simp [separateLoop], by simp [separateLoop], by simp [separateLoop], by simp [separateLoop]⟩, by simp [separateLoop],
      by simp [separateLoop]⟩
  | succ n ih =>
    intro l hl hn
    cases l with
    | nil =>
      exact ⟨⟨by simp [separateLoop], by simp [separateLoop], by simp [separateLoop], by simp [separateLoop]⟩, by simp [separateLoop],
        by simp [separateLoop]⟩
    | cons t ts =>
      rw [separateLoop]
      have hg := growLoop_spec (near := near) (l := t :: ts) (t := t) (n := ts.length + 2) (i := 0) (current := [t]) (removed := [t]) (temp := t :: ts)
        (by simp) (by omega) (by simp) hn (by simp) (by simp) (by omega) (by
          intro x hx
          rw [List.mem_singleton.mp hx]
          exact ReflTransGen.refl) (by omega) (by simp) (by simp) (Or.inr (by simp))
      dsimp only at hg
      generalize growLoop near (ts.length + 2) 0 [t] [t] (t :: ts) = r at hg ⊢
      obtain ⟨r1, r2, r3, r4, r5, r6, r7⟩ := hg
      have htr : t ∈ r.1 := r5 t List.mem_cons_self
      have hsub : ∀ x ∈ r.2, x ∈ ts := by
        intro x hx
        have := (r3 x).mpr (Or.inr hx)
        rcases List.mem_cons.mp this with rfl | h
        · exact absurd hx (r4 _ htr)
        · exact h
      have hlen : r.2.length ≤ n := by
        have := length_le_of r2 hsub
        simp only [List.length_cons] at hl
        omega
      obtain ⟨g, hs, hp⟩ := ih hlen r2
      refine ⟨⟨fun x => ?_, fun k hk => ?_, ?_, fun k hk => ?_⟩, fun k hk => ?_, ?_⟩
      · rw [r3, g.mem]
        constructor
        · rintro (h | ⟨k, hk, hx⟩)
          · exact ⟨r.1, List.mem_cons_self, h⟩
          · exact ⟨k, List.mem_cons_of_mem _ hk, hx⟩
        · rintro ⟨k, hk, hx⟩
          rcases List.mem_cons.mp hk with rfl | hk
          · exact Or.inl hx
          · exact Or.inr ⟨k, hk, hx⟩
      · rcases List.mem_cons.mp hk with rfl | hk
        · exact r1
        · exact g.nodup k hk
      · rw [List.pairwise_cons]
        exact ⟨fun k hk x hx hxk => r4 x hx ((g.mem x).mpr ⟨k, hk, hxk⟩), g.apart⟩
      · rcases List.mem_cons.mp hk with rfl | hk
        · exact List.ne_nil_of_mem htr
        · exact g.full k hk
      · rcases List.mem_cons.mp hk with rfl | hk
        · exact ⟨t, htr, r6⟩
        · obtain ⟨t2, ht2, hc⟩ := hs k hk
          refine ⟨t2, ht2, fun x hx => ReflTransGen.mono (fun a b ⟨h1, h2, h3⟩ => ⟨?_, ?_, h3⟩) _ _ (hc x hx)⟩
          · exact (r3 a).mpr (Or.inr h1)
          · exact (r3 b).mpr (Or.inr h2)
      · rw [List.pairwise_cons]
        exact ⟨fun k hk x hx y hy => r7 x hx y ((g.mem y).mpr ⟨k, hk, hy⟩), hp⟩

end Geouned.Face
