import Verif.Misc.EnclLemmas
/-!
# C41, C53: enclosure hierarchy
-/
namespace Geouned.Encl

/-- in a hierarchy each enclosure has exactly one depth -/
theorem C41_depth_unique {es : List Encl} (h : Hierarchy es) {e : Encl} {j k : Nat} (hj : Depth es e j) (hk : Depth es e k) :
    j = k := by
  obtain ⟨-, h0, hn, -⟩ := h
  have inj : ∀ a ∈ es, ∀ b ∈ es, a.id = b.id → a = b := fun a ha b hb hab => List.inj_on_of_nodup_map hn ha hb hab
  induction hj generalizing k with
  | top he hp =>
    cases hk with
    | top => rfl
    | sub _ hd hp' => exact absurd (by rw [← hp', hp]) (h0 _ hd.mem)
  | sub he hd hp ih =>
    cases hk with
    | top _ hp' => exact absurd (by rw [← hp, hp']) (h0 _ hd.mem)
    | sub _ hd' hp' =>
      rename_i k'
      have := inj _ hd.mem _ hd'.mem (by rw [← hp, hp'])
      subst this
      rw [ih hd']

theorem least_iff_depth {es : List Encl} (h : Hierarchy es) {e : Encl} {k : Nat} : LeastDepth es e k ↔ Depth es e k :=
  ⟨fun x => x.1, fun x => ⟨x, fun _ hj => le_of_eq (C41_depth_unique h x hj)⟩⟩

theorem groupLevel_perm (l : List Encl) : (groupLevel l).Perm l := Planes.sortByKey_perm _ _ _

theorem flatten_group_perm (ls : List (List Encl)) : (ls.map groupLevel).flatten.Perm ls.flatten := by
  induction ls with
  | nil => simp
  | cons l ls ih =>
    rw [List.map_cons, List.flatten_cons, List.flatten_cons]
    exact (groupLevel_perm l).append ih

theorem mem_sons_iff : ∀ (ls : List (List Encl)) (x : Encl × List Encl), x ∈ sons ls ↔
    ∃ (i : Nat) (hi : i + 1 < ls.length), x.1 ∈ ls[i] ∧ x.2 = ls[i + 1].filter fun c => c.parent == x.1.id
  | [], x => by simp [sons]
  | [_], x => by simp [sons]
  | l :: l' :: ls, x => by
    rw [sons, List.mem_append, mem_sons_iff (l' :: ls) x]
    constructor
    · rintro (h | ⟨i, hi, h1, h2⟩)
      · obtain ⟨e, he, rfl⟩ := List.mem_map.1 h
        exact ⟨0, by simp, he, rfl⟩
      · exact ⟨i + 1, by simpa using hi, h1, h2⟩
    · rintro ⟨i, hi, h1, h2⟩
      cases i with
      | zero => exact Or.inl (List.mem_map.2 ⟨x.1, h1, by ext1; rfl; exact h2.symm⟩)
      | succ i => exact Or.inr ⟨i, by simpa using hi, h1, h2⟩

theorem perm_of_nodup {l m : List Encl} (hl : l.Nodup) (hm : m.Nodup) (h : ∀ e, e ∈ l ↔ e ∈ m) : l.Perm m :=
  (List.perm_ext_iff_of_nodup hl hm).2 h

/-- C41, the check: it accepts exactly the lists of enclosures that form a hierarchy, and always ends (with `ValueError` for
the others). -/
theorem C41_accept (es : List Encl) (fuel : Nat) (hf : es.length < fuel) :
    (Hierarchy es → checkEnclosure fuel es = .ok ()) ∧ (¬ Hierarchy es → checkEnclosure fuel es = .error .valueError) := by
  obtain ⟨h1, h2⟩ := checkTree_iff es fuel hf
  refine ⟨fun h => ?_, fun h => ?_⟩
  · obtain ⟨ls, e1, e2, e3, e4, _⟩ := levels_spec fuel es [0] 0 (by omega) h.2.2.2 (linv_init es)
    have hls : ls ≠ [] := by
      rintro rfl
      exact h.1 (by simpa using e2)
    have loop : ∀ (gs : List (List Encl)) (tree : List (List Nat)) (prev : Option (List (List Nat))),
        (∀ vs, prev = some vs → ∃ n, vs = [[n]]) → ((∀ g ∈ gs, g ≠ []) ∧ gs ≠ [] ∨ prev ≠ none) →
        overlapLoop (gs ++ [[]]) tree prev = .ok [] := by
      intro gs
      induction gs with
      | nil =>
        intro tree prev hp hor
        rcases hor with h | h
        · exact absurd rfl h.2
        · obtain ⟨vs, rfl⟩ := Option.ne_none_iff_exists'.1 h
          obtain ⟨n, rfl⟩ := hp vs rfl
          rfl
      | cons g gs ih =>
        intro tree prev hp hor
        have hsome : ∃ n, sameParent prev g = some [[n]] := by
          unfold sameParent
          cases hg : g.getLast? with
          | some e => exact ⟨e.id, rfl⟩
          | none =>
            have : g = [] := by simpa using hg
            rcases hor with h | h
            · exact absurd this (h.1 g (by simp))
            · obtain ⟨vs, rfl⟩ := Option.ne_none_iff_exists'.1 h
              obtain ⟨n, rfl⟩ := hp vs rfl
              exact ⟨n, rfl⟩
        obtain ⟨n, hn⟩ := hsome
        rw [List.cons_append, overlapLoop, hn]
        simp only [List.forM_cons, List.forM_nil, checkOverlap, bind, Except.bind, pure, Except.pure]
        exact ih _ _ (by intro vs hvs; cases hvs; exact ⟨n, rfl⟩) (Or.inr (by simp))
    have hg : (ls ++ [[]]).map groupLevel = ls.map groupLevel ++ [[]] := by simp [groupLevel, Planes.sortByKey, insSort]
    have hne : ∀ g ∈ ls.map groupLevel, g ≠ [] := by
      intro g hgm
      obtain ⟨l, hl, rfl⟩ := List.mem_map.1 hgm
      intro hnil
      have := (groupLevel_perm l).length_eq
      rw [hnil] at this
      exact e4 l hl (List.length_eq_zero_iff.1 this.symm)
    have hL := loop (ls.map groupLevel) [[0]] none (by simp) (Or.inl ⟨hne, by simpa using hls⟩)
    unfold checkEnclosure setLevels
    simp only [h1 h, bind, Except.bind, e1, hg, hL]
    rfl
  · unfold checkEnclosure
    simp only [h2 h, bind, Except.bind]

/-- C41, the levels: for a hierarchy the level assignment ends; every enclosure is in exactly one level, namely at its depth (so one
level below its parent, and the top ones in the first); its `SonEnclosures` are exactly the enclosures that name it as
parent. (The list returned ends with one empty level.) -/
theorem C41_levels (es : List Encl) (h : Hierarchy es) (fuel : Nat) (hf : es.length ≤ fuel) :
    ∃ ls ss, setLevels fuel es = .ok (ls ++ [[]], ss) ∧
      ls.flatten.Perm es ∧
      (∀ (i : Nat) (hi : i < ls.length) (e : Encl), e ∈ ls[i] ↔ Depth es e (i + 1)) ∧
      (∀ e ∈ es, ∃ l, (e, l) ∈ ss) ∧
      (∀ e l, (e, l) ∈ ss → e ∈ es ∧ l.Perm (es.filter fun c => c.parent == e.id)) := by
  obtain ⟨ls, e1, e2, e3, e4, e5⟩ := levels_spec fuel es [0] 0 hf h.2.2.2 (linv_init es)
  have hg : (ls ++ [[]]).map groupLevel = ls.map groupLevel ++ [[]] := by simp [groupLevel, Planes.sortByKey, insSort]
  have hmem : ∀ (i : Nat) (hi : i < (ls.map groupLevel).length) (e : Encl), e ∈ (ls.map groupLevel)[i] ↔ Depth es e (i + 1) := by
    intro i hi e
    rw [List.getElem_map, (groupLevel_perm _).mem_iff, e3 i (by simpa using hi) e, least_iff_depth h,
      show 0 + 1 + i = i + 1 by omega]
  have hnd : es.Nodup := List.Nodup.of_map _ h.2.2.1
  have hperm : (ls.map groupLevel).flatten.Perm es := (flatten_group_perm ls).trans e2
  refine ⟨ls.map groupLevel, sons (ls.map groupLevel ++ [[]]), ?_, hperm, hmem, ?_, ?_⟩
  · unfold setLevels
    simp only [e1, bind, Except.bind, hg]
  · intro e he
    obtain ⟨k, hk⟩ := h.2.2.2 e he
    have hkl := e5 e he k ((least_iff_depth h).2 hk)
    have hpos := hk.pos
    have hi : k - 1 < (ls.map groupLevel).length := by simp; omega
    have hi2 : k - 1 + 1 < (ls.map groupLevel ++ [[]]).length := by simp at hi ⊢; omega
    refine ⟨(ls.map groupLevel ++ [[]])[k - 1 + 1].filter fun c => c.parent == e.id,
      (mem_sons_iff _ _).2 ⟨k - 1, hi2, ?_, rfl⟩⟩
    dsimp only
    rw [List.getElem_append_left hi, hmem _ hi, show k - 1 + 1 = k by omega]
    exact hk
  · intro e l hel
    obtain ⟨i, hi, h1, h2⟩ := (mem_sons_iff _ _).1 hel
    dsimp only at h1 h2
    have hil : i < (ls.map groupLevel).length := by simp at hi ⊢; omega
    rw [List.getElem_append_left hil, hmem i hil] at h1
    refine ⟨h1.mem, ?_⟩
    have hchild : ∀ c, c ∈ es → c.parent = e.id → Depth es c (i + 2) := fun c hc hp => .sub hc h1 hp
    have hlast : ∀ c, c ∈ (ls.map groupLevel ++ [[]])[i + 1] → c ∈ es := by
      intro c hc
      have : c ∈ (ls.map groupLevel ++ [[]]).flatten := List.mem_flatten.2 ⟨_, List.getElem_mem hi, hc⟩
      rw [List.flatten_append] at this
      simp only [List.flatten_cons, List.flatten_nil, List.append_nil] at this
      exact hperm.mem_iff.1 this
    rw [h2]
    refine perm_of_nodup ?_ (hnd.filter _) ?_
    · refine List.Nodup.filter _ ?_
      have : (ls.map groupLevel ++ [[]]).flatten.Nodup := by
        rw [List.flatten_append]
        simpa using hperm.nodup_iff.2 hnd
      exact (List.nodup_flatten.1 this).1 _ (List.getElem_mem hi)
    · intro c
      simp only [List.mem_filter, beq_iff_eq]
      refine ⟨fun ⟨a, b⟩ => ⟨hlast c a, b⟩, fun ⟨a, b⟩ => ⟨?_, b⟩⟩
      have hd := hchild c a b
      have hlt := e5 c a _ ((least_iff_depth h).2 hd)
      have hi1 : i + 1 < (ls.map groupLevel).length := by simp; omega
      rw [List.getElem_append_left hi1, hmem _ hi1]
      exact hd

/-- C41, the order in the levels: in every level the enclosures of the same parent stand together, parents in increasing order. -/
theorem C41_order (es : List Encl) (fuel : Nat) (ls : List (List Encl)) (ss : List (Encl × List Encl)) (h : setLevels fuel es = .ok (ls, ss)) :
    ∀ l ∈ ls, l.Pairwise fun a b => a.parent ≤ b.parent := by
  unfold setLevels at h
  cases e : levels fuel es [0] with
  | error x => simp [e, bind, Except.bind] at h
  | ok ls' =>
    simp only [e, bind, Except.bind, Except.ok.injEq, Prod.mk.injEq] at h
    obtain ⟨rfl, -⟩ := h
    intro l hl
    obtain ⟨l', -, rfl⟩ := List.mem_map.1 hl
    exact (Planes.sortByKey_sorted (fun a b : Nat => decide (a ≤ b)) (by simp; omega) (by simp; omega) Encl.parent l').imp fun {a b} g => by simpa using g

/-- C41: without the check the level assignment would not end when an enclosure has no chain up to the top level (a cycle or a
missing parent): no number of rounds is enough. -/
theorem C41_needs_check (es : List Encl) (e : Encl) (he : e ∈ es) (hno : ∀ k, ¬ Depth es e k) (fuel : Nat) :
    setLevels fuel es = .error .fuel := by
  unfold setLevels
  rw [levels_stuck hno he fuel es [0] 0 (linv_init es)]
  rfl

/-- a sample: 1 and 4 at the top, 2 and 3 in 1, 5 in 3 -/
def sampleEs : List Encl := [⟨5, 3⟩, ⟨1, 0⟩, ⟨3, 1⟩, ⟨4, 0⟩, ⟨2, 1⟩]

theorem sampleEs_hierarchy : Hierarchy sampleEs := by
  have d1 : Depth sampleEs ⟨1, 0⟩ 1 := .top (by decide) rfl
  have d4 : Depth sampleEs ⟨4, 0⟩ 1 := .top (by decide) rfl
  have d2 : Depth sampleEs ⟨2, 1⟩ 2 := .sub (by decide) d1 rfl
  have d3 : Depth sampleEs ⟨3, 1⟩ 2 := .sub (by decide) d1 rfl
  have d5 : Depth sampleEs ⟨5, 3⟩ 3 := .sub (by decide) d3 rfl
  refine ⟨by decide, by decide, by decide, ?_⟩
  intro e he
  simp only [sampleEs, List.mem_cons, List.not_mem_nil, or_false] at he
  rcases he with rfl | rfl | rfl | rfl | rfl
  · exact ⟨_, d5⟩
  · exact ⟨_, d1⟩
  · exact ⟨_, d3⟩
  · exact ⟨_, d4⟩
  · exact ⟨_, d2⟩

/-- non-vacuity: the levels of the sample -/
example : Hierarchy sampleEs ∧ setLevels 6 sampleEs =
    .ok ([[⟨1, 0⟩, ⟨4, 0⟩], [⟨3, 1⟩, ⟨2, 1⟩], [⟨5, 3⟩], []],
      [(⟨1, 0⟩, [⟨3, 1⟩, ⟨2, 1⟩]), (⟨4, 0⟩, []), (⟨3, 1⟩, [⟨5, 3⟩]), (⟨2, 1⟩, []), (⟨5, 3⟩, [])]) :=
  ⟨sampleEs_hierarchy, by rfl⟩

/-- non-vacuity: a cycle is rejected -/
example : ¬ Hierarchy [⟨1, 0⟩, ⟨2, 3⟩, ⟨3, 2⟩] ∧ checkEnclosure 4 [⟨1, 0⟩, ⟨2, 3⟩, ⟨3, 2⟩] = .error .valueError := by
  refine ⟨fun h => ?_, by rfl⟩
  have := (C41_accept [⟨1, 0⟩, ⟨2, 3⟩, ⟨3, 2⟩] 4 (by decide)).1 h
  have h2 : checkEnclosure 4 [⟨1, 0⟩, ⟨2, 3⟩, ⟨3, 2⟩] = .error .valueError := by rfl
  rw [h2] at this
  cases this

/-! ## C53 -/

/-- C53 in full: if the check accepts, enclosures of the same parent do not overlap and each lies in its parent; `region n` is the region of
the solid of enclosure `n`. -/
def C53_statement : Prop :=
  ∀ (Point : Type) (region : Nat → Point → Prop) (es : List Encl) (fuel : Nat), checkEnclosure fuel es = .ok () →
    (∀ a ∈ es, ∀ b ∈ es, a ≠ b → a.parent = b.parent → ∀ p, ¬ (region a.id p ∧ region b.id p)) ∧
    (∀ a ∈ es, ∀ b ∈ es, a.parent = b.id → ∀ p, region a.id p → region b.id p)

/-- The check accepts two enclosures of the same parent that coincide: nothing compares the solids. -/
theorem C53_violated : ¬ C53_statement := by
  intro h
  have := (h Unit (fun _ _ => True) [⟨1, 0⟩, ⟨2, 0⟩] 3 (by rfl)).1 ⟨1, 0⟩ (by simp) ⟨2, 0⟩ (by simp) (by simp) rfl ()
  exact this ⟨trivial, trivial⟩

/-- In fact no arrangement of the solids is ever rejected: every list of labels that forms a hierarchy is accepted. -/
theorem C53_never_rejects_violated (es : List Encl) (h : Hierarchy es) : ∀ fuel, es.length < fuel →
    checkEnclosure fuel es = .ok () := fun fuel hf => (C41_accept es fuel hf).1 h

end Geouned.Encl
