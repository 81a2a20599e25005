import Verif.Load.Lemmas
/-!
# Lemmas: the loop over the elements gives the cells of the specification
-/
namespace Geouned.Load

variable {S : Type}

/-- what is shown of each cell -/
def Good (o : Opts) (x : Elem S × List S × Nat) (m : Meta S) : Prop :=
  CellOf x m ∧ (∃ a b, Marked "enclosure".toList x.1.label x.1.parents a ∧ Marked "envelope".toList x.1.label x.1.parents b ∧ EnclOf a b m) ∧
    (x.1.parents ≠ [] → Attributes o x.1 m)

theorem getLabel_false (l : List Char) : getLabel false l = l := rfl

theorem find_marked {o : Opts} (hd : o.delLast = false) (e : Elem S) :
    Marked "enclosure".toList e.label e.parents (findAll o e).encl ∧ Marked "envelope".toList e.label e.parents (findAll o e).envel := by
  unfold findAll
  cases hp : e.parents with
  | nil => exact ⟨rfl, rfl⟩
  | cons p ps =>
    dsimp only
    rw [hd, getLabel_false, getLabel_false]
    exact ⟨marked_iff (by decide) ps, marked_iff (by decide) ps⟩

theorem setAll_good {o : Opts} (hd : o.delLast = false) {e : Elem S} {i id : Nat} {sols : List S} {m : Meta S}
    (h : setAll o (findAll o e) (elemComment o e) i { id := id, solids := optS sols } = .ok m) : Good o (e, sols, i + 1) m := by
  obtain ⟨h1, h2, h3, h4, h5, h6, h7, h8, h9⟩ := setAll_spec h
  obtain ⟨k1, k2⟩ := find_marked hd e
  refine ⟨⟨h2, ?_⟩, ⟨_, _, k1, k2, h9⟩, fun hp => ?_⟩
  · rw [h3]
    unfold elemComment commentTree
    rw [hd]
    simp [getLabel]
  · dsimp only at hp ⊢
    have hmap : ∀ l : List (List Char), l.map (getLabel false) = l := by
      intro l
      induction l with
      | nil => rfl
      | cons a l ih => rw [List.map_cons, ih]; rfl
    refine ⟨?_, ?_, ⟨_, ?_, h6⟩, ⟨_, ?_, h7⟩, h8, ⟨_, _, k1, k2, h9⟩⟩
    all_goals
      first
        | rw [h4]
        | rw [h5]
        | skip
    all_goals unfold findAll
    all_goals
      cases hq : e.parents with
      | nil => exact absurd hq hp
      | cons p ps =>
        dsimp only
        rw [hd, hmap]
        first
          | exact searchUp_nearest (key_iff _) _
          | (rw [searchUp_map]; exact searchUp_nearest dec_iff _)

theorem attrs_one {o : Opts} {f : Found} {cm : List Char} {i : Nat} {m : Meta S} {A : List (Meta S)} (h : attrs o f cm i [m] = .ok A) :
    ∃ m', A = [m'] ∧ setAll o f cm i m = .ok m' := by
  rw [attrs] at h
  cases hs : setAll o f cm i m with
  | error x => rw [hs] at h; cases h
  | ok m' =>
    rw [hs] at h
    cases h
    exact ⟨m', rfl, rfl⟩

theorem attrs_each {o : Opts} (hd : o.delLast = false) (spl : S → Bool) (e : Elem S) : ∀ (a : List S) (i j : Nat) {A : List (Meta S)},
    attrs o (findAll o e) (elemComment o e) i (firstMetas o spl a j) = .ok A →
      List.Forall₂ (Good o) (a.mapIdx (fun k s => (e, keptSolids o.remove spl [s], i + k + 1))) A ∧ A.map (·.id) = List.range' (j + 1) a.length
  | [], i, j, A, h => by
    cases h
    exact ⟨by simp, by simp⟩
  | s :: a, i, j, A, h => by
    rw [firstMetas, attrs, kept_one] at h
    cases hs : setAll o (findAll o e) (elemComment o e) i ({ id := j + 1, solids := optS (keptSolids o.remove spl [s]) } : Meta S) with
    | error x => rw [hs] at h; cases h
    | ok m =>
      rw [hs] at h
      dsimp only at h
      cases hr : attrs o (findAll o e) (elemComment o e) (i + 1) (firstMetas o spl a (j + 1)) with
      | error x => rw [hr] at h; cases h
      | ok B =>
        rw [hr] at h
        cases h
        obtain ⟨h1, h2⟩ := attrs_each hd spl e a (i + 1) (j + 1) hr
        rw [List.mapIdx_cons, List.map_cons, h2, List.length_cons, List.range'_succ, (setAll_spec hs).1]
        refine ⟨.cons (setAll_good hd hs) ?_, rfl⟩
        have e1 : (fun k (s : S) => (e, keptSolids o.remove spl [s], i + (k + 1) + 1)) = fun k s => (e, keptSolids o.remove spl [s], i + 1 + k + 1) := by
          funext k s
          rw [Nat.add_assoc i 1 k, Nat.add_comm 1 k]
        rw [e1]
        exact h1

theorem one_iff {o : Opts} (hd : o.delLast = false) (e : Elem S) :
    (o.comp || (findAll o e).encl.isSome || (findAll o e).envel.isSome) = true ↔ OneCell o.comp e := by
  obtain ⟨k1, k2⟩ := find_marked hd e
  unfold OneCell
  rw [Bool.or_eq_true, Bool.or_eq_true, or_assoc]
  refine or_congr Iff.rfl (or_congr ?_ ?_)
  · constructor
    · intro h
      obtain ⟨p, hp⟩ := Option.isSome_iff_exists.mp h
      rw [hp] at k1
      exact ⟨p, k1⟩
    · rintro ⟨p, hp⟩
      rw [marked_unique (by decide) k1 hp]
      rfl
  · constructor
    · intro h
      obtain ⟨p, hp⟩ := Option.isSome_iff_exists.mp h
      rw [hp] at k2
      exact ⟨p, k2⟩
    · rintro ⟨p, hp⟩
      rw [marked_unique (by decide) k2 hp]
      rfl

theorem block_good {o : Opts} (hd : o.delLast = false) (spl : S → Bool) (e : Elem S) (p j : Nat) {A : List (Meta S)}
    (h : attrs o (findAll o e) (elemComment o e) 0 (blockOf o spl (findAll o e) e.solids p j) = .ok A) :
    (OneCell o.comp e ∧ List.Forall₂ (Good o) [(e, keptSolids o.remove spl e.solids, 1)] A ∧ A.map (·.id) = [p + 1]) ∨
      (¬ OneCell o.comp e ∧ List.Forall₂ (Good o) (e.solids.mapIdx (fun i s => (e, keptSolids o.remove spl [s], i + 1))) A ∧
        A.map (·.id) = List.range' (j + 1) e.solids.length) := by
  unfold blockOf at h
  by_cases hc : (o.comp || (findAll o e).encl.isSome || (findAll o e).envel.isSome) = true
  · rw [if_pos hc] at h
    obtain ⟨m, rfl, hs⟩ := attrs_one h
    exact Or.inl ⟨(one_iff hd e).mp hc, .cons (setAll_good hd hs) .nil, by rw [List.map_singleton, (setAll_spec hs).1]⟩
  · rw [if_neg hc] at h
    obtain ⟨h1, h2⟩ := attrs_each hd spl e e.solids 0 j h
    refine Or.inr ⟨fun h' => hc ((one_iff hd e).mpr h'), ?_, h2⟩
    simpa only [Nat.zero_add] using h1

theorem elemLoop_good {o : Opts} (hd : o.delLast = false) (spl : S → Bool) : ∀ (es : List (Elem S)) (done : List (Meta S)) (j : Nat) {l : List (Meta S)},
    elemLoop o es done.length (done ++ firstMetas o spl (es.flatMap (·.solids)) j) = .ok l →
      ∃ ms r, l = done ++ ms ∧ Cells o.comp o.remove spl es r ∧ List.Forall₂ (Good o) r ms
  | [], done, j, l, h => by
    rw [elemLoop] at h
    cases h
    exact ⟨[], [], rfl, .nil, .nil⟩
  | e :: es, done, j, l, h => by
    by_cases he : e.solids = []
    · rw [elemLoop, if_pos he, List.flatMap_cons, he, List.nil_append] at h
      obtain ⟨ms, r, h1, h2, h3⟩ := elemLoop_good hd spl es done j h
      exact ⟨ms, r, h1, .skip he h2, h3⟩
    · rw [elemLoop_cons o spl e es done j he] at h
      cases ha : attrs o (findAll o e) (elemComment o e) 0 (blockOf o spl (findAll o e) e.solids done.length j) with
      | error x => rw [ha] at h; cases h
      | ok A =>
        rw [ha] at h
        obtain ⟨ms, r, h1, h2, h3⟩ := elemLoop_good hd spl es (done ++ A) (j + e.solids.length) h
        rw [List.append_assoc] at h1
        rcases block_good hd spl e done.length j ha with ⟨a1, a2, _⟩ | ⟨a1, a2, _⟩
        · exact ⟨A ++ ms, _, h1, .one he a1 h2, List.rel_append a2 h3⟩
        · exact ⟨A ++ ms, _, h1, .each he a1 h2, List.rel_append a2 h3⟩

theorem elemLoop_ids {o : Opts} (hd : o.delLast = false) (spl : S → Bool) : ∀ (es : List (Elem S)) (done : List (Meta S)) (j : Nat) {l : List (Meta S)},
    (o.comp = true ∨ (j = done.length ∧ ∀ e ∈ es, OneCell o.comp e → e.solids.length ≤ 1)) →
    elemLoop o es done.length (done ++ firstMetas o spl (es.flatMap (·.solids)) j) = .ok l →
      ∃ ms, l = done ++ ms ∧ ms.map (·.id) = List.range' (done.length + 1) ms.length
  | [], done, j, l, _, h => by
    rw [elemLoop] at h
    cases h
    exact ⟨[], rfl, rfl⟩
  | e :: es, done, j, l, hj, h => by
    by_cases he : e.solids = []
    · rw [elemLoop, if_pos he, List.flatMap_cons, he, List.nil_append] at h
      exact elemLoop_ids hd spl es done j (hj.imp id (fun x => ⟨x.1, fun e' h' => x.2 e' (List.mem_cons_of_mem _ h')⟩)) h
    · rw [elemLoop_cons o spl e es done j he] at h
      cases ha : attrs o (findAll o e) (elemComment o e) 0 (blockOf o spl (findAll o e) e.solids done.length j) with
      | error x => rw [ha] at h; cases h
      | ok A =>
        rw [ha] at h
        have hA : A.map (·.id) = List.range' (done.length + 1) A.length ∧
            (o.comp = true ∨ (j + e.solids.length = (done ++ A).length ∧ ∀ e ∈ es, OneCell o.comp e → e.solids.length ≤ 1)) := by
          have hpos : 0 < e.solids.length := List.length_pos_iff.mpr he
          rcases block_good hd spl e done.length j ha with ⟨a1, a2, a3⟩ | ⟨a1, a2, a3⟩
          · have hl : A.length = 1 := by rw [← List.length_map (·.id), a3]; rfl
            refine ⟨by rw [a3, hl]; rfl, hj.imp id (fun x => ⟨?_, fun e' h' => x.2 e' (List.mem_cons_of_mem _ h')⟩)⟩
            have := x.2 e List.mem_cons_self a1
            rw [List.length_append, hl, x.1]
            omega
          · have hl : A.length = e.solids.length := by rw [← List.length_map (·.id), a3, List.length_range']
            rcases hj with hj | hj
            · exact absurd (Or.inl hj) a1
            · exact ⟨by rw [a3, hl, hj.1], Or.inr ⟨by rw [List.length_append, hl, hj.1], fun e' h' => hj.2 e' (List.mem_cons_of_mem _ h')⟩⟩
        obtain ⟨ms, h1, h2⟩ := elemLoop_ids hd spl es (done ++ A) (j + e.solids.length) hA.2 h
        refine ⟨A ++ ms, by rw [h1, List.append_assoc], ?_⟩
        rw [List.map_append, hA.1, h2, List.length_append, List.length_append]
        rw [show done.length + A.length + 1 = done.length + 1 + A.length by omega, List.range'_append_1]

end Geouned.Load
