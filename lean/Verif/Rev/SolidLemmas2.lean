import Verif.Rev.SolidLemmas
import Verif.Bool.Lemmas3
/-! Helper lemmas: `group_single` keeps the order of the elements that are not single; boxes and sub-cells. -/
namespace Geouned.Rev.Solid

variable {α S Bx Sh : Type}

/-- a surface number, or a sequence of level 0 with one element -/
def isSingle : Seq → Bool
  | .int _ => true
  | .boo _ _ _ => false
  | .lst _ l es => match l, es with
    | 0, [_] => true
    | _, _ => false

theorem isSingle_iff {e : Seq} (hw : e.WF) : isSingle e = true ↔ ∃ n, Single e n := by
  cases e with
  | int n => simp [isSingle, Single]
  | boo o l b => simp [isSingle, Single]
  | lst o l es =>
    simp only [isSingle]
    split
    · next x =>
      have hw' := (WF_lst _ _ _).1 hw
      obtain ⟨n, rfl⟩ := hw'.1.2 rfl x (by simp)
      simp [Single]
    · next h =>
      simp only [Bool.false_eq_true, Single, reduceCtorEq, false_or, Seq.lst.injEq, false_iff, not_exists, not_and]
      intro n o' _ hl he
      exact h _ hl he

theorem filter_eraseP_int (n : Int) : ∀ l : List Seq, (l.eraseP (isInt n)).filter (fun e => !isSingle e) = l.filter (fun e => !isSingle e) := by
  intro l
  induction l with
  | nil => simp
  | cons e l ih =>
    simp only [List.eraseP_cons]
    by_cases h : isInt n e = true
    · have hs : isSingle e = true := by cases e <;> simp_all [isInt, isSingle]
      simp [h, hs]
    · simp only [Bool.not_eq_true] at h
      simp [h, List.filter_cons, ih]

theorem mem_eraseP_int {n : Int} {e : Seq} (h : isInt n e = false) : ∀ l : List Seq, e ∈ l.eraseP (isInt n) ↔ e ∈ l := by
  intro l
  exact List.mem_eraseP_of_neg (by simpa using h)

theorem groupLoop_order : ∀ (k : Nat) (rest kept group : List Seq) (r : List Seq × List Seq),
    rest.length = k → (∀ e ∈ rest, e.WF) → groupLoop k rest kept group = .ok r →
    r.1 = rest.reverse.filter (fun e => !isSingle e) ++ kept ∧
    ∀ n : Int, Seq.int n ∈ r.2 ↔ Seq.int n ∈ group ∨ ∃ e ∈ rest, Single e n := by
  intro k
  induction k with
  | zero =>
    intro rest kept group r hl _ h
    have : rest = [] := List.length_eq_zero_iff.1 hl
    subst this
    simp [groupLoop] at h; subst h
    simp
  | succ k ih =>
    intro rest kept group r hl hw h
    cases rest with
    | nil => simp at hl
    | cons e rest =>
      have hl' : rest.length = k := by simpa using hl
      cases e with
      | int n =>
        simp only [groupLoop] at h
        have hp := removeInt_perm n rest
        have hm : ∀ x ∈ removeInt n rest, x ∈ Seq.int n :: rest := fun x hx =>
          hp.mem_iff.1 (List.mem_cons_of_mem _ hx)
        obtain ⟨h1, h2⟩ := ih (removeInt n rest) kept (group ++ [.int n]) r
          (by rw [removeInt_length, hl']) (fun x hx => hw x (hm x hx)) h
        constructor
        · rw [h1]
          congr 1
          simp only [removeInt]
          split
          · rw [List.reverse_cons, List.reverse_reverse, List.filter_append, filter_eraseP_int, List.reverse_cons, List.filter_append]
          · simp [List.filter_append, isSingle]
        · intro m
          rw [h2 m]
          constructor
          · rintro (hg | ⟨e, he, hs⟩)
            · rcases List.mem_append.1 hg with hg | hg
              · exact .inl hg
              · simp only [List.mem_singleton, Seq.int.injEq] at hg
                subst hg
                exact .inr ⟨.int m, by simp, .inl rfl⟩
            · exact .inr ⟨e, hm e he, hs⟩
          · rintro (hg | ⟨e, he, hs⟩)
            · exact .inl (by simp [hg])
            · by_cases hmn : m = n
              · subst hmn; exact .inl (by simp)
              · have hne : e ≠ Seq.int n := by
                  rintro rfl
                  rcases hs with hs | ⟨o, hs⟩
                  · simp at hs; exact hmn hs.symm
                  · simp at hs
                have h3 : e ∈ Seq.int n :: removeInt n rest := hp.mem_iff.2 he
                rcases List.mem_cons.1 h3 with h3 | h3
                · exact absurd h3 hne
                · exact .inr ⟨e, h3, hs⟩
      | boo o l b =>
        simp only [groupLoop] at h
        split at h
        · simp at h
        · obtain ⟨h1, h2⟩ := ih rest (.boo o l b :: kept) group r hl' (fun x hx => hw x (by simp [hx])) h
          constructor
          · rw [h1]; simp [List.filter_append, isSingle]
          · intro m
            rw [h2 m]
            simp [Single]
      | lst o l xs =>
        simp only [groupLoop] at h
        split at h
        · next x =>
          have hwx := hw _ (List.mem_cons_self)
          rw [WF_lst] at hwx
          obtain ⟨n, hn⟩ := hwx.1.2 rfl x (by simp)
          subst hn
          obtain ⟨h1, h2⟩ := ih rest kept (group ++ [.int n]) r hl' (fun x hx => hw x (by simp [hx])) h
          constructor
          · rw [h1]; simp [List.filter_append, isSingle]
          · intro m
            rw [h2 m]
            constructor
            · rintro (hg | ⟨e, he, hs⟩)
              · rcases List.mem_append.1 hg with hg | hg
                · exact .inl hg
                · simp only [List.mem_singleton, Seq.int.injEq] at hg
                  subst hg
                  exact .inr ⟨.lst o 0 [.int m], by simp, .inr ⟨o, rfl⟩⟩
              · exact .inr ⟨e, by simp [he], hs⟩
            · rintro (hg | ⟨e, he, hs⟩)
              · exact .inl (by simp [hg])
              · rcases List.mem_cons.1 he with rfl | he
                · left
                  rcases hs with hs | ⟨o', hs⟩
                  · simp at hs
                  · simp at hs
                    simp [hs.2]
                · exact .inr ⟨e, he, hs⟩
        · next hne =>
          have hs : isSingle (Seq.lst o l xs) = false := by
            simp only [isSingle]
          obtain ⟨h1, h2⟩ := ih rest (.lst o l xs :: kept) group r hl' (fun x hx => hw x (by simp [hx])) h
          constructor
          · rw [h1]
            simp [List.filter_append, hs]
          · intro m
            rw [h2 m]
            constructor
            · rintro (hg | ⟨e, he, hs⟩)
              · exact .inl hg
              · exact .inr ⟨e, by simp [he], hs⟩
            · rintro (hg | ⟨e, he, hs'⟩)
              · exact .inl hg
              · rcases List.mem_cons.1 he with rfl | he
                · have := (isSingle_iff (hw _ (by simp))).2 ⟨m, hs'⟩
                  rw [hs] at this; simp at this
                · exact .inr ⟨e, he, hs'⟩

/-- `group_single` of a sequence of level > 0: the single surfaces first, then the other elements in order -/
theorem groupSingle_order {op : Op} {l : Int} {es : List Seq} (hw : (Seq.lst op l es).WF) (hn : (Seq.lst op l es).NoBool) (h0 : l ≠ 0) :
    ∃ es', (Seq.lst op l es).groupSingle = .ok (.lst op l es') ∧ (Seq.lst op l es').WF ∧
      (∀ σ, (Seq.lst op l es').sem σ = (Seq.lst op l es).sem σ) ∧
      (∀ v, (Seq.lst op l es').Occurs v → (Seq.lst op l es).Occurs v) ∧
      ((es' = es.filter (fun e => !isSingle e) ∧ ∀ e ∈ es, ∀ n, ¬ Single e n) ∨
       ∃ g : List Int, es' = .lst op 0 (g.map .int) :: es.filter (fun e => !isSingle e) ∧ (∀ n, n ∈ g ↔ ∃ e ∈ es, Single e n) ∧ g ≠ []) := by
  have hwe := (WF_lst _ _ _).1 hw
  have hb := noBoo0_of ((noBool_lst op l es).1 hn)
  obtain ⟨⟨kept, group⟩, hr⟩ := groupLoop_total es.length es.reverse [] [] (fun e he => hb e (by simpa using he))
  obtain ⟨h1, h2⟩ := groupLoop_order es.length es.reverse [] [] _ (by simp) (fun e he => hwe.2 e (by simpa using he)) hr
  obtain ⟨-, -, h3, -⟩ := groupLoop_spec (σ := fun _ => true) (op := op) es.length es.reverse [] [] _ (by simp)
    (fun e he => hwe.2 e (by simpa using he)) (by simp) (by simp) (by intro e he; simp at he) hr
  simp only [List.reverse_reverse, List.append_nil, List.not_mem_nil, false_or, List.mem_reverse] at h1 h2 h3
  obtain ⟨es', hs, hcase⟩ : ∃ es', (Seq.lst op l es).groupSingle = .ok (.lst op l es') ∧
      ((group = [] ∧ es' = kept) ∨ (group ≠ [] ∧ es' = .lst op 0 group :: kept)) := by
    cases group with
    | nil => exact ⟨kept, by simp [Seq.groupSingle, h0, hr, bind, Except.bind], .inl ⟨rfl, rfl⟩⟩
    | cons a g => exact ⟨.lst op 0 (a :: g) :: kept, by simp [Seq.groupSingle, h0, hr, bind, Except.bind], .inr ⟨by simp, rfl⟩⟩
  obtain ⟨k1, k2⟩ := groupSingle_spec hw hs
  refine ⟨es', hs, k1, k2, fun v hv => groupSingle_occ hs hv, ?_⟩
  subst h1
  rcases hcase with ⟨rfl, rfl⟩ | ⟨hg, rfl⟩
  · left
    refine ⟨rfl, fun e he n hs => ?_⟩
    have := (h2 n).2 ⟨e, he, hs⟩
    simp at this
  · right
    obtain ⟨g, rfl⟩ : ∃ g : List Int, group = g.map .int := by
      clear h2 hr hs k1 k2 hg
      induction group with
      | nil => exact ⟨[], rfl⟩
      | cons a group ih =>
        obtain ⟨n, rfl⟩ := h3 a (by simp)
        obtain ⟨g, rfl⟩ := ih (fun e he => h3 e (by simp [he]))
        exact ⟨n :: g, rfl⟩
    refine ⟨g, rfl, fun n => ?_, by simpa using hg⟩
    rw [← h2 n]
    simp

/-! ### boxes -/

section
variable {K : Kernel α S Bx Sh} {mem : S → α → Prop} {on : Nat → α → Prop} {inBox : Bx → α → Prop}

/-- the region whose box a cell uses: of the definition `solid_plane` was made for, or of its own -/
def Area (K : Kernel α S Bx Sh) (c : Cell Bx) (x : α) : Prop :=
  if K.same c.plane.2 c.ext = true then In K c.plane.1 x else In K c.definition x

theorem BoxSays.ext {out out' : Bx} {r r' : α → Prop} {m : MBox Bx} (h : BoxSays inBox out r m) (ho : ∀ x, inBox out' x → inBox out x)
    (hr : ∀ x, r x ↔ r' x) : BoxSays inBox out' r' m := by
  unfold BoxSays at *
  split at h <;> intro x hx <;> simp only [← hr] <;> exact h x (ho x hx)

theorem area_buildBound (c : Cell Bx) (n : Nat) (x : α) : Area K (buildBound K c n) x ↔ Area K c x := by
  unfold Area buildBound
  by_cases h : K.same c.plane.2 c.ext = true
  · simp [h]
  · simp [h]

/-- the box of a cell is right -/
theorem bound_says (hR : Right K mem on inBox) (c : Cell Bx) (n : Nat) :
    ∃ m, (buildBound K c n).bound = some m ∧ BoxSays inBox c.ext (Area K c) m := by
  refine ⟨_, rfl, ?_⟩
  by_cases h : K.same c.plane.2 c.ext = true
  · simp only [h, if_true]
    refine (hR.boundBox c.plane.1 c.plane.2 n).ext (fun x hx => (hR.same _ _ h x).2 hx) (fun x => ?_)
    simp [Area, h]
  · simp only [h]
    refine (hR.boundBox c.definition c.ext n).ext (fun x hx => hx) (fun x => ?_)
    simp [Area, h]

/-- the region of a sub-cell and the one of the cell, for an element of an intersection or a union -/
theorem area_sub {c : Cell Bx} {e : Seq} {x : α} :
    ((In K e x ∨ Area K (getSubCell c e) x) → (In K e x ∨ Area K c x)) ∧
    (In K e x → Area K c x → Area K (getSubCell c e) x) := by
  unfold Area getSubCell
  by_cases h : K.same c.plane.2 c.ext = true
  · simp [h]
  · simp only [h]
    exact ⟨fun h => .inl (by simpa using h), fun h _ => by simpa using h⟩

end

end Geouned.Rev.Solid
